import Verif.Model.V3
/-! # Source stamp (sourcestamp.go) -/
namespace Apk

/-- A file of the ZIP archive as seen through the external package apkparser: `ReadAll(limit)`, `IsDir`, and for the
    v1 verifier the successive attempts of `Open`/`Next`/read (`none` = read error). -/
structure ZFile where
  name : Bytes
  isDir : Bool := false
  readAll : Nat → Option Bytes
  openOk : Bool := true
  attempts : List (Option Bytes) := []

/-- `apkparser.ZipReader`: `FilesOrdered`, and the map `File`. -/
structure Zip where
  ordered : List ZFile
  file : Bytes → Option ZFile

/-- Error sites of sourcestamp.go. -/
inductive SE where
  | blockMissing | topLevel (e : LPErr) | certRead (e : LPErr) | certParse
  | hashRead | hashTooBig | certMismatch
  | schemesRead (e : LPErr) | schemeRead (e : LPErr) | schemeIdRead | schemeSigsRead (e : LPErr)
  | noSignatureForScheme
  | sigRead (e : LPErr) | sigAlgoRead | sigBytesRead (e : LPErr) | noSupported | noneToVerify
  | filterNone | filterMin
  | verify (inner : E)
  | attrDataRead (e : LPErr) | attrSigsRead (e : LPErr)
  | attrsRead (e : LPErr) | attrRead (e : LPErr) | attrIdRead
  | lineageVersionRead | lineageVersion | lineageNode (inner : E) | lineageCertMismatch
  | timeRead | timeInvalid
deriving DecidableEq, Repr

/-- Warning sites of sourcestamp.go. -/
inductive SW where
  | stampFileMissing | unsupportedAlgo | unknownAttr | manifestRead
deriving DecidableEq, Repr

/-- `SourceStampResult` (sourcestamp.go:36-42); `signingTime` in Unix seconds. -/
structure StampRes where
  cert : Option Cert := none
  signingTime : Option Int := none
  lineage : List LNode := []
  errors : List SE := []
  warnings : List SW := []
deriving DecidableEq, Repr

/-- sourcestamp.go:60-62 -/
def StampRes.addError (r : StampRes) (e : SE) : StampRes := { r with errors := r.errors ++ [e] }
/-- sourcestamp.go:64-66 -/
def StampRes.addWarning (r : StampRes) (w : SW) : StampRes := { r with warnings := r.warnings ++ [w] }

/-- Insertion of a digest pair, ordered by algorithm code. -/
def insertDigest (p : CD × Bytes) : Digests → Digests
  | [] => [p]
  | q :: qs => if p.1.code < q.1.code then p :: q :: qs else q :: insertDigest p qs

/-- sourcestamp.go:198-205: the pairs in map order, sorted by algorithm. -/
def sortDigests (l : Digests) : Digests := l.foldl (fun acc p => insertDigest p acc) []

/-- sourcestamp.go:208-214: one encoded pair. -/
def encodeDigestPair (p : CD × Bytes) : Bytes :=
  leBytes 4 (8 + p.2.length) ++ leBytes 4 p.1.code ++ leBytes 4 p.2.length ++ p.2

/-- sourcestamp.go:192-216 `getSignatureSchemeDigest`. -/
def signatureSchemeDigest (env : Env) (cd : Digests) : Bytes :=
  ((sortDigests (env.cdOrder cd)).map encodeDigestPair).flatten

/-- sourcestamp.go:220-244: one signature record; state: result and `supportedSignatures`. -/
def stampSigStep (st : StampRes × List (Nat × Bytes)) (rec : Bytes) : Go ((StampRes × List (Nat × Bytes)) × Bool) :=
  let (r, m) := st
  match rdU32 rec with
  | none => .ok ((r.addError .sigAlgoRead, m), false)
  | some (algo, rest) =>
    if !isSupportedAlgo algo then .ok ((r.addWarning .unsupportedAlgo, m), true)
    else match rdLP rest with
      | .error e => .ok ((r.addError (.sigBytesRead e), m), false)
      | .ok (s, _) => .ok ((r, mset m algo s), true)

/-- `candidates` (sourcestamp.go:273): minimum SDK ↦ (algorithm, signature). -/
abbrev Candidates := List (Int × Nat × Bytes)

/-- sourcestamp.go:276-288: one signature; state: candidates and `minProvidedSignaturesVersion`. -/
def filterStep (maxSdk : Int) (st : Candidates × Int) (p : Nat × Bytes) : Go (Candidates × Int) :=
  let (cands, minV) := st
  let sigMin := getMinSdkVersionJca p.1
  if sigMin > maxSdk then .ok (cands, minV)
  else do
    let minV := if sigMin < minV then sigMin else minV
    match mget cands sigMin with
    | none => .ok (mset cands sigMin p, minV)
    | some c => do
      let cmp ← compareAlgos p.1 c.1
      if cmp > 0 then .ok (mset cands sigMin p, minV) else .ok (cands, minV)

/-- sourcestamp.go:267-310 `filterSignaturesToVerify` for a given map iteration order. -/
def filterSignatures (minSdk maxSdk : Int) (sigs : List (Nat × Bytes)) : Go (Except SE (List (Nat × Bytes))) := do
  let (cands, minV) ← sigs.foldlM (filterStep maxSdk) ([], maxInt32)
  if minSdk < minV ∨ cands.length = 0 then
    .ok (.error (if cands.length = 0 then .filterNone else .filterMin))
  else .ok (.ok (cands.map (·.2)))

/-- sourcestamp.go:257-262: verify the selected signatures in map order; the first failure is reported. -/
def stampVerifyAll (env : Env) (cert : Cert) (data : Bytes) : List (Nat × Bytes) → Go (Option E)
  | [] => .ok none
  | (algo, s) :: rest => do
    match ← verifySignature env cert.key algo data s with
    | some e => .ok (some e)
    | none => stampVerifyAll env cert data rest

/-- sourcestamp.go:218-265 `verifySignature` of the stamp. -/
def stampVerifySignature (env : Env) (minSdk maxSdk : Int) (data : Bytes) (cert : Cert) (signatures : Bytes)
    (r : StampRes) : Go (StampRes × Bool) := do
  let (items, err) := lpSplit signatures
  let ((r, sup), done) ← foldGo stampSigStep (r, []) items
  if !done then .ok (r, false)
  else match err with
    | some e => .ok (r.addError (.sigRead e), false)
    | none =>
      if sup.length = 0 then .ok (r.addError .noSupported, false)
      else do
        match ← filterSignatures minSdk maxSdk (env.mapOrder sup) with
        | .error e => .ok ((r.addError e).addError .noneToVerify, false)
        | .ok toVerify => do
          match ← stampVerifyAll env cert data (env.mapOrder toVerify) with
          | some e => .ok (r.addError (.verify e), false)
          | none => .ok (r, true)

/-- sourcestamp.go:377-472 `parseStampCertLineage`: `.error none` is the nil slice without any recorded error. -/
def stampLineage (env : Env) (b : Bytes) : Go (Except SE (List LNode)) :=
  match rdU32 b with
  | none => .ok (.error .lineageVersionRead)
  | some (version, rest) =>
    if version ≠ 1 then .ok (.error .lineageVersion)
    else do
      let (items, err) := lpSplit rest
      match ← lineageLoop env env.parseCertAndr [] items with
      | .error e => .ok (.error (.lineageNode e))
      | .ok nodes =>
        match err with
        | some e => .ok (.error (.lineageNode (.lineageNodeRead e)))
        | none => .ok (.ok nodes)

/-- sourcestamp.go:335-373: one attribute. -/
def stampAttrStep (env : Env) (cert : Cert) (r : StampRes) (attr : Bytes) : Go (StampRes × Bool) :=
  match rdU32 attr with
  | none => .ok (r.addError .attrIdRead, false)
  | some (id, rest) =>
    if id = 0x9d6303f7 then do
      match ← stampLineage env rest with
      | .error e => .ok ({ r with lineage := [] }.addError e, false)
      | .ok nodes =>
        match nodes.getLast? with
        | none => .ok ({ r with lineage := [] }, false)     -- nil lineage: return without an error
        | some last =>
          let r := { r with lineage := nodes }
          if cert.raw ≠ last.cert.raw then .ok (r.addError .lineageCertMismatch, false)
          else .ok (r, true)
    else if id = 0xe43c5946 then
      match rdU64 rest with
      | none => .ok (r.addError .timeRead, false)
      | some (v, _) =>
        if toI64 v ≤ 0 then .ok (r.addError .timeInvalid, true)
        else .ok ({ r with signingTime := some (toI64 v) }, true)
    else .ok (r.addWarning .unknownAttr, true)

/-- sourcestamp.go:328-375 `parseStampAttributes` (the Boolean result is only used to return early). -/
def stampAttributes (env : Env) (cert : Cert) (data : Bytes) (r : StampRes) : Go StampRes :=
  match rdLP data with
  | .error e => .ok (r.addError (.attrsRead e))
  | .ok (attrs, _) => do
    let (items, err) := lpSplit attrs
    let (r, done) ← foldGo (stampAttrStep env cert) r items
    if !done then .ok r
    else match err with
      | some e => .ok (r.addError (.attrRead e))
      | none => .ok r

/-- sourcestamp.go:132-155: one signed scheme; state: the signatures block found for `needed` (last one wins). -/
def stampSchemeStep (needed : Int) (st : Option Bytes) (b : Bytes) : Except SE (Option Bytes) :=
  match rdU32 b with
  | none => .error .schemeIdRead
  | some (id, rest) =>
    match rdLP rest with
    | .error e => .error (.schemeSigsRead e)
    | .ok (sigs, _) => .ok (if toI32 id = needed then some sigs else st)

/-- sourcestamp.go:133-155: the loop. -/
def stampSchemes (needed : Int) : Option Bytes → List Bytes → Except SE (Option Bytes)
  | st, [] => .ok st
  | st, b :: bs =>
    match stampSchemeStep needed st b with
    | .error e => .error e
    | .ok st' => stampSchemes needed st' bs

/-- `"META-INF/MANIFEST.MF"` -/
def manifestName : Bytes := b!"META-INF/MANIFEST.MF"
/-- sourcestamp.go:24 -/
def stampEntryName : Bytes := b!"stamp-cert-sha256"

/-- sourcestamp.go:474-488 `getSchemeV1ContentDigest`. -/
def v1ContentDigest (env : Env) (zip : Zip) (r : StampRes) : StampRes × Bytes :=
  match zip.file manifestName with
  | none => (r, [])
  | some f =>
    match f.readAll (128 * 1024 * 1024) with
    | none => (r.addWarning .manifestRead, [])
    | some b => (r, env.sha256 b)

/-- sourcestamp.go:121-189: after the certificate hash matched. -/
def stampCheckSignatures (env : Env) (schemeId : Nat) (minSdk maxSdk : Int) (stampRest : Bytes) (cert : Cert)
    (cd : Digests) (r : StampRes) : Go StampRes :=
  match rdLP stampRest with
  | .error e => .ok (r.addError (.schemesRead e))
  | .ok (schemes, rest) => do
    let needed : Int := if schemeId = 31 then 3 else schemeId
    let (items, err) := lpSplit schemes
    match stampSchemes needed none items with
    | .error e => .ok (r.addError e)
    | .ok found =>
      match err with
      | some e => .ok (r.addError (.schemeRead e))
      | none =>
        match found with
        | none => .ok (r.addError .noSignatureForScheme)
        | some sigs => do
          let (r, ok) ← stampVerifySignature env minSdk maxSdk (signatureSchemeDigest env cd) cert sigs r
          if !ok then .ok r
          else if rest.length = 0 then .ok r
          else match rdLP rest with
            | .error e => .ok (r.addError (.attrDataRead e))
            | .ok (attrData, rest2) =>
              match rdLP rest2 with
              | .error e => .ok (r.addError (.attrSigsRead e))
              | .ok (attrSigs, _) => do
                let (r, ok) ← stampVerifySignature env minSdk maxSdk attrData cert attrSigs r
                if !ok then .ok r else stampAttributes env cert attrData r

/-- sourcestamp.go:68-190 `VerifySourceV2Stamp`. -/
def verifyStamp (env : Env) (zip : Zip) (schemeId : Nat) (minSdk maxSdk : Int) (block : Option Bytes) (cd : Digests) :
    Go (Option StampRes) :=
  match block with
  | none =>
    match zip.file stampEntryName with
    | some _ => .ok (some (({} : StampRes).addError .blockMissing))
    | none => .ok none
  | some block =>
    match rdLP block with
    | .error e => .ok (some (({} : StampRes).addError (.topLevel e)))
    | .ok (stampBlock, _) =>
      match rdLP stampBlock with
      | .error e => .ok (some (({} : StampRes).addError (.certRead e)))
      | .ok (encoded, rest) =>
        match env.parseCertAndr encoded with
        | none => .ok (some (({} : StampRes).addError .certParse))
        | some cert =>
          let r : StampRes := { cert := some cert }
          match zip.file stampEntryName with
          | none => .ok (some (r.addWarning .stampFileMissing))
          | some entry =>
            let (r, cd) := if cd.length = 0 then
                let (r, d) := v1ContentDigest env zip r
                (r, [(CD.nonChunked256, d)])
              else (r, cd)
            match entry.readAll 65536 with
            | none => .ok (some (r.addError .hashRead))
            | some h =>
              if h.length ≥ 65536 then .ok (some (r.addError .hashTooBig))
              else if env.sha256 cert.raw ≠ h then .ok (some (r.addError .certMismatch))
              else do
                let r ← stampCheckSignatures env schemeId minSdk maxSdk rest cert cd r
                .ok (some r)

end Apk
