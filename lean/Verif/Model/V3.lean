import Verif.Model.V2
/-! # APK Signature Scheme v3 and v3.1 (schemev3.go, schemev3lineage.go, schemev31.go) -/
namespace Apk

/-- schemev3lineage.go:63-89 `Equal` of nodes (certificates compare by `Raw`). -/
def LNode.equal (n o : LNode) : Bool :=
  decide (n.cert.raw = o.cert.raw) && decide (n.parentAlgo = o.parentAlgo) && decide (n.algo = o.algo) &&
  decide (n.signature = o.signature) && decide (n.flags = o.flags)

/-- schemev3lineage.go:128-139 `Equal` of node lists. -/
def nodesEqual : List LNode → List LNode → Bool
  | [], [] => true
  | a :: as, b :: bs => a.equal b && nodesEqual as bs
  | _, _ => false

/-- schemev3lineage.go:141-151 `lineageCalculateMinSdkVersion`. -/
def lineageMinSdk (nodes : List LNode) : Int :=
  nodes.foldl (fun m n =>
    if isSupportedAlgo n.algo then (if getMinSdkVersion n.algo > m then getMinSdkVersion n.algo else m) else m) 28

/-- schemev3lineage.go:158-168 `getSubLineage`: nodes up to and including the first with the given certificate. -/
def subLineage : List LNode → Cert → Option (List LNode)
  | [], _ => none
  | n :: ns, c =>
    if n.cert.raw = c.raw then some [n]
    else (subLineage ns c).map (n :: ·)

/-- State of the lineage loop (schemev3.go:314-318): the nodes so far; the last node supplies `lastCert` and
    `lastSigAlgorithmId`, all nodes supply `certHistory`. `parse` is the certificate parser: `x509.ParseCertificate`
    here (schemev3.go:368), `x509andr.ParseCertificateForGo` in the otherwise identical loop body of
    sourcestamp.go:394-469. -/
def lineageStep (env : Env) (parse : Bytes → Option Cert) (nodes : List LNode) (node : Bytes) : Go (Except E (List LNode)) :=
  match rdLP node with
  | .error e => .ok (.error (.lineageSignedDataRead e))
  | .ok (signedData, n1) =>
    match rdU32 n1 with
    | none => .ok (.error .lineageFlagsRead)
    | some (flags, n2) =>
      match rdU32 n2 with
      | none => .ok (.error .lineageAlgoRead)
      | some (algo, n3) =>
        match rdLP n3 with
        | .error e => .ok (.error (.lineageSigRead e))
        | .ok (signature, _) => do
          let bad ← match nodes.getLast? with
            | none => .ok none
            | some last => verifySignature env last.cert.key last.algo signedData signature
          match bad with
          | some e => .ok (.error (.lineageVerify e))
          | none =>
            match rdLP signedData with
            | .error e => .ok (.error (.lineageCertRead e))
            | .ok (encoded, s1) =>
              match rdU32 s1 with
              | none => .ok (.error .lineageSignedAlgoRead)
              | some (parentAlgo, _) =>
                if (match nodes.getLast? with | none => false | some last => decide (last.algo ≠ parentAlgo)) then
                  .ok (.error .lineageAlgoMismatch)
                else match parse encoded with
                  | none => .ok (.error .lineageCertParse)
                  | some cert =>
                    if nodes.any (fun n => decide (n.cert.raw = cert.raw)) then .ok (.error .lineageDup)
                    else .ok (.ok (nodes ++ [⟨cert, parentAlgo, algo, signature, flags⟩]))

/-- schemev3.go:319-389, sourcestamp.go:393-470: the loop over nodes. -/
def lineageLoop (env : Env) (parse : Bytes → Option Cert) : List LNode → List Bytes → Go (Except E (List LNode))
  | nodes, [] => .ok (.ok nodes)
  | nodes, b :: bs => do
    match ← lineageStep env parse nodes b with
    | .error e => .ok (.error e)
    | .ok nodes' => lineageLoop env parse nodes' bs

/-- schemev3.go:300-392 `readSigningCertificateLineage`. -/
def readLineage (env : Env) (b : Bytes) : Go (Except E (List LNode)) :=
  if b.length = 0 then .ok (.ok [])
  else match rdU32 b with
    | none => .ok (.error .lineageVersionRead)
    | some (version, rest) =>
      if version ≠ 1 then .ok (.error .lineageVersion)
      else do
        let (items, err) := lpSplit rest
        match ← lineageLoop env env.parseCertStd [] items with
        | .error e => .ok (.error e)
        | .ok nodes =>
          match err with
          | some e => .ok (.error (.lineageNodeRead e))
          | none => .ok (.ok nodes)

/-- `schemeV3SignerInfo` (schemev3.go:32-35). -/
structure SignerInfo where
  lineage : Option Lineage
  minSdk : Int
  maxSdk : Int
deriving DecidableEq, Repr

/-- Parameters of `schemeV3` (schemev3.go:24-30) that do not change while parsing. -/
structure V3Params where
  actingAsV31 : Bool
  maxSdk : Int
  rotationMin : Int
deriving DecidableEq, Repr

/-- State of the attribute loop: result, lineage of the signer, whether the min-SDK attribute was seen. -/
structure AttrSt where
  r : Core
  lineage : Option Lineage := none
  minSdkFound : Bool := false

/-- schemev3.go:226-291: one additional attribute. -/
def v3AttrStep (env : Env) (p : V3Params) (main : Cert) (st : AttrSt) (attr : Bytes) : Go (AttrSt × Bool) :=
  match rdU32 attr with
  | none => .ok ({ st with r := st.r.addError .attrIdRead }, false)
  | some (id, rest) =>
    if id = 0x3ba06f8c then do
      match ← readLineage env rest with
      | .error e => .ok ({ st with r := st.r.addError (.lineageAttr e) }, false)
      | .ok nodes =>
        if nodes.length = 0 then .ok (st, true)
        else
          let st := { st with lineage := some ⟨lineageMinSdk nodes, nodes⟩ }
          match subLineage nodes main with
          | none => .ok ({ st with r := st.r.addError .certNotInLineage }, true)
          | some sub =>
            if nodes.length ≠ sub.length then .ok ({ st with r := st.r.addError .subLineageMismatch }, true)
            else .ok (st, true)
    else if id = 0x559f8b02 then
      let st := { st with minSdkFound := true }
      if supportsSigV31 p.maxSdk then
        match rdU32 rest with
        | none => .ok ({ st with r := st.r.addError .rotationMinSdkRead }, false)
        | some (v, _) =>
          if p.rotationMin ≠ 0 then
            if p.rotationMin ≠ toI32 v then .ok ({ st with r := st.r.addError .rotationMismatch }, true)
            else .ok (st, true)
          else .ok ({ st with r := st.r.addError .rotationNoV31 }, true)
      else .ok ({ st with r := st.r.addWarning (.unknownAttr id) }, true)
    else if id = 0xc2a6b3ba then
      if !p.actingAsV31 then .ok ({ st with r := st.r.addWarning .rotationOnDevIgnored }, true)
      else .ok (st, true)
    else .ok ({ st with r := st.r.addWarning (.unknownAttr id) }, true)

/-- schemev3.go:213-297: the attribute list at the end of the signed data. -/
def v3Attrs (env : Env) (p : V3Params) (main : Cert) (d : Bytes) (r : Core) : Go (Core × Option Lineage) :=
  match rdLP d with
  | .error e => .ok (r.addError (.attrsRead e), none)
  | .ok (attrs, _) => do
    let (items, err) := lpSplit attrs
    let (st, done) ← foldGo (v3AttrStep env p main) ⟨r, none, false⟩ items
    if !done then .ok (st.r, st.lineage)
    else match err with
      | some e => .ok (st.r.addError (.attrRead e), st.lineage)
      | none =>
        if p.rotationMin ≠ 0 ∧ st.minSdkFound = false then .ok (st.r.addWarning .rotationAttrMissing, st.lineage)
        else .ok (st.r, st.lineage)

/-- schemev3.go:203-297: certificates, digests and attributes. -/
def v3SignerTail (env : Env) (p : V3Params) (certs digests pk : Bytes) (best : Nat) (algos : List Nat) (d4 : Bytes)
    (cd : Digests) (r : Core) : Go (Core × Digests × Option Lineage) :=
  let (r, main) := parseCertificates env certs pk r
  match main with
  | none => .ok (r, cd, none)
  | some main => do
    let (r, cd, ok) ← parseDigests digests best algos cd r
    if !ok then .ok (r, cd, none)
    else do
      let (r, lin) ← v3Attrs env p main d4 r
      .ok (r, cd, lin)

/-- schemev3.go:148-297: the part of `verifySigner` after the unsigned SDK versions. Returns the signer's lineage. -/
def v3SignerBody (env : Env) (p : V3Params) (signedData b1 : Bytes) (minSdk : Int) (cd : Digests) (r : Core) :
    Go (Core × Digests × Option Lineage) :=
  match rdLP b1 with
  | .error e => .ok (r.addError (.signaturesRead e), cd, none)
  | .ok (sigs, b2) => do
    let (r, ctx, ok) ← parseSignatures sigs r
    match ok, ctx.best with
    | true, some best =>
      match rdLP b2 with
      | .error e => .ok (r.addError (.publicKeyRead e), cd, none)
      | .ok (pk, _) => do
        let (r, ok) ← parsePublicKey env pk best signedData r
        if !ok then .ok (r, cd, none)
        else match rdLP signedData with
          | .error e => .ok (r.addError (.digestsRead e), cd, none)
          | .ok (digests, d1) =>
            match rdLP d1 with
            | .error e => .ok (r.addError (.certsRead e), cd, none)
            | .ok (certs, d2) =>
              match rdU32 d2 with
              | none => .ok (r.addError .signedMinSdkRead, cd, none)
              | some (smin, d3) =>
                match rdU32 d3 with
                | none => .ok (r.addError .signedMaxSdkRead, cd, none)
                | some (_smax, d4) =>
                  let r := if minSdk ≠ toI32 smin then r.addError .minSdkMismatch else r
                  -- schemev3.go:198 compares parsedMaxSdkVersion with itself: never an error
                  v3SignerTail env p certs digests pk best.1 ctx.algos d4 cd r
    | _, _ => .ok (r, cd, none)

/-- schemev3.go:117-298 `verifySigner`: also returns the `schemeV3SignerInfo` appended to `s.signers`, if any. -/
def v3VerifySigner (env : Env) (p : V3Params) (signer : Bytes) (cd : Digests) (r : Core) :
    Go (Core × Digests × Option SignerInfo) :=
  match rdLP signer with
  | .error e => .ok (r.addError (.signedDataRead e), cd, none)
  | .ok (signedData, b1) =>
    match rdU32 b1 with
    | none => .ok (r.addError .minSdkRead, cd, none)
    | some (mn, b2) =>
      match rdU32 b2 with
      | none => .ok (r.addError .maxSdkRead, cd, none)
      | some (mx, b3) => do
        let minSdk := toI32 mn
        let maxSdk := toI32 mx
        let r := if minSdk < 1 ∨ minSdk > maxSdk then r.addError .sdkRangeInvalid else r
        let (r, cd, lin) ← v3SignerBody env p signedData b3 minSdk cd r
        .ok (r, cd, some ⟨lin, minSdk, maxSdk⟩)

/-- schemev3.go:44-55: the loop over signers; `acc` is `s.signers`. -/
def v3Signers (env : Env) (p : V3Params) : List Bytes → Digests → Core → List SignerInfo →
    Go (Core × Digests × List SignerInfo)
  | [], cd, r, acc => .ok (r, cd, acc)
  | s :: ss, cd, r, acc => do
    let (r, cd, info) ← v3VerifySigner env p s cd r
    v3Signers env p ss cd r (acc ++ info.toList)

/-- schemev3.go:37-56 `parseSigners`. -/
def v3ParseSigners (env : Env) (p : V3Params) (block : Bytes) (cd : Digests) (r : Core) :
    Go (Core × Digests × List SignerInfo) :=
  match rdLP block with
  | .error e => .ok (r.addError (.signersList e), cd, [])
  | .ok (signers, _) => do
    let (items, err) := lpSplit signers
    let (r, cd, infos) ← v3Signers env p items cd r []
    match err with
    | some e => .ok (r.addError (.signerRecord e), cd, infos)
    | none => .ok (r, cd, infos)

/-- Insertion into a list sorted by minimum SDK. -/
def insertSigner (s : SignerInfo) : List SignerInfo → List SignerInfo
  | [] => [s]
  | x :: xs => if s.minSdk < x.minSdk then s :: x :: xs else x :: insertSigner s xs

/-- schemev3.go:72-74 `sort.Slice` by minimum SDK. Go's algorithm is an insertion sort up to 12 elements and
    unspecified on ties beyond; the theorems about `finalize` quantify over every sorted permutation. -/
def sortSigners (l : List SignerInfo) : List SignerInfo := l.foldl (fun acc s => insertSigner s acc) []

/-- State of the loop schemev3.go:76-98. -/
structure FinSt where
  firstMin : Int := 0
  lastMax : Int := 0
  lastSize : Nat := 0
  lineages : List Lineage := []
  error : Option E := none
deriving DecidableEq, Repr

/-- schemev3.go:79-98: the loop over sorted signers; it breaks at the first error. -/
def finLoop : FinSt → List SignerInfo → FinSt
  | st, [] => st
  | st, s :: ss =>
    if st.firstMin ≠ 0 ∧ s.minSdk ≠ wrap32 (st.lastMax + 1) then { st with error := some .inconsistentSdk }
    else
      let st := { st with firstMin := if st.firstMin = 0 then s.minSdk else st.firstMin, lastMax := s.maxSdk }
      match s.lineage with
      | none => finLoop st ss
      | some l =>
        if l.nodes.length < st.lastSize then { st with error := some .inconsistentLineageSizes }
        else finLoop { st with lastSize := l.nodes.length, lineages := st.lineages ++ [l] } ss

/-- schemev3.go:399-406: the first lineage of maximal size. -/
def largestLineage : Lineage → List Lineage → Lineage
  | best, [] => best
  | best, l :: ls => if l.nodes.length > best.nodes.length then largestLineage l ls else largestLineage best ls

/-- schemev3.go:394-420 `consolidateLineages` (node lists are never empty here, schemev3.go:246). The Go loop skips
    the largest lineage itself; comparing it with itself succeeds. -/
def consolidateLineages : List Lineage → Except E (Option Lineage)
  | [] => .ok none
  | l :: ls =>
    let largest := largestLineage l ls
    if (l :: ls).all (fun u => nodesEqual u.nodes (largest.nodes.take u.nodes.length)) then .ok (some largest)
    else .error .inconsistentLineages

/-- schemev3.go:76-114 on an already sorted signer list. -/
def v3FinalizeSorted (actingAsV31 : Bool) (rotationMin : Int) (reqMin reqMax : Int) (sorted : List SignerInfo)
    (r : Core) : Core :=
  let reqMin := if reqMin < 28 then 28 else reqMin
  let reqMin := if actingAsV31 then reqMax else reqMin
  let st := finLoop {} sorted
  let r := match st.error with
    | some e => r.addError e
    | none => r
  let reqMax := if rotationMin ≠ 0 then wrap32 (rotationMin - 1) else reqMax
  let r := if st.firstMin > reqMin ∨ st.lastMax < reqMax then r.addError .missingSdk else r
  match r.lineage with
  | some _ => r
  | none =>
    match consolidateLineages st.lineages with
    | .error e => r.addError e
    | .ok l => { r with lineage := l }

/-- schemev3.go:58-115 `finalizeResult`. -/
def v3Finalize (actingAsV31 : Bool) (rotationMin : Int) (reqMin reqMax : Int) (signers : List SignerInfo) (r : Core) :
    Core :=
  v3FinalizeSorted actingAsV31 rotationMin reqMin reqMax (sortSigners signers) r

/-- schemev31.go:18-26: the rotation minimum SDK of the v3 backend. -/
def rotationMinSdk (signers : List SignerInfo) : Int :=
  let m := signers.foldl (fun m s => if s.minSdk < m then s.minSdk else m) maxInt32
  if m = maxInt32 then 0 else m

/-- Signer lists collected by a scheme, needed by `finalizeResult`. -/
structure FinState where
  signers : List SignerInfo := []
  v3Signers : List SignerInfo := []
  rotationMin : Int := 0
deriving DecidableEq, Repr

/-- schemev31.go:14-46 `parseSigners`. `v3res` is `result.ExtraResults[3]`; returns the new one. -/
def v31ParseSigners (env : Env) (maxSdk : Int) (block : Bytes) (cd : Digests) (r : Core) (v3res : Option Core) :
    Go (Core × Option Core × Digests × FinState) := do
  let (r, cd31, signers31) ← v3ParseSigners env ⟨true, maxSdk, 0⟩ block [] r
  let rot := rotationMinSdk signers31
  match mget r.extraBlocks blockIdSchemeV3 with
  | none =>
    let cd := cd31.foldl (fun m p => mset m p.1 p.2) cd
    .ok (r.addError .v31WithoutV3, v3res, cd, ⟨signers31, [], rot⟩)
  | some v3block => do
    let v3r : Core := { schemeId := 3 }
    let (v3r, cd, signers3) ← v3ParseSigners env ⟨false, maxSdk, rot⟩ v3block cd v3r
    .ok (r, some v3r, cd, ⟨signers31, signers3, rot⟩)

/-- schemev31.go:48-60 `finalizeResult`. -/
def v31Finalize (reqMin reqMax : Int) (fin : FinState) (r : Core) (v3res : Option Core) : Core × Option Core :=
  let v31min := if reqMin < 33 then 33 else reqMin
  let r := v3Finalize true 0 v31min reqMax fin.signers r
  match v3res with
  | none => (r, none)
  | some v3r =>
    let v3r := v3Finalize false fin.rotationMin reqMin reqMax fin.v3Signers v3r
    ({ r with warnings := r.warnings ++ v3r.warnings, errors := r.errors ++ v3r.errors }, some v3r)

end Apk
