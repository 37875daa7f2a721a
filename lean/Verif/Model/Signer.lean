import Verif.Model.Digest
/-! # Signature algorithms, `verifySignature` (utils.go) and the common signer parts (signer.go) -/
namespace Apk

/-- signer.go:19-30. Algorithm ids are the raw unsigned 32-bit wire values (the Go type is `int32`; only equality and
    switch statements are applied to it). -/
def sigRsaPssWithSha256 : Nat := 0x0101
/-- signer.go:21 -/
def sigRsaPssWithSha512 : Nat := 0x0102
/-- signer.go:22 -/
def sigRsaPkcs1V15WithSha256 : Nat := 0x0103
/-- signer.go:23 -/
def sigRsaPkcs1V15WithSha512 : Nat := 0x0104
/-- signer.go:24 -/
def sigEcdsaWithSha256 : Nat := 0x0201
/-- signer.go:25 -/
def sigEcdsaWithSha512 : Nat := 0x0202
/-- signer.go:26 -/
def sigDsaWithSha256 : Nat := 0x0301
/-- signer.go:27 -/
def sigVerityRsaPkcs1V15WithSha256 : Nat := 0x0421
/-- signer.go:28 -/
def sigVerityEcdsaWithSha256 : Nat := 0x0423
/-- signer.go:29 -/
def sigVerityDsaWithSha256 : Nat := 0x0425

/-- signer.go:82-93 `isSupported`. -/
def isSupportedAlgo (a : Nat) : Bool :=
  a == sigRsaPssWithSha256 || a == sigRsaPssWithSha512 ||
  a == sigRsaPkcs1V15WithSha256 || a == sigRsaPkcs1V15WithSha512 ||
  a == sigEcdsaWithSha256 || a == sigEcdsaWithSha512 ||
  a == sigDsaWithSha256 ||
  a == sigVerityRsaPkcs1V15WithSha256 || a == sigVerityEcdsaWithSha256 || a == sigVerityDsaWithSha256

/-- signer.go:95-106 `getDigestType` (panics on unknown algorithms). -/
def getDigestType (a : Nat) : Go CD :=
  if a = sigRsaPssWithSha256 ∨ a = sigRsaPkcs1V15WithSha256 ∨ a = sigEcdsaWithSha256 ∨ a = sigDsaWithSha256 then
    .ok .chunked256
  else if a = sigVerityRsaPkcs1V15WithSha256 ∨ a = sigVerityEcdsaWithSha256 ∨ a = sigVerityDsaWithSha256 then
    .ok .verity256
  else if a = sigRsaPssWithSha512 ∨ a = sigRsaPkcs1V15WithSha512 ∨ a = sigEcdsaWithSha512 then .ok .chunked512
  else .error .explicit

/-- signer.go:108-118 `getMinSdkVersion` (`SigRsaPssWithSha256` is missing from the switch). -/
def getMinSdkVersion (a : Nat) : Int :=
  if a = sigRsaPssWithSha512 ∨ a = sigRsaPkcs1V15WithSha256 ∨ a = sigRsaPkcs1V15WithSha512 ∨
     a = sigEcdsaWithSha256 ∨ a = sigEcdsaWithSha512 ∨ a = sigDsaWithSha256 then 24
  else if a = sigVerityRsaPkcs1V15WithSha256 ∨ a = sigVerityEcdsaWithSha256 ∨ a = sigVerityDsaWithSha256 then 28
  else maxInt32

/-- signer.go:136-148 `getMinSdkVersionJca`. -/
def getMinSdkVersionJca (a : Nat) : Int :=
  if a = sigRsaPssWithSha256 ∨ a = sigRsaPssWithSha512 then 23
  else if a = sigRsaPkcs1V15WithSha256 ∨ a = sigRsaPkcs1V15WithSha512 ∨ a = sigDsaWithSha256 ∨
     a = sigVerityRsaPkcs1V15WithSha256 ∨ a = sigVerityDsaWithSha256 then 1
  else if a = sigEcdsaWithSha256 ∨ a = sigEcdsaWithSha512 ∨ a = sigVerityEcdsaWithSha256 then 11
  else maxInt32

/-- signer.go:313-348 `compareAlgos`. -/
def compareAlgos (a b : Nat) : Go Int := do
  let d1 ← getDigestType a
  let d2 ← getDigestType b
  if d1 = d2 then .ok 0
  else match d1 with
    | .chunked256 => match d2 with
      | .chunked512 | .verity256 => .ok (-1)
      | _ => .error .explicit
    | .chunked512 => match d2 with
      | .chunked256 | .verity256 => .ok 1
      | _ => .error .explicit
    | .verity256 => match d2 with
      | .chunked256 => .ok 1
      | .chunked512 => .ok (-1)
      | _ => .error .explicit
    | _ => .error .explicit

/-- utils.go:39-91 `verifySignature`: `none` = valid. -/
def verifySignature (env : Env) (key : PubKey) (algo : Nat) (data sig : Bytes) : Go (Option E) :=
  if algo = sigRsaPssWithSha256 then
    if key.kind ≠ .rsa then .error .typeAssertion
    else .ok (if env.rsaPss 256 key (env.sha256 data) sig then none else some .rsaVerify)
  else if algo = sigRsaPssWithSha512 then
    if key.kind ≠ .rsa then .error .typeAssertion
    else .ok (if env.rsaPss 512 key (env.sha512 data) sig then none else some .rsaVerify)
  else if algo = sigRsaPkcs1V15WithSha256 ∨ algo = sigVerityRsaPkcs1V15WithSha256 then
    if key.kind ≠ .rsa then .error .typeAssertion
    else .ok (if env.rsaPkcs1 256 key (env.sha256 data) sig then none else some .rsaVerify)
  else if algo = sigRsaPkcs1V15WithSha512 then
    if key.kind ≠ .rsa then .error .typeAssertion
    else .ok (if env.rsaPkcs1 512 key (env.sha512 data) sig then none else some .rsaVerify)
  else if algo = sigEcdsaWithSha256 ∨ algo = sigEcdsaWithSha512 ∨ algo = sigDsaWithSha256 ∨
      algo = sigVerityEcdsaWithSha256 ∨ algo = sigVerityDsaWithSha256 then
    match env.asn1Ints sig with
    | none => .ok (some .asn1Sig)
    | some params =>
      let hashed := if algo = sigEcdsaWithSha512 then env.sha512 data else env.sha256 data
      if algo = sigDsaWithSha256 ∨ algo = sigVerityDsaWithSha256 then
        if key.kind ≠ .dsa then .error .typeAssertion
        else if key.qBits / 8 > hashed.length then .error .sliceOutOfRange
        else match params with
          | p0 :: p1 :: _ =>
            .ok (if env.dsaVerify key (hashed.take (key.qBits / 8)) p0 p1 then none else some .dsaVerify)
          | _ => .error .indexOutOfRange
      else
        if key.kind ≠ .ecdsa then .error .typeAssertion
        else match params with
          | p0 :: p1 :: _ => .ok (if env.ecdsaVerify key hashed p0 p1 then none else some .ecdsaVerify)
          | _ => .error .indexOutOfRange
  else .ok (some .unhandledSigType)

/-- `signerContext` (signer.go:150-158) after `parseSignatures`: `best = none` is `bestAlgo == -1`. -/
structure SigCtx where
  best : Option (Nat × Bytes) := none
  algos : List Nat := []

/-- signer.go:172-197: one signature record. The Boolean is false when the Go code returns. -/
def sigStep (st : Core × SigCtx) (rec : Bytes) : Go ((Core × SigCtx) × Bool) :=
  let (r, ctx) := st
  if rec.length < 8 then .ok ((r.addError .sigRecordShort, ctx), false)
  else
    let algo := leNat (rec.take 4)
    let ctx := { ctx with algos := ctx.algos ++ [algo] }
    if !isSupportedAlgo algo then .ok ((r.addWarning (.unsupportedAlgo algo), ctx), true)
    else do
      let better ← match ctx.best with
        | none => .ok true
        | some (b, _) => do
          let c ← compareAlgos algo b
          .ok (decide (c > 0))
      if better then
        match rdLP (rec.drop 4) with
        | .error e => .ok ((r.addError (.sigBytesRead e), ctx), false)
        | .ok (s, _) => .ok ((r, { ctx with best := some (algo, s) }), true)
      else .ok ((r, ctx), true)

/-- signer.go:160-210 `parseSignatures`: result, context and success; success comes with a best algorithm. -/
def parseSignatures (sigs : Bytes) (r : Core) : Go (Core × SigCtx × Bool) := do
  let (items, err) := lpSplit sigs
  let ((r, ctx), done) ← foldGo sigStep (r, {}) items
  if !done then .ok (r, ctx, false)
  else match err with
    | some e => .ok (r.addError (.sigRecord e), ctx, false)
    | none =>
      match ctx.best with
      | none =>
        .ok (r.addError (if items.length = 0 then .noSignatures else .noSupportedSignatures), ctx, false)
      | some _ => .ok (r, ctx, true)

/-- signer.go:212-228 `parsePublicKey`. -/
def parsePublicKey (env : Env) (pk : Bytes) (best : Nat × Bytes) (signedData : Bytes) (r : Core) :
    Go (Core × Bool) :=
  match env.parsePKIX pk with
  | none => .ok (r.addError .pubKeyParse, false)
  | some key => do
    match ← verifySignature env key best.1 signedData best.2 with
    | some e => .ok (r.addError (.sigVerify e), false)
    | none => .ok (r, true)

/-- verificationresult.go:67-75 `certAdder.append`: the adder's list after appending and the result's chains. -/
def certAppend (adder : List Cert) (certs : List (List Cert)) (c : Cert) : List Cert × List (List Cert) :=
  let adder' := adder ++ [c]
  if adder'.length = 1 then (adder', certs ++ [adder'])
  else (adder', certs.dropLast ++ [adder'])

/-- signer.go:234-247: parse the certificates one by one; `false` when the Go code returned inside the loop. -/
def certLoop (env : Env) : Core → List Cert → List Bytes → Core × List Cert × Bool
  | r, adder, [] => (r, adder, true)
  | r, adder, c :: cs =>
    match env.parseCertAndr c with
    | none => (r.addError .certParse, adder, false)
    | some cert =>
      let (adder', certs') := certAppend adder r.certs cert
      certLoop env { r with certs := certs' } adder' cs

/-- signer.go:230-261 `parseCertificates`: `some mainCert` on success. -/
def parseCertificates (env : Env) (certs pk : Bytes) (r : Core) : Core × Option Cert :=
  let (items, err) := lpSplit certs
  let (r, adder, done) := certLoop env r [] items
  if !done then (r, none)
  else match err with
    | some e => (r.addError (.certRead e), none)
    | none =>
      match adder with
      | [] => (r.addError .noCerts, none)
      | main :: _ =>
        if main.spki ≠ pk then (r.addError .pubKeyMismatch, none)
        else (r, some main)

/-- signer.go:267-290: one digest record; state: result, algorithms seen, digest of the best algorithm. -/
def digestStep (best : Nat) (st : Core × List Nat × Bytes) (rec : Bytes) : Go ((Core × List Nat × Bytes) × Bool) :=
  let (r, algos, d) := st
  if rec.length < 8 then .ok ((r.addError .digestRecordShort, algos, d), false)
  else
    let algo := leNat (rec.take 4)
    let algos := algos ++ [algo]
    if algo = best then
      match rdLP (rec.drop 4) with
      | .error e => .ok ((r.addError (.digestBytesRead e), algos, d), false)
      | .ok (x, _) => .ok ((r, algos, x), true)
    else .ok ((r, algos, d), true)

/-- The map `contentDigests`. -/
abbrev Digests := List (CD × Bytes)

/-- signer.go:263-311 `parseDigests`. `contentDigest` starts as nil, modelled by the empty string; it is always
    overwritten before use because the algorithm lists are equal and contain the best algorithm. -/
def parseDigests (digests : Bytes) (best : Nat) (sigAlgos : List Nat) (cd : Digests) (r : Core) :
    Go (Core × Digests × Bool) := do
  let (items, err) := lpSplit digests
  let ((r, algos, d), done) ← foldGo (digestStep best) (r, [], []) items
  if !done then .ok (r, cd, false)
  else match err with
    | some e => .ok (r.addError (.digestRecord e), cd, false)
    | none =>
      if algos ≠ sigAlgos then .ok (r.addError .algosMismatch, cd, false)
      else do
        let t ← getDigestType best
        let cd' := mset cd t d
        match mget cd t with
        | some prev => if prev ≠ d then .ok (r.addError .digestConflict, cd', false) else .ok (r, cd', true)
        | none => .ok (r, cd', true)

end Apk
