import Verif.Model.Stamp
/-! # Whole signing block verification (signingblock.go:143-255, 361-386, 558-614) -/
namespace Apk

/-- The schemes behind `signatureBlockScheme` (signingblock.go:106-109). -/
inductive Scheme where
  | v2 | v3 | v31
deriving DecidableEq, Repr

/-- `schemeIdV2`, `schemeIdV3`, `schemeIdV31` (signingblock.go:90-93). -/
def Scheme.id : Scheme → Nat
  | .v2 => 2
  | .v3 => 3
  | .v31 => 31

/-- signingblock.go:361-386 `pickScheme`. -/
def pickScheme (blocks : List (Nat × Bytes)) : Option (Scheme × Bytes) :=
  match mget blocks blockIdSchemeV31 with
  | some b => some (.v31, b)
  | none =>
    match mget blocks blockIdSchemeV3 with
    | some b => some (.v3, b)
    | none =>
      match mget blocks blockIdSchemeV2 with
      | some b => some (.v2, b)
      | none => none

/-- signingblock.go:558-564 `extractCerts`: parse the signers with an empty digest map. -/
def extractCerts (env : Env) (scheme : Scheme) (maxSdk : Int) (block : Bytes) (r : Core) (v3 : Option Core) :
    Go (Core × Option Core × Digests × FinState) := do
  match scheme with
  | .v2 =>
    let (r, cd) ← v2ParseSigners env maxSdk block [] r
    .ok (r, v3, cd, {})
  | .v3 =>
    let (r, cd, s) ← v3ParseSigners env ⟨false, maxSdk, 0⟩ block [] r
    .ok (r, v3, cd, ⟨s, [], 0⟩)
  | .v31 => v31ParseSigners env maxSdk block [] r v3

/-- `finalizeResult` of the scheme. -/
def finalizeScheme (scheme : Scheme) (minSdk maxSdk : Int) (fin : FinState) (r : Core) (v3 : Option Core) :
    Core × Option Core :=
  match scheme with
  | .v2 => (r, v3)                                              -- schemev2.go:43-45
  | .v3 => (v3Finalize false fin.rotationMin minSdk maxSdk fin.signers r, v3)
  | .v31 => v31Finalize minSdk maxSdk fin r v3

/-- The three sections that are digested (signingblock.go:587-593). -/
def sections (file : Bytes) (f : Found) : List Leaf :=
  [.apk file 0 f.sigOff, .apk file f.loc.cdOff f.loc.eocdOff, .bytes (eocdPatched f.loc.eocd f.sigOff)]

/-- signingblock.go:586-614 `verifyIntegrity`: the errors added and the Boolean result. -/
def verifyIntegrity (env : Env) (file : Bytes) (f : Found) (expected : Digests) (r : Core) : Go (Core × Bool) := do
  let order := env.cdOrder expected
  match ← computeContentDigests env (order.map (·.1)) (sections file f) with
  | .error e => .ok (r.addError (.digestCompute e), false)
  | .ok actual =>
    let bad := order.filter (fun p => decide (p.2 ≠ (mget actual p.1).getD []))
    .ok ({ r with errors := r.errors ++ bad.map (fun p => E.digestMismatch p.1) }, true)

/-- signingblock.go:566-584 `verify`; returns the result and the content digests (`[]` for a nil map). -/
def verifyScheme (env : Env) (file : Bytes) (f : Found) (scheme : Scheme) (minSdk maxSdk : Int) (block : Bytes)
    (r : Core) (v3 : Option Core) : Go (Core × Option Core × Digests) := do
  let (r, v3, cd, fin) ← extractCerts env scheme maxSdk block r v3
  if r.certs.length = 0 then .ok (r.addError .noSigners, v3, [])
  else if cd.length = 0 then .ok (r.addError .noContentDigests, v3, [])
  else do
    let (r, ok) ← verifyIntegrity env file f cd r
    if !ok then .ok (r, v3, cd)
    else
      let (r, v3) := finalizeScheme scheme minSdk maxSdk fin r v3
      .ok (r, v3, cd)

/-- signingblock.go:201-217 `pickAndVerify`. -/
def pickAndVerify (env : Env) (file : Bytes) (f : Found) (blocks : List (Nat × Bytes)) (minSdk maxSdk : Int)
    (r : Core) (v3 : Option Core) : Go (Core × Option Core × Digests) :=
  if !supportsSigV2 maxSdk then .ok ({ r with schemeId := 1 }, v3, [])
  else match pickScheme blocks with
    | none => .ok ({ r with schemeId := 1 }.addError (.notFound .noSchemeBlock), v3, [])
    | some (scheme, block) =>
      verifyScheme env file f scheme minSdk maxSdk block { r with schemeId := scheme.id } v3

/-- signingblock.go:175-187: the fallback to v2 after a failed v3/v3.1 verification.
    Assigning a nil `blocks[v3]` (absent block) to `ExtraBlocks` is a no-op for lookups and not modelled. -/
def withFallback (env : Env) (file : Bytes) (f : Found) (blocks : List (Nat × Bytes)) (minSdk maxSdk : Int)
    (res : Core × Option Core × Digests) : Go (Core × Option Core × Digests) :=
  let (r, v3, cd) := res
  if r.errors ≠ [] ∧ r.schemeId ≥ 3 ∧ minSdk < 28 ∧ (mget blocks blockIdSchemeV2).isSome then
    let extra := match mget blocks blockIdSchemeV3 with
      | some b => mset r.extraBlocks blockIdSchemeV3 b
      | none => r.extraBlocks
    let r := { r with
      extraBlocks := extra
      warnings := r.warnings ++ r.errors.map W.v3Error
      errors := [] }
    pickAndVerify env file f (mdel blocks blockIdSchemeV3) minSdk maxSdk r v3
  else .ok (r, v3, cd)

/-- `FrostingResult` (verificationresult.go:30-34) as reported: the parse outcome and the error field. -/
structure FrostRes where
  keyUsed : Bool
  error : Option FE
  protobufInfo : Bytes

/-- `VerificationResult` (verificationresult.go:8-28). `v3` is `ExtraResults[3]`. -/
structure VRes where
  core : Core
  v3 : Option Core := none
  frosting : Option FrostRes := none
  stamp : Option StampRes := none

/-- signingblock.go:161-167: verify the frosting digest of the APK. -/
def frostingResult (env : Env) (file : Bytes) (f : Found) (st : PairState) : Option FrostRes :=
  match st.frosting with
  | none => none
  | some fr =>
    match fr.info, st.frostingRes with
    | .ok info, some info' =>
      let v2 := match mget st.blocks blockIdSchemeV2 with
        | some b => some b
        | none => mget st.extra blockIdSchemeV2
      some ⟨fr.keyUsed, frVerifyApk env info' file f.sigOff v2 f.loc.cdOff f.loc.cdSize f.loc.eocd, info.protobufInfo⟩
    | .ok info, none => some ⟨fr.keyUsed, none, info.protobufInfo⟩
    | .error e, _ => some ⟨fr.keyUsed, some e, []⟩

/-- What `VerifySigningBlockReaderWithZip` returns: `res` (nil only when the file is shorter than 4 bytes), the file
    magic and the error. -/
structure Outcome where
  res : Option VRes
  magic : Nat
  err : Option E

/-- verificationresult.go:54-59 `GetLastError`. -/
def Core.lastError (r : Core) : Option E := r.errors.getLast?

/-- signingblock.go:143-199 `VerifySigningBlockReaderWithZip` (the ZIP reader is already open). -/
def verifySigningBlock (env : Env) (zip : Zip) (file : Bytes) (minSdk maxSdk : Int) : Go Outcome :=
  if file.length < 4 then .ok ⟨none, 0, some .apkTooShort⟩
  else
    let magic := leNat (file.take 4)
    match findSignatureBlocks env file maxSdk with
    | .error p => .error p
    | .ok (none, st, e) =>
      .ok ⟨some ⟨{ extraBlocks := st.extra, warnings := st.warnings }, none, none, none⟩, magic, e.map E.notFound⟩
    | .ok (some f, st, some e) =>
      .ok ⟨some ⟨{ extraBlocks := st.extra, warnings := st.warnings }, none, frostingResult env file f st, none⟩,
        magic, some (.notFound e)⟩
    | .ok (some f, st, none) => do
      let r : Core := { extraBlocks := st.extra, warnings := st.warnings }
      let res ← pickAndVerify env file f st.blocks minSdk maxSdk r none
      let (r, v3, cd) ← withFallback env file f st.blocks minSdk maxSdk res
      let stamp ← verifyStamp env zip r.schemeId minSdk maxSdk (mget st.blocks blockIdSourceStampV2) cd
      .ok ⟨some ⟨r, v3, frostingResult env file f st, stamp⟩, magic, r.lastError⟩

/-- signingblock.go:129-132 `IsSigningBlockNotFoundError`. -/
def isNotFound : Option E → Bool
  | some (.notFound _) => true
  | _ => false

/-- signingblock.go:232-255 `ExtractCertsReader`. -/
def extractCertsReader (env : Env) (file : Bytes) (maxSdk : Int) : Go (List (List Cert) × Option E) :=
  if file.length < 4 then .ok ([], some .apkTooShort)
  else match findSignatureBlocks env file maxSdk with
    | .error p => .error p
    | .ok (_, _, some e) => .ok ([], some (.notFound e))
    | .ok (_, st, none) =>
      match pickScheme st.blocks with
      | none => .ok ([], some (.notFound .noSchemeBlock))
      | some (scheme, block) => do
        let (r, _, _, _) ← extractCerts env scheme maxSdk block
          { schemeId := scheme.id, extraBlocks := st.extra, warnings := st.warnings } none
        .ok (r.certs, r.lastError)

end Apk
