import Verif.Model.Signer
/-! # APK Signature Scheme v2 (schemev2.go) -/
namespace Apk

/-- `schemeIdToBlockId` (signingblock.go:95-99); the key is an `int32`. -/
def schemeIdToBlockId (i : Int) : Option Nat :=
  if i = 2 then some blockIdSchemeV2
  else if i = 3 then some blockIdSchemeV3
  else if i = 31 then some blockIdSchemeV31
  else none

/-- schemev2.go:116-147: one additional attribute. -/
def v2AttrStep (maxSdk : Int) (r : Core) (attr : Bytes) : Go (Core × Bool) :=
  match rdU32 attr with
  | none => .ok (r.addError .attrIdRead, false)
  | some (id, rest) =>
    if id = 0xbeeff00d then
      if !supportsSigV3 maxSdk then .ok (r, true)
      else match rdU32 rest with
        | none => .ok (r.addError .strippedIdRead, false)
        | some (v, _) =>
          match schemeIdToBlockId (toI32 v) with
          | none => .ok (r.addError .unknownStrippedId, true)
          | some bid =>
            match mget r.extraBlocks bid with
            | none => .ok (r.addError .stripped, false)
            | some _ => .ok (r, true)
    else .ok (r.addWarning (.unknownAttr id), true)

/-- schemev2.go:47-149 `verifySigner`. -/
def v2VerifySigner (env : Env) (maxSdk : Int) (signer : Bytes) (cd : Digests) (r : Core) : Go (Core × Digests) :=
  match rdLP signer with
  | .error e => .ok (r.addError (.signedDataRead e), cd)
  | .ok (signedData, b1) =>
    match rdLP b1 with
    | .error e => .ok (r.addError (.signaturesRead e), cd)
    | .ok (sigs, b2) => do
      let (r, ctx, ok) ← parseSignatures sigs r
      match ok, ctx.best with
      | true, some best =>
        match rdLP b2 with
        | .error e => .ok (r.addError (.publicKeyRead e), cd)
        | .ok (pk, _) => do
          let (r, ok) ← parsePublicKey env pk best signedData r
          if !ok then .ok (r, cd)
          else match rdLP signedData with
            | .error e => .ok (r.addError (.digestsRead e), cd)
            | .ok (digests, d1) =>
              match rdLP d1 with
              | .error e => .ok (r.addError (.certsRead e), cd)
              | .ok (certs, d2) =>
                let (r, main) := parseCertificates env certs pk r
                match main with
                | none => .ok (r, cd)
                | some _ => do
                  let (r, cd, ok) ← parseDigests digests best.1 ctx.algos cd r
                  if !ok then .ok (r, cd)
                  else match rdLP d2 with
                    | .error e => .ok (r.addError (.attrsRead e), cd)
                    | .ok (attrs, _) => do
                      let (items, err) := lpSplit attrs
                      let (r, done) ← foldGo (v2AttrStep maxSdk) r items
                      if !done then .ok (r, cd)
                      else match err with
                        | some e => .ok (r.addError (.attrRead e), cd)
                        | none => .ok (r, cd)
      | _, _ => .ok (r, cd)

/-- schemev2.go:25-35: the loop over signers (no early stop except for framing errors). -/
def v2Signers (env : Env) (maxSdk : Int) : List Bytes → Digests → Core → Go (Core × Digests)
  | [], cd, r => .ok (r, cd)
  | s :: ss, cd, r => do
    let (r, cd) ← v2VerifySigner env maxSdk s cd r
    v2Signers env maxSdk ss cd r

/-- signingblock.go:88 -/
def maxApkSigners : Nat := 10

/-- schemev2.go:17-41 `parseSigners`. -/
def v2ParseSigners (env : Env) (maxSdk : Int) (block : Bytes) (cd : Digests) (r : Core) : Go (Core × Digests) :=
  match rdLP block with
  | .error e => .ok (r.addError (.signersList e), cd)
  | .ok (signers, _) => do
    let (items, err) := lpSplit signers
    let (r, cd) ← v2Signers env maxSdk items cd r
    match err with
    | some e => .ok (r.addError (.signerRecord e), cd)
    | none =>
      if r.certs.length > maxApkSigners then .ok (r.addError .tooManySigners, cd)
      else .ok (r, cd)

end Apk
