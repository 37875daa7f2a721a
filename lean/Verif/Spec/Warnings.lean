import Verif.Spec.Verdict
import Verif.Spec.Frosting
/-! # Specification of the warnings of an accepted APK, independent of the code -/
namespace Apk

/-- One warning for each signature with an algorithm that is not supported. -/
def signatureWarnings (recs : List Bytes) : List W :=
  recs.filterMap (fun rec => if algStrength (recAlg rec) = 0 then some (.unsupportedAlgo (recAlg rec)) else none)

/-- The warning that an attribute of a v2 signer causes: any id but that of stripping protection is unknown. -/
def v2AttrWarning (attr : Bytes) : Option W :=
  if attrId attr = 0xbeeff00d then none else some (.unknownAttr (attrId attr))

/-- The warning that an attribute of a v3 or v3.1 signer causes. Lineages are known, and from Android 13 on the minimum SDK version
    of rotation; the attribute "rotation on development release" belongs into v3.1 blocks. -/
def v3AttrWarning (inV31 : Bool) (maxSdk : Int) (attr : Bytes) : Option W :=
  if attrId attr = lineageAttrId then none
  else if attrId attr = rotationMinSdkAttrId ∧ 33 ≤ maxSdk then none
  else if attrId attr = 0xc2a6b3ba then (if inV31 then none else some .rotationOnDevIgnored)
  else some (.unknownAttr (attrId attr))

/-- The warnings of a v2 signer: unsupported signatures, then attributes. -/
def V2SignerWarnings (signer : Bytes) (ws : List W) : Prop :=
  ∃ signedData sigs pk tail sigRecs digests certs attrs tail' attrRecs,
    signer = lp signedData ++ lp sigs ++ lp pk ++ tail ∧ Small signedData ∧ Small sigs ∧ Small pk ∧
    signedData = lp digests ++ lp certs ++ lp attrs ++ tail' ∧ Small digests ∧ Small certs ∧ Small attrs ∧
    LPList sigs sigRecs ∧ LPList attrs attrRecs ∧
    ws = signatureWarnings sigRecs ++ attrRecs.filterMap v2AttrWarning

/-- The warnings of a v3 or v3.1 signer: unsupported signatures, attributes, and, if there is a v3.1 block where rotation starts
    (`rotationMin`), that the attribute saying so is missing. -/
def V3SignerWarnings (inV31 : Bool) (maxSdk rotationMin : Int) (signer : Bytes) (ws : List W) : Prop :=
  ∃ signedData mn mx sigs pk tail sigRecs digests certs smin smax attrs tail' attrRecs,
    signer = lp signedData ++ leBytes 4 mn ++ leBytes 4 mx ++ lp sigs ++ lp pk ++ tail ∧
    Small signedData ∧ Small sigs ∧ Small pk ∧ mn < 2 ^ 32 ∧ mx < 2 ^ 32 ∧
    signedData = lp digests ++ lp certs ++ leBytes 4 smin ++ leBytes 4 smax ++ lp attrs ++ tail' ∧
    Small digests ∧ Small certs ∧ Small attrs ∧ smin < 2 ^ 32 ∧ smax < 2 ^ 32 ∧
    LPList sigs sigRecs ∧ LPList attrs attrRecs ∧
    ws = signatureWarnings sigRecs ++ attrRecs.filterMap (v3AttrWarning inV31 maxSdk) ++
      (if rotationMin ≠ 0 ∧ ∀ x ∈ attrRecs, attrId x ≠ rotationMinSdkAttrId then [.rotationAttrMissing] else [])

/-- The warnings of a block: those of its signers, in order. -/
def BlockWarnings (one : Bytes → List W → Prop) (block : Bytes) (ws : List W) : Prop :=
  ∃ (signers : List Bytes) (l : List (Bytes × List W)), SignersOf block signers ∧ signers = l.map (·.1) ∧ (∀ p ∈ l, one p.1 p.2) ∧
    ws = (l.map (·.2)).flatten

/-- One warning for each frosting block that is not valid. -/
inductive FrostingWarnings (env : Env) : List Bytes → List W → Prop
  | nil : FrostingWarnings env [] []
  | good {v : Bytes} {vs : List Bytes} {ws : List W} (sha proto : Bytes) (h : FrostValid env v sha proto) (h' : FrostingWarnings env vs ws) :
      FrostingWarnings env (v :: vs) ws
  | bad {v : Bytes} {vs : List Bytes} {ws : List W} (h : ¬ ∃ sha proto, FrostValid env v sha proto) (h' : FrostingWarnings env vs ws) :
      FrostingWarnings env (v :: vs) (.frosting :: ws)

/-- The warnings of the scheme that accepted, apart from frosting. -/
inductive SchemeWarnings (env : Env) (minSdk maxSdk : Int) (ps : List (Nat × Bytes)) : Nat → List W → Prop
  /-- The signing block was not looked at. -/
  | old (h : maxSdk < 24) : SchemeWarnings env minSdk maxSdk ps 1 []
  /-- v3.1 block, then v3 block. -/
  | v31 {b31 b3 : Bytes} {vs : List V3View} {ws ws3 : List W} (h31 : lastVal ps idV31 = some b31) (h3 : lastVal ps idV3 = some b3)
      (hv : V3Block env maxSdk 0 b31 vs)
      (h : BlockWarnings (V3SignerWarnings true maxSdk 0) b31 ws) (h' : BlockWarnings (V3SignerWarnings false maxSdk (rotationOf vs)) b3 ws3) :
      SchemeWarnings env minSdk maxSdk ps 31 (ws ++ ws3)
  /-- v3 block. -/
  | v3 {b3 : Bytes} {ws : List W} (h3 : lastVal ps idV3 = some b3) (h : BlockWarnings (V3SignerWarnings false maxSdk 0) b3 ws) :
      SchemeWarnings env minSdk maxSdk ps 3 ws
  /-- v2 block. -/
  | v2 {b2 : Bytes} {ws : List W} (h2 : lastVal ps idV2 = some b2) (h31 : NoV31 ps maxSdk) (h3 : NoV3 ps maxSdk) (h : BlockWarnings V2SignerWarnings b2 ws) :
      SchemeWarnings env minSdk maxSdk ps 2 ws
  /-- v2 block after the v3 block was found to be invalid: the errors (at least one) that were found in it are warnings now. -/
  | fallback {b2 b3 : Bytes} {ws0 ws : List W} {es : List E} (h2 : lastVal ps idV2 = some b2) (h3 : lastVal ps idV3 = some b3) (hm : minSdk < 28)
      (hes : es ≠ []) (h : BlockWarnings V2SignerWarnings b2 ws) :
      SchemeWarnings env minSdk maxSdk ps 2 (ws0 ++ es.map .v3Error ++ ws)

end Apk
