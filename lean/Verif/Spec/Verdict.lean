import Verif.Spec.Scheme
/-! # Specification of the whole verdict on the signing block of an APK, independent of the code -/
namespace Apk

/-- Block ids. -/
def idV2 : Nat := 0x7109871a
/-- Block ids. -/
def idV3 : Nat := 0xf05368c0
/-- Block ids. -/
def idV31 : Nat := 0x1b93ad61

/-- A block with this id is in the signing block. -/
def InBlock (ps : List (Nat × Bytes)) (id : Nat) : Prop := lastVal ps id ≠ none

/-- A v2 signer declares, in its signed attributes, that the APK was also signed with scheme `k`. -/
def DeclaresScheme (signer : Bytes) (k : Nat) : Prop :=
  ∃ signedData digests certs attrs tail tail' recs attr, signer = lp signedData ++ tail ∧ Small signedData ∧
    signedData = lp digests ++ lp certs ++ lp attrs ++ tail' ∧ Small digests ∧ Small certs ∧ Small attrs ∧
    LPList attrs recs ∧ attr ∈ recs ∧ leNat (attr.take 4) = 0xbeeff00d ∧ leNat ((attr.drop 4).take 4) = k

/-- The signers of a scheme block. -/
def SignersOf (block : Bytes) (signers : List Bytes) : Prop :=
  ∃ b tail, block = lp b ++ tail ∧ Small b ∧ LPList b signers

/-- A block with this id is reported among the extra blocks. -/
def ExtraPresent (ps : List (Nat × Bytes)) (maxSdk : Int) (id : Nat) : Prop := extraId id maxSdk ∧ lastVal ps id ≠ none

/-- No v3.1 block is in use. -/
def NoV31 (ps : List (Nat × Bytes)) (maxSdk : Int) : Prop := 33 ≤ maxSdk → lastVal ps idV31 = none
/-- No v3 block is in use. -/
def NoV3 (ps : List (Nat × Bytes)) (maxSdk : Int) : Prop := 28 ≤ maxSdk → lastVal ps idV3 = none

/-- The strongest signature scheme whose block is present and supported by the maximum SDK version. -/
def strongest (ps : List (Nat × Bytes)) (maxSdk : Int) : Option Nat :=
  if 33 ≤ maxSdk ∧ (lastVal ps idV31).isSome = true then some 31
  else if 28 ≤ maxSdk ∧ (lastVal ps idV3).isSome = true then some 3
  else if 24 ≤ maxSdk ∧ (lastVal ps idV2).isSome = true then some 2
  else none

/-- Acceptance by the scheme that is tried first: `Verdict … scheme certs lineage`. -/
inductive Verdict (env : Env) (secs : List Bytes) (minSdk maxSdk : Int) (ps : List (Nat × Bytes)) :
    Nat → List (List Cert) → Option (List LNode) → Prop
  /-- Platforms before Android 7 do not look at the signing block. -/
  | old (h : maxSdk < 24) : Verdict env secs minSdk maxSdk ps 1 [] none
  /-- v3.1 with v3 base block. -/
  | v31 {b31 b3 : Bytes} {vs vs3 : List V3View} {top top3 : Option (List LNode)} (hs : 33 ≤ maxSdk)
      (h31 : lastVal ps idV31 = some b31) (h3 : lastVal ps idV3 = some b3)
      (h : V31Accepts env secs minSdk maxSdk b31 b3 vs vs3 top top3) :
      Verdict env secs minSdk maxSdk ps 31 (vs.map V3View.chain) top
  /-- v3. -/
  | v3 {b3 : Bytes} {vs : List V3View} {top : Option (List LNode)} (hs : 28 ≤ maxSdk) (h31 : NoV31 ps maxSdk)
      (h3 : lastVal ps idV3 = some b3) (h : V3Accepts env secs minSdk maxSdk b3 vs top) :
      Verdict env secs minSdk maxSdk ps 3 (vs.map V3View.chain) top
  /-- v2, at most ten signers. -/
  | v2 {b2 : Bytes} {vs : List V2View} (hs : 24 ≤ maxSdk) (h31 : NoV31 ps maxSdk) (h3 : NoV3 ps maxSdk)
      (h2 : lastVal ps idV2 = some b2) (h : V2Accepts env secs maxSdk (ExtraPresent ps maxSdk) b2 vs) (h10 : vs.length ≤ 10) :
      Verdict env secs minSdk maxSdk ps 2 (vs.map V2View.chain) none

/-- Acceptance by v2 after v3 failed. `stale`, `lineage`: left over from the failed v3 verification. -/
inductive Fallback (env : Env) (secs : List Bytes) (minSdk maxSdk : Int) (ps : List (Nat × Bytes)) :
    List (List Cert) → List V2View → Prop
  | mk {b3 b2 : Bytes} {stale : List (List Cert)} {vs : List V2View} (hs : 28 ≤ maxSdk) (hmin : minSdk < 28)
      (h31 : NoV31 ps maxSdk) (h3 : lastVal ps idV3 = some b3)
      (hf : ¬ ∃ vs top, V3Accepts env secs minSdk maxSdk b3 vs top) (h2 : lastVal ps idV2 = some b2)
      (h : V2Accepts env secs maxSdk (fun id => id = idV3 ∨ ExtraPresent ps maxSdk id) b2 vs)
      (h10 : stale.length + vs.length ≤ 10) : Fallback env secs minSdk maxSdk ps stale vs

end Apk
