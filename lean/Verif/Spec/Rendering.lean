import Verif.Spec.Text
/-! # Specification of the texts for block ids, signature algorithms and API levels -/
namespace Apk.Spec

/-- `s` is the number `n` written with digits of a base, at least `w` of them, without superfluous zeros in front. -/
def NumeralText (base w n : Nat) (s : Bytes) : Prop :=
  ∃ ds : List Nat, ds ≠ [] ∧ (∀ d ∈ ds, d < base) ∧ s = ds.map (fun d => hexDigits.getD d 0) ∧
    ds.foldl (fun a d => a * base + d) 0 = n ∧ w ≤ ds.length ∧ (max w 1 < ds.length → ds.head? ≠ some 0)

/-- The blocks of an APK signing block that have names: the ids are those of the Android source tree and of the Play and Meituan
    stores. -/
inductive BlockName : Nat → Bytes → Prop
  | dependencies : BlockName 0x504b4453 (b!"DependencyMetadata")
  | meituan : BlockName 0x71777777 (b!"MeituanMetadata")
  | stampV1 : BlockName 0x2b09189e (b!"SourceStampV1 (deprecated)")
  | stampV2 : BlockName 0x6dff800d (b!"SourceStampV2")
  | padding : BlockName 0x42726577 (b!"VerityPadding")
  | v2 : BlockName 0x7109871a (b!"SchemeV2Signature")
  | v3 : BlockName 0xf05368c0 (b!"SchemeV3Signature")
  | v31 : BlockName 0x1b93ad61 (b!"SchemeV3.1Signature")
  | frosting : BlockName 0x2146444e (b!"PlayFrosting")

/-- The signature algorithms of schemes 2 and 3. -/
inductive AlgoName : Nat → Bytes → Prop
  | pss256 : AlgoName 0x0101 (b!"SigRsaPssWithSha256")
  | pss512 : AlgoName 0x0102 (b!"SigRsaPssWithSha512")
  | rsa256 : AlgoName 0x0103 (b!"SigRsaPkcs1V15WithSha256")
  | rsa512 : AlgoName 0x0104 (b!"SigRsaPkcs1V15WithSha512")
  | ecdsa256 : AlgoName 0x0201 (b!"SigEcdsaWithSha256")
  | ecdsa512 : AlgoName 0x0202 (b!"SigEcdsaWithSha512")
  | dsa256 : AlgoName 0x0301 (b!"SigDsaWithSha256")
  | verityRsa : AlgoName 0x0421 (b!"SigVerityRsaPkcs1V15WithSha256")
  | verityEcdsa : AlgoName 0x0423 (b!"SigVerityEcdsaWithSha256")
  | verityDsa : AlgoName 0x0425 (b!"SigVerityDsaWithSha256")

/-- The API levels that have names, in order; level 20 (wearables) has none. -/
def levelsFrom3 : List Bytes :=
  [b!"V1_5_Cupcake", b!"V1_6_Donut", b!"V2_0_Eclair", b!"V2_0_1_Eclair", b!"V2_1_Eclair", b!"V2_2_Froyo", b!"V2_3_Gingerbread",
   b!"V2_3_3_Gingerbread", b!"V3_0_Honeycomb", b!"V3_1_Honeycomb", b!"V3_2_Honeycomb", b!"V4_0_1_ICS", b!"V4_0_3_ICS", b!"V4_1_JellyBean",
   b!"V4_2_JellyBean", b!"V4_3_JellyBean", b!"V4_4_KitKat", [], b!"V5_0_Lollipop", b!"V5_1_Lollipop", b!"V6_0_Marshmallow",
   b!"V7_0_Nougat", b!"V7_1_Nougat", b!"V8_0_Oreo", b!"V8_1_Oreo", b!"V9_0_Pie", b!"V10_0_Ten", b!"V11_0_Eleven", b!"V12_0_S",
   b!"V12_1_S_V2", b!"V13_0_TIRAMISU", b!"V14_0_UPSIDE_DOWN_CAKE"]

/-- The name of an API level. -/
inductive LevelName : Int → Bytes → Prop
  | release (i : Nat) (s : Bytes) : levelsFrom3[i]? = some s → s ≠ [] → LevelName (3 + i) s
  | lowest : LevelName (-1) (b!"-Infinity")
  | highest : LevelName 2147483647 (b!"+Infinity")

/-- The text of a block id. -/
def BlockText (id : Nat) (s : Bytes) : Prop :=
  BlockName id s ∨ ((∀ n, ¬ BlockName id n) ∧ ∃ t, NumeralText 16 8 id t ∧ s = b!"Unknown (0x" ++ t ++ b!")")

/-- The text of a signature algorithm. -/
def AlgoText (id : Nat) (s : Bytes) : Prop :=
  AlgoName id s ∨ ((∀ n, ¬ AlgoName id n) ∧ ∃ t, NumeralText 16 4 id t ∧ s = b!"0x" ++ t)

/-- The text of an API level. -/
def LevelText (l : Int) (s : Bytes) : Prop :=
  LevelName l s ∨ ((∀ n, ¬ LevelName l n) ∧
    ((0 ≤ l ∧ NumeralText 10 1 l.toNat s) ∨ (l < 0 ∧ ∃ t, NumeralText 10 1 (-l).toNat t ∧ s = b!"-" ++ t)))

end Apk.Spec
