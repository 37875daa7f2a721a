import Verif.Spec.V1
import Verif.Spec.Verdict
import Verif.Model.Top
/-! # Specification of the package API -/
namespace Apk

/-! ## The Android manifest -/

/-- Value of a string of decimal digits. -/
def decimalValue : Bytes → Nat
  | [] => 0
  | ds => ds.foldl (fun n c => 10 * n + (c.toNat - 48)) 0

/-- `v` is a decimal numeral, with an optional sign, of the 32-bit signed integer `i`. -/
def Numeral (v : Bytes) (i : Int) : Prop :=
  ∃ sign ds, v = sign ++ ds ∧ ds ≠ [] ∧ (∀ c ∈ ds, 48 ≤ c.toNat ∧ c.toNat ≤ 57) ∧
    (((sign = [] ∨ sign = [43]) ∧ i = decimalValue ds) ∨ (sign = [45] ∧ i = -(decimalValue ds : Int))) ∧ -2147483648 ≤ i ∧ i < 2147483648

/-- The first attribute with the given name, if there is one, is the numeral of `o`; `none` if there is none. -/
def AttrNum (attrs : List (Bytes × Bytes)) (name : Bytes) (o : Option Int) : Prop :=
  (o = none ∧ ∀ p ∈ attrs, p.1 ≠ name) ∨
  ∃ pre v post i, attrs = pre ++ (name, v) :: post ∧ (∀ p ∈ pre, p.1 ≠ name) ∧ Numeral v i ∧ o = some i

/-- The target sandbox version declared by the `manifest` elements among the tokens: the last one counts, 1 if there is none. -/
inductive SandboxOf : List XTok → Int → Prop
  | nil : SandboxOf [] 1
  | other {ts s t} : SandboxOf ts s → (∀ as, t ≠ .start (b!"manifest") as) → SandboxOf (ts ++ [t]) s
  | absent {ts s as} : SandboxOf ts s → AttrNum as (b!"targetSandboxVersion") none → SandboxOf (ts ++ [.start (b!"manifest") as]) s
  | declared {ts s as v} : SandboxOf ts s → AttrNum as (b!"targetSandboxVersion") (some v) → SandboxOf (ts ++ [.start (b!"manifest") as]) v

/-- The token is a `uses-sdk` element. -/
def IsUsesSdk (t : XTok) : Prop := ∃ as, t = .start (b!"uses-sdk") as

/-- What a document says: the versions declared by the first `uses-sdk` element (by default minimal version 1 and target 0) and the
    sandbox version declared before it. The document has to be well-formed only up to that element. -/
inductive DocSays (d : XDoc) : SdkInfo → Prop
  | uses {pre post as s mn tg} : d.toks = pre ++ .start (b!"uses-sdk") as :: post → (∀ t ∈ pre, ¬ IsUsesSdk t) → SandboxOf pre s →
      AttrNum as (b!"minSdkVersion") mn → AttrNum as (b!"targetSdkVersion") tg → DocSays d ⟨mn.getD 1, tg.getD 0, s⟩
  | no_uses {s} : (∀ t ∈ d.toks, ¬ IsUsesSdk t) → SandboxOf d.toks s → d.fails = false → DocSays d ⟨1, 0, s⟩

/-- What the archive's manifest says. Without a file the defaults hold; a file without copies gives zeros. -/
inductive ManifestSays (env : EnvT) (z : Zip1) : SdkInfo → Prop
  | no_file : z.zip.file (b!"AndroidManifest.xml") = none → ManifestSays env z ⟨1, 0, 1⟩
  | no_copy {f} : z.zip.file (b!"AndroidManifest.xml") = some f → f.openOk = true → f.attempts = [] → ManifestSays env z ⟨0, 0, 0⟩
  | says {f i} : z.zip.file (b!"AndroidManifest.xml") = some f → f.openOk = true → f.attempts ≠ [] → DocSays (env.axml f) i →
      ManifestSays env z i

/-- The manifest cannot be read. -/
def ManifestBad (env : EnvT) (z : Zip1) : Prop := ∀ i, ¬ ManifestSays env z i

/-- The manifest is consulted: to find the minimal version, or for the rules of Android 8 and later. -/
def Consulted (minSdk maxSdk : Int) : Prop := minSdk = -1 ∨ 26 ≤ maxSdk

/-- The minimal SDK version that is used: the given one, or the one of the manifest if the given one is -1 and the manifest
    can be read. -/
def EffectiveMin (env : EnvT) (z : Zip1) (minSdk m : Int) : Prop :=
  (minSdk ≠ -1 ∧ m = minSdk) ∨ (minSdk = -1 ∧ ∃ i, ManifestSays env z i ∧ m = i.min) ∨ (minSdk = -1 ∧ ManifestBad env z ∧ m = -1)

/-! ## The verdict -/

/-- The rules for newer platforms: the manifest declares a sandbox version above 1 and the range includes Android 8 or later, or a
    target SDK version of 30 or more that is in the range; then scheme 2 or later is required. -/
def NeedsV2 (i : SdkInfo) (maxSdk : Int) : Prop := (26 ≤ maxSdk ∧ 1 < i.sandbox) ∨ (30 ≤ i.target ∧ i.target ≤ maxSdk)

/-- The file starts with the magic of DEX files, "dex\n". -/
def StartsWithDex (file : Bytes) : Prop := [0x64, 0x65, 0x78, 0x0a] <+: file

end Apk

namespace Apk

/-- The signing block verified with scheme 2 or later. -/
def BlockVerified (out : Outcome) : Prop := out.err = none ∧ ∃ r, out.res = some r ∧ 2 ≤ r.core.schemeId

/-- The verdict of the package, given the minimal SDK version `m` and the outcome `out` of the signing block verification: the block
    is valid and the oldest platform knows it; or it is valid or absent and the v1 signature is valid, unless the rules for newer
    platforms ask for more, the manifest of a block-signed archive cannot be read, or the file is also a DEX file. -/
inductive PackageOk (env : EnvT) (ord : Ord1) (z : Zip1) (file : Bytes) (minSdk maxSdk m : Int) (out : Outcome) : Prop
  | block : out.err = none → 24 ≤ m → PackageOk env ord z file minSdk maxSdk m out
  | jar (c : List (List Cert)) : (out.err = none ∧ m < 24 ∨ isNotFound out.err = true) →
      verifySchemeV1 env.toEnv1 ord z (out.err.isNone) m maxSdk = .ok (c, none) →
      (∀ i, ManifestSays env z i → NeedsV2 i maxSdk → BlockVerified out) →
      (BlockVerified out → Consulted minSdk maxSdk → ¬ ManifestBad env z) →
      ¬ StartsWithDex file → PackageOk env ord z file minSdk maxSdk m out

end Apk
