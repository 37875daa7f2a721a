import Verif.Spec.V3
import Verif.Spec.Digest
import Verif.Spec.Container
/-! # Specification of whole scheme blocks and of the binding to the file, independent of the code -/
namespace Apk

/-- The end-of-central-directory record with its central directory offset redirected to `off`. -/
def redirected (rec : Bytes) (off : Nat) : Bytes := rec.take 16 ++ leBytes 4 off ++ rec.drop 20

/-- The three sections covered by the content digests: everything before the signing block, the central directory, and
    the EOCD record as if the central directory followed `head` directly. -/
def signedSections (head cd rec : Bytes) : List Bytes := [head, cd, redirected rec head.length]

/-- The content digest of type `t` of the sections, when it is defined. -/
def contentDigest (env : Env) (t : CD) (secs : List Bytes) : Option Bytes :=
  match t with
  | .chunked256 => if (mibChunks secs).length < 2 ^ 21 - 1 then some (chunkedDigest env.sha256 secs) else none
  | .chunked512 => if (mibChunks secs).length < 2 ^ 21 - 1 then some (chunkedDigest env.sha512 secs) else none
  | .verity256 => if (secs.headD []).length % 4096 = 0 then some (veritySpec env.sha256 secs.flatten) else none
  | .nonChunked256 => none

/-- Declared digests `(algorithm, digest)` of the same digest type agree. -/
def DigestsAgree (ds : List (Nat × Bytes)) : Prop := ∀ p ∈ ds, ∀ q ∈ ds, algDigest p.1 = algDigest q.1 → p.2 = q.2

/-- Every declared digest is the digest of the sections. -/
def DigestsMatch (env : Env) (secs : List Bytes) (ds : List (Nat × Bytes)) : Prop :=
  ∀ p ∈ ds, contentDigest env (algDigest p.1) secs = some p.2

/-- What a v2 signer declares: certificate chain, algorithm of the verified signature, digest for it. -/
structure V2View where
  chain : List Cert
  alg : Nat
  digest : Bytes

/-- A v2 block: a list of conforming signers with agreeing digests. -/
def V2Block (env : Env) (maxSdk : Int) (present : Nat → Prop) (block : Bytes) (vs : List V2View) : Prop :=
  ∃ (signers tail : Bytes) (l : List (Bytes × V2View)), block = lp signers ++ tail ∧ Small signers ∧ LPList signers (l.map (·.1)) ∧ vs = l.map (·.2) ∧
    (∀ p ∈ l, V2SignerOK env maxSdk present p.1 p.2.chain p.2.alg p.2.digest) ∧
    DigestsAgree (vs.map (fun v => (v.alg, v.digest)))

/-- A v3 or v3.1 block: a list of conforming signers with agreeing digests. -/
def V3Block (env : Env) (maxSdk rotationMin : Int) (block : Bytes) (vs : List V3View) : Prop :=
  ∃ (signers tail : Bytes) (l : List (Bytes × V3View)), block = lp signers ++ tail ∧ Small signers ∧ LPList signers (l.map (·.1)) ∧ vs = l.map (·.2) ∧
    (∀ p ∈ l, V3SignerOK env maxSdk rotationMin p.1 p.2) ∧
    DigestsAgree (vs.map (fun v => (v.alg, v.digest)))

/-- Signers, in order of their minimum SDK, continue each other without gap or overlap, from `lo` to `hi`. -/
inductive Contiguous : List V3View → Int → Int → Prop
  | one (v : V3View) : Contiguous [v] v.minSdk v.maxSdk
  | cons (v : V3View) {vs : List V3View} {hi : Int} (h : Contiguous vs (v.maxSdk + 1) hi) : Contiguous (v :: vs) v.minSdk hi

/-- Node equality as the library sees it: certificates are compared by their encoding. -/
def LNode.key (n : LNode) : Bytes × Nat × Nat × Bytes × Nat := (n.cert.raw, n.parentAlgo, n.algo, n.signature, n.flags)

/-- Lineages of signers (in SDK order) grow: each is a prefix of `top`, and `top` is one of them; sizes do not decrease. -/
def LineagesGrow (vs : List V3View) (top : Option (List LNode)) : Prop :=
  (vs.filterMap V3View.lineage).Pairwise (fun a b => a.length ≤ b.length) ∧
  match top with
  | none => ∀ v ∈ vs, v.lineage = none
  | some t => (∃ v ∈ vs, v.lineage = some t) ∧
      ∀ v ∈ vs, ∀ l, v.lineage = some l → (l.map LNode.key) <+: (t.map LNode.key)

/-- A v3 signer list that covers the SDK range `[reqMin, reqMax]` with consistent lineages. -/
def V3Covers (vs : List V3View) (reqMin reqMax : Int) (top : Option (List LNode)) : Prop :=
  ∃ sorted lo hi, sorted.Perm vs ∧ Contiguous sorted lo hi ∧ lo ≤ reqMin ∧ reqMax ≤ hi ∧ LineagesGrow sorted top

/-- Digests declared by v2 signers. -/
def v2Digests (vs : List V2View) : List (Nat × Bytes) := vs.map (fun v => (v.alg, v.digest))
/-- Digests declared by v3 signers. -/
def v3Digests (vs : List V3View) : List (Nat × Bytes) := vs.map (fun v => (v.alg, v.digest))

/-- The v2 block is valid for the file: conforming signers (at least one) whose digests are those of the file. -/
def V2Accepts (env : Env) (secs : List Bytes) (maxSdk : Int) (present : Nat → Prop) (block : Bytes) (vs : List V2View) : Prop :=
  V2Block env maxSdk present block vs ∧ vs ≠ [] ∧ DigestsMatch env secs (v2Digests vs)

/-- The v3 block is valid for the file and the SDK range. -/
def V3Accepts (env : Env) (secs : List Bytes) (minSdk maxSdk : Int) (block : Bytes) (vs : List V3View)
    (top : Option (List LNode)) : Prop :=
  V3Block env maxSdk 0 block vs ∧ vs ≠ [] ∧ DigestsMatch env secs (v3Digests vs) ∧ V3Covers vs (max minSdk 28) maxSdk top

/-- Where rotation starts according to the v3.1 signers (0: unbounded). -/
def rotationOf (vs : List V3View) : Int :=
  if vs.foldr (fun v m => min v.minSdk m) 2147483647 = 2147483647 then 0
  else vs.foldr (fun v m => min v.minSdk m) 2147483647

/-- What the library checks of a v3.1 block together with its v3 base block. The content digests of the v3.1 signers are
    not among it. -/
def V31Accepts (env : Env) (secs : List Bytes) (minSdk maxSdk : Int) (block31 block3 : Bytes) (vs31 vs3 : List V3View)
    (top top3 : Option (List LNode)) : Prop :=
  V3Block env maxSdk 0 block31 vs31 ∧ vs31 ≠ [] ∧ V3Covers vs31 maxSdk maxSdk top ∧
  V3Block env maxSdk (rotationOf vs31) block3 vs3 ∧ vs3 ≠ [] ∧ DigestsMatch env secs (v3Digests vs3) ∧
  V3Covers vs3 (max minSdk 28) (if rotationOf vs31 = 0 then maxSdk else rotationOf vs31 - 1) top3

end Apk
