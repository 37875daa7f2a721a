import Verif.Spec.Signer
/-! # Specification of v3 signers and signing certificate lineages, independent of the code -/
namespace Apk

/-- An encoded lineage node `b` decodes to `n`; after a previous node it must be signed, together with the algorithm it
    repeats, by the key of the previous node with the algorithm the previous node announced. -/
def NodeOK (env : Env) (parse : Bytes → Option Cert) (prev : Option LNode) (b : Bytes) (n : LNode) : Prop :=
  ∃ signedData der tail tail',
    b = lp signedData ++ leBytes 4 n.flags ++ leBytes 4 n.algo ++ lp n.signature ++ tail ∧
    signedData = lp der ++ leBytes 4 n.parentAlgo ++ tail' ∧
    Small signedData ∧ Small der ∧ Small n.signature ∧ n.flags < 2 ^ 32 ∧ n.algo < 2 ^ 32 ∧ n.parentAlgo < 2 ^ 32 ∧
    parse der = some n.cert ∧
    ∀ p, prev = some p → SigValid env p.cert.key p.algo signedData n.signature ∧ n.parentAlgo = p.algo

/-- A sequence of encoded nodes decodes to a chain of nodes. -/
def ChainOK (env : Env) (parse : Bytes → Option Cert) : Option LNode → List Bytes → List LNode → Prop
  | _, [], [] => True
  | prev, b :: bs, n :: ns => NodeOK env parse prev b n ∧ ChainOK env parse (some n) bs ns
  | _, _, _ => False

/-- A lineage attribute decodes to `nodes`: version 1, a chain, all certificates different. -/
def LineageOK (env : Env) (b : Bytes) (nodes : List LNode) : Prop :=
  (b = [] ∧ nodes = []) ∨
  ∃ items, b = leBytes 4 1 ++ lpSeq items ∧ (∀ x ∈ items, Small x) ∧ ChainOK env env.parseCertStd none items nodes ∧
    (nodes.map (·.cert.raw)).Nodup

/-- Id of an additional attribute. -/
def attrId (attr : Bytes) : Nat := leNat (attr.take 4)

/-- Attribute ids. -/
def lineageAttrId : Nat := 0x3ba06f8c
/-- Attribute ids. -/
def rotationMinSdkAttrId : Nat := 0x559f8b02

/-- A v3 attribute is fine: a lineage decodes and ends with the signer's certificate; a rotation-min-SDK value (looked at
    from Android 13) agrees with the v3.1 block. `rotationMin` is 0 without v3.1 block. -/
def V3AttrOK (env : Env) (maxSdk rotationMin : Int) (main : Cert) (attr : Bytes) : Prop :=
  4 ≤ attr.length ∧
  (attrId attr = lineageAttrId → ∃ nodes, LineageOK env (attr.drop 4) nodes ∧
    ∀ last, nodes.getLast? = some last → last.cert.raw = main.raw) ∧
  (attrId attr = rotationMinSdkAttrId → 33 ≤ maxSdk →
    8 ≤ attr.length ∧ rotationMin ≠ 0 ∧ toI32 (leNat ((attr.drop 4).take 4)) = rotationMin)

/-- `lin` is the last non-empty lineage among the attributes. -/
def LineageOf (env : Env) (attrs : List Bytes) (lin : Option (List LNode)) : Prop :=
  match lin with
  | none => ∀ x ∈ attrs, attrId x = lineageAttrId → LineageOK env (x.drop 4) []
  | some nodes => nodes ≠ [] ∧ ∃ pre x post, attrs = pre ++ x :: post ∧ attrId x = lineageAttrId ∧
      LineageOK env (x.drop 4) nodes ∧ ∀ y ∈ post, attrId y = lineageAttrId → LineageOK env (y.drop 4) []

/-- What a v3 signer declares. -/
structure V3View where
  chain : List Cert
  alg : Nat
  digest : Bytes
  minSdk : Int
  maxSdk : Int
  signedMin : Int
  signedMax : Int
  lineage : Option (List LNode)

/-- A v3 signer satisfying the checks on everything but the signed maximum SDK version. -/
def V3SignerOK (env : Env) (maxSdk rotationMin : Int) (signer : Bytes) (v : V3View) : Prop :=
  ∃ signedData mn mx sigs pk tail sigRecs sig digests certs smin smax attrs tail' digestRecs attrRecs main more,
    signer = lp signedData ++ leBytes 4 mn ++ leBytes 4 mx ++ lp sigs ++ lp pk ++ tail ∧
    Small signedData ∧ Small sigs ∧ Small pk ∧ mn < 2 ^ 32 ∧ mx < 2 ^ 32 ∧ v.minSdk = toI32 mn ∧ v.maxSdk = toI32 mx ∧
    signedData = lp digests ++ lp certs ++ leBytes 4 smin ++ leBytes 4 smax ++ lp attrs ++ tail' ∧
    Small digests ∧ Small certs ∧ Small attrs ∧ smin < 2 ^ 32 ∧ smax < 2 ^ 32 ∧ v.signedMin = toI32 smin ∧ v.signedMax = toI32 smax ∧
    1 ≤ v.minSdk ∧ v.minSdk ≤ v.maxSdk ∧ v.signedMin = v.minSdk ∧
    SigList sigs sigRecs v.alg sig ∧
    KeyAccepts env pk v.alg signedData sig ∧
    CertList env certs pk main more ∧ v.chain = main :: more ∧
    DigestList digests digestRecs v.alg v.digest ∧ digestRecs.map recAlg = sigRecs.map recAlg ∧
    LPList attrs attrRecs ∧ (∀ x ∈ attrRecs, V3AttrOK env maxSdk rotationMin main x) ∧ LineageOf env attrRecs v.lineage

end Apk
