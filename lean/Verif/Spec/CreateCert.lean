import Verif.Spec.Create
import Verif.Spec.Chain
import Verif.Model.CreateCert
/-!
# What a certificate written by `CreateCertificate` says

Of the model only the vocabulary (templates, signers, the surroundings) is used, and encoding/asn1 for the names that are written.
-/
namespace Apk

/-- The hash functions of the signature algorithms (3 SHA-1, 5 SHA-256, 6 SHA-384, 7 SHA-512; 2 MD5), with the algorithms of RSA and
    of elliptic curves: those that can be asked for. -/
def algHashes : List (Nat × Nat) :=
  [(2, 2), (3, 3), (4, 5), (5, 6), (6, 7), (13, 5), (14, 6), (15, 7), (9, 3), (10, 5), (11, 6), (12, 7)]

/-- The algorithm that is taken if none is asked for: RSA with SHA-256; for elliptic curves the hash function goes by the curve. -/
inductive DefaultAlgorithm : Key → Nat → Prop
  | rsa {n e : Int} : DefaultAlgorithm (.rsa n e) 4
  | p224 {x y : Int} : DefaultAlgorithm (.ecdsa [1,3,132,0,33] x y) 10
  | p256 {x y : Int} : DefaultAlgorithm (.ecdsa [1,2,840,10045,3,1,7] x y) 10
  | p384 {x y : Int} : DefaultAlgorithm (.ecdsa [1,3,132,0,34] x y) 11
  | p521 {x y : Int} : DefaultAlgorithm (.ecdsa [1,3,132,0,35] x y) 12

/-- The algorithms of a kind of key. -/
inductive AlgorithmFor : Key → Nat → Prop
  | rsa {n e : Int} {a : Nat} : a ∈ [2, 3, 4, 5, 6, 13, 14, 15] → AlgorithmFor (.rsa n e) a
  | ecdsa {c : List Nat} {x y : Int} {a : Nat} : a ∈ [9, 10, 11, 12] → AlgorithmFor (.ecdsa c x y) a

/-- The bytes of the subject: those of the template, or its names in DER. -/
def SubjectBytes (env : CreateEnv) (t : CertTemplate) (b : Bytes) : Prop :=
  (t.rawSubject ≠ [] ∧ b = t.rawSubject) ∨ (t.rawSubject = [] ∧ marshal env.mar rdnsTy t.subject = .ok b)

/-- Keys that can be read: positive RSA numbers with an exponent of 64 bits, and points that `point` finds again. -/
inductive KeyReadable (env : CreateEnv) (point : List Nat → Bytes → Option (Int × Int)) : Key → Prop
  | rsa {n e : Int} : 0 < n → 0 < e → IsInt64 e → KeyReadable env point (.rsa n e)
  | ecdsa {c : List Nat} {x y : Int} : point c (env.point c x y) = some (x, y) → KeyReadable env point (.ecdsa c x y)

/-- The extensions that the parser understands. -/
def understoodExts : List (List Nat) :=
  [[2,5,29,15], [2,5,29,19], [2,5,29,17], [2,5,29,30], [2,5,29,31], [2,5,29,35], [2,5,29,37], [2,5,29,14], [2,5,29,32], [1,3,6,1,5,5,7,1,1]]

/-- The key that is named as the one that signs: that of the parent, if the certificate is not its own parent by name. -/
def signingKeyId (t p : CertTemplate) (issuer subject : Bytes) : Bytes :=
  if issuer ≠ subject ∧ p.ext.subjectKeyId ≠ [] then p.ext.subjectKeyId else t.ext.authorityKeyId

/-- `x` is a certificate made from the template `t` under the parent `p`, with the names `issuer` and `subject`, for the key `pub`,
    signed by `s`. -/
structure CreatedFrom (env : CreateEnv) (t p : CertTemplate) (issuer subject : Bytes) (pub : Key) (s : CertSigner) (x : CertFull) : Prop where
  version : x.version = 3
  serial : t.serial = some x.base.serial
  notBefore : x.base.notBefore = t.notBefore
  notAfter : x.base.notAfter = t.notAfter
  key : x.key = pub
  rawSubject : x.rawSubject = subject
  rawIssuer : x.rawIssuer = issuer
  subjectName : NameIs env.asn subject x.base.subject
  issuerName : NameIs env.asn issuer x.base.issuer
  /-- critical extra extensions are reported as not handled -/
  fields : x.ext = { templateSays t.ext (signingKeyId t p issuer subject) with unhandled := (t.extra.filter (fun e => e.2.1)).map (fun e => e.1) }
  handled : x.base.critExt = true ↔ ∃ e ∈ t.extra, e.2.1 = true
  which : x.extensions.map (fun e => (e.1, e.2.1)) = writtenExts t.ext (signingKeyId t p issuer subject) t.extra ++ t.extra.map (fun e => (e.1, e.2.1))
  extra : ∃ written, x.extensions = written ++ t.extra
  algorithm : AlgorithmFor s.pub x.base.sigAlg
  asked : t.sigAlg ≠ 0 → x.base.sigAlg = t.sigAlg
  unasked : t.sigAlg = 0 → DefaultAlgorithm s.pub x.base.sigAlg
  /-- the signature is over the part that is signed, and made with the hash function and the padding of the algorithm -/
  signature : ∃ hash h, (x.base.sigAlg, hash) ∈ algHashes ∧ env.hash hash = some h ∧
    s.sign (decide (x.base.sigAlg ∈ [13, 14, 15])) hash (h x.rawTbs) = some x.signature

/-- What the signer makes is accepted by `cenv`, with the signer's key and the same padding and hash function. -/
def HonestSigner (cenv : ChainEnv) (s : CertSigner) : Prop :=
  ∀ pss hash digest sig, s.sign pss hash digest = some sig →
    match s.pub with
    | .rsa n e => (if pss then cenv.rsaPss hash (.rsa n e) digest sig else cenv.rsaPkcs1 hash (.rsa n e) digest sig) = true
    | .ecdsa c x y => ∃ r v, cenv.asn1RS sig = some (r, v, []) ∧ 0 < r ∧ 0 < v ∧ cenv.ecdsaVerify (.ecdsa c x y) digest r v = true
    | _ => True

/-- With this key certificates can be signed with the algorithm; 0: no algorithm is asked for. -/
def MayAsk (pub : Key) (requested : Nat) : Prop := (∃ a, DefaultAlgorithm pub a) ∧ (requested = 0 ∨ AlgorithmFor pub requested)

/-- Keys that certificates can be made for. -/
inductive KeyWritable : Key → Prop
  | rsa {n e : Int} : KeyWritable (.rsa n e)
  | ecdsa {c : List Nat} {x y : Int} : knownCurve c = true → KeyWritable (.ecdsa c x y)

end Apk
