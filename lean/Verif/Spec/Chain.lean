import Verif.Model.Chain
import Verif.Spec.Marshal
/-!
# Specification of certificate chains and host names

Nothing here refers to pools, caches or loops.
-/
namespace Apk.Spec

/-- The hash function of a signature algorithm: SHA-1 (3), SHA-256 (5), SHA-384 (6), SHA-512 (7). MD2 and MD5 are not accepted. -/
inductive SigHash : Nat → Nat → Prop
  | sha1 (a : Nat) : a ∈ [3, 7, 9] → SigHash a 3
  | sha256 (a : Nat) : a ∈ [4, 8, 10, 13] → SigHash a 5
  | sha384 (a : Nat) : a ∈ [5, 11, 14] → SigHash a 6
  | sha512 (a : Nat) : a ∈ [6, 12, 15] → SigHash a 7

/-- `sig` is a signature over `msg` for a public key. The kind of the key decides how it is checked; the algorithm only gives the hash
    function and, for RSA, the padding (13 to 15 are PSS). -/
inductive ValidSig (env : ChainEnv) (algo : Nat) (msg sig : Bytes) : Key → Prop
  | rsa (n e : Int) (id : Nat) (h : Bytes → Bytes) : SigHash algo id → env.hash id = some h →
      (13 ≤ algo → env.rsaPss id (.rsa n e) (h msg) sig = true) → (algo < 13 → env.rsaPkcs1 id (.rsa n e) (h msg) sig = true) →
      ValidSig env algo msg sig (.rsa n e)
  | dsa (p q g y r s : Int) (id : Nat) (h : Bytes → Bytes) : SigHash algo id → env.hash id = some h →
      env.asn1RS sig = some (r, s, []) → 0 < r → 0 < s → env.dsaVerify (.dsa p q g y) (h msg) r s = true → ValidSig env algo msg sig (.dsa p q g y)
  | ecdsa (curve : List Nat) (x y r s : Int) (id : Nat) (h : Bytes → Bytes) : SigHash algo id → env.hash id = some h →
      env.asn1RS sig = some (r, s, []) → 0 < r → 0 < s → env.ecdsaVerify (.ecdsa curve x y) (h msg) r s = true →
      ValidSig env algo msg sig (.ecdsa curve x y)

/-- The parent may sign certificates and has signed the child. A certificate with one particular public key may be signed by anyone. -/
structure SignedBy (env : ChainEnv) (child parent : CertFull) : Prop where
  authority : child.base.spki ≠ entrustBrokenSPKI → (parent.version = 3 → parent.ext.basicConstraintsValid = true) ∧
    (parent.ext.basicConstraintsValid = true → parent.ext.isCA = true)
  usage : parent.ext.keyUsage = 0 ∨ parent.ext.keyUsage.testBit 5 = true
  known : parent.keyAlgo ≠ .unknown
  signature : ValidSig env child.base.sigAlg child.rawTbs child.signature parent.key

/-- A domain is within a name constraint: equal to it, or below it. -/
def Within (env : ChainEnv) (domain constraint : Bytes) : Prop :=
  constraint = [] ∨ ∃ front back, domain = front ++ back ∧ back.length = constraint.length ∧ env.equalFold back constraint = true ∧
    (front = [] ∨ (front.getLast? = some 46 ↔ constraint.head? ≠ some 46))

/-- The time at which certificates have to be valid: the one that is asked for, or else now. -/
def TimeAsked (env : ChainEnv) (opts : VerifyOptions) (t : Int) : Prop := opts.time = some t ∨ opts.time = none ∧ t = env.clock

/-- The certificate is valid at the time, and its constraints admit the name. -/
structure Usable (env : ChainEnv) (opts : VerifyOptions) (c : CertFull) : Prop where
  time : ∀ t, TimeAsked env opts t → c.base.notBefore ≤ t ∧ t ≤ c.base.notAfter
  permitted : c.ext.permitted = [] ∨ ∃ k ∈ c.ext.permitted, Within env opts.dnsName k
  excluded : ∀ k ∈ c.ext.excluded, ¬ Within env opts.dnsName k

/-- The parent is one of `l`, has the issuer's name and, if some certificate of `l` has the key identifier the child asks for, that one. -/
def Findable (l : List CertFull) (child parent : CertFull) : Prop :=
  parent ∈ l ∧ child.rawIssuer = parent.rawSubject ∧
  (child.ext.authorityKeyId ≠ [] → (∃ x ∈ l, x.ext.subjectKeyId = child.ext.authorityKeyId) → parent.ext.subjectKeyId = child.ext.authorityKeyId)

/-- The path `p` can be continued with the certificate `m` of `l`: `m` is not yet in it, and admits the intermediate certificates below it. -/
def Extends (env : ChainEnv) (opts : VerifyOptions) (l p : List CertFull) (m : CertFull) : Prop :=
  (∃ last, p.getLast? = some last ∧ Findable l last m ∧ SignedBy env last m) ∧ (∀ x ∈ p, x.base.raw ≠ m.base.raw) ∧ Usable env opts m ∧
  (m.ext.basicConstraintsValid = true → 0 ≤ m.ext.maxPathLen → (p.length : Int) - 1 ≤ m.ext.maxPathLen)

/-- A path from a certificate upwards through intermediate authorities. -/
inductive PathUp (env : ChainEnv) (opts : VerifyOptions) (inters : List CertFull) (c : CertFull) : List CertFull → Prop
  | leaf : PathUp env opts inters c [c]
  | up {p : List CertFull} {m : CertFull} : PathUp env opts inters c p → Extends env opts inters p m →
      m.ext.basicConstraintsValid = true → m.ext.isCA = true → PathUp env opts inters c (p ++ [m])

/-- A path from a certificate to a root. -/
def ChainTo (env : ChainEnv) (opts : VerifyOptions) (inters roots : List CertFull) (c : CertFull) (ch : List CertFull) : Prop :=
  ∃ p r, PathUp env opts inters c p ∧ Extends env opts roots p r ∧ ch = p ++ [r]

/-- The certificate may be used for a purpose: 0 is any purpose, 1 the authentication of servers, for which 10 and 11 are good as well. -/
def AllowsUse (c : CertFull) (u : Int) : Prop :=
  (c.ext.extKeyUsage = [] ∧ c.ext.unknownExtKeyUsage = []) ∨ 0 ∈ c.ext.extKeyUsage ∨ (∃ k ∈ c.ext.extKeyUsage, (k : Int) = u) ∨
  (u = 1 ∧ (10 ∈ c.ext.extKeyUsage ∨ 11 ∈ c.ext.extKeyUsage))

/-- The purposes asked for. -/
def purposes (opts : VerifyOptions) : List Int := if opts.keyUsages = [] then [1] else opts.keyUsages

/-- Some purpose that is asked for is allowed by every certificate of the chain. -/
def GoodFor (opts : VerifyOptions) (ch : List CertFull) : Prop :=
  0 ∈ purposes opts ∨ ∃ u ∈ purposes opts, ∀ c ∈ ch, AllowsUse c u

/-- The name consists of these labels; a dot may follow. -/
def Labelled (name : Bytes) (labels : List Bytes) : Prop :=
  labels ≠ [] ∧ (∀ l ∈ labels, 46 ∉ l) ∧ (b!".").intercalate labels ≠ [] ∧
  (name = (b!".").intercalate labels ++ b!"." ∨ (name = (b!".").intercalate labels ∧ name.getLast? ≠ some 46))

/-- Equal up to the case of ASCII letters. -/
def CaseEq (a b : UInt8) : Prop :=
  a = b ∨ (65 ≤ a.toNat ∧ a.toNat ≤ 90 ∧ b.toNat = a.toNat + 32) ∨ (65 ≤ b.toNat ∧ b.toNat ≤ 90 ∧ a.toNat = b.toNat + 32)

/-- The name of a host matches a pattern: the same labels, or a star in place of the first. -/
def HostMatches (pattern host : Bytes) : Prop :=
  ∃ p h ps hs, Labelled pattern (p :: ps) ∧ Labelled host (h :: hs) ∧ (ListRel CaseEq p h ∨ p = b!"*") ∧ ListRel (ListRel CaseEq) ps hs

/-- The text without brackets around it. -/
def Bare (h x : Bytes) : Prop :=
  (h = b!"[" ++ x ++ b!"]" ∧ x ≠ []) ∨ (h = x ∧ ∀ y, h = b!"[" ++ y ++ b!"]" → y = [])

/-- The same address; an IPv4 address also has a form of 16 bytes. -/
def SameIp (a b : Bytes) : Prop := a = b ∨ (b.length = 4 ∧ a = [0,0,0,0,0,0,0,0,0,0,0xff,0xff] ++ b)

/-- The certificate is one for the host: an address is among its addresses; a name matches one of its alternative names or, if it has no
    extension for those, its common name. -/
def ForHost (env : ChainEnv) (c : CertFull) (h : Bytes) : Prop :=
  ∃ x, Bare h x ∧ ((∃ ip a, env.parseIP x = some ip ∧ a ∈ c.ext.ips ∧ SameIp ip a) ∨
    (env.parseIP x = none ∧ (∃ e ∈ c.extensions, e.1 = [2,5,29,17]) ∧ ∃ m ∈ c.ext.dnsNames, HostMatches m h) ∨
    (env.parseIP x = none ∧ (∀ e ∈ c.extensions, e.1 ≠ [2,5,29,17]) ∧ HostMatches c.base.subject.commonName h))

/-- The roots of a verification: those that were given, or those of the system. -/
def RootsAre (env : ChainEnv) (opts : VerifyOptions) (roots : List CertFull) : Prop :=
  opts.roots = some roots ∨ (opts.roots = none ∧ env.systemRoots = some roots)

/-- Certificates with the same bytes are the same certificates. -/
def DistinctRaws (l : List CertFull) : Prop := ∀ x ∈ l, ∀ y ∈ l, x.base.raw = y.base.raw → x = y

end Apk.Spec
