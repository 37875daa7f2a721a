import Verif.Proofs.X509Exact
import Verif.ToyDer
/-! # C65: which certificates and public keys are accepted and what is recorded of them -/
namespace Apk

theorem noPanic_iff {α : Type} {x : Go (Option α)} {v : α} : noPanic x = some v ↔ x = .ok (some v) := by
  rcases x with p | r
  · simp [noPanic]
  · simp [noPanic]

/-- C65: a certificate is accepted exactly if it is one, and then what is recorded (serial number, validity, names, signature
    algorithm, key, key info, unhandled critical extensions) is what it says. -/
theorem C65_certificate_iff {ce : CertEnv} {env : Env1} {b : Bytes} {cert : Cert} :
    (concreteEnv1 ce env).parseCertAndr b = some cert ↔ ∃ k, CertificateIs ce b cert k := by
  show (noPanic (parseCert509 ce b)).map Prod.fst = some cert ↔ _
  rw [Option.map_eq_some_iff]
  constructor
  · rintro ⟨⟨c, k⟩, h, rfl⟩
    exact ⟨k, parseCert509_iff.1 (noPanic_iff.1 h)⟩
  · rintro ⟨k, h⟩
    exact ⟨(cert, k), noPanic_iff.2 (parseCert509_iff.2 h), rfl⟩

/-- C65: everything else is refused with an error. -/
theorem C65_certificate_refused {ce : CertEnv} {b : Bytes} : parseCert509 ce b = .ok none ↔ ¬ ∃ cert k, CertificateIs ce b cert k := by
  obtain ⟨r, hr⟩ := parseCert509_total ce b
  rw [hr]
  rcases r with _ | ⟨cert, k⟩
  · simp only [true_iff]
    rintro ⟨cert, k, h⟩
    rw [parseCert509_iff.2 h] at hr
    cases hr
  · simp only [Except.ok.injEq, reduceCtorEq, false_iff, Classical.not_not]
    exact ⟨cert, k, parseCert509_iff.1 hr⟩

/-- C65: a public key is accepted exactly if it is the key info of an RSA, DSA or ECDSA key. -/
theorem C65_public_key_iff {ce : CertEnv} {env : Env1} {b : Bytes} {pk : PubKey} :
    (concreteEnv1 ce env).parsePKIX b = some pk ↔ ∃ k, PublicKeyIs ce b k ∧ pk = k.pub := by
  show (noPanic (parsePKIXKey ce b)).map Key.pub = some pk ↔ _
  rw [Option.map_eq_some_iff]
  constructor
  · rintro ⟨k, h, rfl⟩
    exact ⟨k, parsePKIXKey_iff.1 (noPanic_iff.1 h), rfl⟩
  · rintro ⟨k, h, rfl⟩
    exact ⟨k, noPanic_iff.2 (parsePKIXKey_iff.2 h), rfl⟩

/-- C65: a list of certificates is accepted exactly if it is certificates one after the other with nothing left over. -/
theorem C65_certificates_iff {ce : CertEnv} {b : Bytes} {certs : List Cert} : parseCerts509 ce b = .ok (some certs) ↔ CertificatesAre ce certs b := parseCerts509_iff

/-- C65: what a certificate says is determined by its bytes. -/
theorem C65_certificate_unique {ce : CertEnv} {b : Bytes} {cert cert' : Cert} {k k' : Key} (h : CertificateIs ce b cert k) (h' : CertificateIs ce b cert' k') :
    cert = cert' ∧ k = k' := by
  have := (parseCert509_iff.2 h).symm.trans (parseCert509_iff.2 h')
  simpa using this

/-! ## Different keys are different for the verifier -/

theorem split_mark {a b r r' : Bytes} (ha : 255 ∉ a) (hb : 255 ∉ b) (h : a ++ 255 :: r = b ++ 255 :: r') : a = b ∧ r = r' := by
  induction a generalizing b with
  | nil =>
    cases b with
    | nil => exact ⟨rfl, (List.cons.inj h).2⟩
    | cons y ys => exact absurd (by rw [← (List.cons.inj h).1]; simp) hb
  | cons x xs ih =>
    cases b with
    | nil => exact absurd (by rw [(List.cons.inj h).1]; simp) ha
    | cons y ys =>
      obtain ⟨h1, h2⟩ := List.cons.inj h
      obtain ⟨h3, h4⟩ := ih (fun h => ha (by simp [h])) (fun h => hb (by simp [h])) h2
      exact ⟨by rw [h1, h3], h4⟩

theorem nibbles : ∀ b : Fin 256, (UInt8.ofNat b.val / 16 ≠ 255 ∧ UInt8.ofNat b.val % 16 ≠ 255) ∧
    (UInt8.ofNat b.val / 16).toNat * 16 + (UInt8.ofNat b.val % 16).toNat = b.val := by decide +kernel

theorem nibble (b : UInt8) : (b / 16 ≠ 255 ∧ b % 16 ≠ 255) ∧ (b / 16).toNat * 16 + (b % 16).toNat = b.toNat := by
  have := nibbles ⟨b.toNat, b.toNat_lt⟩
  simpa using this

theorem nibbles_inj {a b : Bytes} (h : a.flatMap (fun b => [b / 16, b % 16]) = b.flatMap (fun b => [b / 16, b % 16])) : a = b := by
  induction a generalizing b with
  | nil => cases b with
    | nil => rfl
    | cons y ys => simp at h
  | cons x xs ih =>
    cases b with
    | nil => simp at h
    | cons y ys =>
      simp only [List.flatMap_cons, List.cons_append, List.nil_append, List.cons.injEq] at h
      obtain ⟨h1, h2, h3⟩ := h
      rw [ih h3]
      congr 1
      apply UInt8.toNat_inj.1
      have hx := (nibble x).2
      have hy := (nibble y).2
      rw [h1, h2] at hx
      omega

theorem intsId_inj {l l' : List Int} (h : intsId l = intsId l') : l = l' := by
  have free : ∀ i : Int, (255 : UInt8) ∉ ((if i < 0 then (1 : UInt8) else 0) :: (natBytes i.natAbs).flatMap (fun b => [b / 16, b % 16])) := by
    intro i hm
    rcases List.mem_cons.1 hm with h | h
    · split at h <;> exact absurd h (by decide)
    · obtain ⟨b, _, hb⟩ := List.mem_flatMap.1 h
      have := (nibble b).1
      simp only [List.mem_cons, List.not_mem_nil, or_false] at hb
      rcases hb with e | e
      · exact this.1 e.symm
      · exact this.2 e.symm
  induction l generalizing l' with
  | nil => cases l' with
    | nil => rfl
    | cons y ys => simp [intsId, intId] at h
  | cons x xs ih =>
    cases l' with
    | nil => simp [intsId, intId] at h
    | cons y ys =>
      have h : intId x ++ intsId xs = intId y ++ intsId ys := h
      unfold intId at h
      rw [List.append_assoc, List.append_assoc] at h
      obtain ⟨h1, h2⟩ := split_mark (free x) (free y) h
      rw [ih h2]
      congr 1
      obtain ⟨h3, h4⟩ := List.cons.inj h1
      have h5 : natBytes x.natAbs = natBytes y.natAbs := nibbles_inj h4
      have h6 : x.natAbs = y.natAbs := by rw [← (natBytes_shortest x.natAbs).1, h5, (natBytes_shortest y.natAbs).1]
      by_cases hx : x < 0 <;> by_cases hy : y < 0
      · omega
      · rw [if_pos hx, if_neg hy] at h3; exact absurd h3 (by decide)
      · rw [if_neg hx, if_pos hy] at h3; exact absurd h3 (by decide)
      · omega

/-- C65: the verifier tells keys apart exactly if one of their numbers, their curve or their algorithm differs. -/
theorem C65_keys_told_apart {k k' : Key} (h : k.pub = k'.pub) : k = k' := by
  cases k <;> cases k' <;> simp only [Key.pub, PubKey.mk.injEq, reduceCtorEq, false_and, true_and] at h
  · have := intsId_inj h.2
    simp only [List.cons.injEq, and_true] at this
    rw [this.1, this.2]
  · have := intsId_inj h.2
    simp only [List.cons.injEq, and_true] at this
    rw [this.1, this.2.1, this.2.2.1, this.2.2.2]
  · have := intsId_inj h
    simp only [List.cons.injEq] at this
    have hc := map_inj_mem (fun x _ y _ e => Int.ofNat_inj.1 e) this.2.2
    rw [this.1, this.2.1, hc]
  · rfl

/-! ## Some consequences -/

/-- C65: the strength that decides which signature algorithms suit a key is that of the parsed numbers. -/
theorem C65_key_strength {ce : CertEnv} {env : Env1} {b : Bytes} {pk : PubKey} (h : (concreteEnv1 ce env).parsePKIX b = some pk) :
    (pk.kind = .rsa → ∃ n e, pk = (Key.rsa n e).pub ∧ (n = 0 ∨ 0 < n ∧ 2 ^ (pk.qBits - 1) ≤ n.toNat ∧ n.toNat < 2 ^ pk.qBits)) ∧
    (pk.kind = .dsa → ∃ p q g y, pk = (Key.dsa p q g y).pub ∧ 0 < q ∧ 2 ^ (pk.qBits - 1) ≤ q.toNat ∧ q.toNat < 2 ^ pk.qBits) ∧ pk.kind ≠ .other := by
  obtain ⟨k, ⟨a0, oid, params, bits, re, _, hk, hn⟩, rfl⟩ := C65_public_key_iff.1 h
  have bl : ∀ {m : Nat}, 0 < m → 2 ^ (bitLen m - 1) ≤ m ∧ m < 2 ^ bitLen m := by
    intro m hm
    unfold bitLen
    rw [if_neg (by omega)]
    exact ⟨Nat.log2_self_le (by omega), Nat.lt_log2_self⟩
  cases hk with
  | @rsa _ _ data n e _ _ hp he =>
    refine ⟨fun _ => ⟨n, e, rfl, .inr ⟨hp, bl (m := n.toNat) (by omega)⟩⟩, (fun h => by cases h), by simp [Key.pub]⟩
  | @rsaRepaired _ _ data ds n e =>
    refine ⟨fun _ => ⟨_, e, rfl, ?_⟩, (fun h => by cases h), by simp [Key.pub]⟩
    by_cases h0 : beNat (ds.map (fun y => 255 - y)) = 0
    · left; rw [h0]; rfl
    · right
      exact ⟨by omega, bl (m := Int.toNat (beNat (ds.map (fun y => 255 - y)))) (by omega)⟩
  | @dsa _ _ data p q g y _ _ _ h1 h2 h3 h4 =>
    refine ⟨(fun h => by cases h), fun _ => ⟨p, q, g, y, rfl, h2, bl (m := q.toNat) (by omega)⟩, by simp [Key.pub]⟩
  | ecdsa => exact ⟨(fun h => by cases h), (fun h => by cases h), by simp [Key.pub]⟩
  | unknown => exact absurd rfl hn

/-- C65: a certificate with a critical extension that is not in the tables, or with critical alternative names of kinds that are not
    stored, is accepted but marked; the v1 verifier refuses it. -/
theorem C65_unknown_critical {ce : CertEnv} {b : Bytes} {cert : Cert} {k : Key} (h : CertificateIs ce b cert k) :
    cert.critExt = true ↔ ∃ (exts : List (Bytes × List Nat × Bool × Bytes × Unit)) (e : Bytes × List Nat × Bool × Bytes × Unit) (v : Schema.certificate.interp),
      Reads ce.toAsnEnv Schema.certificate {} v b [] ∧ v.2.1.2.2.2.2.2.2.2.2.2.2.1 = exts ∧ e ∈ exts ∧ e.2.2.1 = true ∧
        (((∀ t, (e.2.1, t) ∉ readableExtensions) ∧ e.2.1 ∉ specialExtensions) ∨
         (e.2.1 = [2,5,29,17] ∧ ∃ content, Elem 0 16 true content e.2.2.2.1 ∧ AltNames 0 content)) := by
  obtain ⟨tbs, v0, spki, s0, a0, o0, version, nb, na, serial, sigOid, keyOid, outerOid, sigParams, keyParams, outerParams, issuer, subject, keyBits, iid, sid, sg,
      exts, re, hv, _, _, _, _, _, _, _, _, _, _, h11⟩ := h
  rw [h11.2]
  constructor
  · rintro ⟨e, he, hc, hx⟩
    refine ⟨exts, e, _, hv, rfl, he, hc, ?_⟩
    obtain ⟨e0, id, crit, value, ⟨⟩⟩ := e
    simp only at hx hc ⊢
    generalize hu : true = u at hx
    cases hx with
    | readable => cases hu
    | @altNames _ _ content n h1 h2 =>
      cases n with
      | zero => exact .inr ⟨rfl, content, h1, h2⟩
      | succ n => simp at hu
    | nameConstraints => cases hu
    | distributionPoints => cases hu
    | other h1 h2 => exact .inl ⟨h1, h2⟩
  · rintro ⟨exts', e, v, hv', rfl, he, hc, hx⟩
    cases (reads_unique hv hv').1
    refine ⟨e, he, hc, ?_⟩
    rcases hx with ⟨h1, h2⟩ | ⟨h1, content, h2, h3⟩
    · exact .other h1 h2
    · rw [h1]
      exact .altNames (n := 0) h2 h3

/-! ## Examples -/

namespace Toy
/-- A certificate with the given key info and extensions. -/
def certX (alg spki : Bytes) (exts : List Bytes) : Bytes :=
  el 48 (el 48 (el 0xA0 (el 2 [2]) ++ el 2 [77] ++ alg ++ dName (b!"x") ++
      el 48 (el 23 (b!"200101000000Z") ++ el 23 (b!"300101000000Z")) ++ dName (b!"y") ++ spki ++ el 0xA3 (el 48 exts.flatten)) ++
    el 48 (oidSha1Rsa ++ null) ++ el 3 [0, 1, 2, 3])
/-- An extension. -/
def ext (id : Bytes) (critical : Bool) (value : Bytes) : Bytes := el 48 (el 6 id ++ (if critical then el 1 [255] else []) ++ el 4 value)
/-- A DSA key: p = 23, q = 11, g = 4, y = 8. -/
def dsaSpki : Bytes := el 48 (el 48 (el 6 [42, 134, 72, 206, 56, 4, 1] ++ el 48 (el 2 [23] ++ el 2 [11] ++ el 2 [4])) ++ el 3 (0 :: el 2 [8]))
/-- An ECDSA key on P-256 with a BIT STRING of 12 bits. -/
def ecSpki : Bytes := el 48 (el 48 (el 6 [42, 134, 72, 206, 61, 2, 1] ++ el 6 [42, 134, 72, 206, 61, 3, 1, 7]) ++ el 3 [4, 0xAB, 0xC0])
/-- The environment, with a curve on which two bytes are a point. -/
def ceEc : CertEnv := { ce with point := fun _ b => match b with
  | [x, y] => some (x.toNat, y.toNat)
  | _ => none }
/-- RSA PSS with SHA-256. -/
def pssAlgId (salt : UInt8) : Bytes :=
  let sha := el 48 (el 6 [96, 134, 72, 1, 101, 3, 4, 2, 1] ++ null)
  el 48 (el 6 [42, 134, 72, 134, 247, 13, 1, 1, 10] ++
    el 48 (el 0xA0 sha ++ el 0xA1 (el 48 (el 6 [42, 134, 72, 134, 247, 13, 1, 1, 8] ++ sha)) ++ el 0xA2 (el 2 [salt])))

/-- An accepted certificate with the given contents. -/
def checkCert (b : Bytes) (k : Key) (s nb na : Int) (su is : Bytes) (sa : Nat) (cr : Bool) : Bool :=
  match parseCert509 ceEc b with
  | .ok (some (c, k')) => decide (k' = k) && decide (c.serial = s) && decide (c.notBefore = nb) && decide (c.notAfter = na) &&
      decide (c.subject.commonName = su) && decide (c.issuer.commonName = is) && decide (c.sigAlg = sa) && decide (c.critExt = cr)
  | _ => false

theorem of_checkCert {b : Bytes} {k : Key} {s nb na : Int} {su is : Bytes} {sa : Nat} {cr : Bool} (h : checkCert b k s nb na su is sa cr = true) :
    ∃ cert, CertificateIs ceEc b cert k ∧ cert.serial = s ∧ cert.notBefore = nb ∧ cert.notAfter = na ∧ cert.subject.commonName = su ∧
      cert.issuer.commonName = is ∧ cert.sigAlg = sa ∧ cert.critExt = cr := by
  unfold checkCert at h
  obtain ⟨r, hr⟩ := parseCert509_total ceEc b
  rw [hr] at h
  rcases r with _ | ⟨c, k'⟩
  · cases h
  · simp only [Bool.and_eq_true, decide_eq_true_eq, and_assoc] at h
    obtain ⟨rfl, h⟩ := h
    exact ⟨c, parseCert509_iff.1 hr, h⟩
end Toy

set_option maxRecDepth 8000 in
/-- C65: an ECDSA certificate with basic constraints, a subject alternative name that is stored and one that is not. The key bits are
    moved right. -/
theorem C65_ecdsa_example : ∃ cert, CertificateIs Toy.ceEc
    (Toy.certX (Toy.el 48 (Toy.el 6 [42, 134, 72, 206, 61, 4, 3, 2])) Toy.ecSpki
      [Toy.ext [85, 29, 19] true (Toy.el 48 (Toy.el 1 [255])), Toy.ext [85, 29, 17] true (Toy.el 48 (Toy.el 0x82 (b!"a.b") ++ Toy.el 0x86 (b!"c")))])
    cert (.ecdsa [1,2,840,10045,3,1,7] 0x0A 0xBC) ∧ cert.serial = 77 ∧ cert.notBefore = 548 ∧ cert.notAfter = 558 ∧ cert.subject.commonName = b!"y" ∧
      cert.issuer.commonName = b!"x" ∧ cert.sigAlg = 10 ∧ cert.critExt = false := Toy.of_checkCert (by decide +kernel)

set_option maxRecDepth 8000 in
/-- C65: a DSA certificate with a critical extension that is not known, signed with RSA PSS; with another salt length the algorithm is
    not known. -/
theorem C65_dsa_example : (∃ cert, CertificateIs Toy.ceEc (Toy.certX (Toy.pssAlgId 32) Toy.dsaSpki [Toy.ext [85, 29, 99] true [1]]) cert (.dsa 23 11 4 8) ∧
      cert.serial = 77 ∧ cert.notBefore = 548 ∧ cert.notAfter = 558 ∧ cert.subject.commonName = b!"y" ∧ cert.issuer.commonName = b!"x" ∧ cert.sigAlg = 13 ∧
      cert.critExt = true) ∧
    ∃ cert, CertificateIs Toy.ceEc (Toy.certX (Toy.pssAlgId 33) Toy.dsaSpki [Toy.ext [85, 29, 17] true (Toy.el 48 (Toy.el 0x86 (b!"c")))]) cert (.dsa 23 11 4 8) ∧
      cert.serial = 77 ∧ cert.notBefore = 548 ∧ cert.notAfter = 558 ∧ cert.subject.commonName = b!"y" ∧ cert.issuer.commonName = b!"x" ∧ cert.sigAlg = 0 ∧
      cert.critExt = true := ⟨Toy.of_checkCert (by decide +kernel), Toy.of_checkCert (by decide +kernel)⟩

set_option maxRecDepth 8000 in
/-- C65: an IP address of five bytes, an unreadable extension and a negative DSA number are refused. -/
theorem C65_refused_example :
    (∀ cert k, ¬ CertificateIs Toy.ceEc (Toy.certX (Toy.pssAlgId 32) Toy.dsaSpki [Toy.ext [85, 29, 17] false (Toy.el 48 (Toy.el 0x87 [1, 2, 3, 4, 5]))]) cert k) ∧
    (∀ cert k, ¬ CertificateIs Toy.ceEc (Toy.certX (Toy.pssAlgId 32) Toy.dsaSpki [Toy.ext [85, 29, 15] false [1]]) cert k) := by
  constructor
  · intro cert k h
    have := parseCert509_iff.2 h
    have e : (match parseCert509 Toy.ceEc (Toy.certX (Toy.pssAlgId 32) Toy.dsaSpki [Toy.ext [85, 29, 17] false (Toy.el 48 (Toy.el 0x87 [1, 2, 3, 4, 5]))]) with
      | .ok none => true | _ => false) = true := by decide +kernel
    rw [this] at e
    cases e
  · intro cert k h
    have := parseCert509_iff.2 h
    have e : (match parseCert509 Toy.ceEc (Toy.certX (Toy.pssAlgId 32) Toy.dsaSpki [Toy.ext [85, 29, 15] false [1]]) with
      | .ok none => true | _ => false) = true := by decide +kernel
    rw [this] at e
    cases e

end Apk
