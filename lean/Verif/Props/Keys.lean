import Verif.Proofs.Keys
import Verif.Props.Asn1
import Verif.Props.Signers
/-! # C59 - C61: certificates and their keys -/
namespace Apk

/-! ## C59 -/

theorem rsaKeyOf_inv {n : Option Int} {e : Int} {k : Key} {re : Bool} (h : rsaKeyOf n e = .ok (some (k, re))) :
    0 < e ∧ ∃ i, n = some i ∧ ((re = false ∧ 0 < i ∧ k = .rsa i e) ∨ (re = true ∧ i ≤ 0 ∧ k = .rsa (repairModulus i) e)) := by
  unfold rsaKeyOf at h
  cases n with
  | none => cases h
  | some i =>
    simp only at h
    by_cases h1 : e ≤ 0
    · rw [if_pos h1] at h; cases h
    · rw [if_neg h1] at h
      by_cases h2 : i ≤ 0
      · rw [if_pos h2] at h
        cases h
        exact ⟨by omega, i, rfl, .inr ⟨rfl, h2, rfl⟩⟩
      · rw [if_neg h2] at h
        cases h
        exact ⟨by omega, i, rfl, .inl ⟨rfl, by omega, rfl⟩⟩

/-- What an RSA key that was parsed looks like: a SEQUENCE of a modulus and an exponent. -/
theorem parseKey_rsa {env : CertEnv} {algId : AlgId} {bits : BitStr} {k : Key} {re : Bool} (h : parseKey env .rsa algId bits = .ok (some (k, re))) :
    ∃ n e, IsInt64 e ∧ 0 < e ∧ ((re = false ∧ 0 < n ∧ k = .rsa n e) ∨ (re = true ∧ n ≤ 0 ∧ k = .rsa (repairModulus n) e)) := by
  unfold parseKey at h
  obtain ⟨r, hr⟩ := unmAll_total env.toAsnEnv pkcs1PublicKeyTy (rightAlign bits)
  simp only [hr] at h
  cases r with
  | none => cases h
  | some v =>
    obtain ⟨inner, hv⟩ := reads_struct_inv (unmAll_iff.1 hr)
    obtain ⟨i, rest, _, h2⟩ := readsAll_big (v1 := v.2.1) (v2 := v.2.2) hv
    obtain ⟨_, h3, _⟩ := (readsAll_cons (v1 := v.2.2.1) (v2 := v.2.2.2)).1 h2
    rw [fp_empty] at h3
    have hi : IsInt64 v.2.2.1 := by
      rcases (reads_prim (t := .int) (by simp) (by simp) (by simp)).1 h3 with ⟨_, _, _, _, _, hi⟩ | ⟨h, _⟩ | ⟨h, _⟩
      · exact hi
      · exact absurd (absent_optional h) (by simp)
      · cases h
    have h : rsaKeyOf v.2.1 v.2.2.1 = .ok (some (k, re)) := h
    obtain ⟨he, i', _, hc⟩ := rsaKeyOf_inv h
    exact ⟨i', v.2.2.1, hi, he, hc⟩

theorem dsaKeyOf_inv {p q g y : Option Int} {k : Key} {re : Bool} (h : dsaKeyOf p q g y = .ok (some (k, re))) : re = false ∧ k ≠ .none := by
  unfold dsaKeyOf at h
  cases p <;> cases q <;> cases g <;> cases y <;> simp only at h <;> first | (cases h; done) | skip
  rename_i p q g y
  by_cases hc : y ≤ 0 ∨ p ≤ 0 ∨ q ≤ 0 ∨ g ≤ 0
  · rw [if_pos hc] at h; cases h
  · rw [if_neg hc] at h; cases h; exact ⟨rfl, by simp⟩

theorem parseKey_other {env : CertEnv} {algo : PKAlgo} (ha : algo ≠ .rsa) {algId : AlgId} {bits : BitStr} {k : Key} {re : Bool}
    (h : parseKey env algo algId bits = .ok (some (k, re))) : re = false ∧ (algo ≠ .unknown → k ≠ .none) := by
  unfold parseKey at h
  cases algo with
  | rsa => exact absurd rfl ha
  | unknown => cases h; exact ⟨rfl, fun h => absurd rfl h⟩
  | dsa =>
    obtain ⟨r, hr⟩ := unmAll_total env.toAsnEnv .bigInt (rightAlign bits)
    simp only [hr] at h
    cases r with
    | none => cases h
    | some y =>
      simp only at h
      obtain ⟨r2, hr2⟩ := unmAll_total env.toAsnEnv dsaParamsTy algId.params.full
      rw [hr2] at h
      cases r2 with
      | none => cases h
      | some v =>
        have := dsaKeyOf_inv h
        exact ⟨this.1, fun _ => this.2⟩
  | ecdsa =>
    obtain ⟨r, hr⟩ := unmAll_total env.toAsnEnv .oid algId.params.full
    simp only [hr] at h
    cases r with
    | none => cases h
    | some c =>
      by_cases hk : knownCurve c = true
      · have h := (if_pos hk).symm.trans h
        cases hp : env.point c (rightAlign bits) with
        | none => rw [hp] at h; cases h
        | some xy => rw [hp] at h; cases h; exact ⟨rfl, fun _ => by simp⟩
      · have h := (if_neg hk).symm.trans h
        cases h

theorem spkiOf_false (spki : Bytes) (k : Key) : spkiOf spki false k = spki := by
  unfold spkiOf
  cases k <;> rfl

theorem parseCertAndr_inv {ce : CertEnv} {env : Env1} {b : Bytes} {cert : Cert} (h : (concreteEnv1 ce env).parseCertAndr b = some cert) :
    ∃ k, parseCert509 ce b = .ok (some (cert, k)) := by
  have h : (noPanic (parseCert509 ce b)).map Prod.fst = some cert := h
  obtain ⟨r, hr⟩ := parseCert509_total ce b
  rw [hr] at h
  cases r with
  | none => cases h
  | some p =>
    obtain ⟨c, k⟩ := p
    cases Option.some.inj h
    exact ⟨k, hr⟩

/-- C59: a parsed certificate records exactly the bytes it was parsed from (they are what fingerprints and comparisons use). -/
theorem C59_certificate_is_its_input {ce : CertEnv} {env : Env1} {b : Bytes} {cert : Cert} (h : (concreteEnv1 ce env).parseCertAndr b = some cert) :
    cert.raw = b := by
  obtain ⟨k, hk⟩ := parseCertAndr_inv h
  exact (parseCert509_inv hk).1

/-- The algorithm of a parsed key. -/
theorem parseKey_unknown {env : CertEnv} {algId : AlgId} {bits : BitStr} {k : Key} {re : Bool}
    (h : parseKey env .unknown algId bits = .ok (some (k, re))) : k = .none := by
  unfold parseKey at h
  cases h
  rfl

/-- C59: the public key of a certificate is the one parsed from its subject public key info: parsing the recorded key info (which a
    signing block signer must repeat) gives the key of the certificate, and fails only for unknown key algorithms. A modulus that is
    not positive must have been repaired to a positive one (see `C60_repair_partial`); then the key info is the re-encoded one. -/
theorem C59_key_info_gives_certificate_key {ce : CertEnv} {env : Env1} {b : Bytes} {cert : Cert} (h : (concreteEnv1 ce env).parseCertAndr b = some cert)
    (hr : cert.key.kind = .rsa → 0 < cert.key.qBits) (hl : cert.spki.length < 2 ^ 31) :
    (concreteEnv1 ce env).parsePKIX cert.spki = if cert.key.kind = .other then none else some cert.key := by
  obtain ⟨k, hk⟩ := parseCertAndr_inv h
  obtain ⟨_, hkey, w, re, hw, hs, hp⟩ := parseCert509_inv hk
  show (noPanic (parsePKIXKey ce cert.spki)).map Key.pub = _
  have conv : ∀ {x : Option Key}, parsePKIXKey ce cert.spki = .ok x → (noPanic (parsePKIXKey ce cert.spki)).map Key.pub = x.map Key.pub := by
    intro x hx; rw [hx]; rfl
  have main : parsePKIXKey ce cert.spki = .ok (if pkAlgo (AlgId.of w.2.1).oid = .unknown then none else some k) := by
    by_cases ha : pkAlgo (AlgId.of w.2.1).oid = .rsa
    · rw [ha] at hp
      obtain ⟨n, e, hi, he, ⟨rfl, hn, rfl⟩ | ⟨rfl, hn, rfl⟩⟩ := parseKey_rsa hp
      · rw [hs]
        exact parsePKIXKey_of_reads hw (by rw [ha]; exact hp)
      · have hs : cert.spki = marshalRsaKey (repairModulus n) e := hs
        have hpos : 0 < repairModulus n := by
          rw [hkey] at hr
          have := hr rfl
          have this : 0 < bitLen (repairModulus n).toNat := this
          unfold bitLen at this
          split at this
          · omega
          · omega
        rw [hs, parsePKIX_marshalRsa hpos he hi (by rw [← hs]; exact hl), ha]
        rfl
    · rw [hs, (parseKey_other ha hp).1, spkiOf_false]
      exact parsePKIXKey_of_reads hw hp
  rw [conv main, hkey]
  by_cases hu : pkAlgo (AlgId.of w.2.1).oid = .unknown
  · rw [hu] at hp
    rw [parseKey_unknown hp, if_pos hu]
    rfl
  · rw [if_neg hu]
    have hkn : k ≠ .none := by
      by_cases ha : pkAlgo (AlgId.of w.2.1).oid = .rsa
      · rw [ha] at hp
        obtain ⟨n, e, _, _, ⟨_, _, rfl⟩ | ⟨_, _, rfl⟩⟩ := parseKey_rsa hp <;> simp
      · exact (parseKey_other ha hp).2 hu
    have : k.pub.kind ≠ .other := by cases k <;> simp_all [Key.pub]
    rw [if_neg this]
    rfl

/-- C59: in a v2 signer that is accepted, the signature over the signed data is by the key of the first certificate of the chain
    that is reported. -/
theorem C59_v2_signed_by_certificate_key {ce : CertEnv} {env : Env1} {maxSdk : Int} {present : Nat → Prop} {signer : Bytes} {main : Cert} {more : List Cert}
    {a : Nat} {d : Bytes} (h : V2SignerOK (concreteEnv1 ce env).toEnv maxSdk present signer (main :: more) a d)
    (hr : main.key.kind = .rsa → 0 < main.key.qBits) :
    ∃ signedData sigs pk tail sig, signer = lp signedData ++ lp sigs ++ lp pk ++ tail ∧ SigValid (concreteEnv1 ce env).toEnv main.key a signedData sig := by
  obtain ⟨sd, sg, pk, tl, sr, sig, dg, ct, at_, tl', dr, ar, mn, mo, b1, b2, b3, b4, b5, b6, b7, b8, b9, ⟨key, k1, k2⟩, ⟨ders, _, hd, hm⟩, hc, _⟩ := h
  cases hc
  refine ⟨sd, sg, pk, tl, sig, b1, ?_⟩
  cases ders with
  | nil => simp at hd
  | cons x xs =>
    have h1 : (concreteEnv1 ce env).parseCertAndr x = some main := (List.cons.inj hd).1
    have h2 := C59_key_info_gives_certificate_key h1 hr (by rw [hm]; exact b4)
    have k1 : (concreteEnv1 ce env).parsePKIX pk = some key := k1
    rw [hm, k1] at h2
    by_cases ho : main.key.kind = .other
    · rw [if_pos ho] at h2; cases h2
    · rw [if_neg ho] at h2
      cases h2
      exact k2

/-- C59: the same for a v3 signer. -/
theorem C59_v3_signed_by_certificate_key {ce : CertEnv} {env : Env1} {maxSdk rot : Int} {signer : Bytes} {v : V3View}
    (h : V3SignerOK (concreteEnv1 ce env).toEnv maxSdk rot signer v) :
    ∃ main more, v.chain = main :: more ∧ ((main.key.kind = .rsa → 0 < main.key.qBits) →
      ∃ signedData mn mx sigs pk tail sig, signer = lp signedData ++ leBytes 4 mn ++ leBytes 4 mx ++ lp sigs ++ lp pk ++ tail ∧
        SigValid (concreteEnv1 ce env).toEnv main.key v.alg signedData sig) := by
  obtain ⟨sd, mn, mx, sg, pk, tl, sr, sig, dg, ct, smin, smax, at_, tl', dr, ar, main, more, b1, _, _, b4, _, _, _, _, _, _, _, _, _, _, _, _, _, _, _, _,
    ⟨key, k1, k2⟩, ⟨ders, _, hd, hm⟩, hc, _⟩ := h
  refine ⟨main, more, hc, fun hr => ⟨sd, mn, mx, sg, pk, tl, sig, b1, ?_⟩⟩
  cases ders with
  | nil => simp at hd
  | cons x xs =>
    have h1 : (concreteEnv1 ce env).parseCertAndr x = some main := (List.cons.inj hd).1
    have h2 := C59_key_info_gives_certificate_key h1 hr (by rw [hm]; exact b4)
    have k1 : (concreteEnv1 ce env).parsePKIX pk = some key := k1
    rw [hm, k1] at h2
    by_cases ho : main.key.kind = .other
    · rw [if_pos ho] at h2; cases h2
    · rw [if_neg ho] at h2
      cases h2
      exact k2

/-! ## C60 -/

/-- A number has only one big-endian form without leading zeros. -/
theorem natBytes_beNat {d : UInt8} {ds : Bytes} (hd : d.toNat ≠ 0) : natBytes (beNat (d :: ds)) = d :: ds := by
  have low : ∀ {d : UInt8} {ds : Bytes}, d.toNat ≠ 0 → 256 ^ ds.length ≤ beNat (d :: ds) := by
    intro d ds h
    simp only [beNat]
    have : 1 * 256 ^ ds.length ≤ d.toNat * 256 ^ ds.length := Nat.mul_le_mul_right _ (by omega)
    omega
  have hpos : 1 ≤ beNat (d :: ds) := Nat.le_trans (Nat.pow_pos (by omega)) (low hd)
  obtain ⟨x, xs, h1, h2, h3⟩ := natBytes_spec hpos
  rw [h1]
  refine beNat_inj ?_ h3
  have a1 := low (ds := ds) hd
  have a2 := low (ds := xs) h2
  have b1 := beNat_lt (d :: ds)
  have b2 := beNat_lt (x :: xs)
  simp only [List.length_cons] at b1 b2 ⊢
  have c1 : xs.length < ds.length + 1 := (Nat.pow_lt_pow_iff_right (by omega)).1 (Nat.lt_of_le_of_lt (h3 ▸ a2) b1)
  have c2 : ds.length < xs.length + 1 := (Nat.pow_lt_pow_iff_right (by omega)).1 (Nat.lt_of_le_of_lt (h3 ▸ a1) b2)
  omega

theorem map_not_not (b : Bytes) : (b.map (fun y => 255 - y)).map (fun y => 255 - y) = b := by
  rw [List.map_map]
  conv => rhs; rw [← List.map_id b]
  refine List.map_congr_left (fun x _ => ?_)
  show 255 - (255 - x) = x
  apply UInt8.toNat_inj.1
  have := x.toNat_lt
  rw [not_toNat, not_toNat]
  omega

/-- For a negative number, `-n - 1` is the number with the inverted bytes. -/
theorem twos_not {x : UInt8} {xs : Bytes} (hx : 128 ≤ x.toNat) : (-twos (x :: xs) - 1).natAbs = beNat ((x :: xs).map (fun y => 255 - y)) := by
  have h1 := beNat_not (x :: xs)
  have e : twos (x :: xs) = beNat (x :: xs) - 256 ^ (xs.length + 1) := by
    simp only [twos]
    rw [if_neg (by omega)]
  rw [e, ← natCast_pow256]
  simp only [List.length_cons] at h1
  omega

/-- C60: what an RSA modulus that was encoded as a negative INTEGER becomes. The contents octets read as an unsigned number, which
    is what the encoder meant and what Android uses, unless the first octet is 255. -/
theorem C60_repair_partial {b : Bytes} (hn : twos b < 0) (hf : ∀ r, b ≠ 255 :: r) : repairModulus (twos b) = beNat b := by
  cases b with
  | nil => simp [twos] at hn
  | cons x xs =>
    have hx : 128 ≤ x.toNat := by
      by_cases h : x.toNat < 128
      · simp only [twos] at hn
        rw [if_pos h] at hn
        omega
      · omega
    have hne : x.toNat ≠ 255 := fun e => hf xs (by rw [show x = 255 from UInt8.toNat_inj.1 e])
    unfold repairModulus
    rw [twos_not hx, List.map_cons, natBytes_beNat (by rw [not_toNat]; have := x.toNat_lt; omega), ← List.map_cons, map_not_not, setBytes_eq]

/-- C60: if the first octet is 255 it is lost: the modulus becomes the number given by the other octets. -/
theorem C60_repair_drops_ff {r : Bytes} (hm : MinimalInt (255 :: r)) : repairModulus (twos (255 :: r)) = beNat r := by
  unfold repairModulus
  rw [twos_not (by decide)]
  cases r with
  | nil => rfl
  | cons y ys =>
    have hy : ¬ 128 ≤ y.toNat := fun h => (hm.2 255 y ys rfl).2 ⟨rfl, h⟩
    have e : beNat ((255 :: y :: ys).map (fun y => 255 - y)) = beNat ((y :: ys).map (fun y => 255 - y)) := by
      simp [beNat]
    rw [e, List.map_cons, natBytes_beNat (by rw [not_toNat]; omega), ← List.map_cons, map_not_not, setBytes_eq]

/-- C60: so the repaired modulus is the intended one exactly if the first octet is not 255. -/
theorem C60_repair_exact {b : Bytes} (hm : MinimalInt b) (hn : twos b < 0) : repairModulus (twos b) = beNat b ↔ ∀ r, b ≠ 255 :: r := by
  constructor
  · rintro h r rfl
    rw [C60_repair_drops_ff hm] at h
    have h := Int.ofNat_inj.1 h
    simp only [beNat] at h
    have : 0 < 256 ^ r.length := Nat.pow_pos (by omega)
    have : 0 < (255 : UInt8).toNat * 256 ^ r.length := Nat.mul_pos (by decide) this
    omega
  · exact C60_repair_partial hn

/-- C60: the modulus zero, which is not a valid key either, becomes 254. -/
theorem C60_zero_modulus : repairModulus 0 = 254 := by decide

theorem beNat_zero {b : Bytes} : beNat b = 0 ↔ b = List.replicate b.length 0 := by
  induction b with
  | nil => simp [beNat]
  | cons x xs ih =>
    have hp : 0 < 256 ^ xs.length := Nat.pow_pos (by omega)
    simp only [beNat, List.length_cons, List.replicate_succ, List.cons.injEq, Nat.add_eq_zero_iff, ih, Nat.mul_eq_zero]
    constructor
    · rintro ⟨h1 | h1, h2⟩
      · exact ⟨UInt8.toNat_inj.1 h1, h2⟩
      · omega
    · rintro ⟨rfl, h2⟩
      exact ⟨.inl rfl, h2⟩

/-- C60: a repaired modulus is positive except for the negated powers of 256 (-1, -256, -65536, ...), which become zero. -/
theorem C60_repaired_positive {b : Bytes} (hm : MinimalInt b) (hn : twos b ≤ 0) : 0 < repairModulus (twos b) ↔ ∀ k, b ≠ 255 :: List.replicate k 0 := by
  by_cases h0 : twos b = 0
  · rw [h0, C60_zero_modulus]
    refine iff_of_true (by decide) ?_
    rintro k rfl
    have := twos_not (x := 255) (xs := List.replicate k 0) (by decide)
    simp only [twos] at h0
    rw [if_neg (by decide), ← natCast_pow256] at h0
    have := beNat_lt (255 :: List.replicate k 0)
    simp only [List.length_cons, List.length_replicate] at this h0
    omega
  · by_cases hf : ∃ r, b = 255 :: r
    · obtain ⟨r, rfl⟩ := hf
      rw [C60_repair_drops_ff hm]
      constructor
      · rintro h k e
        have e : r = List.replicate k 0 := (List.cons.inj e).2
        have : beNat r = 0 := beNat_zero.2 (by rw [e, List.length_replicate])
        omega
      · intro h
        refine Classical.byContradiction (fun hc => h r.length ?_)
        rw [← beNat_zero.1 (by omega)]
    · have hf : ∀ r, b ≠ 255 :: r := fun r e => hf ⟨r, e⟩
      rw [C60_repair_partial (by omega) hf]
      refine iff_of_true ?_ (fun k => hf _)
      refine Classical.byContradiction (fun hc => h0 ?_)
      have hz := beNat_zero.1 (show beNat b = 0 by omega)
      cases b with
      | nil => rfl
      | cons x xs =>
        rw [List.length_cons, List.replicate_succ] at hz
        have hx : x = 0 := (List.cons.inj hz).1
        simp only [twos]
        rw [if_pos (by rw [hx]; decide)]
        omega

/-- C60: a modulus that is encoded correctly is taken as it is and the key info is not re-encoded. -/
theorem C60_positive_unchanged {n e : Int} (hn : 0 < n) (he : 0 < e) : rsaKeyOf (some n) e = .ok (some (.rsa n e, false)) := by
  unfold rsaKeyOf
  simp only
  rw [if_neg (by omega), if_neg (by omega)]

/-- C60: moduli whose top bit is set but which were encoded without the leading zero octet: repaired (first octet not 255). -/
example : MinimalInt [0xC3, 0x51] ∧ twos [0xC3, 0x51] < 0 ∧ (∀ r, ([0xC3, 0x51] : Bytes) ≠ 255 :: r) ∧ repairModulus (twos [0xC3, 0x51]) = 0xC351 := by
  refine ⟨⟨by simp, ?_⟩, by decide, ?_, by decide⟩
  · rintro x y r h
    cases h
    decide
  · rintro r h
    cases h

/-- C60: and one for which it is wrong: 0xFF71 becomes 0x71. -/
theorem C60_wrong_modulus : MinimalInt [0xFF, 0x71] ∧ twos [0xFF, 0x71] < 0 ∧ repairModulus (twos [0xFF, 0x71]) = 0x71 ∧ beNat [0xFF, 0x71] = 0xFF71 := by
  refine ⟨⟨by simp, ?_⟩, by decide, by decide, by decide⟩
  rintro x y r h
  cases h
  decide

/-! ## C61 -/

/-- C61: no input makes the decoder of certificates, public keys, signature blocks, names or signature values panic, nor the encoder
    of the signed attributes. So the `none` of these functions in the verifier model is always an error that is returned. -/
theorem C61_parsers_never_panic (ce : CertEnv) (b : Bytes) (attrs : List P7Attr) :
    (∃ r, parseCert509 ce b = .ok r) ∧ (∃ r, parseCerts509 ce b = .ok r) ∧ (∃ r, parsePKIXKey ce b = .ok r) ∧ (∃ r, parseP7Der ce b = .ok r) ∧
      (∃ r, rsParse ce.toAsnEnv b = .ok r) ∧ (∃ r, rdnsParse ce.toAsnEnv b = .ok r) ∧ (∀ t, ∃ r, unmValue ce.toAsnEnv t b = .ok r) ∧
      (∃ r, marshalAuthAttrs ce.toAsnEnv attrs = .ok r) :=
  ⟨parseCert509_total ce b, parseCerts509_total ce b, parsePKIXKey_total ce b, parseP7Der_total ce b, rsParse_total _ b, rdnsParse_total _ b,
    fun t => unmValue_total _ t b, marshalAuthAttrs_total _ attrs⟩

/-- C61: the serial number of a parsed signer info is never nil, which comparing it with the serial number of a certificate relies on. -/
theorem signerInfo_serial {env : AsnEnv} {v : signerInfoTy.interp} {b rest : Bytes} (h : Reads env signerInfoTy {} v b rest) :
    ∃ i : Int, v.2.2.1.2.2.1 = some i := by
  obtain ⟨inner, h⟩ := reads_struct_inv h
  obtain ⟨_, _, h⟩ := (readsAll_cons (v1 := v.2.1) (v2 := v.2.2)).1 h
  obtain ⟨_, h, _⟩ := (readsAll_cons (v1 := v.2.2.1) (v2 := v.2.2.2)).1 h
  rw [fp_empty] at h
  obtain ⟨inner, h⟩ := reads_struct_inv h
  obtain ⟨_, _, h⟩ := (readsAll_cons (v1 := v.2.2.1.2.1) (v2 := v.2.2.1.2.2)).1 h
  obtain ⟨i, _, e, _⟩ := readsAll_big (v1 := v.2.2.1.2.2.1) (v2 := v.2.2.1.2.2.2) h
  exact ⟨i, e⟩

end Apk
