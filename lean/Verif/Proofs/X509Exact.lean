import Verif.Spec.X509
import Verif.Props.Keys
import Verif.Proofs.Attrs
import Verif.Proofs.Name
/-! # Certificates and keys: the parser decides the specification -/
namespace Apk

/-! ## Alignment of bit strings -/

theorem shift_head {sh prev b : Nat} (h1 : 1 ≤ sh) (h2 : sh ≤ 7) (hb : b < 256) :
    (prev * 2 ^ (8 - sh) % 256 + b / 2 ^ sh) = (prev % 2 ^ sh) * 2 ^ (8 - sh) + b / 2 ^ sh ∧
      (prev % 2 ^ sh) * 2 ^ (8 - sh) + b / 2 ^ sh < 256 := by
  have hsh : sh = 1 ∨ sh = 2 ∨ sh = 3 ∨ sh = 4 ∨ sh = 5 ∨ sh = 6 ∨ sh = 7 := by omega
  rcases hsh with rfl | rfl | rfl | rfl | rfl | rfl | rfl <;> simp only [Nat.reduceSub, Nat.reducePow] <;> omega

theorem shiftRight_length (sh : Nat) : ∀ (prev : Nat) (bs : Bytes), (shiftRight sh prev bs).length = bs.length
  | _, [] => rfl
  | _, b :: bs => by rw [shiftRight, List.length_cons, shiftRight_length sh b.toNat bs, List.length_cons]

theorem pow_split {sh : Nat} (h2 : sh ≤ 7) : 256 = 2 ^ (8 - sh) * 2 ^ sh := by
  rw [← Nat.pow_add]
  have : 8 - sh + sh = 8 := by omega
  rw [this]

theorem beNat_shiftRight {sh : Nat} (h1 : 1 ≤ sh) (h2 : sh ≤ 7) : ∀ (prev : Nat) (bs : Bytes),
    beNat (shiftRight sh prev bs) = ((prev % 2 ^ sh) * 256 ^ bs.length + beNat bs) / 2 ^ sh
  | prev, [] => by
    have : prev % 2 ^ sh < 2 ^ sh := Nat.mod_lt _ (Nat.pow_pos (by omega))
    simp [shiftRight, beNat, Nat.div_eq_of_lt this]
  | prev, b :: bs => by
    have hh := shift_head (prev := prev) h1 h2 b.toNat_lt
    have ih := beNat_shiftRight h1 h2 b.toNat bs
    have hpos : 0 < 2 ^ sh := Nat.pow_pos (by omega)
    rw [shiftRight]
    simp only [beNat, shiftRight_length]
    rw [ih, UInt8.toNat_ofNat', hh.1, Nat.mod_eq_of_lt hh.2, List.length_cons, Nat.pow_succ]
    have hd := Nat.div_add_mod b.toNat (2 ^ sh)
    generalize 256 ^ bs.length = P at *
    generalize hp : prev % 2 ^ sh = p at *
    generalize hq : b.toNat / 2 ^ sh = q at *
    generalize hr : b.toNat % 2 ^ sh = r at *
    have e : p * (P * 256) + (b.toNat * P + beNat bs) = 2 ^ sh * ((p * 2 ^ (8 - sh) + q) * P) + (r * P + beNat bs) := by
      rw [← hd, pow_split h2]
      generalize 2 ^ sh = S
      generalize 2 ^ (8 - sh) = T
      simp only [Nat.mul_add, Nat.add_mul]
      have : p * (P * (T * S)) = S * (p * T * P) := by
        simp only [Nat.mul_comm, Nat.mul_left_comm]
      have : S * q * P = S * (q * P) := by simp only [Nat.mul_assoc]
      omega
    rw [e, Nat.mul_add_div hpos]

theorem aligned_iff {bits : BitStr} {data : Bytes} : Aligned bits data ↔ data = rightAlign bits := by
  have key : Aligned bits (rightAlign bits) := by
    unfold Aligned rightAlign
    simp only
    by_cases h : 8 - bits.bitLength % 8 = 8 ∨ bits.bytes = []
    · rw [if_pos h]
      refine ⟨rfl, ?_⟩
      rcases h with h | h
      · have : 8 * ((bits.bitLength + 7) / 8) - bits.bitLength = 0 := by omega
        rw [this]; simp
      · rw [h]; simp [beNat]
    · rw [if_neg h]
      have h := not_or.1 h
      have e : 8 * ((bits.bitLength + 7) / 8) - bits.bitLength = 8 - bits.bitLength % 8 := by omega
      refine ⟨shiftRight_length _ _ _, ?_⟩
      rw [beNat_shiftRight (by omega) (by omega), e]
      simp
  constructor
  · intro h
    exact beNat_inj (h.1.trans key.1.symm) (h.2.trans key.2.symm)
  · rintro rfl
    exact key

/-! ## Schemas -/

theorem schema_alg : Schema.algorithmIdentifier = algIdTy := rfl
theorem schema_name : Schema.name = rdnsTy := rfl
theorem schema_spki : Schema.publicKeyInfo = publicKeyInfoTy := rfl
theorem schema_cert : Schema.certificate = certificateTy := rfl
theorem schema_rsa : Schema.rsaPublicKey = pkcs1PublicKeyTy := rfl
theorem schema_dsa : Schema.dsaParameters = dsaParamsTy := rfl
theorem schema_pss : Schema.pssParameters = pssParametersTy := rfl

theorem reads_struct_noraw {env : AsnEnv} {fs : Fields} {v : (Ty.struct false fs).interp} {fp : FP} {b rest : Bytes}
    (h : Reads env (.struct false fs) fp v b rest) : v.1 = [] := by
  rw [Reads] at h
  rcases h with ⟨_, _, _, _, h⟩ | ⟨_, h, _⟩
  · exact h
  · rw [h]

/-! ## Keys -/

theorem natBytes_shortest (n : Nat) : Shortest (natBytes n) n := by
  by_cases hn : n = 0
  · subst hn; exact ⟨rfl, (fun x r h => by cases h)⟩
  · obtain ⟨d, ds, h1, h2, h3⟩ := natBytes_spec (n := n) (by omega)
    rw [h1]
    refine ⟨h3, fun x r h hx => ?_⟩
    cases h
    exact h2 (by rw [hx]; rfl)

theorem shortest_unique {ds : Bytes} {n : Nat} (h : Shortest ds n) : ds = natBytes n := by
  cases ds with
  | nil => have := h.1; simp only [beNat] at this; subst this; rfl
  | cons x r =>
    have hx := h.2 x r rfl
    rw [← h.1, natBytes_beNat (fun h => hx (UInt8.toNat_inj.1 h))]

theorem repair_iff {n m : Int} : (∃ ds, Shortest ds (-n - 1).natAbs ∧ m = beNat (ds.map (fun y => 255 - y))) ↔ m = repairModulus n := by
  unfold repairModulus
  constructor
  · rintro ⟨ds, h1, rfl⟩
    rw [shortest_unique h1, setBytes_eq]
  · intro h
    exact ⟨_, natBytes_shortest _, by rw [h, setBytes_eq]⟩

theorem reads_oidElem {env : AsnEnv} {oid : List Nat} {b : Bytes} : Reads env .oid {} oid b [] ↔ OidElem oid b := by
  constructor
  · intro h
    rcases (reads_prim (t := .oid) (by simp) (by simp) (by simp)).1 h with ⟨tl, inner, hl, hp⟩ | ⟨h, _⟩ | ⟨h, _⟩
    · obtain ⟨hdr, e, h1, h3, h2⟩ := hl.plain_inv rfl
      obtain ⟨d1, d2⟩ := h2
      have c2 : tl.cls = 0 ∧ tl.tag = 6 := by
        rcases d2 with h | h
        · cases h
        · exact h
      have c1 : tl.isCompound = false := by
        rcases d1 with h | h
        · cases h
        · exact h
      obtain ⟨cls, tag, len, con⟩ := tl
      simp only at c1 c2 h3
      obtain ⟨rfl, rfl⟩ := c2
      subst c1 h3
      exact ⟨inner, hp, hdr, h1, by rw [e, List.append_nil]⟩
    · exact absurd (absent_optional h) (by simp)
    · cases h
  · intro h
    have := reads_oid (env := env) plain0 h []
    rwa [List.append_nil] at this

theorem knownCurve_iff {c : List Nat} : knownCurve c = true ↔ c ∈ supportedCurves := by
  unfold knownCurve supportedCurves
  simp [or_assoc]

theorem parseKey_rsa_iff {env : CertEnv} {a : AlgId} {bits : BitStr} {k : Key} {re : Bool} :
    parseKey env .rsa a bits = .ok (some (k, re)) ↔ ∃ n e : Int,
      Reads env.toAsnEnv pkcs1PublicKeyTy {} (([] : Bytes), (some n : Option Int), e, ()) (rightAlign bits) [] ∧ 0 < e ∧
        ((re = false ∧ 0 < n ∧ k = .rsa n e) ∨ (re = true ∧ n ≤ 0 ∧ k = .rsa (repairModulus n) e)) := by
  unfold parseKey
  obtain ⟨r, hr⟩ := unmAll_total env.toAsnEnv pkcs1PublicKeyTy (rightAlign bits)
  simp only [hr]
  constructor
  · intro h
    cases r with
    | none => cases h
    | some v =>
      have hv := unmAll_iff.1 hr
      obtain ⟨v0, n, e, ⟨⟩⟩ := v
      have h0 : v0 = [] := reads_struct_noraw hv
      subst h0
      obtain ⟨he, i, hi, hc⟩ := rsaKeyOf_inv (n := n) (e := e) h
      subst hi
      exact ⟨i, e, hv, he, hc⟩
  · rintro ⟨n, e, hv, he, hc⟩
    have := hr.symm.trans (unmAll_iff.2 hv)
    cases this
    show rsaKeyOf (some n) e = _
    unfold rsaKeyOf
    simp only
    rw [if_neg (by omega)]
    rcases hc with ⟨rfl, h, rfl⟩ | ⟨rfl, h, rfl⟩
    · rw [if_neg (by omega)]
    · rw [if_pos h]

theorem dsaKeyOf_iff {p q g y : Option Int} {k : Key} {re : Bool} : dsaKeyOf p q g y = .ok (some (k, re)) ↔ re = false ∧ ∃ p' q' g' y' : Int,
    p = some p' ∧ q = some q' ∧ g = some g' ∧ y = some y' ∧ 0 < p' ∧ 0 < q' ∧ 0 < g' ∧ 0 < y' ∧ k = .dsa p' q' g' y' := by
  unfold dsaKeyOf
  constructor
  · intro h
    cases p <;> cases q <;> cases g <;> cases y <;> simp only at h <;> first | (cases h; done) | skip
    rename_i p q g y
    by_cases hc : y ≤ 0 ∨ p ≤ 0 ∨ q ≤ 0 ∨ g ≤ 0
    · rw [if_pos hc] at h; cases h
    · rw [if_neg hc] at h; cases h
      exact ⟨rfl, p, q, g, y, rfl, rfl, rfl, rfl, by omega, by omega, by omega, by omega, rfl⟩
  · rintro ⟨rfl, p, q, g, y, rfl, rfl, rfl, rfl, h1, h2, h3, h4, rfl⟩
    simp only
    rw [if_neg (by omega)]

theorem parseKey_dsa_iff {env : CertEnv} {a : AlgId} {bits : BitStr} {k : Key} {re : Bool} :
    parseKey env .dsa a bits = .ok (some (k, re)) ↔ re = false ∧ ∃ p q g y : Int, Reads env.toAsnEnv .bigInt {} (some y : Option Int) (rightAlign bits) [] ∧
      Reads env.toAsnEnv dsaParamsTy {} (([] : Bytes), (some p : Option Int), (some q : Option Int), (some g : Option Int), ()) a.params.full [] ∧
      0 < p ∧ 0 < q ∧ 0 < g ∧ 0 < y ∧ k = .dsa p q g y := by
  unfold parseKey
  obtain ⟨r, hr⟩ := unmAll_total env.toAsnEnv .bigInt (rightAlign bits)
  obtain ⟨r2, hr2⟩ := unmAll_total env.toAsnEnv dsaParamsTy a.params.full
  simp only [hr]
  constructor
  · intro h
    cases r with
    | none => cases h
    | some y =>
      simp only [hr2] at h
      cases r2 with
      | none => cases h
      | some v =>
        have hv := unmAll_iff.1 hr2
        have hy := unmAll_iff.1 hr
        obtain ⟨v0, p, q, g, ⟨⟩⟩ := v
        have h0 : v0 = [] := reads_struct_noraw hv
        subst h0
        obtain ⟨hre, p, q, g, y, rfl, rfl, rfl, rfl, h1, h2, h3, h4, hk⟩ := (dsaKeyOf_iff (p := p) (q := q) (g := g) (y := y)).1 h
        exact ⟨hre, p, q, g, y, hy, hv, h1, h2, h3, h4, hk⟩
  · rintro ⟨hre, p, q, g, y, hy, hv, h1, h2, h3, h4, hk⟩
    cases hr.symm.trans (unmAll_iff.2 hy)
    cases hr2.symm.trans (unmAll_iff.2 hv)
    simp only [hr2]
    exact dsaKeyOf_iff.2 ⟨hre, p, q, g, y, rfl, rfl, rfl, rfl, h1, h2, h3, h4, hk⟩

theorem parseKey_ecdsa_iff {env : CertEnv} {a : AlgId} {bits : BitStr} {k : Key} {re : Bool} :
    parseKey env .ecdsa a bits = .ok (some (k, re)) ↔ re = false ∧ ∃ curve x y, OidElem curve a.params.full ∧ curve ∈ supportedCurves ∧
      env.point curve (rightAlign bits) = some (x, y) ∧ k = .ecdsa curve x y := by
  unfold parseKey
  obtain ⟨r, hr⟩ := unmAll_total env.toAsnEnv .oid a.params.full
  simp only [hr]
  constructor
  · intro h
    cases r with
    | none => cases h
    | some c =>
      by_cases hk : knownCurve c = true
      · have h := (if_pos hk).symm.trans h
        cases hp : env.point c (rightAlign bits) with
        | none => rw [hp] at h; cases h
        | some xy =>
          rw [hp] at h
          obtain ⟨x, y⟩ := xy
          cases h
          exact ⟨rfl, c, x, y, reads_oidElem.1 (unmAll_iff.1 hr), knownCurve_iff.1 hk, hp, rfl⟩
      · have h := (if_neg hk).symm.trans h
        cases h
  · rintro ⟨rfl, c, x, y, h1, h2, h3, rfl⟩
    cases hr.symm.trans (unmAll_iff.2 (reads_oidElem.2 h1))
    refine (if_pos (knownCurve_iff.2 h2)).trans ?_
    rw [h3]

theorem pkAlgo_unknown {oid : List Nat} : pkAlgo oid = .unknown ↔ oid ∉ keyAlgorithms := by
  unfold pkAlgo keyAlgorithms
  by_cases h1 : oid = [1,2,840,113549,1,1,1]
  · simp [h1]
  · by_cases h2 : oid = [1,2,840,10040,4,1]
    · simp [h2]
    · by_cases h3 : oid = [1,2,840,10045,2,1]
      · simp [h3]
      · simp [h1, h2, h3]

theorem parseKey_iff {env : CertEnv} {a : AlgId} {bits : BitStr} {k : Key} {re : Bool} :
    parseKey env (pkAlgo a.oid) a bits = .ok (some (k, re)) ↔ KeyIs env a.oid a.params bits k re := by
  obtain ⟨oid, params⟩ := a
  simp only
  constructor
  · intro h
    by_cases h1 : oid = [1,2,840,113549,1,1,1]
    · subst h1
      rw [show pkAlgo [1,2,840,113549,1,1,1] = .rsa from by decide] at h
      obtain ⟨n, e, hv, he, ⟨rfl, hn, rfl⟩ | ⟨rfl, hn, rfl⟩⟩ := parseKey_rsa_iff.1 h
      · exact .rsa (aligned_iff.2 rfl) hv hn he
      · obtain ⟨ds, hs, hd⟩ := repair_iff.2 (show repairModulus n = repairModulus n from rfl)
        rw [hd]
        exact .rsaRepaired (aligned_iff.2 rfl) hv hn he hs
    · by_cases h2 : oid = [1,2,840,10040,4,1]
      · subst h2
        rw [show pkAlgo [1,2,840,10040,4,1] = .dsa from by decide] at h
        obtain ⟨rfl, p, q, g, y, hy, hv, h1, h2, h3, h4, rfl⟩ := parseKey_dsa_iff.1 h
        exact .dsa (aligned_iff.2 rfl) hy hv h1 h2 h3 h4
      · by_cases h3 : oid = [1,2,840,10045,2,1]
        · subst h3
          rw [show pkAlgo [1,2,840,10045,2,1] = .ecdsa from by decide] at h
          obtain ⟨rfl, c, x, y, h1, h2, h3, rfl⟩ := parseKey_ecdsa_iff.1 h
          exact .ecdsa (aligned_iff.2 rfl) h1 h2 h3
        · have hu : oid ∉ keyAlgorithms := by simp [keyAlgorithms, h1, h2, h3]
          rw [pkAlgo_unknown.2 hu] at h
          cases h
          exact .unknown hu
  · intro h
    cases h with
    | rsa ha hv hn he =>
      rw [show pkAlgo [1,2,840,113549,1,1,1] = .rsa from by decide]
      rw [aligned_iff.1 ha] at hv
      exact parseKey_rsa_iff.2 ⟨_, _, hv, he, .inl ⟨rfl, hn, rfl⟩⟩
    | rsaRepaired ha hv hn he hs =>
      rw [show pkAlgo [1,2,840,113549,1,1,1] = .rsa from by decide]
      rw [aligned_iff.1 ha] at hv
      rw [repair_iff.1 ⟨_, hs, rfl⟩]
      exact parseKey_rsa_iff.2 ⟨_, _, hv, he, .inr ⟨rfl, hn, rfl⟩⟩
    | dsa ha hy hv h1 h2 h3 h4 =>
      rw [show pkAlgo [1,2,840,10040,4,1] = .dsa from by decide]
      rw [aligned_iff.1 ha] at hy
      exact parseKey_dsa_iff.2 ⟨rfl, _, _, _, _, hy, hv, h1, h2, h3, h4, rfl⟩
    | ecdsa ha h1 h2 h3 =>
      rw [show pkAlgo [1,2,840,10045,2,1] = .ecdsa from by decide]
      rw [aligned_iff.1 ha] at h3
      exact parseKey_ecdsa_iff.2 ⟨rfl, _, _, _, h1, h2, h3, rfl⟩
    | unknown hu =>
      rw [pkAlgo_unknown.2 hu]
      rfl

theorem keyIs_none {env : CertEnv} {oid : List Nat} {params : RawVal} {bits : BitStr} {k : Key} {re : Bool} (h : KeyIs env oid params bits k re) :
    k = .none ↔ oid ∉ keyAlgorithms := by
  cases h with
  | unknown hu => simp [hu]
  | rsa => simp [keyAlgorithms]
  | rsaRepaired => simp [keyAlgorithms]
  | dsa => simp [keyAlgorithms]
  | ecdsa => simp [keyAlgorithms]

theorem parsePKIXKey_iff {env : CertEnv} {b : Bytes} {k : Key} : parsePKIXKey env b = .ok (some k) ↔ PublicKeyIs env b k := by
  constructor
  · intro h
    unfold parsePKIXKey at h
    obtain ⟨r, hr⟩ := unmAll_total env.toAsnEnv publicKeyInfoTy b
    rw [hr] at h
    cases r with
    | none => cases h
    | some v =>
      have hv := unmAll_iff.1 hr
      obtain ⟨raw, alg, bits, ⟨⟩⟩ := v
      have e := (reads_struct_raw hv).1
      rw [List.append_nil] at e
      have e : b = raw := e
      subst e
      by_cases hu : pkAlgo (AlgId.of alg).oid = .unknown
      · have h := (if_pos hu).symm.trans h
        cases h
      · have h := (if_neg hu).symm.trans h
        obtain ⟨kr, hk⟩ := parseKey_total env (pkAlgo (AlgId.of alg).oid) (AlgId.of alg) bits
        rw [hk] at h
        rcases kr with _ | ⟨k', re⟩
        · cases h
        · cases h
          have hkk := parseKey_iff.1 hk
          obtain ⟨a0, oid, params, ⟨⟩⟩ := alg
          exact ⟨a0, oid, params, bits, re, hv, hkk, fun e => hu (pkAlgo_unknown.2 ((keyIs_none hkk).1 e))⟩
  · rintro ⟨a0, oid, params, bits, re, hv, hk, hn⟩
    have hk' := parseKey_iff (a := ⟨oid, params⟩).2 hk
    rw [parsePKIXKey_of_reads hv (k := k) (re := re) hk']
    have hu : pkAlgo oid ≠ .unknown := fun h => hn ((keyIs_none hk).2 (pkAlgo_unknown.1 h))
    exact congrArg Except.ok (if_neg (t := Option.none) (e := some k) hu)

/-! ## Names -/

theorem rdnsOf_eq (v : List (List (Bytes × List Nat × Option AnyVal × Unit))) :
    rdnsOf v = v.map (fun rdn => rdn.map (fun a => (a.2.1, stringOf a.2.2.1))) := by
  unfold rdnsOf
  refine List.map_congr_left (fun rdn _ => List.map_congr_left (fun a _ => ?_))
  obtain ⟨_, o, v, _⟩ := a
  show (o, _) = (o, stringOf v)
  rcases v with _ | v
  · rfl
  · cases v <;> rfl

theorem nameIs_iff {env : AsnEnv} {b : Bytes} {n : PName} : NameIs env b n ↔ ∃ v, unmAll env rdnsTy b = .ok (some v) ∧ n = fillName (rdnsOf v) := by
  constructor
  · rintro ⟨v, hv, hn⟩
    refine ⟨v, unmAll_iff.2 hv, ?_⟩
    rw [fillName_eq, rdnsOf_eq]
    exact hn
  · rintro ⟨v, hv, hn⟩
    refine ⟨v, unmAll_iff.1 hv, ?_⟩
    rw [hn, fillName_eq, rdnsOf_eq v]

/-! ## Signature algorithms -/

theorem sigAlgTable_eq : sigAlgTable = signatureAlgorithms := rfl

theorem mget_table {oid : List Nat} {n : Nat} : mget signatureAlgorithms oid = some n ↔ (oid, n) ∈ signatureAlgorithms := by
  constructor
  · exact fun h => mget_mem h
  · exact fun h => mget_of_mem (by unfold KeysNodup signatureAlgorithms; decide) h

theorem pssAlg_iff {hash mgf h2 : AlgId} {salt trailer : Int} {n : Nat} (hn : n ≠ 0) : pssAlg hash mgf h2 salt trailer = n ↔
    hash.params.full = [5, 0] ∧ mgf.oid = [1,2,840,113549,1,1,8] ∧ h2.oid = hash.oid ∧ h2.params.full = [5, 0] ∧ trailer = 1 ∧
      (hash.oid, salt, n) ∈ pssHashes := by
  unfold pssAlg pssHashes
  by_cases h1 : hash.params.full ≠ [5, 0] ∨ mgf.oid ≠ [1,2,840,113549,1,1,8] ∨ h2.oid ≠ hash.oid ∨ h2.params.full ≠ [5, 0] ∨ trailer ≠ 1
  · rw [if_pos h1]
    constructor
    · intro h; exact absurd h.symm hn
    · rintro ⟨a, b, c, d, e, _⟩
      rcases h1 with h | h | h | h | h <;> exact absurd ‹_› h
  · rw [if_neg h1]
    simp only [not_or, ne_eq, Classical.not_not] at h1
    obtain ⟨a, b, c, d, e⟩ := h1
    simp only [a, b, c, d, e, true_and]
    generalize hash.oid = o
    simp only [List.mem_cons, Prod.mk.injEq, List.mem_nil_iff, or_false]
    constructor
    · intro h
      by_cases x1 : o = [2,16,840,1,101,3,4,2,1] ∧ salt = 32
      · rw [if_pos x1] at h; exact .inl ⟨x1.1, x1.2, h.symm⟩
      · rw [if_neg x1] at h
        by_cases x2 : o = [2,16,840,1,101,3,4,2,2] ∧ salt = 48
        · rw [if_pos x2] at h; exact .inr (.inl ⟨x2.1, x2.2, h.symm⟩)
        · rw [if_neg x2] at h
          by_cases x3 : o = [2,16,840,1,101,3,4,2,3] ∧ salt = 64
          · rw [if_pos x3] at h; exact .inr (.inr ⟨x3.1, x3.2, h.symm⟩)
          · rw [if_neg x3] at h; exact absurd h.symm hn
    · rintro (⟨rfl, rfl, rfl⟩ | ⟨rfl, rfl, rfl⟩ | ⟨rfl, rfl, rfl⟩)
      · rfl
      · rfl
      · rfl

theorem reads_unique {env : AsnEnv} {t : Ty} {v v' : t.interp} {b rest rest' : Bytes} (h : Reads env t {} v b rest) (h' : Reads env t {} v' b rest') :
    v = v' ∧ rest = rest' := by
  have := (unmFirst_iff.2 h).symm.trans (unmFirst_iff.2 h')
  simpa using this

theorem pssIs_iff {env : AsnEnv} {params : Bytes} {n : Nat} (hn : n ≠ 0) :
    (∃ hash salt, PssIs env params hash salt ∧ (hash, salt, n) ∈ pssHashes) ↔
    ∃ v rest h2 rest', unmFirst env pssParametersTy params = .ok (some (v, rest)) ∧
      unmFirst env algIdTy (AlgId.of v.2.2.1).params.full = .ok (some (h2, rest')) ∧
      pssAlg (AlgId.of v.2.1) (AlgId.of v.2.2.1) (AlgId.of h2) v.2.2.2.1 v.2.2.2.2.1 = n := by
  constructor
  · rintro ⟨hash, salt, ⟨p0, h0, m0, i0, rest, rest', hp, mp, ip, a1, a2, a3, a4⟩, hm⟩
    exact ⟨_, _, _, _, unmFirst_iff.2 a3, unmFirst_iff.2 a4, (pssAlg_iff hn).2 ⟨a1, rfl, rfl, a2, rfl, hm⟩⟩
  · rintro ⟨v, rest, h2, rest', h1, h3, h4⟩
    have h1 := unmFirst_iff.1 h1
    have h3 := unmFirst_iff.1 h3
    obtain ⟨p0, ⟨h0, hash, hp, ⟨⟩⟩, ⟨m0, mo, mp, ⟨⟩⟩, salt, trailer, ⟨⟩⟩ := v
    obtain ⟨i0, io, ip, ⟨⟩⟩ := h2
    obtain ⟨a1, a2, a3, a4, a5, a6⟩ := (pssAlg_iff hn).1 h4
    have a2 : mo = [1,2,840,113549,1,1,8] := a2
    have a3 : io = hash := a3
    have a5 : trailer = (1 : Int) := a5
    subst a2 a3 a5
    exact ⟨io, salt, ⟨p0, h0, m0, i0, rest, rest', hp, mp, ip, a1, a4, h1, h3⟩, a6⟩

theorem sigAlgOf_pss {env : AsnEnv} {params : RawVal} {n : Nat} : sigAlgOf env ⟨[1,2,840,113549,1,1,10], params⟩ = .ok n ↔
    (n ≠ 0 ∧ ∃ hash salt, PssIs env params.full hash salt ∧ (hash, salt, n) ∈ pssHashes) ∨
    (n = 0 ∧ ∀ hash salt m, (hash, salt, m) ∈ pssHashes → ¬ PssIs env params.full hash salt) := by
  have hpos : ∀ {hash salt m}, (hash, salt, m) ∈ pssHashes → m ≠ 0 := by
    intro hash salt m h
    simp only [pssHashes, List.mem_cons, Prod.mk.injEq, List.mem_nil_iff, or_false] at h
    omega
  have key : ∀ m, m ≠ 0 → (sigAlgOf env ⟨[1,2,840,113549,1,1,10], params⟩ = .ok m ↔
      ∃ hash salt, PssIs env params.full hash salt ∧ (hash, salt, m) ∈ pssHashes) := by
    intro m hm
    rw [pssIs_iff hm]
    unfold sigAlgOf
    rw [if_neg (by simp)]
    obtain ⟨r, h⟩ := unmFirst_total env pssParametersTy params.full
    show (match unmFirst env pssParametersTy params.full with | .error p => _ | .ok none => _ | .ok (some (v, _)) => _) = _ ↔ _
    rw [h]
    rcases r with _ | ⟨v, rest⟩
    · constructor
      · intro h; cases h; exact absurd rfl hm
      · rintro ⟨_, _, _, _, h, _⟩; cases h
    · obtain ⟨r2, h2⟩ := unmFirst_total env algIdTy (AlgId.of v.2.2.1).params.full
      simp only [h2]
      rcases r2 with _ | ⟨w, rest'⟩
      · constructor
        · intro h; cases h; exact absurd rfl hm
        · rintro ⟨v', _, h2', rest'', e, h3, _⟩
          cases e
          rw [h2] at h3
          cases h3
      · simp only [Except.ok.injEq]
        constructor
        · intro h; exact ⟨v, rest, w, rest', rfl, h2, h⟩
        · rintro ⟨v', _, w', rest'', e, h3, h4⟩
          cases e
          rw [h2] at h3
          cases h3
          exact h4
  obtain ⟨r, hr⟩ := sigAlgOf_total env ⟨[1,2,840,113549,1,1,10], params⟩
  by_cases hn : n = 0
  · subst hn
    simp only [ne_eq, not_true_eq_false, false_and, true_and, false_or]
    constructor
    · intro h hash salt m hm hp
      have := (key m (hpos hm)).2 ⟨hash, salt, hp, hm⟩
      rw [h] at this
      cases this
      exact hpos hm rfl
    · intro h
      rw [hr]
      by_cases hz : r = 0
      · rw [hz]
      · obtain ⟨hash, salt, h1, h2⟩ := (key r hz).1 hr
        exact absurd h1 (h _ _ _ h2)
  · simp only [hn, ne_eq, not_false_eq_true, true_and, false_and, or_false]
    exact key n hn

theorem sigAlgIs_iff {env : AsnEnv} {a : AlgId} {n : Nat} : sigAlgOf env a = .ok n ↔ SigAlgIs env a.oid a.params.full n := by
  obtain ⟨oid, params⟩ := a
  by_cases h0 : oid = [1,2,840,113549,1,1,10]
  · subst h0
    rw [sigAlgOf_pss]
    constructor
    · rintro (⟨_, hash, salt, h1, h2⟩ | ⟨rfl, h⟩)
      · exact .pss rfl h1 h2
      · exact .badPss rfl h
    · intro h
      cases h with
      | known h => exact absurd (mget_table.2 h) (by simp [signatureAlgorithms, mget])
      | unknown h => exact absurd rfl h
      | pss _ h1 h2 =>
        refine .inl ⟨?_, _, _, h1, h2⟩
        simp only [pssHashes, List.mem_cons, Prod.mk.injEq, List.mem_nil_iff, or_false] at h2
        omega
      | badPss _ h => exact .inr ⟨rfl, h⟩
  · unfold sigAlgOf
    rw [if_pos h0, sigAlgTable_eq]
    simp only [Except.ok.injEq]
    constructor
    · intro h
      cases hm : mget signatureAlgorithms oid with
      | none =>
        rw [hm] at h
        simp only [Option.getD_none] at h
        subst h
        exact .unknown h0 (fun n hn => by rw [mget_table.2 hn] at hm; cases hm)
      | some m =>
        rw [hm] at h
        simp only [Option.getD_some] at h
        subst h
        exact .known (mget_table.1 hm)
    · intro h
      cases h with
      | known h => rw [mget_table.2 h]; rfl
      | unknown _ h =>
        cases hm : mget signatureAlgorithms oid with
        | none => rfl
        | some m => exact absurd (mget_table.1 hm) (h m)
      | pss h => exact absurd h h0
      | badPss h => exact absurd h h0

/-! ## Extensions -/

theorem handledIf_iff {α : Type} {x : Go (Option α)} {u : Bool} : handledIf x = .ok (some u) ↔ u = false ∧ ∃ v, x = .ok (some v) := by
  unfold handledIf
  rcases x with p | r
  · simp
  · rcases r with _ | v
    · simp
    · simp [eq_comm]

theorem handled_reads {env : AsnEnv} {t : Ty} {value : Bytes} {u : Bool} : handledIf (unmAll env t value) = .ok (some u) ↔
    u = false ∧ ∃ v, Reads env t {} v value [] := by
  rw [handledIf_iff]
  refine and_congr_right (fun _ => ?_)
  constructor
  · rintro ⟨v, h⟩; exact ⟨v, unmAll_iff.1 h⟩
  · rintro ⟨v, h⟩; exact ⟨v, unmAll_iff.2 h⟩

/-- A RawValue is any one element. -/
theorem reads_raw_iff {env : AsnEnv} {v : RawVal} {b rest : Bytes} : Reads env .rawValue {} v b rest ↔
    Elem v.cls v.tag v.isCompound v.bytes v.full ∧ b = v.full ++ rest := by
  constructor
  · intro h
    rcases (reads_prim (t := .rawValue) (by simp) (by simp) (by simp)).1 h with ⟨tl, inner, hl, hp⟩ | ⟨h, _⟩ | ⟨h, _⟩
    · obtain ⟨hdr, e, h1, h3, h2⟩ := hl.plain_inv rfl
      have hp : v = (⟨tl.cls, tl.tag, tl.isCompound, inner, b.take (b.length - rest.length)⟩ : RawVal) := hp
      rw [e, take_front] at hp
      subst hp
      obtain ⟨cls, tag, len, con⟩ := tl
      simp only at h3
      subst h3
      exact ⟨⟨hdr, h1, rfl⟩, e⟩
    · exact absurd (absent_optional h) (by simp)
    · cases h
  · rintro ⟨h, rfl⟩
    exact reads_raw (env := env) (fp := {}) rfl rfl h rest

theorem unmRaw_iff {env : AsnEnv} {v : RawVal} {b rest : Bytes} : unmFirst env .rawValue b = .ok (some ((v, rest) : RawVal × Bytes)) ↔
    Elem v.cls v.tag v.isCompound v.bytes v.full ∧ b = v.full ++ rest := unmFirst_iff.trans reads_raw_iff

theorem rawVal_of_elem {cls tag : Nat} {con : Bool} {c e : Bytes} (h : Elem cls tag con c e) (env : AsnEnv) (r : Bytes) :
    unmFirst env .rawValue (e ++ r) = .ok (some (((⟨cls, tag, con, c, e⟩ : RawVal), r) : RawVal × Bytes)) := unmRaw_iff.2 ⟨h, rfl⟩

theorem sanLoop_of {env : AsnEnv} {n : Nat} {b : Bytes} (h : AltNames n b) : ∀ (fuel k : Nat), b.length ≤ fuel → sanLoop env fuel b k = .ok (some (k + n)) := by
  have step : ∀ {cls tag : Nat} {con : Bool} {c e r : Bytes}, Elem cls tag con c e → ∀ (fuel k : Nat), (e ++ r).length ≤ fuel →
      ∃ f, fuel = f + 1 ∧ r.length ≤ f ∧ sanLoop env fuel (e ++ r) k = (if tag = 1 ∨ tag = 2 then sanLoop env f r (k + 1)
        else if tag = 7 then (if c.length = 4 ∨ c.length = 16 then sanLoop env f r (k + 1) else .ok none) else sanLoop env f r k) := by
    intro cls tag con c e r he fuel k hl
    have hne := he.ne
    rw [List.length_append] at hl
    have : 0 < e.length := List.length_pos_iff.2 hne
    cases fuel with
    | zero => omega
    | succ f =>
      refine ⟨f, rfl, by omega, ?_⟩
      rw [sanLoop, if_neg (by simp [hne]), rawVal_of_elem he]
  induction h with
  | nil => intro fuel k _; cases fuel <;> rfl
  | text ht he _ ih =>
    intro fuel k hl
    obtain ⟨f, rfl, hf, h⟩ := step he fuel k hl
    rw [h, if_pos ht, ih f (k + 1) hf]
    congr 2; omega
  | ip hc he _ ih =>
    intro fuel k hl
    obtain ⟨f, rfl, hf, h⟩ := step he fuel k hl
    rw [h, if_neg (by omega), if_pos rfl, if_pos hc, ih f (k + 1) hf]
    congr 2; omega
  | other h1 h2 h7 he _ ih =>
    intro fuel k hl
    obtain ⟨f, rfl, hf, h⟩ := step he fuel k hl
    rw [h, if_neg (by omega), if_neg h7, ih f k hf]

theorem sanLoop_inv {env : AsnEnv} : ∀ (fuel : Nat) (b : Bytes) (k m : Nat), b.length ≤ fuel → sanLoop env fuel b k = .ok (some m) → ∃ n, m = k + n ∧ AltNames n b
  | 0, b, k, m, hl, h => by
    have : b = [] := List.length_eq_zero_iff.1 (by omega)
    subst this
    cases h
    exact ⟨0, rfl, .nil⟩
  | fuel + 1, b, k, m, hl, h => by
    rw [sanLoop] at h
    by_cases hb : b = []
    · rw [if_pos hb] at h
      cases h
      subst hb
      exact ⟨0, rfl, .nil⟩
    · rw [if_neg hb] at h
      obtain ⟨r, hr⟩ := unmFirst_total env .rawValue b
      rw [hr] at h
      rcases r with _ | ⟨v, rest⟩
      · cases h
      · obtain ⟨he, e⟩ := unmRaw_iff.1 hr
        have h : (if RawVal.tag v = 1 ∨ RawVal.tag v = 2 then sanLoop env fuel rest (k + 1)
          else if RawVal.tag v = 7 then
            (if (RawVal.bytes v).length = 4 ∨ (RawVal.bytes v).length = 16 then sanLoop env fuel rest (k + 1) else .ok none)
          else sanLoop env fuel rest k) = .ok (some m) := h
        have hne := he.ne
        have : 0 < (RawVal.full v).length := List.length_pos_iff.2 hne
        have hl' : rest.length ≤ fuel := by
          rw [e, List.length_append] at hl; omega
        rw [e]
        by_cases h1 : RawVal.tag v = 1 ∨ RawVal.tag v = 2
        · rw [if_pos h1] at h
          obtain ⟨n, hn, ha⟩ := sanLoop_inv fuel rest _ _ hl' h
          exact ⟨n + 1, by omega, .text h1 he ha⟩
        · rw [if_neg h1] at h
          by_cases h7 : RawVal.tag v = 7
          · rw [if_pos h7] at h
            by_cases hc : (RawVal.bytes v).length = 4 ∨ (RawVal.bytes v).length = 16
            · rw [if_pos hc] at h
              obtain ⟨n, hn, ha⟩ := sanLoop_inv fuel rest _ _ hl' h
              rw [h7] at he
              exact ⟨n + 1, by omega, .ip hc he ha⟩
            · rw [if_neg hc] at h; cases h
          · rw [if_neg h7] at h
            obtain ⟨n, hn, ha⟩ := sanLoop_inv fuel rest _ _ hl' h
            exact ⟨n, hn, .other (fun e => h1 (.inl e)) (fun e => h1 (.inr e)) h7 he ha⟩

theorem parseSAN_iff {env : AsnEnv} {value : Bytes} {n : Nat} : parseSAN env value = .ok (some n) ↔
    ∃ content, Elem 0 16 true content value ∧ AltNames n content := by
  unfold parseSAN
  constructor
  · intro h
    obtain ⟨r, hr⟩ := unmAll_total env .rawValue value
    rw [hr] at h
    rcases r with _ | v
    · cases h
    · obtain ⟨he, e⟩ := reads_raw_iff.1 (unmAll_iff.1 hr)
      have h : (if (!RawVal.isCompound v || decide (RawVal.tag v ≠ 16) || decide (RawVal.cls v ≠ 0)) = true then .ok none
        else sanLoop env (RawVal.bytes v).length (RawVal.bytes v) 0) = .ok (some n) := h
      rw [List.append_nil] at e
      by_cases hc : (!RawVal.isCompound v || decide (RawVal.tag v ≠ 16) || decide (RawVal.cls v ≠ 0)) = true
      · rw [if_pos hc] at h; cases h
      · rw [if_neg hc] at h
        simp only [Bool.or_eq_true, Bool.not_eq_true', decide_eq_true_eq, not_or, Bool.not_eq_false, ne_eq, Classical.not_not] at hc
        obtain ⟨⟨h1, h2⟩, h3⟩ := hc
        rw [h1, h2, h3, ← e] at he
        obtain ⟨m, hm, ha⟩ := sanLoop_inv _ _ _ _ (Nat.le_refl _) h
        have : n = m := by omega
        subst this
        exact ⟨_, he, ha⟩
  · rintro ⟨content, he, ha⟩
    have : unmAll env .rawValue value = .ok (some (⟨0, 16, true, content, value⟩ : RawVal)) :=
      unmAll_iff.2 (reads_raw_iff.2 ⟨he, by rw [List.append_nil]⟩)
    rw [this]
    show (if (!true || decide (16 ≠ 16) || decide (0 ≠ 0)) = true then .ok none else sanLoop env content.length content 0) = _
    rw [if_neg (by simp), sanLoop_of ha _ _ (Nat.le_refl _), Nat.zero_add]

theorem subtrees_iff {critical : Bool} {p e : List (Bytes × Bytes × Unit)} :
    (subtreesOk critical p && subtreesOk critical e) = true ↔ (critical = true → ∀ s ∈ p ++ e, s.2.1 ≠ []) := by
  unfold subtreesOk
  rw [← List.all_append, List.all_eq_true]
  cases critical
  · simp
  · simp

theorem dpsOk_iff {env : AsnEnv} : ∀ {l : List (Bytes × (Bytes × RawVal × rdnsTy.interp × Unit) × BitStr × RawVal × Unit)},
    dpsOk env l = .ok (some ()) ↔ ∀ p ∈ l, p.2.1.2.1.bytes ≠ [] → ∃ e rest, AnyElem e ∧ p.2.1.2.1.bytes = e ++ rest
  | [] => by simp [dpsOk]
  | dp :: dps => by
    have ih := dpsOk_iff (env := env) (l := dps)
    unfold dpsOk
    rw [List.forall_mem_cons]
    by_cases hb : dp.2.1.2.1.bytes = []
    · rw [if_pos hb, ih]
      simp [hb]
    · rw [if_neg hb]
      obtain ⟨r, h⟩ := unmFirst_total env .rawValue dp.2.1.2.1.bytes
      rw [h]
      rcases r with _ | ⟨v, rest⟩
      · simp only [Except.ok.injEq, reduceCtorEq, false_iff]
        rintro ⟨h1, _⟩
        obtain ⟨e, rest, ⟨cls, tag, con, c, he⟩, h2⟩ := h1 hb
        rw [h2, rawVal_of_elem he] at h
        cases h
      · obtain ⟨he, e⟩ := unmRaw_iff.1 h
        simp only
        rw [ih]
        exact ⟨fun h => ⟨fun _ => ⟨_, rest, ⟨_, _, _, _, he⟩, e⟩, h⟩, fun h => h.2⟩

theorem extensionStep_iff {env : AsnEnv} {id : List Nat} {critical : Bool} {value : Bytes} {u : Bool} :
    extensionStep env id critical value = .ok (some u) ↔ ExtensionIs env id critical value u := by
  have rd : ∀ {id' : List Nat} {t : Ty}, id = id' → (id', t) ∈ readableExtensions → (∀ {t'}, (id', t') ∈ readableExtensions → t' = t) → id' ∉ specialExtensions →
      (handledIf (unmAll env t value) = .ok (some u) ↔ ExtensionIs env id critical value u) := by
    rintro id' t rfl hm hu hs
    rw [handled_reads]
    constructor
    · rintro ⟨rfl, v, h⟩
      exact .readable hm h
    · intro h
      cases h with
      | readable hm' h => cases hu hm'; exact ⟨rfl, _, h⟩
      | altNames => exact absurd (by simp [specialExtensions]) hs
      | nameConstraints => exact absurd (by simp [specialExtensions]) hs
      | distributionPoints => exact absurd (by simp [specialExtensions]) hs
      | other h _ => exact absurd hm (h _)
  unfold extensionStep
  by_cases h1 : id = [2,5,29,15]
  · rw [if_pos h1]; exact rd h1 (by simp [readableExtensions]) (by simp [readableExtensions]) (by decide)
  rw [if_neg h1]
  by_cases h2 : id = [2,5,29,19]
  · rw [if_pos h2]; exact rd (t := basicConstraintsTy) h2 (by simp [readableExtensions]; rfl) (by simp [readableExtensions]; rfl) (by decide)
  rw [if_neg h2]
  by_cases h3 : id = [2,5,29,17]
  · rw [if_pos h3]
    subst h3
    obtain ⟨r, hr⟩ := parseSAN_total env value
    rw [hr]
    constructor
    · intro h
      rcases r with _ | n
      · cases h
      · obtain ⟨content, he, ha⟩ := parseSAN_iff.1 hr
        cases h
        exact .altNames he ha
    · intro h
      cases h with
      | readable hm => simp [readableExtensions] at hm
      | altNames he ha =>
        cases hr.symm.trans (parseSAN_iff.2 ⟨_, he, ha⟩)
        rfl
      | other _ h => exact absurd (by simp [specialExtensions]) h
  rw [if_neg h3]
  by_cases h4 : id = [2,5,29,30]
  · rw [if_pos h4]
    subst h4
    obtain ⟨r, hr⟩ := unmAll_total env nameConstraintsTy value
    rw [hr]
    constructor
    · intro h
      rcases r with _ | v
      · cases h
      · have hv := unmAll_iff.1 hr
        obtain ⟨c0, p, e, ⟨⟩⟩ := v
        have h : (if (subtreesOk critical p && subtreesOk critical e) = true then (.ok (some false) : Go (Option Bool)) else .ok none) = .ok (some u) := h
        by_cases hs : (subtreesOk critical p && subtreesOk critical e) = true
        · rw [if_pos hs] at h
          cases h
          exact .nameConstraints hv (subtrees_iff.1 hs)
        · rw [if_neg hs] at h; cases h
    · intro h
      cases h with
      | readable hm => simp [readableExtensions] at hm
      | nameConstraints hv hs =>
        cases hr.symm.trans (unmAll_iff.2 hv)
        exact if_pos (subtrees_iff.2 hs)
      | other _ h => exact absurd (by simp [specialExtensions]) h
  rw [if_neg h4]
  by_cases h5 : id = [2,5,29,31]
  · rw [if_pos h5]
    subst h5
    obtain ⟨r, hr⟩ := unmAll_total env (.slice false dpTy) value
    rw [hr]
    constructor
    · intro h
      rcases r with _ | v
      · cases h
      · obtain ⟨rfl, ⟨⟩, h⟩ := handledIf_iff.1 h
        exact .distributionPoints (unmAll_iff.1 hr) (dpsOk_iff.1 h)
    · intro h
      cases h with
      | readable hm => simp [readableExtensions] at hm
      | distributionPoints hv hs =>
        cases hr.symm.trans (unmAll_iff.2 hv)
        exact handledIf_iff.2 ⟨rfl, (), dpsOk_iff.2 hs⟩
      | other _ h => exact absurd (by simp [specialExtensions]) h
  rw [if_neg h5]
  by_cases h6 : id = [2,5,29,35]
  · rw [if_pos h6]; exact rd (t := authKeyIdTy) h6 (by simp [readableExtensions]; rfl) (by simp [readableExtensions]; rfl) (by decide)
  rw [if_neg h6]
  by_cases h7 : id = [2,5,29,37]
  · rw [if_pos h7]; exact rd h7 (by simp [readableExtensions]) (by simp [readableExtensions]) (by decide)
  rw [if_neg h7]
  by_cases h8 : id = [2,5,29,14]
  · rw [if_pos h8]; exact rd h8 (by simp [readableExtensions]) (by simp [readableExtensions]) (by decide)
  rw [if_neg h8]
  by_cases h9 : id = [2,5,29,32]
  · rw [if_pos h9]; exact rd (t := .slice false policyTy) h9 (by simp [readableExtensions]; rfl) (by simp [readableExtensions]; rfl) (by decide)
  rw [if_neg h9]
  by_cases h10 : id = [1,3,6,1,5,5,7,1,1]
  · rw [if_pos h10]; exact rd (t := .slice false aiaTy) h10 (by simp [readableExtensions]; rfl) (by simp [readableExtensions]; rfl) (by decide)
  rw [if_neg h10]
  have hr : ∀ t, (id, t) ∉ readableExtensions := by simp [readableExtensions, h1, h2, h6, h7, h8, h9, h10]
  have hs : id ∉ specialExtensions := by simp [specialExtensions, h3, h4, h5]
  constructor
  · intro h
    cases h
    exact .other hr hs
  · intro h
    cases h with
    | readable hm => exact absurd hm (hr _)
    | altNames => exact absurd rfl h3
    | nameConstraints => exact absurd rfl h4
    | distributionPoints => exact absurd rfl h5
    | other => rfl

theorem extensionIs_unique {env : AsnEnv} {id : List Nat} {critical : Bool} {value : Bytes} {u u' : Bool} (h : ExtensionIs env id critical value u)
    (h' : ExtensionIs env id critical value u') : u = u' := by
  have := (extensionStep_iff.2 h).symm.trans (extensionStep_iff.2 h')
  simpa using this

theorem extensionLoop_iff {env : AsnEnv} : ∀ {l : List (Bytes × List Nat × Bool × Bytes × Unit)} {c0 crit : Bool},
    extensionLoop env l c0 = .ok (some crit) ↔ (∀ e ∈ l, ∃ u, ExtensionIs env e.2.1 e.2.2.1 e.2.2.2.1 u) ∧
      (crit = true ↔ c0 = true ∨ ∃ e ∈ l, e.2.2.1 = true ∧ ExtensionIs env e.2.1 e.2.2.1 e.2.2.2.1 true)
  | [], c0, crit => by
    unfold extensionLoop
    cases c0 <;> cases crit <;> simp
  | e :: es, c0, crit => by
    unfold extensionLoop
    obtain ⟨r, hr⟩ := extensionStep_total env e.2.1 e.2.2.1 e.2.2.2.1
    rw [hr]
    rcases r with _ | u
    · simp only [Except.ok.injEq, reduceCtorEq, false_iff]
      rintro ⟨h, _⟩
      obtain ⟨u, hu⟩ := h e (by simp)
      cases hr.symm.trans (extensionStep_iff.2 hu)
    · have hu := extensionStep_iff.1 hr
      simp only
      rw [extensionLoop_iff, List.forall_mem_cons]
      have e1 : ((c0 || (e.2.2.1 && u)) = true ∨ ∃ x ∈ es, x.2.2.1 = true ∧ ExtensionIs env x.2.1 x.2.2.1 x.2.2.2.1 true) ↔
          (c0 = true ∨ ∃ x ∈ e :: es, x.2.2.1 = true ∧ ExtensionIs env x.2.1 x.2.2.1 x.2.2.2.1 true) := by
        simp only [Bool.or_eq_true, Bool.and_eq_true]
        have : (e.2.2.1 = true ∧ u = true) ↔ (e.2.2.1 = true ∧ ExtensionIs env e.2.1 e.2.2.1 e.2.2.2.1 true) := by
          refine and_congr_right (fun _ => ⟨fun h => h ▸ hu, fun h => extensionIs_unique hu h⟩)
        rw [this, or_assoc]
        simp only [List.mem_cons, or_and_right, exists_or, exists_eq_left]
      rw [e1]
      exact ⟨fun h => ⟨⟨⟨u, hu⟩, h.1⟩, h.2⟩, fun h => ⟨h.1.2, h.2⟩⟩

theorem extensionsAre_iff {env : AsnEnv} {l : List (Bytes × List Nat × Bool × Bytes × Unit)} {crit : Bool} :
    extensionLoop env l false = .ok (some crit) ↔ ExtensionsAre env l crit := by
  rw [extensionLoop_iff]
  simp [ExtensionsAre]

/-! ## The re-encoded key -/

theorem minimal_length {b : Bytes} (hm : MinimalInt b) {n : Nat} (h : twos b = n) {k : Nat} (hn : n < 256 ^ k) : b.length ≤ k + 1 := by
  cases b with
  | nil => simp
  | cons x xs =>
    have e : beNat (x :: xs) = n ∧ x.toNat < 128 := by
      simp only [twos] at h
      by_cases hx : x.toNat < 128
      · rw [if_pos hx] at h
        exact ⟨by omega, hx⟩
      · rw [if_neg hx, ← natCast_pow256] at h
        have := beNat_lt (x :: xs)
        simp only [List.length_cons] at this h
        omega
    cases xs with
    | nil => simp
    | cons y ys =>
      have h0 := (hm.2 x y ys rfl).1
      have hlow : 256 ^ ys.length ≤ n := by
        rw [← e.1]
        simp only [beNat, List.length_cons]
        have hp : 0 < 256 ^ ys.length := Nat.pow_pos (by omega)
        by_cases hx : x.toNat = 0
        · have hy : 1 ≤ y.toNat := by
            have : ¬ y.toNat < 128 := fun h => h0 ⟨hx, h⟩
            omega
          have : 1 * 256 ^ ys.length ≤ y.toNat * 256 ^ ys.length := Nat.mul_le_mul_right _ hy
          omega
        · have : 1 * 256 ^ (ys.length + 1) ≤ x.toNat * 256 ^ (ys.length + 1) := Nat.mul_le_mul_right _ (by omega)
          have : 256 ^ (ys.length + 1) = 256 ^ ys.length * 256 := Nat.pow_succ ..
          omega
      have : ys.length < k := (Nat.pow_lt_pow_iff_right (by omega)).1 (Nat.lt_of_le_of_lt hlow hn)
      simp only [List.length_cons]
      omega

theorem shortest_le {ds c : Bytes} {n : Nat} (h : Shortest ds n) (hc : n < 256 ^ c.length) : ds.length ≤ c.length := by
  cases ds with
  | nil => simp
  | cons x xs =>
    have hx : x.toNat ≠ 0 := fun e => h.2 x xs rfl (UInt8.toNat_inj.1 e)
    have : 256 ^ xs.length ≤ n := by
      rw [← h.1]
      simp only [beNat]
      have : 1 * 256 ^ xs.length ≤ x.toNat * 256 ^ xs.length := Nat.mul_le_mul_right _ (by omega)
      omega
    have : xs.length < c.length := (Nat.pow_lt_pow_iff_right (by omega)).1 (Nat.lt_of_le_of_lt this hc)
    simp only [List.length_cons]
    omega

theorem repair_length {c : Bytes} (hm : MinimalInt c) : (encodeBigInt (repairModulus (twos c))).length ≤ c.length + 1 := by
  have hs := natBytes_shortest (-twos c - 1).natAbs
  have hb : (-twos c - 1).natAbs < 256 ^ c.length := by
    cases c with
    | nil => exact absurd rfl hm.1
    | cons x xs =>
      have := beNat_lt (x :: xs)
      simp only [twos]
      split
      · simp only [List.length_cons, beNat] at *
        have hp : 0 < 256 ^ xs.length := Nat.pow_pos (by omega)
        have h1 : x.toNat * 256 ^ xs.length ≤ 127 * 256 ^ xs.length := Nat.mul_le_mul_right _ (by omega)
        have h2 := beNat_lt xs
        have : 256 ^ (xs.length + 1) = 256 ^ xs.length * 256 := Nat.pow_succ ..
        omega
      · rw [← natCast_pow256]
        simp only [List.length_cons] at *
        omega
  have hl := shortest_le hs hb
  unfold repairModulus
  rw [setBytes_eq]
  have hlt := beNat_lt ((natBytes (-twos c - 1).natAbs).map (fun y => 255 - y))
  rw [List.length_map] at hlt
  have := minimal_length (encodeBigInt_spec _).1 (encodeBigInt_spec ((beNat ((natBytes (-twos c - 1).natAbs).map (fun y => 255 - y)) : Nat) : Int)).2 hlt
  omega

theorem tlv_derElem {cls tag : Nat} {con : Bool} {content : Bytes} (hc : cls < 4) (ht : tag < 31) (hl : content.length < 2 ^ 63) :
    DerElem cls tag con content (tlv cls con tag content) := by
  refine ⟨UInt8.ofNat (cls * 64 + (if con = true then 32 else 0) + tag), encodeLength content.length, hc, ht, ?_, encodeLength_der hl, ?_⟩
  · rw [UInt8.toNat_ofNat', Nat.mod_eq_of_lt (by split <;> omega)]
    omega
  · unfold tlv encodeTagAndLength
    simp only
    rw [if_neg (by omega), Nat.mod_eq_of_lt hc]
    rfl

theorem tlv_upper {cls tag : Nat} {con : Bool} {content : Bytes} (ht : tag < 31) (hl : content.length < 2 ^ 32) : (tlv cls con tag content).length ≤ content.length + 6 := by
  unfold tlv encodeTagAndLength
  simp only
  rw [if_neg (by omega)]
  simp only [List.length_append, List.length_cons, List.length_nil]
  have : (encodeLength content.length).length ≤ 5 := by
    have hd := encodeLength_der (n := content.length) (by omega)
    rcases hd with ⟨_, x, _, h⟩ | ⟨_, x, d, ds, h1, h2, h3, h⟩
    · rw [h]; simp
    · rw [h]
      have : 256 ^ ds.length < 256 ^ 4 := by
        refine Nat.lt_of_le_of_lt ?_ (Nat.lt_of_lt_of_le hl (by decide))
        rw [← h3]
        simp only [beNat]
        have : 1 * 256 ^ ds.length ≤ d.toNat * 256 ^ ds.length := Nat.mul_le_mul_right _ (by omega)
        omega
      have := (Nat.pow_lt_pow_iff_right (a := 256) (by omega)).1 this
      simp only [List.length_cons]
      omega
  omega

theorem rsaOid_der : DerOid [1,2,840,113549,1,1,1] (tlv 0 false 6 rsaOidBytes) := by
  refine ⟨1, 2, [840,113549,1,1,1], rsaOidBytes, rfl, by decide, by decide, ?_, tlv_derElem (by decide) (by decide) (by decide)⟩
  have b42 : Base128 42 [42] := Base128.last (x := 42) (by decide)
  have b1 : Base128 1 [1] := Base128.last (x := 1) (by decide)
  have b840 : Base128 840 [134, 72] := Base128.more (x := 134) (by decide) (Base128.last (x := 72) (by decide))
  have brsa : Base128 113549 [134, 247, 13] :=
    Base128.more (x := 134) (by decide) (Base128.more (x := 247) (by decide) (Base128.last (x := 13) (by decide)))
  have d1 : DerArcs [1] [1] := .cons b1 (by decide) .nil
  have d2 : DerArcs [1, 1] [1, 1] := .cons b1 (by decide) d1
  have d3 : DerArcs [1, 1, 1] [1, 1, 1] := .cons b1 (by decide) d2
  have d4 : DerArcs [113549, 1, 1, 1] [134, 247, 13, 1, 1, 1] := .cons brsa (by decide) d3
  have d5 : DerArcs [840, 113549, 1, 1, 1] [134, 72, 134, 247, 13, 1, 1, 1] := .cons b840 (by decide) d4
  exact DerArcs.cons b42 (by decide) d5

theorem derElem_unique {cls tag : Nat} {con : Bool} {content b b' : Bytes} (h : DerElem cls tag con content b) (h' : DerElem cls tag con content b') : b = b' := by
  obtain ⟨x, l, _, _, h3, h4, rfl⟩ := h
  obtain ⟨x', l', _, _, h3', h4', rfl⟩ := h'
  rw [UInt8.toNat_inj.1 (h3.trans h3'.symm), h4.unique h4']

theorem derOid_unique {oid : List Nat} {b b' : Bytes} (h : DerOid oid b) (h' : DerOid oid b') : b = b' := by
  obtain ⟨x, y, arcs, c, e, _, _, h1, h2⟩ := h
  obtain ⟨x', y', arcs', c', e', _, _, h1', h2'⟩ := h'
  have := e.symm.trans e'
  cases this
  have hc : c = c' := by rw [← derArcs_encode h1, ← derArcs_encode h1']
  subst hc
  exact derElem_unique h2 h2'

theorem derInt_unique {i : Int} {b b' : Bytes} (h : DerIntElem i b) (h' : DerIntElem i b') : b = b' := by
  obtain ⟨c, h1, h2, h3⟩ := h
  obtain ⟨c', h1', h2', h3'⟩ := h'
  have := twos_inj h1 h1' (h2.trans h2'.symm)
  subst this
  exact derElem_unique h3 h3'

theorem rsaKeyInfo_unique {n e : Int} {b b' : Bytes} (h : RsaKeyInfo n e b) (h' : RsaKeyInfo n e b') : b = b' := by
  obtain ⟨o, a, ni, ei, k, bits, h1, h2, h3, h4, h5, h6, h7⟩ := h
  obtain ⟨o', a', ni', ei', k', bits', h1', h2', h3', h4', h5', h6', h7'⟩ := h'
  cases derOid_unique h1 h1'
  cases derElem_unique h2 h2'
  cases derInt_unique h3 h3'
  cases derInt_unique h4 h4'
  cases derElem_unique h5 h5'
  cases derElem_unique h6 h6'
  exact derElem_unique h7 h7'

theorem marshalRsa_info {n e : Int} (he : IsInt64 e) (hn : (encodeBigInt n).length < 2 ^ 31 + 2) : RsaKeyInfo n e (marshalRsaKey n e) := by
  have he' := encodeInt64_spec he
  have hn' := encodeBigInt_spec n
  have l1 := tlv_upper (cls := 0) (tag := 2) (con := false) (content := encodeBigInt n) (by decide) (by omega)
  have l2 := tlv_upper (cls := 0) (tag := 2) (con := false) (content := encodeInt64 e) (by decide) (by omega)
  have l3 : (derInt n ++ tlv 0 false 2 (encodeInt64 e)).length < 2 ^ 31 + 30 := by
    rw [List.length_append]; unfold derInt; omega
  have l4 := tlv_upper (cls := 0) (tag := 16) (con := true) (by decide) (show (derInt n ++ tlv 0 false 2 (encodeInt64 e)).length < 2 ^ 32 by omega)
  refine ⟨_, _, derInt n, tlv 0 false 2 (encodeInt64 e), tlv 0 true 16 (derInt n ++ tlv 0 false 2 (encodeInt64 e)), _, rsaOid_der,
    tlv_derElem (by decide) (by decide) (by decide), ⟨_, hn'.1, hn'.2, tlv_derElem (by decide) (by decide) (by omega)⟩,
    ⟨_, he'.1, he'.2.2, tlv_derElem (by decide) (by decide) (by omega)⟩, tlv_derElem (by decide) (by decide) (by omega),
    tlv_derElem (by decide) (by decide) (by rw [List.length_cons]; omega), ?_⟩
  have l5 := tlv_upper (cls := 0) (tag := 3) (con := false) (by decide)
    (show (0 :: tlv 0 true 16 (derInt n ++ tlv 0 false 2 (encodeInt64 e))).length < 2 ^ 32 by rw [List.length_cons]; omega)
  rw [List.length_cons] at l5
  refine tlv_derElem (by decide) (by decide) ?_
  rw [List.length_append]
  have : (tlv 0 true 16 (tlv 0 false 6 rsaOidBytes ++ [5, 0])).length < 2 ^ 31 := by decide
  omega

/-! ## Certificates -/

theorem parseCertStruct_iff {env : CertEnv} {c : CertV} {cert : Cert} {k : Key} : parseCertStruct env c = .ok (some (cert, k)) ↔
    ∃ sa re subj iss crit, SigAlgIs env.toAsnEnv c.sigAlg.oid c.sigAlg.params.full sa ∧ KeyIs env c.keyAlg.oid c.keyAlg.params c.keyBits k re ∧
      NameIs env.toAsnEnv c.subject subj ∧ NameIs env.toAsnEnv c.issuer iss ∧ ExtensionsAre env.toAsnEnv c.extensions crit ∧
      cert = { raw := c.raw, spki := spkiOf c.spki re k, key := k.pub, issuer := iss, subject := subj, serial := c.serial.getD 0, critExt := crit,
               sigAlg := sa, notBefore := c.notBefore, notAfter := c.notAfter } := by
  unfold parseCertStruct
  obtain ⟨sa, h1⟩ := sigAlgOf_total env.toAsnEnv c.sigAlg
  obtain ⟨kr, h2⟩ := parseKey_total env (pkAlgo c.keyAlg.oid) c.keyAlg c.keyBits
  obtain ⟨sj, h3⟩ := unmAll_total env.toAsnEnv rdnsTy c.subject
  obtain ⟨is, h4⟩ := unmAll_total env.toAsnEnv rdnsTy c.issuer
  obtain ⟨ex, h5⟩ := extensionLoop_total env.toAsnEnv c.extensions false
  simp only [h1, h2, h3, h4, h5]
  constructor
  · intro h
    rcases kr with _ | ⟨k', re⟩
    · cases h
    rcases sj with _ | sj
    · cases h
    rcases is with _ | is
    · cases h
    rcases ex with _ | ex
    · cases h
    simp only [Except.ok.injEq, Option.some.injEq, Prod.mk.injEq] at h
    obtain ⟨rfl, rfl⟩ := h
    exact ⟨sa, re, _, _, ex, sigAlgIs_iff.1 h1, parseKey_iff.1 h2, nameIs_iff.2 ⟨_, h3, rfl⟩, nameIs_iff.2 ⟨_, h4, rfl⟩, extensionsAre_iff.1 h5, rfl⟩
  · rintro ⟨sa', re, subj, iss, crit, a1, a2, a3, a4, a5, rfl⟩
    cases h1.symm.trans (sigAlgIs_iff.2 a1)
    cases h2.symm.trans (parseKey_iff.2 a2)
    obtain ⟨v, b3, rfl⟩ := nameIs_iff.1 a3
    obtain ⟨w, b4, rfl⟩ := nameIs_iff.1 a4
    cases h3.symm.trans b3
    cases h4.symm.trans b4
    cases h5.symm.trans (extensionsAre_iff.2 a5)
    rfl

theorem reads_rsa_bounds {env : AsnEnv} {n e : Int} {b : Bytes}
    (h : Reads env pkcs1PublicKeyTy {} (([] : Bytes), (some n : Option Int), e, ()) b []) :
    IsInt64 e ∧ ∃ c, MinimalInt c ∧ twos c = n ∧ c.length < 2 ^ 31 := by
  obtain ⟨inner, h⟩ := reads_struct_inv h
  obtain ⟨rest, h1, h2⟩ := (readsAll_cons (t := .bigInt) (fs := .cons [] .int .nil) (v1 := (some n : Option Int)) (v2 := ((e, ()) : Int × Unit))).1 h
  obtain ⟨_, h3, _⟩ := (readsAll_cons (t := .int) (fs := .nil) (v1 := e) (v2 := ())).1 h2
  rw [fp_empty] at h1 h3
  constructor
  · rcases (reads_prim (t := .int) (by simp) (by simp) (by simp)).1 h3 with ⟨_, _, _, _, _, hi⟩ | ⟨h, _⟩ | ⟨h, _⟩
    · exact hi
    · exact absurd (absent_optional h) (by simp)
    · cases h
  · rcases (reads_prim (t := .bigInt) (by simp) (by simp) (by simp)).1 h1 with ⟨tl, c, hl, i, hi, hm, ht⟩ | ⟨h, _⟩ | ⟨h, _⟩
    · cases hi
      obtain ⟨_, hel, _⟩ := located_len rfl hl
      exact ⟨c, hm, ht, elem_len hel⟩
    · exact absurd (absent_optional h) (by simp)
    · cases h

theorem spki_iff {env : CertEnv} {oid : List Nat} {params : RawVal} {bits : BitStr} {k : Key} {re : Bool} (h : KeyIs env oid params bits k re) {spki b : Bytes} :
    b = spkiOf spki re k ↔ (re = false → b = spki) ∧ (re = true → ∃ n e, k = .rsa n e ∧ RsaKeyInfo n e b) := by
  cases re with
  | false => rw [spkiOf_false]; simp
  | true =>
    simp only [reduceCtorEq, false_implies, true_and, true_implies]
    cases h with
    | @rsaRepaired _ _ data ds n e ha hv hn he hs =>
      obtain ⟨h64, c, hm, ht, hl⟩ := reads_rsa_bounds hv
      have hrep : ((beNat (ds.map (fun y => 255 - y)) : Nat) : Int) = repairModulus n := repair_iff.1 ⟨ds, hs, rfl⟩
      rw [hrep]
      have hlen := repair_length hm
      rw [ht] at hlen
      have hinfo := marshalRsa_info (n := repairModulus n) h64 (by omega)
      show b = marshalRsaKey (repairModulus n) e ↔ _
      constructor
      · rintro rfl; exact ⟨_, _, rfl, hinfo⟩
      · rintro ⟨n', e', h1, h2⟩
        cases h1
        exact rsaKeyInfo_unique h2 hinfo

theorem certificateReads_iff {env : CertEnv} {b rest : Bytes} {cert : Cert} {k : Key} : CertificateReads env b rest cert k ↔
    ∃ v, Reads env.toAsnEnv certificateTy {} v b rest ∧ parseCertStruct env (CertV.of v) = .ok (some (cert, k)) := by
  constructor
  · rintro ⟨tbs, v0, spki, s0, a0, o0, version, nb, na, serial, sigOid, keyOid, outerOid, sigParams, keyParams, outerParams, issuer, subject, keyBits, iid, sid, sg,
      exts, re, hv, h1, h2, h3, h4, h5, h6, h7, h8, h9, h10, h11⟩
    refine ⟨_, hv, parseCertStruct_iff.2 ⟨cert.sigAlg, re, cert.subject, cert.issuer, cert.critExt, h4, h5, h9, h10, h11, ?_⟩⟩
    have hs := (spki_iff h5 (spki := spki) (b := cert.spki)).2 ⟨h7, h8⟩
    obtain ⟨raw, sp, key, is, su, ser, cr, sa, nb', na'⟩ := cert
    simp only at h1 h2 h3 h6 hs
    subst h1 h2 h3 h6 hs
    rfl
  · rintro ⟨v, hv, hp⟩
    obtain ⟨sa, re, subj, iss, crit, h1, h2, h3, h4, h5, rfl⟩ := parseCertStruct_iff.1 hp
    obtain ⟨raw, ⟨tbs, version, serial, ⟨s0, sigOid, sigParams, ⟨⟩⟩, issuer, ⟨v0, nb, na, ⟨⟩⟩, subject, ⟨spki, ⟨a0, keyOid, keyParams, ⟨⟩⟩, keyBits, ⟨⟩⟩, iid, sid, exts, ⟨⟩⟩,
      ⟨o0, outerOid, outerParams, ⟨⟩⟩, sg, ⟨⟩⟩ := v
    have hser : ∃ i : Int, serial = some i := by
      obtain ⟨i1, h⟩ := reads_struct_inv hv
      obtain ⟨r0, h, _⟩ := readsAll_cons.1 h
      rw [fp_empty] at h
      obtain ⟨i2, h⟩ := reads_struct_inv h
      obtain ⟨r1, _, h⟩ := readsAll_cons.1 h
      obtain ⟨i, _, hi, _⟩ := readsAll_big h
      exact ⟨i, hi⟩
    obtain ⟨ser, rfl⟩ := hser
    have hs := (spki_iff h2 (spki := spki) (b := spkiOf spki re k)).1 rfl
    exact ⟨tbs, v0, spki, s0, a0, o0, version, nb, na, ser, sigOid, keyOid, outerOid, sigParams, keyParams, outerParams, issuer, subject, keyBits, iid, sid, sg,
      exts, re, hv, rfl, rfl, rfl, h1, h2, rfl, hs.1, hs.2, h3, h4, h5⟩

theorem parseCert509_iff {env : CertEnv} {b : Bytes} {cert : Cert} {k : Key} : parseCert509 env b = .ok (some (cert, k)) ↔ CertificateIs env b cert k := by
  unfold CertificateIs
  rw [certificateReads_iff]
  constructor
  · intro h
    obtain ⟨v, hv, hp⟩ := reads_certificate h
    exact ⟨v, hv, hp⟩
  · rintro ⟨v, hv, hp⟩
    unfold parseCert509
    rw [unmAll_iff.2 hv]
    exact hp

theorem reads_cert_shrinks {env : AsnEnv} {v : certificateTy.interp} {b rest : Bytes} (h : Reads env certificateTy {} v b rest) : b ≠ [] ∧ rest.length < b.length := by
  obtain ⟨front, h1, h2, _⟩ := reads_local h
  have : 0 < front.length := List.length_pos_iff.2 h1
  subst h2
  refine ⟨by simp [h1], ?_⟩
  rw [List.length_append]
  omega

theorem splitCerts_iff {env : CertEnv} : ∀ (fuel : Nat) (b : Bytes) (certs : List Cert), b.length ≤ fuel →
    ((∃ cs, splitCerts env fuel b = .ok (some cs) ∧ parseCertStructs env cs = .ok (some certs)) ↔ CertificatesAre env certs b) := by
  intro fuel
  induction fuel with
  | zero =>
    intro b certs hl
    have : b = [] := List.length_eq_zero_iff.1 (by omega)
    subst this
    constructor
    · rintro ⟨cs, h1, h2⟩
      cases h1
      cases h2
      exact .nil
    · intro h
      cases h with
      | nil => exact ⟨[], rfl, rfl⟩
      | cons h _ =>
        obtain ⟨v, hv, _⟩ := certificateReads_iff.1 h
        exact absurd rfl (reads_cert_shrinks hv).1
  | succ fuel ih =>
    intro b certs hl
    rw [splitCerts]
    by_cases hb : b = []
    · subst hb
      rw [if_pos rfl]
      constructor
      · rintro ⟨cs, h1, h2⟩
        cases h1
        cases h2
        exact .nil
      · intro h
        cases h with
        | nil => exact ⟨[], rfl, rfl⟩
        | cons h _ =>
          obtain ⟨v, hv, _⟩ := certificateReads_iff.1 h
          exact absurd rfl (reads_cert_shrinks hv).1
    · rw [if_neg hb]
      constructor
      · rintro ⟨cs, h1, h2⟩
        obtain ⟨r, hr⟩ := unmFirst_total env.toAsnEnv certificateTy b
        rw [hr] at h1
        rcases r with _ | ⟨v, rest⟩
        · cases h1
        · simp only at h1
          have hv := unmFirst_iff.1 hr
          have hlt := (reads_cert_shrinks hv).2
          obtain ⟨r2, hr2⟩ := splitCerts_total env fuel rest
          rw [hr2] at h1
          rcases r2 with _ | cs'
          · cases h1
          · cases h1
            rw [parseCertStructs] at h2
            obtain ⟨r3, hr3⟩ := parseCertStruct_total env (CertV.of v)
            rw [hr3] at h2
            rcases r3 with _ | ⟨cert, k⟩
            · cases h2
            · simp only at h2
              obtain ⟨r4, hr4⟩ := parseCertStructs_total env cs'
              rw [hr4] at h2
              rcases r4 with _ | certs'
              · cases h2
              · cases h2
                exact .cons (certificateReads_iff.2 ⟨v, hv, hr3⟩) ((ih rest certs' (by omega)).1 ⟨cs', hr2, hr4⟩)
      · intro h
        cases h with
        | nil => exact absurd rfl hb
        | cons h hrest =>
          obtain ⟨v, hv, hp⟩ := certificateReads_iff.1 h
          have hlt := (reads_cert_shrinks hv).2
          obtain ⟨cs', h1, h2⟩ := (ih _ _ (by omega)).2 hrest
          refine ⟨CertV.of v :: cs', ?_, ?_⟩
          · rw [unmFirst_iff.2 hv]
            simp only
            rw [h1]
          · rw [parseCertStructs, hp]
            simp only
            rw [h2]

theorem parseCerts509_iff {env : CertEnv} {b : Bytes} {certs : List Cert} : parseCerts509 env b = .ok (some certs) ↔ CertificatesAre env certs b := by
  rw [← splitCerts_iff b.length b certs (Nat.le_refl _)]
  unfold parseCerts509
  obtain ⟨r, hr⟩ := splitCerts_total env b.length b
  rw [hr]
  rcases r with _ | cs
  · simp
  · simp

end Apk
