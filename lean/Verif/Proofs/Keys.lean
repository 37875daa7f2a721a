import Verif.Proofs.Pkcs7
/-! # Public keys inside certificates -/
namespace Apk

theorem tlv_elem {cls tag : Nat} {con : Bool} {content : Bytes} (hc : cls < 4) (ht : tag < 2 ^ 31) (hl : content.length < 2 ^ 31) :
    Elem cls tag con content (tlv cls con tag content) := by
  have h := parseTagAndLength_enc (t := ⟨cls, tag, content.length, con⟩) hc ht hl []
  obtain ⟨hdr, h1, h2⟩ := (header_iff _ _ _).1 h
  simp only [List.append_nil] at h2
  exact ⟨_, h2 ▸ h1, rfl⟩

theorem tlv_length (cls tag : Nat) (con : Bool) (content : Bytes) : content.length ≤ (tlv cls con tag content).length := by
  simp [tlv]

theorem Elem.length {cls tag : Nat} {con : Bool} {content b : Bytes} (h : Elem cls tag con content b) : content.length ≤ b.length := by
  obtain ⟨hdr, _, rfl⟩ := h
  simp

theorem reads_struct_raw {env : AsnEnv} {fs : Fields} {v : (Ty.struct true fs).interp} {b rest : Bytes}
    (h : Reads env (.struct true fs) {} v b rest) : b = v.1 ++ rest ∧ ∀ r, Reads env (.struct true fs) {} v (v.1 ++ r) r := by
  obtain ⟨front, _, h2, h3⟩ := reads_local h
  have h1 : v.1 = front := by
    rw [Reads] at h
    rcases h with ⟨tl, inner, _, _, h⟩ | ⟨h, _⟩
    · rw [h, if_pos rfl, h2, take_front]
    · exact absurd (absent_optional h) (by simp)
  rw [h1]
  exact ⟨h2, h3⟩

/-- The key info inside a certificate that was read can be read on its own. -/
theorem reads_spki {env : AsnEnv} {v : certificateTy.interp} {c rest : Bytes} (h : Reads env certificateTy {} v c rest) :
    c = (CertV.of v).raw ++ rest ∧ ∃ w : publicKeyInfoTy.interp, (CertV.of v).spki = w.1 ∧ (CertV.of v).keyAlg = AlgId.of w.2.1 ∧
      (CertV.of v).keyBits = w.2.2.1 ∧ Reads env publicKeyInfoTy {} w w.1 [] := by
  refine ⟨(reads_struct_raw h).1, ?_⟩
  obtain ⟨i1, h⟩ := reads_struct_inv h
  obtain ⟨r0, h, _⟩ := (readsAll_cons (v1 := v.2.1) (v2 := v.2.2)).1 h
  rw [fp_empty] at h
  obtain ⟨i2, h⟩ := reads_struct_inv h
  obtain ⟨r1, _, h⟩ := (readsAll_cons (v1 := v.2.1.2.1) (v2 := v.2.1.2.2)).1 h
  obtain ⟨r2, _, h⟩ := (readsAll_cons (v1 := v.2.1.2.2.1) (v2 := v.2.1.2.2.2)).1 h
  obtain ⟨r3, _, h⟩ := (readsAll_cons (v1 := v.2.1.2.2.2.1) (v2 := v.2.1.2.2.2.2)).1 h
  obtain ⟨r4, _, h⟩ := (readsAll_cons (v1 := v.2.1.2.2.2.2.1) (v2 := v.2.1.2.2.2.2.2)).1 h
  obtain ⟨r5, _, h⟩ := (readsAll_cons (v1 := v.2.1.2.2.2.2.2.1) (v2 := v.2.1.2.2.2.2.2.2)).1 h
  obtain ⟨r6, _, h⟩ := (readsAll_cons (v1 := v.2.1.2.2.2.2.2.2.1) (v2 := v.2.1.2.2.2.2.2.2.2)).1 h
  obtain ⟨r7, h, _⟩ := (readsAll_cons (v1 := v.2.1.2.2.2.2.2.2.2.1) (v2 := v.2.1.2.2.2.2.2.2.2.2)).1 h
  rw [fp_empty] at h
  have := (reads_struct_raw h).2 []
  rw [List.append_nil] at this
  exact ⟨v.2.1.2.2.2.2.2.2.2.1, rfl, rfl, rfl, this⟩

theorem parseCertStruct_inv {env : CertEnv} {c : CertV} {cert : Cert} {k : Key} (h : parseCertStruct env c = .ok (some (cert, k))) :
    ∃ re, parseKey env (pkAlgo c.keyAlg.oid) c.keyAlg c.keyBits = .ok (some (k, re)) ∧ cert.raw = c.raw ∧ cert.spki = spkiOf c.spki re k ∧
      cert.key = k.pub := by
  unfold parseCertStruct at h
  obtain ⟨sa, h1⟩ := sigAlgOf_total env.toAsnEnv c.sigAlg
  rw [h1] at h
  obtain ⟨kr, h2⟩ := parseKey_total env (pkAlgo c.keyAlg.oid) c.keyAlg c.keyBits
  simp only [h2] at h
  rw [h2]
  obtain ⟨sj, h3⟩ := unmAll_total env.toAsnEnv rdnsTy c.subject
  obtain ⟨is, h4⟩ := unmAll_total env.toAsnEnv rdnsTy c.issuer
  obtain ⟨ex, h5⟩ := extensionLoop_total env.toAsnEnv c.extensions false
  simp only [h3, h4, h5] at h
  rcases kr with _ | ⟨k', re⟩
  · cases h
  rcases sj with _ | sj
  · cases h
  rcases is with _ | is
  · cases h
  rcases ex with _ | ex
  · cases h
  simp only [Except.ok.injEq, Option.some.injEq, Prod.mk.injEq] at h
  obtain ⟨rfl, rfl⟩ := h
  exact ⟨re, rfl, rfl, rfl, rfl⟩

theorem parseCert509_inv {env : CertEnv} {b : Bytes} {cert : Cert} {k : Key} (h : parseCert509 env b = .ok (some (cert, k))) :
    cert.raw = b ∧ cert.key = k.pub ∧ ∃ (w : publicKeyInfoTy.interp) (re : Bool), Reads env.toAsnEnv publicKeyInfoTy {} w w.1 [] ∧
      cert.spki = spkiOf w.1 re k ∧ parseKey env (pkAlgo (AlgId.of w.2.1).oid) (AlgId.of w.2.1) w.2.2.1 = .ok (some (k, re)) := by
  obtain ⟨v, hv, hp⟩ := reads_certificate h
  obtain ⟨re, h1, h2, h3, h4⟩ := parseCertStruct_inv hp
  obtain ⟨e, w, w1, w2, w3, hw⟩ := reads_spki hv
  rw [List.append_nil] at e
  refine ⟨h2.trans e.symm, h4, w, re, hw, by rw [h3, w1], ?_⟩
  rw [← w2, ← w3]
  exact h1

theorem parsePKIXKey_of_reads {env : CertEnv} {w : publicKeyInfoTy.interp} {b : Bytes} (h : Reads env.toAsnEnv publicKeyInfoTy {} w b [])
    {k : Key} {re : Bool} (hk : parseKey env (pkAlgo (AlgId.of w.2.1).oid) (AlgId.of w.2.1) w.2.2.1 = .ok (some (k, re))) :
    parsePKIXKey env b = .ok (if pkAlgo (AlgId.of w.2.1).oid = .unknown then none else some k) := by
  unfold parsePKIXKey
  rw [unmAll_iff.2 h]
  obtain ⟨raw, alg, bits, ⟨⟩⟩ := w
  show (if pkAlgo (AlgId.of alg).oid = .unknown then _ else _) = _
  by_cases hu : pkAlgo (AlgId.of alg).oid = .unknown
  · rw [if_pos hu]
    exact congrArg _ (if_pos hu).symm
  · rw [if_neg hu]
    have hk : parseKey env (pkAlgo (AlgId.of alg).oid) (AlgId.of alg) bits = .ok (some (k, re)) := hk
    rw [hk]
    exact congrArg Except.ok (if_neg (t := Option.none) (e := some k) hu).symm

theorem rightAlign_whole (b : Bytes) : rightAlign ⟨b, 8 * b.length⟩ = b := by
  unfold rightAlign
  have : 8 * b.length % 8 = 0 := by omega
  simp [this]

theorem reads_bits {env : AsnEnv} {fp : FP} (hf : fp.Plain) {c : Bytes} {b : Bytes} (he : Elem 0 3 false (0 :: c) b) (rest : Bytes) :
    Reads env .bits fp (⟨c, 8 * c.length⟩ : BitStr) (b ++ rest) rest := by
  refine (reads_prim (t := .bits) (by simp) (by simp) (by simp)).2 (.inl ⟨_, _, he.located hf.explicit (present_plain (t := .bits) hf rfl) rest, ?_⟩)
  refine ⟨0, rfl, by decide, ?_, ?_⟩
  · show 8 * c.length + 0 = c.length * 8
    omega
  · show _ % 1 = 0
    omega

theorem rsaOid_contents : OidContents [1,2,840,113549,1,1,1] rsaOidBytes := (oid_iff _ _).1 (by decide)

theorem marshal_lengths {n e : Int} (h : (marshalRsaKey n e).length < 2 ^ 31) :
    (tlv 0 true 16 (derInt n ++ tlv 0 false 2 (encodeInt64 e))).length + 1 < 2 ^ 31 := by
  refine Nat.lt_of_le_of_lt ?_ h
  unfold marshalRsaKey
  refine Nat.le_trans ?_ (tlv_length _ _ _ _)
  rw [List.length_append]
  exact Nat.le_trans (tlv_length 0 3 false (0 :: tlv 0 true 16 (derInt n ++ tlv 0 false 2 (encodeInt64 e)))) (Nat.le_add_left _ _)

/-- A re-encoded RSA key is read back. -/
theorem parsePKIX_marshalRsa {env : CertEnv} {n e : Int} (hn : 0 < n) (he : 0 < e) (hi : IsInt64 e) (hl : (marshalRsaKey n e).length < 2 ^ 31) :
    parsePKIXKey env (marshalRsaKey n e) = .ok (some (.rsa n e)) := by
  have hk := marshal_lengths hl
  have hinner : (derInt n ++ tlv 0 false 2 (encodeInt64 e)).length < 2 ^ 31 := by
    have := tlv_length 0 16 true (derInt n ++ tlv 0 false 2 (encodeInt64 e)); omega
  have hn2 : (encodeBigInt n).length < 2 ^ 31 := by
    have := tlv_length 0 2 false (encodeBigInt n)
    rw [List.length_append] at hinner
    unfold derInt at hinner
    omega
  have en : IntElem n (derInt n) := ⟨_, (encodeBigInt_spec n).1, (encodeBigInt_spec n).2, tlv_elem (by decide) (by decide) hn2⟩
  have ee : IntElem e (tlv 0 false 2 (encodeInt64 e)) :=
    ⟨_, (encodeInt64_spec hi).1, (encodeInt64_spec hi).2.2, tlv_elem (by decide) (by decide) (by have := (encodeInt64_spec hi).2.1; omega)⟩
  have ek := tlv_elem (cls := 0) (tag := 16) (con := true) (by decide) (by decide) hinner
  have rk : Reads env.toAsnEnv pkcs1PublicKeyTy {} (([] : Bytes), (some n : Option Int), e, ()) (tlv 0 true 16 (derInt n ++ tlv 0 false 2 (encodeInt64 e))) [] := by
    have := reads_struct (env := env.toAsnEnv) (raw := false) (fs := .cons [] .bigInt (.cons [] .int .nil)) (ek.located rfl (present_plain (t := pkcs1PublicKeyTy) plain0 rfl) [])
      (v := ((some n : Option Int), e, ())) (by
        refine readsAll_cons.2 ⟨tlv 0 false 2 (encodeInt64 e), ?_, readsAll_cons.2 ⟨[], ?_, readsAll_nil⟩⟩
        · rw [fp_empty]; exact reads_big plain0 en _
        · rw [fp_empty]
          have := reads_int (env := env.toAsnEnv) plain0 hi ee []
          rwa [List.append_nil] at this)
    rwa [List.append_nil] at this
  have ea : AlgEnc [1,2,840,113549,1,1,1] (tlv 0 true 16 (tlv 0 false 6 rsaOidBytes ++ [5, 0])) :=
    ⟨tlv 0 false 6 rsaOidBytes, [5, 0], ⟨_, rsaOid_contents, tlv_elem (by decide) (by decide) (by decide)⟩,
      .inr ⟨0, 5, false, [], tlv_elem (by decide) (by decide) (by decide)⟩, tlv_elem (by decide) (by decide) (by decide)⟩
  obtain ⟨_, av, hav, ra⟩ := reads_alg (env := env.toAsnEnv) ea
  have eb := tlv_elem (cls := 0) (tag := 3) (con := false) (content := 0 :: tlv 0 true 16 (derInt n ++ tlv 0 false 2 (encodeInt64 e))) (by decide) (by decide) hk
  have es := tlv_elem (cls := 0) (tag := 16) (con := true)
    (content := tlv 0 true 16 (tlv 0 false 6 rsaOidBytes ++ [5, 0]) ++ tlv 0 false 3 (0 :: tlv 0 true 16 (derInt n ++ tlv 0 false 2 (encodeInt64 e)))) (by decide) (by decide)
    (Nat.lt_of_le_of_lt (tlv_length _ _ _ _) hl)
  generalize hK : tlv 0 true 16 (derInt n ++ tlv 0 false 2 (encodeInt64 e)) = K at *
  have rs : Reads env.toAsnEnv publicKeyInfoTy {} (marshalRsaKey n e, av, (⟨K, 8 * K.length⟩ : BitStr), ()) (marshalRsaKey n e) [] := by
    have := reads_struct (env := env.toAsnEnv) (raw := true) (fs := .cons [] algIdTy (.cons [] .bits .nil)) (es.located rfl (present_plain (t := publicKeyInfoTy) plain0 rfl) [])
      (v := (av, (⟨K, 8 * K.length⟩ : BitStr), ())) (by
        refine readsAll_cons.2 ⟨tlv 0 false 3 (0 :: K), ?_, readsAll_cons.2 ⟨[], ?_, readsAll_nil⟩⟩
        · rw [fp_empty]; exact ra _
        · rw [fp_empty]
          have := reads_bits (env := env.toAsnEnv) plain0 eb []
          rwa [List.append_nil] at this)
    rw [List.append_nil] at this
    have em : marshalRsaKey n e = tlv 0 true 16 (tlv 0 true 16 (tlv 0 false 6 rsaOidBytes ++ [5, 0]) ++ tlv 0 false 3 (0 :: K)) := by
      rw [← hK]; rfl
    rw [em]
    exact this
  have hkey : parseKey env .rsa (AlgId.of av) ⟨K, 8 * K.length⟩ = .ok (some (.rsa n e, false)) := by
    unfold parseKey
    rw [rightAlign_whole]
    show (match unmAll env.toAsnEnv pkcs1PublicKeyTy K with | .error p => _ | .ok Option.none => _ | .ok (some v) => _) = _
    rw [unmAll_iff.2 rk]
    show rsaKeyOf (some n) e = _
    unfold rsaKeyOf
    show (if e ≤ 0 then _ else if n ≤ 0 then _ else _) = _
    rw [if_neg (by omega), if_neg (by omega)]
  have ha : pkAlgo (AlgId.of av).oid = .rsa := by rw [hav]; decide
  have := parsePKIXKey_of_reads (env := env) rs (k := .rsa n e) (re := false) (by
    show parseKey env (pkAlgo (AlgId.of av).oid) (AlgId.of av) ⟨K, 8 * K.length⟩ = _
    rw [ha]; exact hkey)
  rw [this]
  show Except.ok (if pkAlgo (AlgId.of av).oid = .unknown then none else _) = _
  rw [ha]
  rfl

end Apk
