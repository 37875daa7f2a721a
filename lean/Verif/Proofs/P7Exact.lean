import Verif.Spec.P7Exact
import Verif.Proofs.X509Exact
import Verif.Props.Pkcs7
import Verif.Props.Keys
/-! # Exactly which signature blocks are accepted -/
namespace Apk

theorem schema_contentInfo : Schema.contentInfo = contentInfoTy := rfl
theorem schema_signedData : Schema.signedData = signedDataTy := rfl
theorem schema_signerInfo : Schema.signerInfo = signerInfoTy := rfl

theorem reads_octets_iff {env : AsnEnv} {x b rest : Bytes} : Reads env .octets {} x b rest ↔ ∃ o, Elem 0 4 false x o ∧ b = o ++ rest := by
  constructor
  · intro h
    rcases (reads_prim (t := .octets) (by simp) (by simp) (by simp)).1 h with ⟨tl, inner, hl, hp⟩ | ⟨h, _⟩ | ⟨h, _⟩
    · obtain ⟨hdr, e, h1, h3, h2⟩ := hl.plain_inv rfl
      obtain ⟨d1, d2⟩ := h2
      have c2 : tl.cls = 0 ∧ tl.tag = 4 := by
        rcases d2 with h | h
        · cases h
        · exact h
      have c1 : tl.isCompound = false := by
        rcases d1 with h | h
        · cases h
        · exact h
      obtain ⟨cls, tag, len, con⟩ := tl
      simp only at c1 c2 h3
      obtain ⟨rfl, rfl⟩ := c2
      subst c1 h3
      have hp : x = inner := hp
      rw [hp]
      exact ⟨_, ⟨hdr, h1, rfl⟩, e⟩
    · exact absurd (absent_optional h) (by simp)
    · cases h
  · rintro ⟨o, h, rfl⟩
    exact reads_octets plain0 h rest

theorem unmOct_iff {env : AsnEnv} {b : Bytes} : (∃ v rest, unmFirst env .octets b = .ok (some ((v, rest) : Bytes × Bytes))) ↔
    ∃ x o r, Elem 0 4 false x o ∧ b = o ++ r := by
  constructor
  · rintro ⟨v, rest, h⟩
    obtain ⟨o, h1, h2⟩ := reads_octets_iff.1 (unmFirst_iff.1 h)
    exact ⟨v, o, rest, h1, h2⟩
  · rintro ⟨x, o, r, h1, h2⟩
    exact ⟨x, r, unmFirst_iff.2 (reads_octets_iff.2 ⟨o, h1, h2⟩)⟩

theorem elemAt_unique {cls cls' tag tag' : Nat} {con con' : Bool} {c c' e e' r r' : Bytes} (h : Elem cls tag con c e) (h' : Elem cls' tag' con' c' e')
    (he : e ++ r = e' ++ r') : cls = cls' ∧ tag = tag' ∧ con = con' ∧ c = c' ∧ e = e' ∧ r = r' := by
  have env : AsnEnv := ⟨fun _ => true, fun _ => [], fun _ => none, fun _ => none⟩
  have h1 := rawVal_of_elem h env r
  have h2 := rawVal_of_elem h' env r'
  rw [he, h2] at h1
  have h1 : ((⟨cls', tag', con', c', e'⟩ : RawVal), r') = ((⟨cls, tag, con, c, e⟩ : RawVal), r) := Option.some.inj (Except.ok.inj h1)
  simp only [Prod.mk.injEq, RawVal.mk.injEq] at h1
  obtain ⟨⟨q1, q2, q3, q4, q5⟩, q6⟩ := h1
  exact ⟨q1.symm, q2.symm, q3.symm, q4.symm, q5.symm, q6.symm⟩

theorem contentReadable_iff {env : AsnEnv} {content : RawVal} : contentReadable env content = .ok true ↔ ContentsOk content.bytes := by
  unfold contentReadable ContentsOk
  by_cases hb : content.bytes = []
  · rw [if_pos hb]; simp [hb]
  · rw [if_neg hb]
    simp only [hb, false_or]
    obtain ⟨r, hr⟩ := unmFirst_total env .rawValue content.bytes
    rw [hr]
    cases r with
    | none =>
      simp only [Except.ok.injEq, Bool.false_eq_true, false_iff]
      rintro ⟨cls, tag, con, c, e, rest, he, h, _⟩
      have := rawVal_of_elem he env rest
      rw [← h, hr] at this
      cases this
    | some q =>
      have aux : ∀ (v : RawVal) (rest : Bytes), unmFirst env .rawValue content.bytes = .ok (some ((v, rest) : RawVal × Bytes)) →
          ((if v.isCompound then
              match unmFirst env .octets v.bytes with
              | .error p => .error p
              | .ok none => .ok false
              | .ok (some _) => .ok true
            else .ok true : Go Bool) = .ok true ↔ ∃ cls tag con c e rest, Elem cls tag con c e ∧ content.bytes = e ++ rest ∧
              (con = true → ∃ x o r, Elem 0 4 false x o ∧ c = o ++ r)) := by
        intro v rest hv
        obtain ⟨he, hc⟩ := unmRaw_iff.1 hv
        have hex : (∃ cls tag con c e rest, Elem cls tag con c e ∧ content.bytes = e ++ rest ∧ (con = true → ∃ x o r, Elem 0 4 false x o ∧ c = o ++ r)) ↔
            (v.isCompound = true → ∃ x o r, Elem 0 4 false x o ∧ v.bytes = o ++ r) := by
          constructor
          · rintro ⟨cls, tag, con, c, e, rest', he', hc', h⟩
            obtain ⟨_, _, rfl, rfl, _, _⟩ := elemAt_unique he he' (hc.symm.trans hc')
            exact h
          · intro h
            exact ⟨_, _, _, _, _, _, he, hc, h⟩
        rw [hex]
        by_cases hcomp : v.isCompound = true
        · rw [if_pos hcomp, ← unmOct_iff (env := env)]
          obtain ⟨q, hq⟩ := unmFirst_total env .octets v.bytes
          rw [hq]
          cases q with
          | none => simp [hcomp]
          | some q => simp only [true_iff]; exact fun _ => ⟨q.1, q.2, rfl⟩
        · rw [if_neg hcomp]; simp [hcomp]
      exact aux q.1 q.2 hr

/-- The certificates as they stand in a message. -/
theorem raw_tagged {env : AsnEnv} {v : (Ty.struct true .nil).interp} {b rest : Bytes} (h : Reads env (.struct true .nil) (parseFP (b!"optional,tag:0")) v b rest) :
    v.1 = [] ∨ ∃ body, Elem 2 0 true body v.1 := by
  rw [fp_opt0] at h
  rw [Reads] at h
  rcases h with ⟨tl, inner, hl, _, h⟩ | ⟨_, h, _⟩
  · right
    obtain ⟨hdr, q1, q2, q3, q4⟩ := hl.plain_inv rfl
    rw [if_pos rfl, q1, take_front] at h
    obtain ⟨d1, d2⟩ := q4
    have c1 : tl.isCompound = true := by
      rcases d1 with h | h
      · cases h
      · exact h
    have d2 : tl.cls = 2 ∧ (tl.tag : Int) = 0 := d2
    obtain ⟨cls, tag, len, con⟩ := tl
    simp only at c1 d2 q3
    obtain ⟨rfl, d2⟩ := d2
    have d2 : tag = 0 := by omega
    subst d2 c1 q3
    rw [h]
    exact ⟨inner, hdr, q2, rfl⟩
  · left
    rw [h]

theorem parseRawCerts_iff {env : CertEnv} {raw : Bytes} (hr : raw = [] ∨ ∃ body, Elem 2 0 true body raw) {certs : List Cert} :
    parseRawCerts env raw = .ok (some certs) ↔ (raw = [] ∧ certs = [] ∨ ∃ body, Elem 2 0 true body raw ∧ CertificatesAre env certs body) := by
  unfold parseRawCerts
  rcases hr with rfl | ⟨body, hb⟩
  · rw [if_pos rfl]
    constructor
    · intro h; cases h; exact .inl ⟨rfl, rfl⟩
    · rintro (⟨_, rfl⟩ | ⟨_, h, _⟩)
      · rfl
      · exact absurd rfl h.ne
  · have h1 := rawVal_of_elem hb env.toAsnEnv []
    rw [List.append_nil] at h1
    rw [if_neg hb.ne, h1]
    show parseCerts509 env body = _ ↔ _
    rw [parseCerts509_iff]
    constructor
    · intro h; exact .inr ⟨body, hb, h⟩
    · rintro (⟨h, _⟩ | ⟨body', hb', h⟩)
      · exact absurd h hb.ne
      · obtain ⟨_, _, _, rfl, _, _⟩ := elemAt_unique (r := []) (r' := []) hb hb' rfl
        exact h

theorem attributesOf_eq (l : List (Bytes × List Nat × RawVal × Unit)) : l.map attributeOf = l.map P7Attr.of := rfl

theorem signerIs_iff {v : signerInfoTy.interp} {s : P7Signer} : SignerIs v s ↔
    s = P7Signer.of v ∧ ∃ i, (v.2.2.1.2.2.1 : Option Int) = some i := by
  constructor
  · rintro ⟨v0, i0, d0, e0, version, issuer, dp, ep, attrs, unauth, rfl, h2, h3⟩
    refine ⟨?_, s.serial, rfl⟩
    obtain ⟨a1, a2, a3, a4, a5, a6⟩ := s
    simp only at h2 h3
    rw [h2, h3]
    rfl
  · rintro ⟨rfl, i, hi⟩
    obtain ⟨v0, version, ⟨i0, issuer, serial, ⟨⟩⟩, ⟨d0, dalg, dp, ⟨⟩⟩, attrs, ⟨e0, ealg, ep, ⟨⟩⟩, enc, unauth, ⟨⟩⟩ := v
    have hi : (serial : Option Int) = some i := hi
    subst hi
    exact ⟨v0, i0, d0, e0, version, issuer, dp, ep, attrs, unauth, rfl, rfl, rfl⟩

theorem signersAre_iff {vs : List signerInfoTy.interp} (hv : ∀ v ∈ vs, ∃ i, (v.2.2.1.2.2.1 : Option Int) = some i) {ss : List P7Signer} :
    SignersAre vs ss ↔ ss = vs.map P7Signer.of := by
  constructor
  · intro h
    induction h with
    | nil => rfl
    | cons h1 _ ih => rw [(signerIs_iff.1 h1).1, ih (fun v hm => hv v (List.mem_cons_of_mem _ hm))]; rfl
  · rintro rfl
    induction vs with
    | nil => exact .nil
    | cons v vs ih => exact .cons (signerIs_iff.2 ⟨rfl, hv v List.mem_cons_self⟩) (ih (fun v hm => hv v (List.mem_cons_of_mem _ hm)))

/-- `parseSignedData` on messages with signers. -/
theorem parseSignedData_iff {env : CertEnv} {data : Bytes} {p7 : P7} : (parseSignedData env data = .ok (some p7) ∧ p7.signers ≠ []) ↔
    ∃ (sd : signedDataTy.interp) (rest : Bytes), Reads env.toAsnEnv signedDataTy {} sd data rest ∧
      parseRawCerts env (SignedV.of sd).certs = .ok (some p7.certs) ∧ contentReadable env.toAsnEnv (SignedV.of sd).content = .ok true ∧
      p7.contentType = (SignedV.of sd).contentType ∧ p7.signers = (SignedV.of sd).signers ∧ p7.signers ≠ [] := by
  constructor
  · rintro ⟨h2, hs⟩
    unfold parseSignedData at h2
    obtain ⟨sd, r, hu⟩ := C54_unmarshal_total env.toAsnEnv signedDataTy data
    rw [hu] at h2
    simp only at h2
    obtain ⟨q, hq⟩ := parseRawCerts_total env (SignedV.of sd).certs
    rw [hq] at h2
    cases q with
    | none => cases h2
    | some certs =>
      simp only at h2
      obtain ⟨q, hq'⟩ := contentReadable_total env.toAsnEnv (SignedV.of sd).content
      rw [hq'] at h2
      cases q with
      | false => cases h2
      | true =>
        have h2 := Option.some.inj (Except.ok.inj h2)
        subst h2
        cases r with
        | error e => exact absurd (signedData_err hu) hs
        | ok rest => exact ⟨sd, rest, (C54_accepts_exactly_the_grammar _ _ _ _ _).1 hu, hq, hq', rfl, rfl, hs⟩
  · rintro ⟨sd, rest, h1, h2, h3, h4, h5, h6⟩
    refine ⟨?_, h6⟩
    unfold parseSignedData
    rw [(C54_accepts_exactly_the_grammar _ _ _ _ _).2 h1]
    simp only [h2, h3]
    obtain ⟨a, b, c⟩ := p7
    simp only at h4 h5 ⊢
    rw [h4, h5]

theorem reads_signedData_parts {env : AsnEnv} {v : signedDataTy.interp} {b rest : Bytes} (h : Reads env signedDataTy {} v b rest) :
    (v.2.2.2.2.1.1 = [] ∨ ∃ body, Elem 2 0 true body v.2.2.2.2.1.1) ∧
    ∀ s : signerInfoTy.interp, List.Mem s v.2.2.2.2.2.2.1 → ∃ i : Int, s.2.2.1.2.2.1 = some i := by
  obtain ⟨inner, h⟩ := reads_struct_inv h
  obtain ⟨_, _, h⟩ := (readsAll_cons (v1 := v.2.1) (v2 := v.2.2)).1 h
  obtain ⟨_, _, h⟩ := (readsAll_cons (v1 := v.2.2.1) (v2 := v.2.2.2)).1 h
  obtain ⟨_, _, h⟩ := (readsAll_cons (v1 := v.2.2.2.1) (v2 := v.2.2.2.2)).1 h
  obtain ⟨_, hc, h⟩ := (readsAll_cons (v1 := v.2.2.2.2.1) (v2 := v.2.2.2.2.2)).1 h
  obtain ⟨_, _, h⟩ := (readsAll_cons (v1 := v.2.2.2.2.2.1) (v2 := v.2.2.2.2.2.2)).1 h
  obtain ⟨_, h, _⟩ := (readsAll_cons (v1 := v.2.2.2.2.2.2.1) (v2 := v.2.2.2.2.2.2.2)).1 h
  refine ⟨raw_tagged hc, ?_⟩
  intro s hs
  obtain ⟨_, _, hr⟩ := reads_slice_mem h hs
  exact signerInfo_serial hr

theorem parseP7Der_iff {env : CertEnv} {d : Bytes} {p7 : P7} : (parseP7Der env d = .ok (some p7) ∧ p7.signers ≠ []) ↔ SignatureBlockIs env d p7 := by
  constructor
  · rintro ⟨h, hs⟩
    unfold parseP7Der at h
    obtain ⟨r, hr⟩ := unmAll_total env.toAsnEnv contentInfoTy d
    rw [hr] at h
    cases r with
    | none => cases h
    | some ci =>
      have h : dispatchP7 env ci.2.1 ci.2.2.1 = .ok (some p7) := h
      have disp : ∀ {oid : List Nat} {content : RawVal}, dispatchP7 env oid content = .ok (some p7) →
          oid = [1,2,840,113549,1,7,2] ∧ parseSignedData env content.bytes = .ok (some p7) := by
        intro oid content h
        unfold dispatchP7 at h
        by_cases h1 : oid = [1,2,840,113549,1,7,2]
        · rw [if_pos h1] at h
          exact ⟨h1, h⟩
        · rw [if_neg h1] at h
          by_cases h2 : oid = [1,2,840,113549,1,7,3]
          · rw [if_pos h2] at h
            unfold parseEnveloped at h
            obtain ⟨q, hq⟩ := unmFirst_total env.toAsnEnv envelopedTy content.bytes
            rw [hq] at h
            cases q with
            | none => cases h
            | some q =>
              cases Option.some.inj (Except.ok.inj h)
              exact absurd rfl hs
          · rw [if_neg h2] at h
            cases h
      obtain ⟨h1, h2⟩ := disp h
      obtain ⟨sd, rest, k1, k2, k3, k4, k5, k6⟩ := parseSignedData_iff.1 ⟨h2, hs⟩
      obtain ⟨p1, p2⟩ := reads_signedData_parts k1
      have hci := unmAll_iff.1 hr
      obtain ⟨c0, oid, content, ⟨⟩⟩ := ci
      obtain ⟨s0, version, algs, ⟨i0, ct, inner, ⟨⟩⟩, ⟨raw, ⟨⟩⟩, crls, infos, ⟨⟩⟩ := sd
      cases h1
      have k4 : p7.contentType = ct := k4
      subst k4
      exact ⟨c0, s0, i0, raw, rest, content, inner, version, algs, crls, infos, hci, k1, (parseRawCerts_iff p1).1 k2, contentReadable_iff.1 k3,
        (signersAre_iff p2).2 k5, k6⟩
  · rintro ⟨c0, s0, i0, raw, rest, content, inner, version, algs, crls, infos, h1, h2, h3, h4, h5, h6⟩
    obtain ⟨p1, p2⟩ := reads_signedData_parts h2
    refine ⟨?_, h6⟩
    unfold parseP7Der
    have h1' : unmAll env.toAsnEnv contentInfoTy d = _ := unmAll_iff.2 h1
    rw [h1']
    show dispatchP7 env [1,2,840,113549,1,7,2] content = _
    unfold dispatchP7
    rw [if_pos rfl]
    exact (parseSignedData_iff.2 ⟨_, rest, h2, (parseRawCerts_iff p1).2 h3, contentReadable_iff.2 h4, rfl, (signersAre_iff p2).1 h5, h6⟩).1

end Apk
