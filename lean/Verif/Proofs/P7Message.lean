import Verif.Spec.P7Message
import Verif.Proofs.P7Exact
import Verif.Proofs.Attrs
import Verif.Proofs.MarshalFits
/-! # Messages and their verification -/
namespace Apk
namespace P7M

/-! ## Parsing -/

theorem contentOf_total (env : AsnEnv) (content : RawVal) : ∃ r, contentOf env content = .ok r := by
  unfold contentOf
  by_cases hb : content.bytes = []
  · rw [if_pos hb]; exact ⟨_, rfl⟩
  · rw [if_neg hb]
    obtain ⟨r, hr⟩ := unmFirst_total env .rawValue content.bytes
    rw [hr]
    cases r with
    | none => exact ⟨_, rfl⟩
    | some q =>
      obtain ⟨v, rest⟩ := q
      dsimp only
      by_cases hc : RawVal.isCompound v = true
      · rw [if_pos hc]
        obtain ⟨r, hr⟩ := unmFirst_total env .octets (RawVal.bytes v)
        rw [hr]
        cases r with
        | none => exact ⟨_, rfl⟩
        | some q => exact ⟨_, rfl⟩
      · rw [if_neg hc]; exact ⟨_, rfl⟩

theorem contentOf_readable (env : AsnEnv) (content : RawVal) :
    contentReadable env content = (contentOf env content).map Option.isSome := by
  unfold contentOf contentReadable
  by_cases hb : content.bytes = []
  · rw [if_pos hb, if_pos hb]; rfl
  · rw [if_neg hb, if_neg hb]
    obtain ⟨r, hr⟩ := unmFirst_total env .rawValue content.bytes
    rw [hr]
    cases r with
    | none => rfl
    | some q =>
      obtain ⟨v, rest⟩ := q
      dsimp only
      by_cases hc : RawVal.isCompound v = true
      · rw [if_pos hc, if_pos hc]
        obtain ⟨r, hr⟩ := unmFirst_total env .octets (RawVal.bytes v)
        rw [hr]
        cases r with
        | none => rfl
        | some q => rfl
      · rw [if_neg hc, if_neg hc]; rfl

theorem unmOct_val {env : AsnEnv} {b x : Bytes} : (∃ rest, unmFirst env .octets b = .ok (some ((x, rest) : Bytes × Bytes))) ↔
    ∃ o r, Elem 0 4 false x o ∧ b = o ++ r := by
  constructor
  · rintro ⟨rest, h⟩
    obtain ⟨o, h1, h2⟩ := reads_octets_iff.1 (unmFirst_iff.1 h)
    exact ⟨o, rest, h1, h2⟩
  · rintro ⟨o, r, h1, h2⟩
    exact ⟨r, unmFirst_iff.2 (reads_octets_iff.2 ⟨o, h1, h2⟩)⟩

theorem octets_unique {x x' o o' r r' : Bytes} (h : Elem 0 4 false x o) (h' : Elem 0 4 false x' o') (e : o ++ r = o' ++ r') : x = x' :=
  (elemAt_unique h h' e).2.2.2.1

theorem contentOf_iff {env : AsnEnv} {content : RawVal} {x : Bytes} : contentOf env content = .ok (some x) ↔ ContentsAre content.bytes x := by
  unfold contentOf ContentsAre
  by_cases hb : content.bytes = []
  · rw [if_pos hb]
    constructor
    · intro h; exact .inl ⟨hb, (Option.some.inj (Except.ok.inj h)).symm⟩
    · rintro (⟨_, h⟩ | ⟨cls, tag, con, c, e, rest, he, h, _⟩)
      · rw [h]
      · rw [hb] at h
        exact absurd (List.append_eq_nil_iff.1 h.symm).1 he.ne
  · rw [if_neg hb]
    simp only [hb, false_and, false_or]
    obtain ⟨r, hr⟩ := unmFirst_total env .rawValue content.bytes
    rw [hr]
    cases r with
    | none =>
      constructor
      · intro h; cases h
      · rintro ⟨cls, tag, con, c, e, rest, he, h, _⟩
        have := rawVal_of_elem he env rest
        rw [← h, hr] at this
        cases this
    | some q =>
      have aux : ∀ (v : RawVal) (rest : Bytes), unmFirst env .rawValue content.bytes = .ok (some ((v, rest) : RawVal × Bytes)) →
          ((if v.isCompound then
              match unmFirst env .octets v.bytes with
              | .error p => .error p
              | .ok none => .ok none
              | .ok (some (x, _)) => .ok (some x)
            else .ok (some v.bytes) : Go (Option Bytes)) = .ok (some x) ↔ ∃ cls tag con c e rest, Elem cls tag con c e ∧ content.bytes = e ++ rest ∧
              ((con = false ∧ x = c) ∨ (con = true ∧ ∃ o r, Elem 0 4 false x o ∧ c = o ++ r))) := by
        intro v rest hv
        obtain ⟨he, hc⟩ := unmRaw_iff.1 hv
        have hex : (∃ cls tag con c e rest, Elem cls tag con c e ∧ content.bytes = e ++ rest ∧
              ((con = false ∧ x = c) ∨ (con = true ∧ ∃ o r, Elem 0 4 false x o ∧ c = o ++ r))) ↔
            ((v.isCompound = false ∧ x = v.bytes) ∨ (v.isCompound = true ∧ ∃ o r, Elem 0 4 false x o ∧ v.bytes = o ++ r)) := by
          constructor
          · rintro ⟨cls, tag, con, c, e, rest', he', hc', h⟩
            obtain ⟨_, _, rfl, rfl, _, _⟩ := elemAt_unique he he' (hc.symm.trans hc')
            exact h
          · intro h
            exact ⟨_, _, _, _, _, _, he, hc, h⟩
        rw [hex]
        by_cases hcomp : v.isCompound = true
        · rw [if_pos hcomp, ← unmOct_val (env := env)]
          obtain ⟨q, hq⟩ := unmFirst_total env .octets v.bytes
          rw [hq]
          cases q with
          | none => simp [hcomp]
          | some q =>
            obtain ⟨y, r⟩ := q
            simp only [hcomp, Bool.true_eq_false, false_and, false_or, true_and]
            constructor
            · intro h
              obtain rfl := Option.some.inj (Except.ok.inj h)
              exact ⟨r, rfl⟩
            · rintro ⟨r', h⟩
              have := Option.some.inj (Except.ok.inj h)
              exact congrArg (fun z => Except.ok (some z)) (congrArg Prod.fst this : y = x)
        · rw [if_neg hcomp]
          simp only [hcomp]
          constructor
          · intro h; exact .inl ⟨trivial, (Option.some.inj (Except.ok.inj h)).symm⟩
          · rintro (⟨_, h⟩ | ⟨h, _⟩)
            · rw [h]
            · cases h
      exact aux q.1 q.2 hr

theorem signer_of (v : signerInfoTy.interp) : (P7Info.of v).signer = P7Signer.of v := by
  obtain ⟨v0, version, ⟨i0, issuer, serial, ⟨⟩⟩, ⟨d0, dalg, dp, ⟨⟩⟩, attrs, ⟨e0, ealg, ep, ⟨⟩⟩, enc, unauth, ⟨⟩⟩ := v
  show P7Signer.mk _ _ _ _ _ _ = P7Signer.mk _ _ _ _ _ _
  congr 1
  exact List.map_map

theorem signers_of (v : signedDataTy.interp) : (signedInfos v).map P7Info.signer = (SignedV.of v).signers := by
  obtain ⟨v0, version, algs, ci, cs, crls, infos, ⟨⟩⟩ := v
  exact List.map_map.trans (List.map_congr_left (fun v _ => signer_of v))

/-- The parsed message, as the v1 verifier sees it. -/
theorem parseSigned_p7 (env : CertEnv) (data : Bytes) : (parseSignedMsg env data).map (Option.map P7Msg.p7) = parseSignedData env data := by
  unfold parseSignedMsg parseSignedData
  obtain ⟨sd, r, hu⟩ := C54_unmarshal_total env.toAsnEnv signedDataTy data
  rw [hu]
  dsimp only
  obtain ⟨q, hq⟩ := parseRawCerts_total env (SignedV.of sd).certs
  rw [hq]
  cases q with
  | none => rfl
  | some certs =>
    dsimp only
    rw [contentOf_readable]
    obtain ⟨c, hc⟩ := contentOf_total env.toAsnEnv (SignedV.of sd).content
    rw [hc]
    cases c with
    | none => rfl
    | some c =>
      show Except.ok (some (P7.mk certs ((signedInfos sd).map P7Info.signer) (SignedV.of sd).contentType)) = _
      rw [signers_of]; rfl

theorem dispatch_p7 (env : CertEnv) (oid : List Nat) (content : RawVal) :
    (dispatchMsg env oid content).map (Option.map P7Msg.p7) = dispatchP7 env oid content := by
  unfold dispatchMsg dispatchP7
  by_cases h1 : oid = [1,2,840,113549,1,7,2]
  · rw [if_pos h1, if_pos h1]; exact parseSigned_p7 env _
  · rw [if_neg h1, if_neg h1]
    by_cases h2 : oid = [1,2,840,113549,1,7,3]
    · rw [if_pos h2, if_pos h2]
      unfold parseEnvelopedMsg parseEnveloped
      obtain ⟨q, hq⟩ := unmFirst_total env.toAsnEnv envelopedTy content.bytes
      rw [hq]
      cases q with
      | none => rfl
      | some q => rfl
    · rw [if_neg h2, if_neg h2]; rfl

theorem parseDer_p7 (env : CertEnv) (d : Bytes) : (parseMsgDer env d).map (Option.map P7Msg.p7) = parseP7Der env d := by
  unfold parseMsgDer parseP7Der
  obtain ⟨r, hr⟩ := unmAll_total env.toAsnEnv contentInfoTy d
  rw [hr]
  cases r with
  | none => rfl
  | some v =>
    exact dispatch_p7 env v.2.1 v.2.2.1

theorem infoIs_iff {v : signerInfoTy.interp} {s : P7Info} : InfoIs v s ↔ s = P7Info.of v := by
  constructor
  · rintro ⟨v0, i0, d0, e0, attrs, unauth, rfl, h2, h3⟩
    obtain ⟨a1, a2, a3, ⟨a4, a5⟩, a6, ⟨a7, a8⟩, a9, a10⟩ := s
    simp only at h2 h3
    rw [h2, h3]
    rfl
  · rintro rfl
    obtain ⟨v0, version, ⟨i0, issuer, serial, ⟨⟩⟩, ⟨d0, dalg, dp, ⟨⟩⟩, attrs, ⟨e0, ealg, ep, ⟨⟩⟩, enc, unauth, ⟨⟩⟩ := v
    exact ⟨v0, i0, d0, e0, attrs, unauth, rfl, rfl, rfl⟩

theorem infosAre_iff {vs : List signerInfoTy.interp} {ss : List P7Info} : ListRel InfoIs vs ss ↔ ss = vs.map P7Info.of := by
  constructor
  · intro h
    induction h with
    | nil => rfl
    | cons h1 _ ih => rw [infoIs_iff.1 h1, ih]; rfl
  · rintro rfl
    induction vs with
    | nil => exact .nil
    | cons v vs ih => exact .cons (infoIs_iff.2 rfl) ih

theorem parseSigned_of {env : CertEnv} {data : Bytes} {m : P7Msg} {sd : signedDataTy.interp} {rest : Bytes} (h1 : Reads env.toAsnEnv signedDataTy {} sd data rest)
    (h2 : parseRawCerts env (SignedV.of sd).certs = .ok (some m.certs)) (h3 : contentOf env.toAsnEnv (SignedV.of sd).content = .ok (some m.content))
    (h4 : m.contentType = (SignedV.of sd).contentType) (h5 : m.infos = signedInfos sd) (h6 : m.enveloped = none) :
    parseSignedMsg env data = .ok (some m) := by
  unfold parseSignedMsg
  rw [(C54_accepts_exactly_the_grammar _ _ _ _ _).2 h1]
  simp only [h2, h3]
  obtain ⟨a, b, c, d, e⟩ := m
  simp only at h4 h5 h6 ⊢
  rw [h4, h5, h6]

theorem parseSigned_inv {env : CertEnv} {data : Bytes} {m : P7Msg} (h : parseSignedMsg env data = .ok (some m)) (hs : m.infos ≠ []) :
    ∃ (sd : signedDataTy.interp) (rest : Bytes), Reads env.toAsnEnv signedDataTy {} sd data rest ∧
      parseRawCerts env (SignedV.of sd).certs = .ok (some m.certs) ∧ contentOf env.toAsnEnv (SignedV.of sd).content = .ok (some m.content) ∧
      m.contentType = (SignedV.of sd).contentType ∧ m.infos = signedInfos sd ∧ m.enveloped = none := by
  unfold parseSignedMsg at h
  obtain ⟨sd, r, hu⟩ := C54_unmarshal_total env.toAsnEnv signedDataTy data
  rw [hu] at h
  dsimp only at h
  obtain ⟨q, hq⟩ := parseRawCerts_total env (SignedV.of sd).certs
  rw [hq] at h
  cases q with
  | none => cases h
  | some certs =>
    dsimp only at h
    obtain ⟨c, hc⟩ := contentOf_total env.toAsnEnv (SignedV.of sd).content
    rw [hc] at h
    cases c with
    | none => cases h
    | some c =>
      have h := Option.some.inj (Except.ok.inj h)
      subst h
      cases r with
      | error e =>
        have := signedData_err hu
        rw [← signers_of] at this
        exact absurd (List.map_eq_nil_iff.1 this) hs
      | ok rest => exact ⟨sd, rest, (C54_accepts_exactly_the_grammar _ _ _ _ _).1 hu, hq, hc, rfl, rfl, rfl⟩

theorem message_of {env : CertEnv} {d : Bytes} {m : P7Msg} (h : SignedMessageIs env d m) : parseMsgDer env d = .ok (some m) := by
  obtain ⟨h0, c0, s0, i0, rawCerts, rest, content, inner, version, algs, crls, infos, hci, hsd, hcerts, hcont, hinfos⟩ := h
  unfold parseMsgDer
  have h' : unmAll env.toAsnEnv contentInfoTy d = _ := unmAll_iff.2 hci
  rw [h']
  show dispatchMsg env [1,2,840,113549,1,7,2] content = _
  unfold dispatchMsg
  rw [if_pos rfl]
  have hp := reads_signedData_parts hsd
  refine parseSigned_of hsd ?_ (contentOf_iff.2 hcont) rfl ?_ h0
  · exact (parseRawCerts_iff hp.1).2 hcerts
  · exact infosAre_iff.1 hinfos

theorem message_inv {env : CertEnv} {d : Bytes} {m : P7Msg} (h : parseMsgDer env d = .ok (some m)) (hs : m.infos ≠ []) : SignedMessageIs env d m := by
  unfold parseMsgDer at h
  obtain ⟨r, hr⟩ := unmAll_total env.toAsnEnv contentInfoTy d
  rw [hr] at h
  cases r with
  | none => cases h
  | some ci =>
    have h : dispatchMsg env ci.2.1 ci.2.2.1 = .ok (some m) := h
    have disp : ∀ {oid : List Nat} {content : RawVal}, dispatchMsg env oid content = .ok (some m) →
        oid = [1,2,840,113549,1,7,2] ∧ parseSignedMsg env content.bytes = .ok (some m) := by
      intro oid content h
      unfold dispatchMsg at h
      by_cases h1 : oid = [1,2,840,113549,1,7,2]
      · rw [if_pos h1] at h
        exact ⟨h1, h⟩
      · rw [if_neg h1] at h
        by_cases h2 : oid = [1,2,840,113549,1,7,3]
        · rw [if_pos h2] at h
          unfold parseEnvelopedMsg at h
          obtain ⟨q, hq⟩ := unmFirst_total env.toAsnEnv envelopedTy content.bytes
          rw [hq] at h
          cases q with
          | none => cases h
          | some q =>
            cases Option.some.inj (Except.ok.inj h)
            exact absurd rfl hs
        · rw [if_neg h2] at h
          cases h
    obtain ⟨h1, h2⟩ := disp h
    obtain ⟨sd, rest, hsd, hcerts, hcont, hct, hinfos, he⟩ := parseSigned_inv h2 hs
    obtain ⟨c0, oid, content, ⟨⟩⟩ := ci
    have h1 : oid = [1,2,840,113549,1,7,2] := h1
    subst h1
    have hp := reads_signedData_parts hsd
    obtain ⟨s0, version, algs, ⟨i0, ct, inner, ⟨⟩⟩, ⟨rawCerts, ⟨⟩⟩, crls, infos, ⟨⟩⟩ := sd
    have hct : m.contentType = ct := hct
    refine ⟨he, c0, s0, i0, rawCerts, rest, content, inner, version, algs, crls, infos, unmAll_iff.1 hr, ?_, (parseRawCerts_iff hp.1).1 hcerts, contentOf_iff.1 hcont,
      infosAre_iff.2 hinfos⟩
    rw [hct]
    exact hsd

end P7M
end Apk
