import Verif.Proofs.Attrs
import Verif.Props.Ber
/-! # C55 - C58: PKCS#7 signature blocks -/
namespace Apk

/-! ## C55 -/

/-- C55: a SignedData message (RFC 2315, in `Spec/Pkcs7.lean`) whose certificates can be parsed one by one is read back: the
    certificates in order, every field of every signer info, the content type. -/
theorem C55_message_read_back {ce : CertEnv} {env : Env1} {ct : List Nat} {certs : List Bytes} {signers : List P7Signer} {d : Bytes} {parsed : List Cert}
    (h : Pkcs7Enc ct certs signers d) (hp : certs.map (concreteEnv1 ce env).parseCertAndr = parsed.map some) :
    (concreteEnv1 ce env).parseP7 d = some ⟨parsed, signers, ct⟩ := by
  have key : ∀ {certs : List Bytes} {parsed : List Cert}, certs.map (concreteEnv1 ce env).parseCertAndr = parsed.map some →
      ∃ ps : List (Cert × Key), certs.map (fun c => parseCert509 ce c) = ps.map (fun p => .ok (some p)) ∧ ps.map Prod.fst = parsed := by
    intro certs
    induction certs with
    | nil =>
      intro parsed hp
      cases parsed with
      | nil => exact ⟨[], rfl, rfl⟩
      | cons a as => simp at hp
    | cons c cs ih =>
      intro parsed hp
      cases parsed with
      | nil => simp at hp
      | cons a as =>
        rw [List.map_cons, List.map_cons] at hp
        obtain ⟨h1, h2⟩ := List.cons.inj hp
        obtain ⟨ps, i1, i2⟩ := ih h2
        obtain ⟨r, hr⟩ := parseCert509_total ce c
        have h1 : (noPanic (parseCert509 ce c)).map Prod.fst = some a := h1
        rw [hr] at h1
        cases r with
        | none => cases h1
        | some p =>
          refine ⟨p :: ps, ?_, ?_⟩
          · rw [List.map_cons, List.map_cons, hr, i1]
          · have : p.1 = a := Option.some.inj h1
            rw [List.map_cons, this, i2]
  obtain ⟨ps, h1, rfl⟩ := key hp
  show noPanic (parseP7Der ce d) = _
  rw [parseP7Der_enc h h1]
  rfl

/-- C55: the same for every BER form of the message (indefinite lengths, long lengths), whatever follows it: what the verifier
    sees depends on the message only. -/
theorem C55_any_ber_form {ce : CertEnv} {env : Env1} {ct : List Nat} {certs : List Bytes} {signers : List P7Signer} {t : Asn1} {b d : Bytes} {parsed : List Cert}
    (hb : BerEnc t b) (hd : DerEnc t d) (hl : d.length < 2 ^ 63) (h : Pkcs7Enc ct certs signers d)
    (hp : certs.map (concreteEnv1 ce env).parseCertAndr = parsed.map some) (rest : Bytes) :
    p7Parse (concreteEnv1 ce env) (b ++ rest) = .ok (some ⟨parsed, signers, ct⟩) := by
  have hf := C41_flattened_to_the_same_tree_partial hb hd hl rest
  have hne : b ++ rest ≠ [] := by
    intro e
    rw [e] at hf
    simp [ber2der] at hf
  unfold p7Parse
  rw [if_neg hne, hf]
  show Except.ok ((concreteEnv1 ce env).parseP7 d) = _
  rw [C55_message_read_back h hp]

/-! ## C56 -/

theorem fieldWith_err {α : Type} {u : Bool × Int × Bool} {r f : Bool} {zero dflt sf v : α} {fp : FP} {b : Bytes} {err : UE}
    {k : Int → TagLen → Bytes → Bytes → Bytes → Go (α × Except UE Bytes)} (hk : ∀ a c d e g w, k a c d e g = .ok (w, .error err) → w = zero)
    (h : fieldWith u r f zero dflt sf fp b k = .ok (v, .error err)) : v = zero := by
  unfold fieldWith at h
  by_cases hb : b = []
  · rw [if_pos hb] at h
    by_cases ho : fp.optional = true
    · rw [if_pos ho] at h; simp at h
    · rw [if_neg ho] at h
      simp only [Except.ok.injEq, Prod.mk.injEq] at h
      exact h.1.symm
  · rw [if_neg hb] at h
    cases hh : fieldHeader u r f fp b with
    | error p => rw [hh] at h; cases h
    | ok hd =>
      rw [hh] at h
      cases hd with
      | fail e' => simp only [Hdr.run, Except.ok.injEq, Prod.mk.injEq] at h; exact h.1.symm
      | absent => simp [Hdr.run] at h
      | flagSet rest => simp [Hdr.run] at h
      | content ut tl inner rest => exact hk _ _ _ _ _ _ h

theorem sliceContent_err {α : Type} {u : Option (Bool × Int × Bool)} {f : Bytes → Go (α × Except UE Bytes)} {inner rest : Bytes} {v : List α} {err : UE}
    (h : sliceContent u f inner rest = .ok (v, .error err)) : v = [] := by
  unfold sliceContent at h
  cases u with
  | none => simp only [Except.ok.injEq, Prod.mk.injEq] at h; exact h.1.symm
  | some u =>
    simp only at h
    cases hc : countElems u inner.length inner with
    | error e' => simp only [hc, Except.ok.injEq, Prod.mk.injEq] at h; exact h.1.symm
    | ok n =>
      simp only [hc] at h
      cases hs : seqElems f n inner with
      | error p => simp [hs] at h
      | ok r =>
        cases r with
        | error e' => simp only [hs, Except.ok.injEq, Prod.mk.injEq] at h; exact h.1.symm
        | ok vs => simp [hs] at h

theorem slice_err {env : AsnEnv} {s : Bool} {e : Ty} {fp : FP} {b : Bytes} {v : (Ty.slice s e).interp} {err : UE}
    (h : parseField env (.slice s e) fp b = .ok (v, .error err)) : v = ([] : List e.interp) := by
  rw [parseField] at h
  exact fieldWith_err (fun _ _ _ _ _ w hw => sliceContent_err hw) h

/-- A failed struct field list: the first field failed, or it was read and a later one failed. -/
theorem fields_err {env : AsnEnv} {tag : Bytes} {t : Ty} {fs : Fields} {b : Bytes} {v : t.interp} {vs : fs.interp} {e : UE}
    (h : parseFields env (.cons tag t fs) b = .ok (((v, vs) : t.interp × fs.interp), some e)) :
    vs = fs.zero ∧ parseField env t (parseFP tag) b = .ok (v, .error e) ∨ ∃ rest, parseFields env fs rest = .ok (vs, some e) := by
  rw [parseFields] at h
  cases hp : parseField env t (parseFP tag) b with
  | error p => simp [hp] at h
  | ok r =>
    obtain ⟨w, r⟩ := r
    cases r with
    | error e' =>
      simp only [hp] at h
      have h := Except.ok.inj h
      have h1 : (w, fs.zero) = (v, vs) := congrArg Prod.fst h
      have h2 : some e' = some e := congrArg Prod.snd h
      have e1 : w = v := congrArg Prod.fst h1
      have e2 : fs.zero = vs := congrArg Prod.snd h1
      have e3 := Option.some.inj h2
      exact .inl ⟨e2.symm, by rw [e1, e3]⟩
    | ok rest =>
      simp only [hp] at h
      cases hf : parseFields env fs rest with
      | error p => simp [hf] at h
      | ok q =>
        obtain ⟨q1, q2⟩ := q
        simp only [hf] at h
        have h := Except.ok.inj h
        have h1 : (w, q1) = (v, vs) := congrArg Prod.fst h
        have h2 : q2 = some e := congrArg Prod.snd h
        have e2 : q1 = vs := congrArg Prod.snd h1
        exact .inr ⟨rest, by rw [hf, e2, h2]⟩

theorem fieldWith_err' {α : Type} {u : Bool × Int × Bool} {r f : Bool} {zero dflt sf v : α} {fp : FP} {b : Bytes} {err : UE}
    {k : Int → TagLen → Bytes → Bytes → Bytes → Go (α × Except UE Bytes)}
    (h : fieldWith u r f zero dflt sf fp b k = .ok (v, .error err)) : v = zero ∨ ∃ a c d e g, k a c d e g = .ok (v, .error err) := by
  refine Classical.byContradiction (fun hn => hn (.inl ?_))
  refine fieldWith_err (fun a c d e g w hw => ?_) h
  refine Classical.byContradiction (fun hw' => ?_)
  unfold fieldWith at h
  by_cases hb : b = []
  · rw [if_pos hb] at h
    by_cases ho : fp.optional = true
    · rw [if_pos ho] at h; simp at h
    · rw [if_neg ho] at h
      simp only [Except.ok.injEq, Prod.mk.injEq] at h
      exact hn (.inl h.1.symm)
  · rw [if_neg hb] at h
    cases hh : fieldHeader u r f fp b with
    | error p => rw [hh] at h; cases h
    | ok hd =>
      rw [hh] at h
      cases hd with
      | fail e' => simp only [Hdr.run, Except.ok.injEq, Prod.mk.injEq] at h; exact hn (.inl h.1.symm)
      | absent => simp [Hdr.run] at h
      | flagSet rest => simp [Hdr.run] at h
      | content ut tl inner rest => exact hn (.inr ⟨_, _, _, _, _, h⟩)

theorem struct_err {env : AsnEnv} {fs : Fields} {fp : FP} {b : Bytes} {v : (Ty.struct false fs).interp} {err : UE}
    (h : parseField env (.struct false fs) fp b = .ok (v, .error err)) :
    v.2 = fs.zero ∨ ∃ inner, parseFields env fs inner = .ok (v.2, some err) := by
  rw [parseField] at h
  rcases fieldWith_err' h with h | ⟨_, _, inner, rest, full, h⟩
  · exact .inl (by rw [h])
  · right
    refine ⟨inner, ?_⟩
    cases hf : parseFields env fs inner with
    | error p => simp [hf, structContent] at h
    | ok q =>
      obtain ⟨q1, q2⟩ := q
      rw [hf] at h
      cases q2 with
      | none =>
        have h := Except.ok.inj h
        have h2 := congrArg Prod.snd h
        cases h2
      | some e =>
        have h := Except.ok.inj h
        have h2 := congrArg Prod.snd h
        cases h2
        have h1 : q1 = v.2 := congrArg (fun x : (Bytes × fs.interp) × Except UE Bytes => x.1.2) h
        exact congrArg (fun x => Except.ok (x, some err)) h1

/-- If the decoder failed on the signed data there are no signers. -/
theorem signedData_err {env : AsnEnv} {b : Bytes} {v : signedDataTy.interp} {e : UE} (h : unmarshalRaw env signedDataTy b = .ok (v, .error e)) :
    (SignedV.of v).signers = [] := by
  rcases struct_err h with h | ⟨i, h⟩
  · obtain ⟨raw, w⟩ := v
    cases h
    rfl
  · have last : ∀ {w : (Fields.cons (b!"set") (.slice false signerInfoTy) .nil).interp} {i : Bytes},
        parseFields env (.cons (b!"set") (.slice false signerInfoTy) .nil) i = .ok (w, some e) → w.1 = ([] : List signerInfoTy.interp) := by
      intro w i h
      rcases fields_err (v := w.1) (vs := w.2) h with ⟨_, h⟩ | ⟨r, h⟩
      · exact slice_err h
      · rw [parseFields] at h
        have h := congrArg Prod.snd (Except.ok.inj h)
        cases h
    have zero : ∀ {l : List signerInfoTy.interp}, l = [] → l.map P7Signer.of = [] := by intro l h; rw [h]; rfl
    show List.map P7Signer.of v.2.2.2.2.2.2.1 = []
    refine zero ?_
    rcases fields_err (v := v.2.1) (vs := v.2.2) h with ⟨h, _⟩ | ⟨_, h⟩
    · rw [h]; rfl
    rcases fields_err (v := v.2.2.1) (vs := v.2.2.2) h with ⟨h, _⟩ | ⟨_, h⟩
    · rw [h]; rfl
    rcases fields_err (v := v.2.2.2.1) (vs := v.2.2.2.2) h with ⟨h, _⟩ | ⟨_, h⟩
    · rw [h]; rfl
    rcases fields_err (v := v.2.2.2.2.1) (vs := v.2.2.2.2.2) h with ⟨h, _⟩ | ⟨_, h⟩
    · rw [h]; rfl
    rcases fields_err (v := v.2.2.2.2.2.1) (vs := v.2.2.2.2.2.2) h with ⟨h, _⟩ | ⟨_, h⟩
    · rw [h]; rfl
    exact last h

/-- C56: signers are only ever taken from a message that the decoder accepts as a whole, though its error is ignored: it is a
    ContentInfo of type signedData, without trailing bytes, whose content starts with a well-formed SignedData with these signers
    and this content type. -/
theorem C56_signers_from_well_formed_message {ce : CertEnv} {env : Env1} {d : Bytes} {p7 : P7} (h : (concreteEnv1 ce env).parseP7 d = some p7)
    (hs : p7.signers ≠ []) :
    ∃ (ci : contentInfoTy.interp) (sd : signedDataTy.interp) (rest : Bytes), Reads ce.toAsnEnv contentInfoTy {} ci d [] ∧
      ci.2.1 = ([1,2,840,113549,1,7,2] : List Nat) ∧ Reads ce.toAsnEnv signedDataTy {} sd (RawVal.bytes ci.2.2.1) rest ∧
      p7.signers = (SignedV.of sd).signers ∧ p7.contentType = (SignedV.of sd).contentType := by
  have h : noPanic (parseP7Der ce d) = some p7 := h
  unfold parseP7Der at h
  obtain ⟨r, hr⟩ := unmAll_total ce.toAsnEnv contentInfoTy d
  rw [hr] at h
  cases r with
  | none => cases h
  | some ci =>
    have h : noPanic (dispatchP7 ce ci.2.1 ci.2.2.1) = some p7 := h
    have disp : ∀ {oid : List Nat} {content : RawVal}, noPanic (dispatchP7 ce oid content) = some p7 →
        oid = [1,2,840,113549,1,7,2] ∧ noPanic (parseSignedData ce content.bytes) = some p7 := by
      intro oid content h
      unfold dispatchP7 at h
      by_cases h1 : oid = [1,2,840,113549,1,7,2]
      · rw [if_pos h1] at h
        exact ⟨h1, h⟩
      · rw [if_neg h1] at h
        by_cases h2 : oid = [1,2,840,113549,1,7,3]
        · rw [if_pos h2] at h
          unfold parseEnveloped at h
          obtain ⟨q, hq⟩ := unmFirst_total ce.toAsnEnv envelopedTy content.bytes
          rw [hq] at h
          cases q with
          | none => cases h
          | some q =>
            cases Option.some.inj h
            exact absurd rfl hs
        · rw [if_neg h2] at h
          cases h
    obtain ⟨h1, h2⟩ := disp h
    unfold parseSignedData at h2
    obtain ⟨sd, r, hu⟩ := C54_unmarshal_total ce.toAsnEnv signedDataTy (RawVal.bytes ci.2.2.1)
    rw [hu] at h2
    simp only at h2
    obtain ⟨q, hq⟩ := parseRawCerts_total ce (SignedV.of sd).certs
    rw [hq] at h2
    cases q with
    | none => cases h2
    | some certs =>
      simp only at h2
      obtain ⟨q, hq⟩ := contentReadable_total ce.toAsnEnv (SignedV.of sd).content
      rw [hq] at h2
      cases q with
      | false => cases h2
      | true =>
        have h2 := Option.some.inj h2
        subst h2
        cases r with
        | error e => exact absurd (signedData_err hu) hs
        | ok rest =>
          exact ⟨ci, sd, rest, unmAll_iff.1 hr, h1, (C54_accepts_exactly_the_grammar _ _ _ _ _).1 hu, rfl, rfl⟩

/-- C56, at the level of signatures: a signature block is only accepted if it is such a message. -/
theorem C56_accepted_signature_well_formed {ce : CertEnv} {env : Env1} {d sf : Bytes} {minSdk maxSdk : Int} {p7 : P7} {chain : Option (List Cert)}
    (h : (concreteEnv1 ce env).parseP7 d = some p7) (hv : verifySignature1 (concreteEnv1 ce env) p7 sf minSdk maxSdk = .ok (chain, none)) :
    ∃ (ci : contentInfoTy.interp) (sd : signedDataTy.interp) (rest : Bytes), Reads ce.toAsnEnv contentInfoTy {} ci d [] ∧
      ci.2.1 = ([1,2,840,113549,1,7,2] : List Nat) ∧ Reads ce.toAsnEnv signedDataTy {} sd (RawVal.bytes ci.2.2.1) rest ∧
      p7.signers = (SignedV.of sd).signers ∧ p7.contentType = (SignedV.of sd).contentType := by
  refine C56_signers_from_well_formed_message h (fun hs => ?_)
  unfold verifySignature1 at hv
  rw [if_pos hs] at hv
  cases hv

/-! ## C57 -/

theorem reads_bigint_iff {env : AsnEnv} {v : Option Int} {b rest : Bytes} :
    Reads env .bigInt {} (v : Option Int) b rest ↔ ∃ i e, v = some i ∧ IntElem i e ∧ b = e ++ rest := by
  constructor
  · intro h
    rcases (reads_prim (t := .bigInt) (by simp) (by simp) (by simp)).1 h with ⟨tl, inner, hl, i, hi, h1, h2⟩ | ⟨h, _⟩ | ⟨h, _⟩
    · obtain ⟨hdr, q1, q2, q3, q4⟩ := hl.plain_inv rfl
      refine ⟨i, hdr ++ inner, hi, ⟨inner, h1, h2, hdr, ?_, rfl⟩, q1⟩
      obtain ⟨hc, hp⟩ := q4
      obtain ⟨cls, tag, len, con⟩ := tl
      have hc : con = false := by
        rcases hc with hc | hc
        · cases hc
        · exact hc
      have hp : cls = 0 ∧ tag = 2 := by
        rcases hp with hp | ⟨hp, hp2⟩
        · cases hp
        · exact ⟨hp, hp2⟩
      have q3 : inner.length = len := q3
      rw [hp.1, hp.2, hc, ← q3] at q2
      exact q2
    · exact absurd (absent_optional h) (by simp)
    · cases h
  · rintro ⟨i, e, rfl, he, rfl⟩
    exact reads_big plain0 he rest

/-- C57: the two integers of an (EC)DSA signature are decoded exactly from the encodings: a SEQUENCE that starts with the two INTEGERs.
    What follows them inside the SEQUENCE is not looked at; what follows the SEQUENCE is returned (and refused by the caller). -/
theorem C57_signature_integers {ce : CertEnv} {env : Env1} {b rest : Bytes} {r s : Int} :
    (concreteEnv1 ce env).asn1AndrRS b = some (r, s, rest) ↔
      ∃ er es extra e, IntElem r er ∧ IntElem s es ∧ Elem 0 16 true (er ++ (es ++ extra)) e ∧ b = e ++ rest := by
  show noPanic (rsParse ce.toAsnEnv b) = some (r, s, rest) ↔ _
  have hloc : ∀ {inner : Bytes}, (∃ tl, Located rsTy {} b tl inner rest) ↔ ∃ e, Elem 0 16 true inner e ∧ b = e ++ rest :=
    located_seq_iff rfl (fun n => Iff.rfl) (by simp [rsTy])
  constructor
  · intro h
    unfold rsParse at h
    obtain ⟨q, hq⟩ := unmFirst_total ce.toAsnEnv rsTy b
    rw [hq] at h
    cases q with
    | none => cases h
    | some p =>
      obtain ⟨v, rest'⟩ := p
      have hr := unmFirst_iff.1 hq
      obtain ⟨x, y, h1, h2⟩ := reads_two_bigs hr
      simp only [h1, h2] at h
      have h := Option.some.inj h
      have er : x = r := congrArg Prod.fst h
      have es : y = s := congrArg (fun z : Int × Int × Bytes => z.2.1) h
      have ee : rest' = rest := congrArg (fun z : Int × Int × Bytes => z.2.2) h
      subst er es ee
      obtain ⟨tl, inner, hl, hv⟩ := reads_struct_located hr
      · obtain ⟨e, he, hb⟩ := hloc.1 ⟨tl, hl⟩
        obtain ⟨r1, a1, a2⟩ := (readsAll_cons (v1 := v.2.1) (v2 := v.2.2)).1 hv
        obtain ⟨r2, b1, _⟩ := (readsAll_cons (v1 := v.2.2.1) (v2 := v.2.2.2)).1 a2
        rw [fp_empty] at a1 b1
        obtain ⟨i, ei, e1, e2, rfl⟩ := reads_bigint_iff.1 a1
        obtain ⟨j, ej, f1, f2, rfl⟩ := reads_bigint_iff.1 b1
        rw [h1] at e1
        rw [h2] at f1
        cases e1; cases f1
        exact ⟨ei, ej, r2, e, e2, f2, he, hb⟩
  · rintro ⟨er, es, extra, e, hr, hs, he, hb⟩
    obtain ⟨tl, hl⟩ := hloc.2 ⟨e, he, hb⟩
    have := reads_struct (env := ce.toAsnEnv) (raw := false) (fs := .cons [] .bigInt (.cons [] .bigInt .nil)) (b := e) (rest := rest) (tl := tl) (inner := er ++ (es ++ extra)) (hb ▸ hl)
      (v := ((some r : Option Int), (some s : Option Int), ())) (by
        refine readsAll_cons.2 ⟨es ++ extra, ?_, readsAll_cons.2 ⟨extra, ?_, readsAll_nil⟩⟩
        · rw [fp_empty]; exact reads_big plain0 hr _
        · rw [fp_empty]; exact reads_big plain0 hs _)
    have this : unmFirst ce.toAsnEnv rsTy (e ++ rest) = .ok (some ((([] : Bytes), (some r : Option Int), (some s : Option Int), ()), rest)) :=
      (unmFirst_iff (t := rsTy)).2 this
    unfold rsParse
    rw [hb, this]
    rfl

/-- C57, a defect: signatures are malleable. Every decodable signature has further encodings with the same integers. -/
theorem C57_malleable {ce : CertEnv} {env : Env1} {b : Bytes} {r s : Int} (h : (concreteEnv1 ce env).asn1AndrRS b = some (r, s, [])) (hl : b.length < 2 ^ 30) :
    ∃ b', b' ≠ b ∧ (concreteEnv1 ce env).asn1AndrRS b' = some (r, s, []) := by
  obtain ⟨er, es, extra, e, hr, hs, he, hb⟩ := C57_signature_integers.1 h
  rw [List.append_nil] at hb
  subst hb
  have hle := he.length
  have hlen : (er ++ (es ++ (extra ++ b))).length < 2 ^ 31 := by
    simp only [List.length_append] at hle ⊢
    omega
  have hn := tlv_elem (cls := 0) (tag := 16) (con := true) (content := er ++ (es ++ (extra ++ b))) (by decide) (by decide) hlen
  refine ⟨_, ?_, C57_signature_integers.2 ⟨er, es, extra ++ b, _, hr, hs, hn, (List.append_nil _).symm⟩⟩
  intro e
  have h1 := congrArg List.length e
  have h2 : (er ++ (es ++ (extra ++ b))).length ≤ (tlv 0 true 16 (er ++ (es ++ (extra ++ b)))).length := tlv_length _ _ _ _
  have h3 := hr
  obtain ⟨c, _, _, hc⟩ := h3
  have h4 : 0 < er.length := List.length_pos_iff.2 hc.ne
  simp only [List.length_append] at h1 h2
  omega

/-! ## C58 -/

/-- C58: the attributes of every decoded signer are well formed, and the bytes that its signature is checked over always exist: they
    are a SET whose contents encode the attributes one by one. -/
theorem C58_attributes_encode {ce : CertEnv} {env : Env1} {d : Bytes} {p7 : P7} (h : (concreteEnv1 ce env).parseP7 d = some p7) {s : P7Signer}
    (hs : s ∈ p7.signers) :
    (∀ a ∈ s.attrs, AttrWF a) ∧ ∃ c x, (concreteEnv1 ce env).marshalAttrs s.attrs = some x ∧ Elem 0 17 true c x ∧ x.length < 2 ^ 31 ∧
      ∃ vs : List attributeTy.interp, vs.map P7Attr.of = s.attrs ∧ SeqOf (Reads ce.toAsnEnv attributeTy {}) vs c := by
  have hne : p7.signers ≠ [] := List.ne_nil_of_mem hs
  obtain ⟨ci, sd, rest, _, _, hr, he, _⟩ := C56_signers_from_well_formed_message h hne
  rw [he] at hs
  have hw := reads_signed_attrs hr s hs
  obtain ⟨body, hb, hl⟩ := signed_attrs_min hr s hs
  have hbl := Nat.lt_of_le_of_lt (tlv_length _ _ _ _) hl
  refine ⟨hw, body, _, ?_, tlv_elem (by decide) (by decide) hbl, hl, reads_marshalAttrList hw hb hbl⟩
  show noPanic (marshalAuthAttrs ce.toAsnEnv s.attrs) = _
  rw [marshalAuth_eq hb hl]
  rfl

theorem C58_read_back {ce : CertEnv} {env : Env1} {d : Bytes} {p7 : P7} (h : (concreteEnv1 ce env).parseP7 d = some p7) {s : P7Signer}
    (hs : s ∈ p7.signers) {x : Bytes} (hx : (concreteEnv1 ce env).marshalAttrs s.attrs = some x) :
    ∃ vs : List attributeTy.interp, vs.map P7Attr.of = s.attrs ∧ Reads ce.toAsnEnv (.slice true attributeTy) {} vs x [] := by
  obtain ⟨_, c, y, hy, he, _, vs, h1, h2⟩ := C58_attributes_encode h hs
  rw [hx] at hy
  cases hy
  have := he.located (t := .slice true attributeTy) (fp := {}) rfl (present_plain plain0 rfl) []
  rw [List.append_nil] at this
  exact ⟨vs, h1, reads_slice (by simp [attributeTy]) this h2⟩

/-- C58: those bytes determine the attributes: two decoded signers, of any two messages, with the same bytes have the same list of
    attributes. So a signature over the attributes covers the message digest and the content type in them. -/
theorem C58_bytes_determine_attributes {ce : CertEnv} {env : Env1} {d d' : Bytes} {p7 p7' : P7} (h : (concreteEnv1 ce env).parseP7 d = some p7)
    (h' : (concreteEnv1 ce env).parseP7 d' = some p7') {s s' : P7Signer} (hs : s ∈ p7.signers) (hs' : s' ∈ p7'.signers) {x : Bytes}
    (hx : (concreteEnv1 ce env).marshalAttrs s.attrs = some x) (hx' : (concreteEnv1 ce env).marshalAttrs s'.attrs = some x) : s.attrs = s'.attrs := by
  obtain ⟨vs, h1, h2⟩ := C58_read_back h hs hx
  obtain ⟨vs', h1', h2'⟩ := C58_read_back h' hs' hx'
  have e := C54_unambiguous (front := x) (r := []) (front' := x) (r' := []) (by simpa using h2) (by simpa using h2') rfl
  rw [← h1, ← h1', e.1]

/-- C58: attributes that stand in the message in DER are hashed as they stand, with the SET tag in front instead of [0]. -/
theorem C58_der_attributes_unchanged {ce : CertEnv} {env : Env1} {as : List P7Attr} {c x : Bytes} (h : ListEnc DerAttr as c) (hx : DerElem 0 17 true c x)
    (hl : x.length < 2 ^ 31) : (concreteEnv1 ce env).marshalAttrs as = some x := by
  have hc : c.length ≤ x.length := by
    obtain ⟨_, _, _, _, _, _, rfl⟩ := hx; simp; omega
  have e := derElem_tlv hx (by omega)
  show noPanic (marshalAuthAttrs ce.toAsnEnv as) = _
  rw [marshalAuth_eq (marshalAttrList_der h (by omega)) (by rw [e]; exact hl), e]
  rfl

end Apk
