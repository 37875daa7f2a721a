import Verif.Proofs.P7Verify
import Verif.Props.P7Exact
/-! # C76: whole messages, their contents and their verification (`pkcs7.Parse`, `Verify`, `GetOnlySigner`, `UnmarshalSignedAttribute`) -/
namespace Apk

/-! ## Parse -/

/-- C76: a message (after conversion to DER) with signers is parsed exactly if it is a SignedData in the sense of the specification; the
    contents, the certificates, the signer infos with all their fields and the content type are those that it says. -/
theorem C76_message_iff {ce : CertEnv} {d : Bytes} {m : P7Msg} (hs : m.infos ≠ []) : parseMsgDer ce d = .ok (some m) ↔ SignedMessageIs ce d m :=
  ⟨fun h => P7M.message_inv h hs, P7M.message_of⟩

/-- C76: a SignedData without signers (a bag of certificates) is read, too, with the certificates and the contents in it. -/
theorem C76_message_read {ce : CertEnv} {d : Bytes} {m : P7Msg} (h : SignedMessageIs ce d m) : parseMsgDer ce d = .ok (some m) := P7M.message_of h

/-- C76: from the bytes of a file: they start with a value in (lenient) BER whose DER encoding is the message. -/
theorem C76_file_iff {ce : CertEnv} {b : Bytes} {m : P7Msg} (hs : m.infos ≠ []) :
    parseMsg ce b = .ok (some m) ↔ ∃ t r, BerReads b t r ∧ SignedMessageIs ce t.encode m := by
  unfold parseMsg
  constructor
  · intro h
    by_cases hb : b = []
    · rw [if_pos hb] at h; cases h
    · rw [if_neg hb] at h
      rcases hd : ber2der b with p | (e | der)
      · rw [hd] at h; cases h
      · rw [hd] at h; cases h
      · rw [hd] at h
        obtain ⟨t, r, h1, rfl⟩ := ber2der_iff.1 hd
        exact ⟨t, r, h1, (C76_message_iff hs).1 h⟩
  · rintro ⟨t, r, h1, h2⟩
    have hd := ber2der_iff.2 ⟨t, r, h1, rfl⟩
    have hb : b ≠ [] := by
      rintro rfl
      exact absurd hd (by simp [ber2der])
    rw [if_neg hb, hd]
    exact P7M.message_of h2

/-- C76: the contents, certificates, signers and the content type of a message are unique. -/
theorem C76_message_unique {ce : CertEnv} {d : Bytes} {m m' : P7Msg} (h : SignedMessageIs ce d m) (h' : SignedMessageIs ce d m') : m = m' := by
  have h1 := P7M.message_of h
  rw [P7M.message_of h'] at h1
  exact (Option.some.inj (Except.ok.inj h1)).symm

/-- C76: the certificates and signers the v1 verifier works with (C55 to C58, C66) are those of this message. -/
theorem C76_what_v1_sees (ce : CertEnv) (d : Bytes) : (parseMsgDer ce d).map (Option.map P7Msg.p7) = parseP7Der ce d := P7M.parseDer_p7 ce d

/-! ## Verify -/

theorem parseMsg_der {ce : CertEnv} {b : Bytes} {m : P7Msg} (h : parseMsg ce b = .ok (some m)) : ∃ d, parseMsgDer ce d = .ok (some m) := by
  unfold parseMsg at h
  by_cases hb : b = []
  · rw [if_pos hb] at h; cases h
  · rw [if_neg hb] at h
    rcases hd : ber2der b with p | (e | der)
    · rw [hd] at h; cases h
    · rw [hd] at h; cases h
    · rw [hd] at h; exact ⟨der, h⟩

theorem parseMsg_wf {ce : CertEnv} {b : Bytes} {m : P7Msg} (h : parseMsg ce b = .ok (some m)) : ∀ s ∈ m.infos, P7M.InfoWF s ∧ ∃ i, s.serial = some i := by
  obtain ⟨d, hd⟩ := parseMsg_der h
  exact P7M.parsed_wf hd

/-- C76: `Verify` of a parsed message, also after its contents were set (a detached signature), succeeds exactly if there are signers
    and the signature of every one of them is good in the sense of the specification. -/
theorem C76_verify_iff {env : P7Env} {b : Bytes} {m : P7Msg} (h : parseMsg env.toCertEnv b = .ok (some m)) (contents : Bytes) :
    verifyMsg env { m with content := contents } = .ok (.ok ()) ↔ MessageVerifies env { m with content := contents } :=
  P7M.verifyMsg_iff (m := { m with content := contents }) (fun s hs => (parseMsg_wf h s hs).1)

/-- C76: `Verify` does not panic on any message. -/
theorem C76_verify_never_panics (env : P7Env) (m : P7Msg) : ∃ r, verifyMsg env m = .ok r := P7M.verifyMsg_total env m

/-- C76: a serial number of a parsed message is never nil, which comparing it with those of the certificates relies on. -/
theorem C76_serial_numbers {ce : CertEnv} {b : Bytes} {m : P7Msg} (h : parseMsg ce b = .ok (some m)) {s : P7Info} (hs : s ∈ m.infos) : ∃ i, s.serial = some i :=
  (parseMsg_wf h s hs).2

theorem octetsAttr_unique {attrs : List P7AttrV} {oid : List Nat} {x y : Bytes} (h : OctetsAttr attrs oid x) (h' : OctetsAttr attrs oid y) : x = y := by
  obtain ⟨a, o, r, h1, h2, h3⟩ := h
  obtain ⟨a', o', r', h1', h2', h3'⟩ := h'
  obtain rfl := P7M.firstWith_unique h1 h1'
  exact P7M.octets_unique h2 h2' (h3.symm.trans h3')

/-- C76: with signed attributes the contents cannot be exchanged: if a signer verifies two contents, they have the same digest. -/
theorem C76_attributes_bind_contents {env : P7Env} {b : Bytes} {m : P7Msg} (h : parseMsg env.toCertEnv b = .ok (some m)) {s : P7Info} (hs : s ∈ m.infos)
    (ha : s.attrs ≠ []) {x y : Bytes} (hx : verifyMsg env { m with content := x } = .ok (.ok ())) (hy : verifyMsg env { m with content := y } = .ok (.ok ())) :
    ∃ alg, DigestAlgIs s.digestAlg.oid alg ∧ env.hash alg x = env.hash alg y := by
  obtain ⟨alg, _, _, _, h1, _, _, h2, _⟩ := ((C76_verify_iff h x).1 hx).2 s hs
  obtain ⟨alg', _, _, _, h1', _, _, h2', _⟩ := ((C76_verify_iff h y).1 hy).2 s hs
  have e : alg = alg' := Option.some.inj ((P7M.p7HashOf_iff.2 h1).symm.trans (P7M.p7HashOf_iff.2 h1'))
  subst e
  rcases h2 with ⟨c, _⟩ | ⟨_, h2, _⟩
  · exact absurd c ha
  rcases h2' with ⟨c, _⟩ | ⟨_, h2', _⟩
  · exact absurd c ha
  exact ⟨alg, h1, octetsAttr_unique h2 h2'⟩

theorem derAttrV_marshal {a : P7AttrV} {e : Bytes} (h : DerAttrV a e) (hl : e.length < 2 ^ 31) : marshalAttr a.attr = some e := by
  obtain ⟨o, ⟨x, y, arcs, oc, ht, hx, hy, ha, ho⟩, hb⟩ := h
  have e1 : (o ++ a.value.full).length ≤ e.length := by
    obtain ⟨_, _, _, _, _, _, rfl⟩ := hb; simp; omega
  have e2 : oc.length ≤ o.length := by
    obtain ⟨_, _, _, _, _, _, rfl⟩ := ho; simp; omega
  rw [List.length_append] at e1
  unfold marshalAttr
  show (match encodeOid a.type with | .error _ => none | .ok o => some (tlv 0 true 16 (tlv 0 false 6 o ++ a.value.full))) = some e
  rw [ht, encodeOid, if_neg (by omega)]
  have hc := derArcs_encode ha
  rw [List.map_cons, List.flatten_cons] at hc
  rw [hc]
  simp only
  rw [derElem_tlv ho (by omega), derElem_tlv hb (by rw [List.length_append]; omega)]

theorem derAttrs_marshal : ∀ {attrs : List P7AttrV} {encs : List Bytes}, ListRel DerAttrV attrs encs → encs.flatten.length < 2 ^ 31 →
    marshalAttrList (attrs.map P7AttrV.attr) = some encs.flatten
  | _, _, .nil, _ => rfl
  | _, _, .cons h1 h2, hl => by
    rw [List.flatten_cons, List.length_append] at hl
    rw [List.map_cons, marshalAttrList, derAttrV_marshal h1 (by omega), derAttrs_marshal h2 (by omega)]
    rfl

/-- C76: the signed bytes determine the attributes up to their order: the types and values of two parsed signers that have the same
    signed bytes are the same. So attributes cannot be added to, removed from or changed in a message that verifies. -/
theorem C76_signed_bytes_determine_attributes {ce : CertEnv} {b b' : Bytes} {m m' : P7Msg} (h : parseMsg ce b = .ok (some m)) (h' : parseMsg ce b' = .ok (some m'))
    {s s' : P7Info} (hs : s ∈ m.infos) (hs' : s' ∈ m'.infos) {x : Bytes} (hx : DerAttrSet s.attrs x) (hx' : DerAttrSet s'.attrs x) :
    List.Perm (s.attrs.map P7AttrV.attr) (s'.attrs.map P7AttrV.attr) := by
  have one : ∀ {s : P7Info}, P7M.InfoWF s → DerAttrSet s.attrs x → ∃ (c : Bytes) (vs : List attributeTy.interp), Elem 0 17 true c x ∧
      List.Perm (vs.map P7Attr.of) (s.attrs.map P7AttrV.attr) ∧ SeqOf (Reads ce.toAsnEnv attributeTy {}) vs c := by
    intro s hw hx
    obtain ⟨body, i1, i2⟩ := hw.size
    have hbl := Nat.lt_of_le_of_lt (tlv_length _ _ _ _) i2
    obtain ⟨encs, sorted, j1, j2, j3, j4⟩ := hx
    obtain ⟨us, k1, k2⟩ := Mar.listRel_perm j2.symm j1
    obtain ⟨encs', l1, l2, l3⟩ := P7M.elems_made ⟨true, fun _ => true, fun _ _ => none⟩ hw.attrs i1 (by omega)
    have e : encs' = encs := P7M.listRel_unique (R := DerAttrV) (fun _ _ _ => P7M.derAttrV_unique) l2 j1
    subst e
    subst l3
    have hlen : sorted.flatten.length < 2 ^ 31 := by
      rw [P7M.flatten_length_perm j2]; exact hbl
    obtain ⟨vs, v1, v2⟩ := reads_marshalAttrList (env := ce.toAsnEnv) (as := us.map P7AttrV.attr) (by
      intro a ha
      obtain ⟨y, hy, rfl⟩ := List.mem_map.1 ha
      exact hw.attrs y (k1.mem_iff.1 hy)) (derAttrs_marshal k2 hlen) hlen
    refine ⟨sorted.flatten, vs, ?_, ?_, v2⟩
    · rw [← derElem_tlv j4 (by omega)]
      exact tlv_elem (by decide) (by decide) hlen
    · rw [v1]; exact k1.map _
  obtain ⟨c, vs, a1, a2, a3⟩ := one (parseMsg_wf h s hs).1 hx
  obtain ⟨c', vs', a1', a2', a3'⟩ := one (parseMsg_wf h' s' hs').1 hx'
  have rd : ∀ {c : Bytes} {vs : List attributeTy.interp}, Elem 0 17 true c x → SeqOf (Reads ce.toAsnEnv attributeTy {}) vs c →
      Reads ce.toAsnEnv (.slice true attributeTy) {} vs x [] := by
    intro c vs he hq
    have := he.located (t := .slice true attributeTy) (fp := {}) rfl (present_plain plain0 rfl) []
    rw [List.append_nil] at this
    exact reads_slice (by simp [attributeTy]) this hq
  have e : vs = vs' := (reads_unique (rd a1 a3) (rd a1' a3')).1
  subst e
  exact a2.symm.trans a2'

/-! ## What is not checked -/

/-- C76: the content type is not looked at: neither the type of the contents nor the attribute contentType, which has to be equal to it
    according to RFC 2315, has a part in `Verify` (the v1 verifier checks it on its own, see C46). -/
theorem C76_content_type_not_checked (env : P7Env) (m : P7Msg) (ct : List Nat) : verifyMsg env { m with contentType := ct } = verifyMsg env m := by
  have h1 : ∀ s, verifySigner env { m with contentType := ct } s = verifySigner env m s := fun _ => rfl
  have h2 : ∀ l, verifySigners env { m with contentType := ct } l = verifySigners env m l := by
    intro l
    induction l with
    | nil => rfl
    | cons s ss ih => rw [verifySigners, verifySigners, h1, ih]
  unfold verifyMsg
  rw [h2]

/-- C76: the weakness of PKCS#7 that signed attributes and signed contents are not told apart (RFC 5652, section 11.1, warns of it): whoever has a message with signed attributes that verifies gets one without attributes, with the
    same signatures, whose contents are the encoded attributes, that verifies, too. -/
theorem C76_attributes_as_contents {env : P7Env} {m : P7Msg} {s : P7Info} (h : SignerVerifies env m s) (ha : s.attrs ≠ []) :
    ∃ x, DerAttrSet s.attrs x ∧ SignerVerifies env { m with content := x } { s with attrs := [] } := by
  obtain ⟨alg, cert, a, x, h1, h2, h3, h4, h5⟩ := h
  rcases h4 with ⟨c, _⟩ | ⟨_, _, h4⟩
  · exact absurd c ha
  · exact ⟨x, h4, alg, cert, a, x, h1, h2, h3, .inl ⟨rfl, rfl⟩, h5⟩

/-! ## GetOnlySigner and UnmarshalSignedAttribute -/

/-- C76: `GetOnlySigner` of a parsed message: there is one signer, and the certificate is the first one that it names by issuer and
    serial number. -/
theorem C76_only_signer_iff {ce : CertEnv} {b : Bytes} {m : P7Msg} (h : parseMsg ce b = .ok (some m)) {c : Cert} :
    onlySigner ce m = some c ↔ ∃ s, m.infos = [s] ∧ FirstWith (NamesCert ce s) m.certs c := by
  have hw := parseMsg_wf h
  unfold onlySigner
  match hi : m.infos with
  | [] => simp
  | [s] =>
    have hs := (hw s (by rw [hi]; simp)).1
    show p7CertFor ce m.certs s = some c ↔ _
    rw [P7M.certFor_iff hs.issuer]
    simp
  | _ :: _ :: _ => simp

/-- C76: if `GetOnlySigner` names a certificate and the message verifies, the signature was checked with that certificate. -/
theorem C76_only_signer_signed {env : P7Env} {b : Bytes} {m : P7Msg} (h : parseMsg env.toCertEnv b = .ok (some m)) (contents : Bytes)
    (hv : verifyMsg env { m with content := contents } = .ok (.ok ())) {c : Cert} (hc : onlySigner env.toCertEnv m = some c) :
    ∃ s alg a signed, m.infos = [s] ∧ DigestAlgIs s.digestAlg.oid alg ∧ SignatureAlgIs env alg s.encAlg a ∧ env.checkSig c a signed s.encDigest = true ∧
      (s.attrs = [] ∧ signed = contents ∨ s.attrs ≠ [] ∧ OctetsAttr s.attrs [1,2,840,113549,1,9,4] (env.hash alg contents) ∧ DerAttrSet s.attrs signed) := by
  obtain ⟨s, hi, hf⟩ := (C76_only_signer_iff h).1 hc
  obtain ⟨_, hall⟩ := (C76_verify_iff h contents).1 hv
  obtain ⟨alg, c', a, signed, h1, h2, h3, h4, h5⟩ := hall s (by rw [hi]; simp)
  obtain rfl := P7M.firstWith_unique hf h2
  exact ⟨s, alg, a, signed, hi, h1, h3, h5, h4⟩

/-- C76: `UnmarshalSignedAttribute` reads the first attribute of the type, of the first signer; nothing else of the message has a part in
    it. The value is read as a value of the type that is asked for; bytes after it are ignored. -/
theorem C76_signed_attribute_iff {ce : CertEnv} {b : Bytes} {m : P7Msg} (h : parseMsg ce b = .ok (some m)) {t : Ty} {oid : List Nat} {v : t.interp} :
    unmSignedAttribute ce.toAsnEnv t oid m = .ok (.ok v) ↔
      ∃ s ss a rest, m.infos = s :: ss ∧ FirstWith (fun a : P7AttrV => a.type = oid) s.attrs a ∧ Reads ce.toAsnEnv t {} v a.value.bytes rest := by
  obtain ⟨d, hd⟩ := parseMsg_der h
  unfold unmSignedAttribute
  cases hi : m.infos with
  | nil =>
    split
    · simp
    · simp
  | cons s ss =>
    have he := (P7M.message_inv hd (by rw [hi]; simp)).1
    rw [he]
    refine (P7M.unmAttribute_iff (env := ce.toAsnEnv) (t := t) (oid := oid) (attrs := s.attrs)).trans ?_
    constructor
    · rintro ⟨a, rest, h1, h2⟩; exact ⟨s, ss, a, rest, rfl, h1, h2⟩
    · rintro ⟨s', ss', a, rest, e, h1, h2⟩
      obtain ⟨rfl, rfl⟩ := List.cons.inj e
      exact ⟨a, rest, h1, h2⟩

/-- C76: none of this panics. -/
theorem C76_signed_attribute_never_panics (env : AsnEnv) (t : Ty) (oid : List Nat) (m : P7Msg) : ∃ r, unmSignedAttribute env t oid m = .ok r := by
  unfold unmSignedAttribute
  split
  · exact ⟨_, rfl⟩
  · cases m.infos with
    | nil => exact ⟨_, rfl⟩
    | cons s ss => exact P7M.unmAttribute_total _ _ _ _

/-! ## Examples -/

/-- An environment in which the digest is the text and a signature is the text followed by the name of the key. -/
def Toy.p7env : P7Env where
  toCertEnv := Toy.ce
  hash _ b := b
  checkSig c a b sig := decide (a = .sha1Rsa ∧ sig = b ++ (UInt8.ofNat c.serial.toNat :: []))
  stdPss _ := none
  stdAlg _ := none
  timeBytes _ _ := none
  rsaSign k b := some (b ++ [UInt8.ofNat k])

/-- A message with contents and one signer. -/
def Toy.p7msg (content attrs sig : Bytes) : Bytes :=
  Toy.el 48 (Toy.oidP7 2 ++ Toy.el 0xA0 (Toy.el 48 (Toy.el 2 [1] ++ Toy.el 49 (Toy.el 48 (Toy.oidSha1 ++ Toy.null)) ++ Toy.el 48 (Toy.oidP7 1 ++ Toy.el 0xA0 (Toy.el 4 content)) ++
    Toy.el 0xA0 Toy.xCert ++ Toy.el 49 (Toy.el 48 (Toy.el 2 [1] ++ Toy.el 48 (Toy.dName (b!"x") ++ Toy.el 2 [77]) ++ Toy.el 48 (Toy.oidSha1 ++ Toy.null) ++ attrs ++
      Toy.el 48 (Toy.oidRsa ++ Toy.null) ++ Toy.el 4 sig)))))

/-- The verdict on a file, with the contents and whether there are attributes. -/
def Toy.p7check (b content : Bytes) (attrs : Bool) : Bool :=
  match parseMsg Toy.ce b with
  | .ok (some m) => decide (m.content = content) && m.infos.all (fun s => decide (s.attrs ≠ []) == attrs) &&
    (match verifyMsg Toy.p7env m with | .ok (.ok ()) => true | _ => false)
  | _ => false

theorem p7check_sound {b content : Bytes} {attrs : Bool} (h : Toy.p7check b content attrs = true) : ∃ m, parseMsg Toy.ce b = .ok (some m) ∧ m.content = content ∧
    (∀ s ∈ m.infos, s.attrs ≠ [] ↔ attrs = true) ∧ verifyMsg Toy.p7env m = .ok (.ok ()) := by
  unfold Toy.p7check at h
  rcases hp : parseMsg Toy.ce b with p | (_ | m)
  · rw [hp] at h; cases h
  · rw [hp] at h; cases h
  · rw [hp] at h
    simp only [Bool.and_eq_true, decide_eq_true_eq, List.all_eq_true] at h
    obtain ⟨⟨h1, h2⟩, h3⟩ := h
    refine ⟨m, rfl, h1, ?_, ?_⟩
    · intro s hs
      have := h2 s hs
      cases attrs <;> simp at this ⊢ <;> exact this
    · obtain ⟨r, hr⟩ := C76_verify_never_panics Toy.p7env m
      rw [hr] at h3
      rcases r with e | u
      · cases h3
      · exact hr

/-- C76: a message with attributes (out of order in the file, signed in order) that verifies, and the message without attributes that
    anyone can make of it: the contents are now the encoded attributes. The digest attribute is read once: a second one with a
    different digest is not looked at. -/
theorem C76_examples :
    let set := Toy.el 49 (Toy.el 48 (Toy.oidP9 4 ++ Toy.el 49 (Toy.el 4 [1, 2, 3])) ++ Toy.el 48 (Toy.oidP9 3 ++ Toy.el 49 (Toy.oidP7 1)))
    let attrs := Toy.el 0xA0 (Toy.el 48 (Toy.oidP9 3 ++ Toy.el 49 (Toy.oidP7 1)) ++ Toy.el 48 (Toy.oidP9 4 ++ Toy.el 49 (Toy.el 4 [1, 2, 3])))
    let two := Toy.el 48 (Toy.oidP9 4 ++ Toy.el 49 (Toy.el 4 [1, 2, 3])) ++ Toy.el 48 (Toy.oidP9 4 ++ Toy.el 49 (Toy.el 4 [4, 5, 6]))
    (∃ m, parseMsg Toy.ce (Toy.p7msg [1, 2, 3] attrs (set ++ [77])) = .ok (some m) ∧ m.content = [1, 2, 3] ∧ (∀ s ∈ m.infos, s.attrs ≠ [] ↔ true = true) ∧
      verifyMsg Toy.p7env m = .ok (.ok ())) ∧
    (∃ m, parseMsg Toy.ce (Toy.p7msg set [] (set ++ [77])) = .ok (some m) ∧ m.content = set ∧ (∀ s ∈ m.infos, s.attrs ≠ [] ↔ false = true) ∧
      verifyMsg Toy.p7env m = .ok (.ok ())) ∧
    (∃ m, parseMsg Toy.ce (Toy.p7msg [1, 2, 3] (Toy.el 0xA0 two) (Toy.el 49 two ++ [77])) = .ok (some m) ∧ m.content = [1, 2, 3] ∧
      (∀ s ∈ m.infos, s.attrs ≠ [] ↔ true = true) ∧ verifyMsg Toy.p7env m = .ok (.ok ())) := by
  refine ⟨p7check_sound ?_, p7check_sound ?_, p7check_sound ?_⟩ <;> decide +kernel

/-- C76: contents, signature or attributes that are changed are refused. -/
theorem C76_examples_refused :
    let set := Toy.el 49 (Toy.el 48 (Toy.oidP9 4 ++ Toy.el 49 (Toy.el 4 [1, 2, 3])) ++ Toy.el 48 (Toy.oidP9 3 ++ Toy.el 49 (Toy.oidP7 1)))
    let attrs (x : UInt8) := Toy.el 0xA0 (Toy.el 48 (Toy.oidP9 3 ++ Toy.el 49 (Toy.oidP7 1)) ++ Toy.el 48 (Toy.oidP9 4 ++ Toy.el 49 (Toy.el 4 [1, 2, x])))
    Toy.p7check (Toy.p7msg [1, 2, 4] (attrs 3) (set ++ [77])) [1, 2, 4] true = false ∧ Toy.p7check (Toy.p7msg [1, 2, 3] (attrs 3) (set ++ [78])) [1, 2, 3] true = false ∧
    Toy.p7check (Toy.p7msg [1, 2, 4] (attrs 4) (set ++ [77])) [1, 2, 4] true = false := by
  refine ⟨?_, ?_, ?_⟩ <;> decide +kernel

end Apk
