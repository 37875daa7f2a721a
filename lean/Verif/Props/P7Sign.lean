import Verif.Proofs.P7Degenerate
import Verif.Props.Marshal
import Verif.Props.SignExample
/-! # C77: messages that are made (`NewSignedData`, `AddSigner`, `AddCertificate`, `Detach`, `Finish`, `DegenerateCertificate`) are read and verify -/
namespace Apk
open P7S

/-- C77: a message encoded as in RFC 2315 (any contents, certificates, signers with all their fields) is parsed as what it says. -/
theorem C77_rfc_message_read {ce : CertEnv} {ct : List Nat} {x : Option Bytes} {certs : List Bytes} {infos : List P7Info} {d : Bytes} {parsed : List Cert}
    (h : MessageEnc ct x certs infos d) (hp : CertificatesAre ce parsed certs.flatten) :
    parseMsgDer ce d = .ok (some { content := x.getD [], certs := parsed, infos := infos, contentType := ct }) :=
  P7M.message_of (message_of_enc h hp)

theorem infosFor_ne {env : P7Env} {data : Bytes} {steps : List SignStep} {infos : List P7Info} (h : InfosFor env data steps infos)
    (hs : ∃ c key now extra, SignStep.signer c key now extra ∈ steps) : infos ≠ [] := by
  induction h with
  | nil => obtain ⟨_, _, _, _, h⟩ := hs; cases h
  | certificate _ ih =>
    obtain ⟨c, key, now, extra, h⟩ := hs
    rcases List.mem_cons.1 h with h | h
    · cases h
    · exact ih ⟨c, key, now, extra, h⟩
  | signer _ _ _ => simp

theorem verified_of {env : P7Env} {data b : Bytes} {steps : List SignStep} {infos : List P7Info} {m : P7Msg} (h1 : InfosFor env data steps infos)
    (h2 : List.Perm infos m.infos) (h3 : parseMsg env.toCertEnv b = .ok (some m)) (h4 : ∀ s ∈ m.infos, SignerVerifies env { m with content := data } s)
    (hs : ∃ c key now extra, SignStep.signer c key now extra ∈ steps) : verifyMsg env { m with content := data } = .ok (.ok ()) := by
  refine (C76_verify_iff h3 data).2 ⟨?_, h4⟩
  intro h
  have h : m.infos = [] := h
  rw [h] at h2
  exact infosFor_ne h1 hs h2.eq_nil

/-- C77: what `Finish` returns after any number of signers and certificates is parsed again: the contents are the data, the certificates
    are those that were added, in order, there is one signer info for each signer (as a SET, so in some order) with the attributes that
    were asked for, and the message verifies if there is a signer. -/
theorem C77_signed_message {env : P7Env} {data : Bytes} {steps : List SignStep} {st0 st : SignState} {b : Bytes} {parsed : List Cert}
    (hnew : newSignedData env data = .ok st0) (hsteps : signSteps env st0 steps = .ok (.ok st)) (hfin : finish env st = .ok b)
    (hp : ListRel (fun s p => CertAgrees env.toCertEnv s.cert p ∧ StepOk env (steps.map SignStep.cert) s p) steps parsed)
    (hl : b.length < 2 ^ 31) (hc : (steps.map (fun s => s.cert.raw)).flatten.length < 2 ^ 31) :
    ∃ m infos, parseMsg env.toCertEnv b = .ok (some m) ∧ m.content = data ∧ m.certs = parsed ∧ m.contentType = [1,2,840,113549,1,7,1] ∧
      InfosFor env data steps infos ∧ List.Perm infos m.infos ∧
      ((∃ c key now extra, SignStep.signer c key now extra ∈ steps) → verifyMsg env m = .ok (.ok ())) := by
  have h0 := new_ok hnew
  obtain ⟨l, _, hst⟩ := steps_inv (data := data) (by rw [h0]) (by rw [h0]) hsteps
  have hcont : { st with content := contentVal (some data) } = st := by
    rw [hst, h0]
  obtain ⟨infos, m, h1, h2, h3, h4, h5⟩ := signed_core (x := some data) hnew hsteps (by rw [hcont]; exact hfin) hp hl hc
  have hcd : m.content = data := by rw [h4]; rfl
  have hm : { m with content := data } = m := by rw [← hcd]
  refine ⟨m, infos, h3, hcd, by rw [h4], by rw [h4], h1, h2, fun hs => ?_⟩
  have := verified_of h1 h2 h3 h5 hs
  rwa [hm] at this

/-- C77: the same with `Detach`: the message has no contents; it verifies after the contents are set to the data. -/
theorem C77_detached {env : P7Env} {data : Bytes} {steps : List SignStep} {st0 st : SignState} {b : Bytes} {parsed : List Cert}
    (hnew : newSignedData env data = .ok st0) (hsteps : signSteps env st0 steps = .ok (.ok st)) (hfin : finish env (detach st) = .ok b)
    (hp : ListRel (fun s p => CertAgrees env.toCertEnv s.cert p ∧ StepOk env (steps.map SignStep.cert) s p) steps parsed)
    (hl : b.length < 2 ^ 31) (hc : (steps.map (fun s => s.cert.raw)).flatten.length < 2 ^ 31) :
    ∃ m infos, parseMsg env.toCertEnv b = .ok (some m) ∧ m.content = [] ∧ m.certs = parsed ∧ m.contentType = [1,2,840,113549,1,7,1] ∧
      InfosFor env data steps infos ∧ List.Perm infos m.infos ∧
      ((∃ c key now extra, SignStep.signer c key now extra ∈ steps) → verifyMsg env { m with content := data } = .ok (.ok ())) := by
  have h0 := new_ok hnew
  obtain ⟨l, _, hst⟩ := steps_inv (data := data) (by rw [h0]) (by rw [h0]) hsteps
  have hcont : { st with content := contentVal none } = detach st := by
    rw [hst, h0]; rfl
  obtain ⟨infos, m, h1, h2, h3, h4, h5⟩ := signed_core (x := none) hnew hsteps (by rw [hcont]; exact hfin) hp hl hc
  exact ⟨m, infos, h3, by rw [h4]; rfl, by rw [h4], by rw [h4], h1, h2, verified_of h1 h2 h3 h5⟩

/-- C77: such a message, detached or not, verifies no other contents: whenever it does, the digest is that of the data. -/
theorem C77_other_contents_refused {env : P7Env} {data x y : Bytes} {steps : List SignStep} {b : Bytes} {infos : List P7Info} {m : P7Msg}
    (hm : parseMsg env.toCertEnv b = .ok (some m)) (hi : InfosFor env data steps infos) (hp : List.Perm infos m.infos)
    (hs : ∃ c key now extra, SignStep.signer c key now extra ∈ steps)
    (hx : verifyMsg env { m with content := x } = .ok (.ok ())) (hy : verifyMsg env { m with content := y } = .ok (.ok ())) :
    env.hash .sha1 x = env.hash .sha1 y := by
  have hall : ∀ {steps infos}, InfosFor env data steps infos → ∀ s ∈ infos, s.attrs ≠ [] ∧ s.digestAlg.oid = [1,3,14,3,2,26] := by
    intro steps infos h
    induction h with
    | nil => intro s hs; cases hs
    | certificate _ ih => exact ih
    | signer h1 _ ih =>
      intro s hs
      rcases List.mem_cons.1 hs with rfl | hs
      · obtain ⟨_, _, _, h4, _, _, ⟨as, h7, h8⟩, _⟩ := h1
        refine ⟨?_, by rw [h4]⟩
        intro h
        rw [h] at h7
        obtain rfl := h7.eq_nil
        unfold attributesFor at h8
        cases h8
      · exact ih s hs
  have hne := infosFor_ne hi hs
  obtain ⟨s, hsm⟩ := List.exists_mem_of_ne_nil _ hne
  obtain ⟨ha, hd⟩ := hall hi s hsm
  obtain ⟨alg, h1, h2⟩ := C76_attributes_bind_contents hm (hp.mem_iff.1 hsm) ha hx hy
  rw [hd] at h1
  rcases h1 with ⟨_, rfl⟩ | ⟨h, _⟩
  · exact h2
  · exact absurd h (by decide)

/-- C77: `UnmarshalSignedAttribute` reads back what was signed: an attribute whose type occurs once, with a value that can be read back
    (C75), is read as the value that was given to `AddSigner`. -/
theorem C77_attribute_read {env : P7Env} {b : Bytes} {m : P7Msg} {s : P7Info} {ss : List P7Info} {data : Bytes} {cert : SignCert} {now : Int}
    {extra : List (List Nat × Dyn)} (hm : parseMsg env.toCertEnv b = .ok (some m)) (hi : m.infos = s :: ss) (hs : SignedWith env data cert now extra s)
    {x : List Nat × Dyn} (hx : x ∈ attributesFor env data now extra) (hu : ∀ y ∈ attributesFor env data now extra, y.1 = x.1 → y = x)
    (hf : Fits env.toAsnEnv env.mar x.2.type {} x.2.val []) :
    ∃ w, unmSignedAttribute env.toAsnEnv x.2.type x.1 m = .ok (.ok w) ∧ Same true x.2.type false x.2.val w := by
  obtain ⟨_, _, _, _, _, _, ⟨as, h7, h8⟩, _⟩ := hs
  have hwf := (parseMsg_wf hm s (by rw [hi]; simp)).1
  obtain ⟨a, ha, hr⟩ := listRel_mem_left h8 x hx
  have hval : ∀ a ∈ s.attrs, a.type = x.1 → marshal env.mar x.2.type x.2.val = .ok a.value.bytes := by
    intro a ha e
    obtain ⟨y, hy, hr⟩ := Mar.listRel_mem h8 a (h7.mem_iff.2 ha)
    have := hu y hy (hr.1.symm.trans e)
    rw [← this]
    exact hr.2.2.2.2
  classical
  cases hfi : s.attrs.find? (fun a => decide (a.type = x.1)) with
  | none => exact absurd (List.find?_eq_none.1 hfi a (h7.mem_iff.1 ha)) (by simp [hr.1])
  | some a' =>
    have hq := (P7M.find_iff (P := fun a : P7AttrV => a.type = x.1) (fun q => by simp)).1 hfi
    have hq2 := hq
    obtain ⟨pre, post, e1, e2, _⟩ := hq2
    have hmem : a' ∈ s.attrs := by rw [e1]; simp
    have hmar := hval a' hmem e2
    obtain ⟨_, cls, tag, con, hel⟩ := hwf.attrs a' hmem
    have hlen : a'.value.bytes.length < 2 ^ 31 := elem_bound hel
    obtain ⟨w, hw, hsame⟩ := C75_read_back (env := env.toAsnEnv) hmar hlen hf
    exact ⟨w, (C76_signed_attribute_iff hm).2 ⟨s, ss, a', [], hi, hq, (C54_accepts_exactly_the_grammar _ _ _ _ _).1 hw⟩, hsame⟩

/-- C77: the two attributes that every signer has and that RFC 2315 asks for: the content type is "data" and the message digest is the
    digest of the data. -/
theorem C77_standard_attributes_read {env : P7Env} {b : Bytes} {m : P7Msg} {s : P7Info} {ss : List P7Info} {data : Bytes} {cert : SignCert} {now : Int}
    {extra : List (List Nat × Dyn)} (hm : parseMsg env.toCertEnv b = .ok (some m)) (hi : m.infos = s :: ss) (hs : SignedWith env data cert now extra s)
    (hx : ∀ y ∈ extra, y.1 ≠ [1,2,840,113549,1,9,3] ∧ y.1 ≠ [1,2,840,113549,1,9,4]) :
    unmSignedAttribute env.toAsnEnv .oid [1,2,840,113549,1,9,3] m = .ok (.ok [1,2,840,113549,1,7,1]) ∧
    unmSignedAttribute env.toAsnEnv .octets [1,2,840,113549,1,9,4] m = .ok (.ok (env.hash .sha1 data)) := by
  have h3 : ∀ y ∈ attributesFor env data now extra, (y.1 = [1,2,840,113549,1,9,3] → y = ([1,2,840,113549,1,9,3], ⟨.oid, [1,2,840,113549,1,7,1]⟩)) ∧
      (y.1 = [1,2,840,113549,1,9,4] → y = ([1,2,840,113549,1,9,4], ⟨.octets, env.hash .sha1 data⟩)) := by
    intro y hy
    unfold attributesFor at hy
    rcases List.mem_cons.1 hy with rfl | hy
    · exact ⟨fun _ => rfl, fun e => absurd e (show ¬ (([1,2,840,113549,1,9,3] : List Nat) = [1,2,840,113549,1,9,4]) by decide)⟩
    rcases List.mem_cons.1 hy with rfl | hy
    · exact ⟨fun e => absurd e (show ¬ (([1,2,840,113549,1,9,4] : List Nat) = [1,2,840,113549,1,9,3]) by decide), fun _ => rfl⟩
    rcases List.mem_cons.1 hy with rfl | hy
    · exact ⟨fun e => absurd e (show ¬ (([1,2,840,113549,1,9,5] : List Nat) = [1,2,840,113549,1,9,3]) by decide),
        fun e => absurd e (show ¬ (([1,2,840,113549,1,9,5] : List Nat) = [1,2,840,113549,1,9,4]) by decide)⟩
    · exact ⟨fun e => absurd e (hx y hy).1, fun e => absurd e (hx y hy).2⟩
  constructor
  · obtain ⟨w, h1, h2⟩ := C77_attribute_read hm hi hs (x := ([1,2,840,113549,1,9,3], ⟨.oid, [1,2,840,113549,1,7,1]⟩)) (by unfold attributesFor; simp)
      (fun y hy e => (h3 y hy).1 e) (Mar.fits_leaf_intro (by simp [Mar.IsLeaf]) (Mar.omits_plain _ _) Mar.symmetric_plain data_valid)
    have h2 : ([1,2,840,113549,1,7,1] : List Nat) = w := h2
    subst h2
    exact h1
  · obtain ⟨w, h1, h2⟩ := C77_attribute_read hm hi hs (x := ([1,2,840,113549,1,9,4], ⟨.octets, env.hash .sha1 data⟩)) (by unfold attributesFor; simp)
      (fun y hy e => (h3 y hy).2 e) (Mar.fits_leaf_intro (by simp [Mar.IsLeaf]) (Mar.omits_plain _ _) Mar.symmetric_plain trivial)
    have h2 : env.hash .sha1 data = w := h2
    subst h2
    exact h1

/-- C77: `DegenerateCertificate` of certificates that are written one after the other: the message is read with these certificates, no
    contents and no signers; `Verify` says that there are no signers. -/
theorem C77_degenerate {env : P7Env} {certs : List Bytes} {parsed : List Cert} {b : Bytes} (h : degenerate env certs.flatten = .ok b)
    (hp : ListRel (fun c p => (∃ k, CertificateIs env.toCertEnv c p k) ∧ DerSeq c) certs parsed) (hc : certs.flatten.length < 2 ^ 31) (hl : b.length < 2 ^ 31) :
    ∃ m, parseMsg env.toCertEnv b = .ok (some m) ∧ m.content = [] ∧ m.certs = parsed ∧ m.infos = [] ∧ verifyMsg env m = .ok (.error .noSigners) := by
  obtain ⟨henc, t, ht⟩ := degenerate_written hc (fun c hm => by
    obtain ⟨p, _, h⟩ := listRel_mem_left hp c hm
    exact h.2) h hl
  have hbd : ber2der b = .ok (.ok b) := by
    have := C41_identity_on_der ht hl []
    rwa [List.append_nil] at this
  have hcerts : CertificatesAre env.toCertEnv parsed certs.flatten := by
    refine certs_are ?_
    clear henc hc h
    induction hp with
    | nil => exact .nil
    | cons h1 _ ih => exact .cons h1.1 ih
  have hmsg := C77_rfc_message_read henc hcerts
  refine ⟨{ content := [], certs := parsed, infos := [], contentType := [1,2,840,113549,1,7,1] }, ?_, rfl, rfl, rfl, ?_⟩
  rotate_left
  · unfold verifyMsg; rfl
  have hne : b ≠ [] := by
    rintro rfl
    exact absurd hbd (by simp [ber2der])
  unfold parseMsg
  rw [if_neg hne, hbd]
  exact hmsg

/-- C77: keys that are not RSA keys are refused by `AddSigner`, whatever the data, the certificate and the attributes. -/
theorem C77_other_keys_refused (env : P7Env) (st : SignState) (cert : SignCert) (now : Int) (extra : List (List Nat × Dyn)) (st' : SignState) :
    addSigner env st cert .other now extra ≠ .ok (.ok st') := by
  intro h
  unfold addSigner at h
  cases hf : forMarshaling env (signerAttrs st now extra) with
  | error e => rw [hf] at h; cases h
  | ok attrs =>
    rw [hf] at h
    dsimp only at h
    rcases hs : signAttributes env attrs .other with p | (e | sig)
    · rw [hs] at h; cases h
    · rw [hs] at h; cases h
    · obtain ⟨_, _, hk, _⟩ := signAttributes_ok hs
      cases hk

/-- C77: the attributes of a signer info are in the message in the order of their DER encodings, as a SET OF has to be. -/
theorem C77_attributes_in_order {env : P7Env} {b : Bytes} {m : P7Msg} {s : P7Info} {data : Bytes} {cert : SignCert} {now : Int}
    {extra : List (List Nat × Dyn)} (hm : parseMsg env.toCertEnv b = .ok (some m)) (hi : s ∈ m.infos) (hs : SignedWith env data cert now extra s) :
    ∃ encs, ListRel DerAttrV s.attrs encs ∧ encs.Pairwise BytesLe := by
  have hw := (parseMsg_wf hm s hi).1
  obtain ⟨body, h1, h2⟩ := hw.size
  have hbl := Nat.lt_of_le_of_lt (tlv_length _ _ _ _) h2
  obtain ⟨encs, _, i2, rfl⟩ := P7M.elems_made env.mar hw.attrs h1 (by omega)
  refine ⟨encs, i2, hs.2.2.2.2.2.2.2 encs i2 (fun e he => ?_)⟩
  have := (List.sublist_flatten_of_mem he).length_le
  omega

/-- C77: attributes that are made by `AddSigner` and have the same sort key are equal, so that the order in which `sort.Sort` leaves them
    does not matter. -/
theorem C77_equal_keys {env : P7Env} {oid oid' : List Nat} {v v' : Dyn} {k : Bytes} {a a' : P7AttrV} (h : sortableAttr env oid v = .ok (k, a))
    (h' : sortableAttr env oid' v' = .ok (k, a')) (ho : ValidOid oid) (ho' : ValidOid oid') (hl : k.length < 2 ^ 31) : a = a' := by
  have fresh : ∀ {oid : List Nat} {v : Dyn} {a : P7AttrV}, ValidOid oid → sortableAttr env oid v = .ok (k, a) →
      Fresh a ∧ AttrEncV (readAttr a) k := by
    intro oid v a ho h
    obtain ⟨⟨h1, b, h2, _⟩, h4⟩ := sortableAttr_ok h
    have hf : Fresh a := ⟨by rw [h1]; exact ho, by rw [h2]⟩
    unfold marshal at h4
    rw [mp_empty] at h4
    exact ⟨hf, (P7S.attr_written hf h4 hl).1⟩
  obtain ⟨f1, e1⟩ := fresh ho h
  obtain ⟨f2, e2⟩ := fresh ho' h'
  have r1 := (readsV_attr (env := env.toAsnEnv) e1).2 []
  have r2 := (readsV_attr (env := env.toAsnEnv) e2).2 []
  have e := (reads_unique r1 r2).1
  have e : readAttr a = readAttr a' := by
    have := congrArg P7AttrV.of e
    exact this
  have t : (readAttr a).type = (readAttr a').type := congrArg P7AttrV.type e
  have w : (readAttr a).value.bytes = (readAttr a').value.bytes := congrArg (fun a : P7AttrV => a.value.bytes) e
  obtain ⟨t1, v1⟩ := a
  obtain ⟨t2, v2⟩ := a'
  have hv : v1 = v2 := by
    have i1 : v1 = ⟨0, 17, true, v1.bytes, []⟩ := f1.2
    have i2 : v2 = ⟨0, 17, true, v2.bytes, []⟩ := f2.2
    rw [i1, i2]
    exact congrArg (fun x : Bytes => (⟨0, 17, true, x, []⟩ : RawVal)) w
  rw [hv]
  exact congrArg (fun x => (⟨x, v2⟩ : P7AttrV)) t

end Apk
