import Verif.Proofs.Envelope
import Verif.Proofs.P7Sign
/-! # Encrypted messages are read as they are written -/
namespace Apk
namespace Crypt
open P7M P7S Mar

theorem fp_tag0opt : parseFP (b!"tag:0,optional") = { optional := true, tag := some 0 } := by decide
theorem mp_tag0opt : parseMP (b!"tag:0,optional") = { optional := true, tag := some 0 } := by decide
theorem mp_tag4 : parseMP (b!"tag:4") = { tag := some 4 } := by decide

/-! ## Reading -/

theorem reads_recipient {env : AsnEnv} {r : P7Recipient} {b : Bytes} (h : RecipientEnc r b) : b ≠ [] ∧ ∀ rest, Reads env recipientTy {} r.go (b ++ rest) rest := by
  obtain ⟨v, serial, ser, ias, a, k, hn, hv, hiss, hser, hserE, hias, ha, hk, hE⟩ := h
  obtain ⟨_, ra⟩ := readsV_alg (env := env) ha
  have rias : ∀ rest, Reads env iasTy {} (([], r.issuer, some serial, ()) : Bytes × RawVal × Option Int × Unit) (ias ++ rest) rest := by
    intro rest
    refine reads_struct (raw := false) (fs := .cons [] .rawValue (.cons [] .bigInt .nil)) (hias.located rfl (present_plain (t := iasTy) plain0 rfl) rest)
      (v := (r.issuer, some serial, ())) ?_
    refine readsAll_cons.2 ⟨ser, ?_, readsAll_cons.2 ⟨[], ?_, readsAll_nil⟩⟩
    · rw [fp_empty]; exact reads_raw rfl rfl hiss _
    · rw [fp_empty]
      have := reads_big (env := env) plain0 hserE []
      rwa [List.append_nil] at this
  refine ⟨hE.ne, fun rest => ?_⟩
  refine reads_struct (raw := false) (fs := .cons [] .int (.cons [] iasTy (.cons [] algIdTy (.cons [] .octets .nil))))
    (hE.located rfl (present_plain (t := recipientTy) plain0 rfl) rest)
    (v := ((r.version, ([], r.issuer, r.serial, ()), r.keyAlg.go, r.encKey, ()) : Int × (Bytes × RawVal × Option Int × Unit) × algIdTy.interp × Bytes × Unit)) ?_
  refine readsAll_cons.2 ⟨ias ++ (a ++ k), ?_, readsAll_cons.2 ⟨a ++ k, ?_, readsAll_cons.2 ⟨k, ?_, readsAll_cons.2 ⟨[], ?_, readsAll_nil⟩⟩⟩⟩
  · rw [fp_empty]; exact reads_int plain0 hn hv _
  · rw [fp_empty, hser]; exact rias _
  · rw [fp_empty]; exact ra _
  · rw [fp_empty]
    have := reads_octets (env := env) plain0 hk []
    rwa [List.append_nil] at this

theorem reads_raw0 {env : AsnEnv} {v : RawVal} (h : RawElem v) (h1 : v.cls = 2) (h2 : v.tag = 0) (rest : Bytes) :
    Reads env .rawValue { optional := true, tag := some 0 } v (v.full ++ rest) rest := by
  obtain ⟨cls, tag, c, content, b⟩ := v
  have h1 : cls = 2 := h1
  have h2 : tag = 0 := h2
  subst h1 h2
  have h : Elem 2 0 c content b := h
  have hp : FieldPresent .rawValue { optional := true, tag := some 0 } ⟨2, 0, content.length, c⟩ := ⟨.inl rfl, ⟨rfl, rfl⟩⟩
  refine (reads_prim (t := .rawValue) (by simp) (by simp) (by simp)).2 (.inl ⟨_, _, h.located rfl hp rest, ?_⟩)
  show _ = _
  rw [take_front]

theorem reads_encrypted {env : AsnEnv} {e : P7Envelope} {b : Bytes} (h : EncryptedEnc e b) (rest : Bytes) :
    Reads env encContentTy {} (([], e.contentType, e.alg.go, e.content, ()) : Bytes × List Nat × algIdTy.interp × RawVal × Unit) (b ++ rest) rest := by
  obtain ⟨o, a, c, ho, ha, hc, hE⟩ := h
  obtain ⟨_, ra⟩ := readsV_alg (env := env) ha
  refine reads_struct (raw := false) (fs := .cons [] .oid (.cons [] algIdTy (.cons (b!"tag:0,optional") .rawValue .nil)))
    (hE.located rfl (present_plain (t := encContentTy) plain0 rfl) rest) (v := ((e.contentType, e.alg.go, e.content, ()) : List Nat × algIdTy.interp × RawVal × Unit)) ?_
  refine readsAll_cons.2 ⟨a ++ c, ?_, readsAll_cons.2 ⟨c, ?_, readsAll_cons.2 ⟨[], ?_, readsAll_nil⟩⟩⟩
  · rw [fp_empty]; exact reads_oid plain0 ho _
  · rw [fp_empty]; exact ra _
  · rw [fp_tag0opt]
    rcases hc with ⟨h1, rfl⟩ | ⟨h1, h2, h3, rfl⟩
    · rw [h1]
      exact reads_absent (t := .rawValue) (by simp) (.empty rfl) rfl
    · have := reads_raw0 (env := env) h1 h2 h3 []
      rwa [List.append_nil] at this

theorem recipients_go (l : List P7Recipient) : (l.map P7Recipient.go).map P7Recipient.of = l := by
  refine (List.map_map).trans ?_
  exact (List.map_congr_left (g := id) (fun a _ => rfl)).trans (List.map_id _)

theorem envelope_go (e : P7Envelope) : P7Envelope.of e.go = e := by
  show P7Envelope.mk e.version ((e.recipients.map P7Recipient.go).map P7Recipient.of) e.contentType e.alg e.content = e
  rw [recipients_go]

theorem envelope_read {ce : CertEnv} {e : P7Envelope} {d : Bytes} (h : EnvelopeEnc e d) :
    parseMsgDer ce d = .ok (some { content := [], certs := [], infos := [], contentType := [], enveloped := some e.go }) := by
  obtain ⟨v, rs, rsB, eci, ed, o, w, hn, hv, hrs, hrsE, heci, hed, ho, hw, hd⟩ := h
  obtain ⟨r, _, hr, rci⟩ := reads_content (env := ce.toAsnEnv) ho (.inr ⟨ed, hed.ne, hw⟩) hd
  have rci := rci []
  rw [List.append_nil] at rci
  have rrs := seq_of_enc (Q := Reads ce.toAsnEnv recipientTy {}) (fun _ _ h => reads_recipient h) hrs
  have hre : Reads ce.toAsnEnv envelopedTy {} e.go ed [] := by
    have hl := hed.located (t := envelopedTy) (fp := {}) rfl (present_plain (t := envelopedTy) plain0 rfl) []
    have := reads_struct (env := ce.toAsnEnv) (raw := false) (fs := .cons [] .int (.cons (b!"set") (.slice false recipientTy) (.cons [] encContentTy .nil))) hl
      (v := ((e.version, e.recipients.map P7Recipient.go, ([], e.contentType, e.alg.go, e.content, ()), ()) :
        Int × List recipientTy.interp × (Bytes × List Nat × algIdTy.interp × RawVal × Unit) × Unit)) ?_
    · rw [List.append_nil] at this
      exact this
    refine readsAll_cons.2 ⟨rsB ++ eci, ?_, readsAll_cons.2 ⟨eci, ?_, readsAll_cons.2 ⟨[], ?_, readsAll_nil⟩⟩⟩
    · rw [fp_empty]; exact reads_int plain0 hn hv _
    · rw [fp_set]
      exact reads_slice (by simp [recipientTy]) (hrsE.located rfl (present_set (t := .slice false recipientTy) rfl rfl rfl rfl) _) rrs
    · rw [fp_empty]
      have := reads_encrypted (env := ce.toAsnEnv) heci []
      rwa [List.append_nil] at this
  unfold parseMsgDer
  have h' : unmAll ce.toAsnEnv contentInfoTy d = _ := unmAll_iff.2 rci
  rw [h']
  show dispatchMsg ce [1,2,840,113549,1,7,3] r = _
  unfold dispatchMsg
  rw [if_neg (by decide), if_pos rfl, hr ed hw]
  unfold parseEnvelopedMsg
  rw [unmFirst_iff.2 hre]

/-! ## Writing -/

/-- A raw value as it is read. -/
def readRaw (v : RawVal) : RawVal := { v with full := tlv v.cls v.isCompound v.tag v.bytes }

theorem algp_bytes {menv : MarEnv} {oid : List Nat} {tag : Nat} (ht : tag ≠ 0) {p b : Bytes}
    (h : makeField menv algIdTy {} (AlgId.go ⟨oid, ⟨0, tag, false, p, []⟩⟩) = .ok b) :
    ∃ o, encodeOid oid = .ok o ∧ b = tlv 0 true 16 (tlv 0 false 6 o ++ tlv 0 false tag p) := by
  obtain ⟨c, h', rfl⟩ := struct_ok (fs := .cons [] .oid (.cons (b!"optional") .rawValue .nil)) [] (oid, (⟨0, tag, false, p, []⟩ : RawVal), ()) h
  obtain ⟨x, xs, h1, h2, rfl⟩ := cons_ok (t := .oid) (fs := .cons (b!"optional") .rawValue .nil) oid ((⟨0, tag, false, p, []⟩ : RawVal), ()) h'
  obtain ⟨y, ys, h3, h4, rfl⟩ := cons_ok (t := .rawValue) (fs := .nil) (⟨0, tag, false, p, []⟩ : RawVal) () h2
  obtain rfl := nil_ok _ h4
  rw [mp_empty] at h1
  rw [mp_optional] at h3
  obtain ⟨o, h5, rfl⟩ := oid_ok _ h1
  rcases raw_ok _ h3 with ⟨h, _⟩ | ⟨_, rfl⟩
  · exfalso
    have h : (false || (true && eqv (α := RawVal) (⟨0, tag, false, p, []⟩ : RawVal) {})) = true := h
    simp [eqv, ht] at h
  · rw [List.append_nil]
    exact ⟨o, h5, rfl⟩

theorem algp_written {menv : MarEnv} {oid : List Nat} (hv : ValidOid oid) {tag : Nat} (ht : tag ≠ 0) (ht' : tag < 2 ^ 31) {p b : Bytes}
    (h : makeField menv algIdTy {} (AlgId.go ⟨oid, ⟨0, tag, false, p, []⟩⟩) = .ok b) (hl : b.length < 2 ^ 31) :
    AlgEncV ⟨oid, readRaw ⟨0, tag, false, p, []⟩⟩ b := by
  obtain ⟨o, h1, rfl⟩ := algp_bytes ht h
  have l1 := tlv_length 0 16 true (tlv 0 false 6 o ++ tlv 0 false tag p)
  have l2 := tlv_length 0 6 false o
  have l3 := tlv_length 0 tag false p
  have l4 : (tlv 0 false 6 o ++ tlv 0 false tag p).length = (tlv 0 false 6 o).length + (tlv 0 false tag p).length := List.length_append
  have e1 : Elem 0 tag false p (tlv 0 false tag p) := tlv_elem (by decide) ht' (by omega)
  have e2 : Elem 0 16 true (tlv 0 false 6 o ++ tlv 0 false tag p) (tlv 0 true 16 (tlv 0 false 6 o ++ tlv 0 false tag p)) := tlv_elem (by decide) (by decide) (by omega)
  exact ⟨_, oidElem_written hv h1 (by omega), .inr ⟨e1, e2⟩⟩

/-- A recipient info as it is made. -/
structure MadeR where
  iss : RawVal
  n : Int
  key : Bytes

def rsaOid : List Nat := [1,2,840,113549,1,1,1]
def MadeR.info (x : MadeR) : P7Recipient := { issuer := ⟨0, 0, false, [], x.iss.full⟩, serial := some x.n, keyAlg := ⟨rsaOid, {}⟩, encKey := x.key }
def MadeR.read (x : MadeR) : P7Recipient := { issuer := x.iss, serial := some x.n, keyAlg := ⟨rsaOid, {}⟩, encKey := x.key }

theorem rsa_valid : ValidOid rsaOid := by
  refine ⟨by decide, by decide, by decide, ?_⟩
  decide
theorem enveloped_valid : ValidOid [1,2,840,113549,1,7,3] := by
  refine ⟨by decide, by decide, by decide, ?_⟩
  decide

theorem recipient_written {menv : MarEnv} {x : MadeR} (hi : RawElem x.iss) {b : Bytes} (h : makeField menv recipientTy {} x.info.go = .ok b) (hl : b.length < 2 ^ 31) :
    RecipientEnc x.read b := by
  obtain ⟨c, h', rfl⟩ := struct_ok (fs := .cons [] .int (.cons [] iasTy (.cons [] algIdTy (.cons [] .octets .nil)))) [] _ h
  obtain ⟨x1, r1, h1, h2, rfl⟩ := cons_ok (t := .int) (fs := .cons [] iasTy (.cons [] algIdTy (.cons [] .octets .nil))) _ _ h'
  obtain ⟨x2, r2, h3, h4, rfl⟩ := cons_ok (t := iasTy) (fs := .cons [] algIdTy (.cons [] .octets .nil)) _ _ h2
  obtain ⟨x3, r3, h5, h6, rfl⟩ := cons_ok (t := algIdTy) (fs := .cons [] .octets .nil) _ _ h4
  obtain ⟨x4, r4, h7, h8, rfl⟩ := cons_ok (t := .octets) (fs := .nil) _ _ h6
  obtain rfl := nil_ok _ h8
  rw [mp_empty] at h1 h3 h5 h7
  have hlen := tlv_length 0 16 true (x1 ++ (x2 ++ (x3 ++ (x4 ++ []))))
  have hlen' := Nat.lt_of_le_of_lt hlen hl
  have hl2 := hlen'
  simp only [List.length_append, List.length_nil] at hl2
  obtain rfl : x1 = tlv 0 false 2 (encodeInt64 0) := int_ok (.inl rfl) _ h1
  obtain ⟨ser, i1, i2⟩ := ias_written hi h3 (by omega)
  have i3 := alg_written rsa_valid h5 (by omega)
  obtain rfl : x4 = tlv 0 false 4 x.key := oct_ok _ h7
  have hs := tlv_length 0 4 false x.key
  rw [List.append_nil] at hlen' ⊢
  have i0 : IsInt64 0 := by constructor <;> decide
  have ek : Elem 0 4 false x.key (tlv 0 false 4 x.key) := tlv_elem (by decide) (by decide) (by omega)
  exact ⟨_, x.n, ser, x2, x3, _, i0, intElem_written i0, hi, rfl, i1, i2, i3, ek, tlv_elem (by decide) (by decide) hlen'⟩

/-- What is to be written: contents encryption algorithm with primitive parameters, the encrypted contents as an octet string. -/
def madeEnvelope (made : List P7Recipient) (oid : List Nat) (params content : RawVal) : P7Envelope :=
  { recipients := made, contentType := [1,2,840,113549,1,7,1], alg := ⟨oid, params⟩, content }

theorem encrypted_written {menv : MarEnv} {oid : List Nat} (hv : ValidOid oid) {tag : Nat} (ht : tag ≠ 0) (ht' : tag < 2 ^ 31) {p ct : Bytes} {rs' : List P7Recipient} {b : Bytes}
    (h : makeField menv encContentTy {} (([] : Bytes), [1,2,840,113549,1,7,1], AlgId.go ⟨oid, ⟨0, tag, false, p, []⟩⟩, (⟨2, 0, true, ct, []⟩ : RawVal), ()) = .ok b) (hl : b.length < 2 ^ 31) :
    EncryptedEnc (madeEnvelope rs' oid (readRaw ⟨0, tag, false, p, []⟩) (readRaw ⟨2, 0, true, ct, []⟩)) b := by
  obtain ⟨c, h', rfl⟩ := struct_ok (fs := .cons [] .oid (.cons [] algIdTy (.cons (b!"tag:0,optional") .rawValue .nil))) []
    ([1,2,840,113549,1,7,1], AlgId.go ⟨oid, ⟨0, tag, false, p, []⟩⟩, (⟨2, 0, true, ct, []⟩ : RawVal), ()) h
  obtain ⟨x1, r1, h1, h2, rfl⟩ := cons_ok (t := .oid) (fs := .cons [] algIdTy (.cons (b!"tag:0,optional") .rawValue .nil)) _ _ h'
  obtain ⟨x2, r2, h3, h4, rfl⟩ := cons_ok (t := algIdTy) (fs := .cons (b!"tag:0,optional") .rawValue .nil) _ _ h2
  obtain ⟨x3, r3, h5, h6, rfl⟩ := cons_ok (t := .rawValue) (fs := .nil) _ _ h4
  obtain rfl := nil_ok _ h6
  rw [mp_empty] at h1 h3
  rw [mp_tag0opt] at h5
  obtain ⟨o, ho, rfl⟩ := oid_ok _ h1
  have hx3 : x3 = tlv 2 true 0 ct := by
    rcases raw_ok _ h5 with ⟨h, _⟩ | ⟨_, rfl⟩
    · exfalso
      have h : (false || (true && eqv (α := RawVal) (⟨2, 0, true, ct, []⟩ : RawVal) {})) = true := h
      simp [eqv] at h
    · rfl
  subst hx3
  have hlen := tlv_length 0 16 true (tlv 0 false 6 o ++ (x2 ++ (tlv 2 true 0 ct ++ [])))
  have hlen' := Nat.lt_of_le_of_lt hlen hl
  have hl2 := hlen'
  simp only [List.length_append, List.length_nil] at hl2
  have l2 := tlv_length 0 6 false o
  have l3 := tlv_length 2 0 true ct
  have i2 := algp_written hv ht ht' h3 (by omega)
  rw [List.append_nil] at hlen' ⊢
  have ec : Elem 2 0 true ct (tlv 2 true 0 ct) := tlv_elem (by decide) (by decide) (by omega)
  exact ⟨_, x2, _, oidElem_written data_valid ho (by omega), i2, .inr ⟨ec, rfl, rfl, rfl⟩, tlv_elem (by decide) (by decide) hlen'⟩

/-- What `Encrypt` writes, as it is read, and that it is DER. -/
theorem envelope_written {env : P7Env} {made : List MadeR} (hm : ∀ m ∈ made, RawElem m.iss ∧ DerSeq m.iss.full) {oid : List Nat} (hv : ValidOid oid) {tag : Nat}
    (ht : tag ≠ 0) (ht' : tag < 2 ^ 31) {p ct b : Bytes} (hct : DerSeq ct)
    (h : writeEnvelope env (madeEnvelope (made.map MadeR.info) oid ⟨0, tag, false, p, []⟩ ⟨2, 0, true, ct, []⟩) = .ok b) (hl : b.length < 2 ^ 31) :
    (∃ rs, List.Perm (made.map MadeR.read) rs ∧ EnvelopeEnc (madeEnvelope rs oid (readRaw ⟨0, tag, false, p, []⟩) (readRaw ⟨2, 0, true, ct, []⟩)) b) ∧
    ∃ t, DerEnc t b := by
  unfold writeEnvelope at h
  cases hi : marshal env.mar envelopedTy (madeEnvelope (made.map MadeR.info) oid ⟨0, tag, false, p, []⟩ ⟨2, 0, true, ct, []⟩).go with
  | error e => rw [hi] at h; cases h
  | ok inner =>
    rw [hi] at h
    unfold wrapContent at h
    dsimp only at h
    cases hw : marshal env.mar contentInfoTy (([] : Bytes), [1,2,840,113549,1,7,3], (⟨2, 0, true, inner, []⟩ : RawVal), ()) with
    | error e => rw [hw] at h; cases h
    | ok b' =>
      rw [hw] at h
      cases h
      unfold marshal at hw hi
      rw [mp_empty] at hw hi
      have hi0 := hi
      have hw0 := hw
      obtain ⟨o, ho, rfl⟩ := content_bytes hw
      have l1 := tlv_length 0 16 true (tlv 0 false 6 o ++ tlv 2 true 0 inner)
      have l2 := tlv_length 0 6 false o
      have l3 := tlv_length 2 0 true inner
      have l4 : (tlv 0 false 6 o ++ tlv 2 true 0 inner).length = (tlv 0 false 6 o).length + (tlv 2 true 0 inner).length := List.length_append
      constructor
      · obtain ⟨c', h', rfl⟩ := struct_ok (fs := .cons [] .int (.cons (b!"set") (.slice false recipientTy) (.cons [] encContentTy .nil))) [] _ hi
        obtain ⟨x1, r1, h1, h2, rfl⟩ := cons_ok (t := .int) (fs := .cons (b!"set") (.slice false recipientTy) (.cons [] encContentTy .nil)) _ _ h'
        obtain ⟨x2, r2, h3, h4, rfl⟩ := cons_ok (t := .slice false recipientTy) (fs := .cons [] encContentTy .nil) _ _ h2
        obtain ⟨x3, r3, h5, h6, rfl⟩ := cons_ok (t := encContentTy) (fs := .nil) _ _ h4
        obtain rfl := nil_ok _ h6
        rw [mp_empty] at h1 h5
        rw [mp_set] at h3
        have hlen := tlv_length 0 16 true (x1 ++ (x2 ++ (x3 ++ [])))
        have hl2 : (x1 ++ (x2 ++ (x3 ++ []))).length < 2 ^ 31 := by omega
        have hl3 := hl2
        simp only [List.length_append, List.length_nil] at hl3
        obtain rfl : x1 = tlv 0 false 2 (encodeInt64 0) := int_ok (.inl rfl) _ h1
        obtain ⟨encs, hs, rfl⟩ := set_ok (e := recipientTy) rfl _ h3
        have l6 := tlv_length 0 17 true (encodeSet encs)
        have hsp := setSort_self_perm encs
        have hsl : encs.flatten.length = (encodeSet encs).length := (flatten_length_perm hsp).symm
        have hs' : ListRel RecipientEnc (made.map MadeR.read) encs := by
          refine elems_written (P := RecipientEnc) (g := fun m : MadeR => m.info.go) (n := 2 ^ 31) (f := makeField env.mar recipientTy {}) ?_ ?_ (by omega)
          · exact (congrArg (makeElems (makeField env.mar recipientTy {})) (List.map_map (g := P7Recipient.go) (f := MadeR.info) (l := made)).symm).trans hs
          · intro m hmm b hb hl
            exact recipient_written (hm m hmm).1 hb hl
        obtain ⟨rs, hp, hs2⟩ := listRel_perm hsp.symm hs'
        have i3 := encrypted_written (rs' := rs) hv ht ht' h5 (by omega)
        have eI : Elem 0 17 true (encodeSet encs) (tlv 0 true 17 (encodeSet encs)) := tlv_elem (by decide) (by decide) (by omega)
        have eS := tlv_elem (cls := 0) (tag := 16) (con := true) (by decide) (by decide) hl2
        have eO := oidElem_written enveloped_valid ho (by omega)
        have eW := tlv_elem (cls := 2) (tag := 0) (con := true) (by decide) (by decide) (Nat.lt_of_le_of_lt l3 (by omega : _ < 2 ^ 31))
        have eB := tlv_elem (cls := 0) (tag := 16) (con := true) (by decide) (by decide) (Nat.lt_of_le_of_lt l1 hl)
        have i0 : IsInt64 0 := by constructor <;> decide
        rw [List.append_nil] at eS eW eB ⊢
        exact ⟨rs, hp.symm, _, _, _, x3, _, _, _, i0, intElem_written i0, listEnc_of_rel hs2, eI, i3, eS, eO, eW, eB⟩
      · have hp : DerParts envelopedTy {} (madeEnvelope (made.map MadeR.info) oid ⟨0, tag, false, p, []⟩ ⟨2, 0, true, ct, []⟩).go :=
          struct_parts (fs := .cons [] .int (.cons (b!"set") (.slice false recipientTy) (.cons [] encContentTy .nil))) zero_tag
            (cons_parts (t := .int) (int_parts empty_tag) (cons_parts (t := .slice false recipientTy)
              (slice_parts set_tag (allOf_map (fun r hr => by
                obtain ⟨m, hm', rfl⟩ := List.mem_map.1 hr
                exact struct_parts (fs := .cons [] .int (.cons [] iasTy (.cons [] algIdTy (.cons [] .octets .nil)))) zero_tag
                  (cons_parts (t := .int) (int_parts empty_tag) (cons_parts (t := iasTy)
                    (struct_parts (fs := .cons [] .rawValue (.cons [] .bigInt .nil)) empty_tag
                      (cons_parts (t := .rawValue) (raw_parts (.inl ⟨Elem.ne (hm m hm').1, (hm m hm').2⟩)) (cons_parts (t := .bigInt) (big_parts empty_tag) nil_parts)))
                    (cons_parts (t := algIdTy) (alg_parts empty_tag) (cons_parts (t := .octets) (oct_parts empty_tag) nil_parts)))))))
              (cons_parts (t := encContentTy)
                (struct_parts (fs := .cons [] .oid (.cons [] algIdTy (.cons (b!"tag:0,optional") .rawValue .nil))) empty_tag
                  (cons_parts (t := .oid) (oid_parts empty_tag) (cons_parts (t := algIdTy)
                    (struct_parts (fs := .cons [] .oid (.cons (b!"optional") .rawValue .nil)) empty_tag
                      (cons_parts (t := .oid) (oid_parts empty_tag) (cons_parts (t := .rawValue) (raw_parts (.inr ⟨rfl, fun h => by cases h⟩)) nil_parts)))
                    (cons_parts (t := .rawValue) (raw_parts (.inr ⟨rfl, fun _ => hct⟩)) nil_parts))))
                nil_parts)))
        have hs := makeField_der env.mar _ _ _ _ hi0 hp (by omega)
        exact makeField_one (by simp [contentInfoTy]) ⟨rfl, rfl⟩ hw0 (content_parts (.inr ⟨rfl, fun _ => hs⟩) zero_tag) (by omega)

end Crypt
end Apk
