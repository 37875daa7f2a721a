import Verif.Proofs.Keys
import Verif.Props.Asn1
/-! # Authenticated attributes: encoding and reading back -/
namespace Apk

theorem Base128.inj_len {n : Nat} {p q : Bytes} (h : Base128 n p) (h' : Base128 n q) (hl : p.length = q.length) : p = q := by
  induction h generalizing q with
  | @last x hx =>
    generalize hm : x.toNat = m at h'
    cases h' with
    | @last y hy =>
      have : x = y := UInt8.toNat_inj.1 hm
      rw [this]
    | more h1 h2 =>
      have := h2.pos
      simp only [List.length_cons, List.length_nil] at hl
      omega
  | @more x n b hx hb ih =>
    generalize hm : (x.toNat - 128) * 128 ^ b.length + n = m at h'
    cases h' with
    | @last y hy =>
      have := hb.pos
      simp only [List.length_cons, List.length_nil] at hl
      omega
    | @more y k c hy hc =>
      have hlen : b.length = c.length := by simpa using hl
      have h1 := hb.lt
      have h2 := hc.lt
      rw [hlen] at hm h1
      have e1 : (x.toNat - 128) * 128 ^ c.length + n = (y.toNat - 128) * 128 ^ c.length + k := hm
      have hpos : 0 < 128 ^ c.length := Nat.pow_pos (by decide)
      have q1 : ((x.toNat - 128) * 128 ^ c.length + n) / 128 ^ c.length = x.toNat - 128 := by
        rw [Nat.add_comm, Nat.add_mul_div_right _ _ hpos, Nat.div_eq_of_lt h1, Nat.zero_add]
      have q2 : ((y.toNat - 128) * 128 ^ c.length + k) / 128 ^ c.length = y.toNat - 128 := by
        rw [Nat.add_comm, Nat.add_mul_div_right _ _ hpos, Nat.div_eq_of_lt h2, Nat.zero_add]
      have q3 : x.toNat - 128 = y.toNat - 128 := by rw [← q1, ← q2, e1]
      have hxy : x = y := UInt8.toNat_inj.1 (by omega)
      subst hxy
      have hnk : n = k := by omega
      subst hnk
      rw [ih hc hlen]

/-- Without a leading zero digit the number is large. -/
theorem Base128.lower {n : Nat} {x : UInt8} {p : Bytes} (h : Base128 n (x :: p)) (hx : x.toNat ≠ 128) : p = [] ∨ 128 ^ p.length ≤ n := by
  cases h with
  | last h => exact .inl rfl
  | @more _ k _ h1 h2 =>
    right
    have : 1 ≤ x.toNat - 128 := by omega
    have := Nat.mul_le_mul_right (128 ^ p.length) this
    omega

theorem encodeBase128_der {n : Nat} {x : UInt8} {p : Bytes} (h : Base128 n (x :: p)) (hx : x.toNat ≠ 128) : encodeBase128 n = x :: p := by
  refine Base128.inj_len (encodeBase128_spec n) h ?_
  have ⟨h1, h2, h3⟩ := base128Len_spec n
  have e : (encodeBase128 n).length = base128Len n := by unfold encodeBase128; exact base128Bytes_length _ _
  rw [e, List.length_cons]
  have h4 := h.lt
  rw [List.length_cons] at h4
  rcases h.lower hx with rfl | h5
  · have h4 : n < 128 := by simpa using h4
    by_cases h0 : n = 0
    · subst h0; rfl
    · have h6 := h3 (by omega)
      have : ¬ 2 ≤ base128Len n := by
        intro hc
        have := Nat.pow_le_pow_right (n := 128) (by decide) (show 1 ≤ base128Len n - 1 by omega)
        omega
      simp only [List.length_nil]
      omega
  · have hn : 1 ≤ n := Nat.le_trans (Nat.pow_pos (by decide)) h5
    have h6 := h3 hn
    have a1 : base128Len n - 1 < p.length + 1 := (Nat.pow_lt_pow_iff_right (a := 128) (by decide)).1 (Nat.lt_of_le_of_lt h6 h4)
    have a2 : p.length < base128Len n := (Nat.pow_lt_pow_iff_right (a := 128) (by decide)).1 (Nat.lt_of_le_of_lt h5 h2)
    omega

theorem derArcs_encode {ns : List Nat} {c : Bytes} (h : DerArcs ns c) : (ns.map encodeBase128).flatten = c := by
  induction h with
  | nil => rfl
  | cons h1 h2 _ ih => rw [List.map_cons, List.flatten_cons, encodeBase128_der h1 h2, ih]

theorem derElem_tlv {cls tag : Nat} {con : Bool} {content b : Bytes} (h : DerElem cls tag con content b) (hl : content.length < 2 ^ 63) :
    tlv cls con tag content = b := by
  obtain ⟨x, l, h1, h2, h3, h4, rfl⟩ := h
  unfold tlv encodeTagAndLength
  rw [(encodeLength_der hl).unique h4]
  simp only
  rw [if_neg (by omega), Nat.mod_eq_of_lt h1]
  congr 1
  have e : cls * 64 + (if con = true then 32 else 0) + tag = x.toNat := by rw [h3]; omega
  rw [e, UInt8.ofNat_toNat]
  rfl

theorem marshalAuth_eq {env : AsnEnv} {as : List P7Attr} {body : Bytes} (h : marshalAttrList as = some body) (hl : (tlv 0 true 17 body).length < 2 ^ 31) :
    marshalAuthAttrs env as = .ok (some (tlv 0 true 17 body)) := by
  have hr := reads_any (env := env) (tlv_elem (cls := 0) (tag := 16) (con := true) (by decide) (by decide) hl) []
  rw [List.append_nil] at hr
  unfold marshalAuthAttrs
  rw [h]
  simp only
  rw [(C54_accepts_exactly_the_grammar _ _ _ _ _).2 hr]

theorem oidContents_valid {oid : List Nat} {c : Bytes} (h : OidContents oid c) : ValidOid oid := by
  rcases C42_oid_sound c with ⟨e, he⟩ | ⟨o, ho, hv⟩
  · rw [(oid_iff _ _).2 h] at he; cases he
  · rw [(oid_iff _ _).2 h] at ho
    cases ho
    exact hv

theorem marshalAttr_ok {a : P7Attr} (h : AttrWF a) : ∃ o b, OidContents a.type o ∧ marshalAttr a = some b ∧ b = tlv 0 true 16 (tlv 0 false 6 o ++ a.full) := by
  obtain ⟨⟨c, hc⟩, _⟩ := h
  obtain ⟨o, h1, h2⟩ := encodeOid_valid (oidContents_valid hc)
  refine ⟨o, _, (oid_iff _ _).1 h2, ?_, rfl⟩
  unfold marshalAttr
  rw [h1]

theorem marshalAttrList_ok {as : List P7Attr} (h : ∀ a ∈ as, AttrWF a) : ∃ body, marshalAttrList as = some body := by
  induction as with
  | nil => exact ⟨[], rfl⟩
  | cons a as ih =>
    obtain ⟨o, b, _, h2, _⟩ := marshalAttr_ok (h a (by simp))
    obtain ⟨body, h3⟩ := ih (fun x hx => h x (by simp [hx]))
    exact ⟨b ++ body, by rw [marshalAttrList, h2, h3]⟩

/-- An encoded attribute is read back. -/
theorem reads_marshalAttr {env : AsnEnv} {a : P7Attr} (h : AttrWF a) {b : Bytes} (hb : marshalAttr a = some b) (hl : b.length < 2 ^ 31) :
    b ≠ [] ∧ ∃ v, P7Attr.of v = a ∧ ∀ rest, Reads env attributeTy {} v (b ++ rest) rest := by
  obtain ⟨o, b', h1, h2, h3⟩ := marshalAttr_ok h
  rw [hb] at h2
  cases h2
  subst h3
  obtain ⟨_, cls, tag, con, hf⟩ := h
  have hin := Nat.lt_of_le_of_lt (tlv_length 0 16 true (tlv 0 false 6 o ++ a.full)) hl
  have hoid : (tlv 0 false 6 o).length < 2 ^ 31 := by rw [List.length_append] at hin; omega
  have ho : OidElem a.type (tlv 0 false 6 o) := ⟨o, h1, tlv_elem (by decide) (by decide) (Nat.lt_of_le_of_lt (tlv_length _ _ _ _) hoid)⟩
  have he := tlv_elem (cls := 0) (tag := 16) (con := true) (by decide) (by decide) hin
  refine ⟨he.ne, (([] : Bytes), a.type, (⟨cls, tag, con, a.value, a.full⟩ : RawVal), ()), rfl, fun rest => ?_⟩
  refine reads_struct (raw := false) (fs := .cons [] .oid (.cons (b!"set") .rawValue .nil)) (he.located rfl (present_plain (t := attributeTy) plain0 rfl) rest)
    (v := (a.type, (⟨cls, tag, con, a.value, a.full⟩ : RawVal), ())) ?_
  refine readsAll_cons.2 ⟨a.full, ?_, readsAll_cons.2 ⟨[], ?_, readsAll_nil⟩⟩
  · rw [fp_empty]; exact reads_oid plain0 ho _
  · rw [fp_set]
    have := reads_raw (env := env) (fp := { set := true }) rfl rfl hf []
    rwa [List.append_nil] at this

theorem reads_marshalAttrList {env : AsnEnv} {as : List P7Attr} (h : ∀ a ∈ as, AttrWF a) {body : Bytes} (hb : marshalAttrList as = some body)
    (hl : body.length < 2 ^ 31) : ∃ vs : List attributeTy.interp, vs.map P7Attr.of = as ∧ SeqOf (Reads env attributeTy {}) vs body := by
  induction as generalizing body with
  | nil => cases hb; exact ⟨[], rfl, .nil⟩
  | cons a as ih =>
    obtain ⟨o, b, _, h2, _⟩ := marshalAttr_ok (h a (by simp))
    obtain ⟨bs, h3⟩ := marshalAttrList_ok (fun x hx => h x (by simp [hx]) : ∀ x ∈ as, AttrWF x)
    rw [marshalAttrList, h2, h3] at hb
    cases hb
    rw [List.length_append] at hl
    obtain ⟨hne, v, hv, hr⟩ := reads_marshalAttr (env := env) (h a (by simp)) h2 (by omega)
    obtain ⟨vs, i1, i2⟩ := ih (fun x hx => h x (by simp [hx])) h3 (by omega)
    exact ⟨v :: vs, by rw [List.map_cons, hv, i1], .cons (by simp [hne]) (hr bs) i2⟩

/-- DER attributes are encoded as they stand. -/
theorem marshalAttrList_der {as : List P7Attr} {c : Bytes} (h : ListEnc DerAttr as c) (hl : c.length < 2 ^ 31) : marshalAttrList as = some c := by
  induction h with
  | nil => rfl
  | @cons a as b bs h1 _ ih =>
    rw [List.length_append] at hl
    obtain ⟨o, ⟨x, y, arcs, oc, ht, hx, hy, ha, ho⟩, hv, hb⟩ := h1
    have e1 : (o ++ a.full).length ≤ b.length := by
      obtain ⟨_, _, _, _, _, _, rfl⟩ := hb; simp; omega
    have e2 : oc.length ≤ o.length := by
      obtain ⟨_, _, _, _, _, _, rfl⟩ := ho; simp; omega
    rw [List.length_append] at e1
    have hm : marshalAttr a = some b := by
      unfold marshalAttr
      have he : encodeOid a.type = .ok oc := by
        rw [ht, encodeOid, if_neg (by omega), ← derArcs_encode ha, List.map_cons, List.flatten_cons]
      rw [he]
      simp only
      rw [derElem_tlv ho (by omega), derElem_tlv hb (by rw [List.length_append]; omega)]
    rw [marshalAttrList, hm, ih (by omega)]

theorem seqOf_mem {α : Type} {P : α → Bytes → Bytes → Prop} {vs : List α} {b : Bytes} (h : SeqOf P vs b) {v : α} (hv : v ∈ vs) : ∃ b rest, P v b rest := by
  induction h with
  | nil => cases hv
  | cons _ h1 _ ih =>
    rcases List.mem_cons.1 hv with rfl | hv
    · exact ⟨_, _, h1⟩
    · exact ih hv

theorem reads_slice_mem {env : AsnEnv} {s : Bool} {e : Ty} {fp : FP} {vs : List e.interp} {b rest : Bytes} (h : Reads env (.slice s e) fp vs b rest)
    {v : e.interp} (hv : v ∈ vs) : ∃ b rest, Reads env e {} v b rest := by
  have : ∀ w : (Ty.slice s e).interp, w = vs → Reads env (.slice s e) fp w b rest → ∃ b rest, Reads env e {} v b rest := by
    intro w hw h
    rw [Reads] at h
    rcases h with ⟨_, _, _, _, h⟩ | ⟨_, h, _⟩
    · rw [hw] at h
      exact seqOf_mem h hv
    · rw [hw] at h
      rw [h] at hv
      cases hv
  exact this _ rfl h

theorem reads_attr_wf {env : AsnEnv} {v : attributeTy.interp} {b rest : Bytes} (h : Reads env attributeTy {} v b rest) : AttrWF (P7Attr.of v) := by
  obtain ⟨inner, h⟩ := reads_struct_inv h
  obtain ⟨r, h1, h2⟩ := (readsAll_cons (v1 := v.2.1) (v2 := v.2.2)).1 h
  obtain ⟨r2, h3, _⟩ := (readsAll_cons (v1 := v.2.2.1) (v2 := v.2.2.2)).1 h2
  rw [fp_empty] at h1
  rw [fp_set] at h3
  constructor
  · rcases (reads_prim (t := .oid) (by simp) (by simp) (by simp)).1 h1 with ⟨tl, inner, _, h⟩ | ⟨h, _⟩ | ⟨h, _⟩
    · exact ⟨inner, h⟩
    · exact absurd (absent_optional h) (by simp)
    · cases h
  · rcases (reads_prim (t := .rawValue) (by simp) (by simp) (by simp)).1 h3 with ⟨tl, inner, hl, h⟩ | ⟨h, _⟩ | ⟨h, _⟩
    · obtain ⟨hdr, q1, q2, q3, _⟩ := hl.plain_inv rfl
      rw [q1, take_front] at h
      have hv : v.2.2.1 = (⟨tl.cls, tl.tag, tl.isCompound, inner, hdr ++ inner⟩ : RawVal) := h
      refine ⟨tl.cls, tl.tag, tl.isCompound, ?_⟩
      show Elem _ _ _ (RawVal.bytes v.2.2.1) (RawVal.full v.2.2.1)
      rw [hv]
      exact ⟨hdr, by show DerHeader ⟨tl.cls, tl.tag, inner.length, tl.isCompound⟩ hdr; rw [q3]; exact q2, rfl⟩
    · exact absurd (absent_optional h) (by simp)
    · cases h

theorem reads_signer_attrs {env : AsnEnv} {v : signerInfoTy.interp} {b rest : Bytes} (h : Reads env signerInfoTy {} v b rest) :
    ∀ a ∈ (P7Signer.of v).attrs, AttrWF a := by
  obtain ⟨inner, h⟩ := reads_struct_inv h
  obtain ⟨_, _, h⟩ := (readsAll_cons (v1 := v.2.1) (v2 := v.2.2)).1 h
  obtain ⟨_, _, h⟩ := (readsAll_cons (v1 := v.2.2.1) (v2 := v.2.2.2)).1 h
  obtain ⟨_, _, h⟩ := (readsAll_cons (v1 := v.2.2.2.1) (v2 := v.2.2.2.2)).1 h
  obtain ⟨_, h, _⟩ := (readsAll_cons (v1 := v.2.2.2.2.1) (v2 := v.2.2.2.2.2)).1 h
  intro a ha
  have ha : a ∈ List.map P7Attr.of (v.2.2.2.2.1 : List attributeTy.interp) := ha
  obtain ⟨w, hw, rfl⟩ := List.mem_map.1 ha
  obtain ⟨_, _, hr⟩ := reads_slice_mem h hw
  exact reads_attr_wf hr

theorem reads_signed_attrs {env : AsnEnv} {v : signedDataTy.interp} {b rest : Bytes} (h : Reads env signedDataTy {} v b rest) :
    ∀ s ∈ (SignedV.of v).signers, ∀ a ∈ s.attrs, AttrWF a := by
  obtain ⟨inner, h⟩ := reads_struct_inv h
  obtain ⟨_, _, h⟩ := (readsAll_cons (v1 := v.2.1) (v2 := v.2.2)).1 h
  obtain ⟨_, _, h⟩ := (readsAll_cons (v1 := v.2.2.1) (v2 := v.2.2.2)).1 h
  obtain ⟨_, _, h⟩ := (readsAll_cons (v1 := v.2.2.2.1) (v2 := v.2.2.2.2)).1 h
  obtain ⟨_, _, h⟩ := (readsAll_cons (v1 := v.2.2.2.2.1) (v2 := v.2.2.2.2.2)).1 h
  obtain ⟨_, _, h⟩ := (readsAll_cons (v1 := v.2.2.2.2.2.1) (v2 := v.2.2.2.2.2.2)).1 h
  obtain ⟨_, h, _⟩ := (readsAll_cons (v1 := v.2.2.2.2.2.2.1) (v2 := v.2.2.2.2.2.2.2)).1 h
  intro s hs
  have hs : s ∈ List.map P7Signer.of (v.2.2.2.2.2.2.1 : List signerInfoTy.interp) := hs
  obtain ⟨w, hw, rfl⟩ := List.mem_map.1 hs
  obtain ⟨_, _, hr⟩ := reads_slice_mem h hw
  exact reads_signer_attrs hr

/-! ## Encodings are not longer than what was read -/

theorem encodeLength_min {n : Nat} {l : Bytes} (h : LengthOctets n l) : (encodeLength n).length ≤ l.length := by
  obtain ⟨hn, h⟩ := h
  rcases encodeLength_der (n := n) (by omega) with ⟨h1, x, _, e⟩ | ⟨h1, x, d, ds, _, h3, h4, e⟩
  · rw [e]
    rcases h with ⟨y, rfl, _⟩ | ⟨y, zs, rfl, _⟩ <;> simp
  · rw [e]
    rcases h with ⟨y, rfl, _, h5⟩ | ⟨y, zs, rfl, _, _, h6⟩
    · omega
    · have b1 := beNat_lt zs
      rw [h6] at b1
      have b2 : 256 ^ ds.length ≤ n := by
        rw [← h4, beNat]
        have : 1 ≤ d.toNat := by omega
        have := Nat.mul_le_mul_right (256 ^ ds.length) this
        omega
      have := (Nat.pow_lt_pow_iff_right (a := 256) (by decide)).1 (Nat.lt_of_le_of_lt b2 b1)
      simp only [List.length_cons]
      omega

theorem tlv_min {cls tag : Nat} {con : Bool} {content b : Bytes} (ht : tag < 31) (h : Elem cls tag con content b) :
    (tlv cls con tag content).length ≤ b.length := by
  obtain ⟨hdr, ⟨p, l, rfl, ⟨x, q, rfl, _⟩, hl⟩, rfl⟩ := h
  have := encodeLength_min hl
  unfold tlv encodeTagAndLength
  simp only
  rw [if_neg (by omega)]
  simp only [List.length_append, List.length_cons, List.length_nil] at this ⊢
  omega

/-- Shorter contents have a shorter encoding. -/
theorem tlv_mono {cls tag : Nat} {con : Bool} {c c' : Bytes} (h : c.length ≤ c'.length) (hl : c'.length < 2 ^ 31) :
    (tlv cls con tag c).length ≤ (tlv cls con tag c').length := by
  have hm : (encodeLength c.length).length ≤ (encodeLength c'.length).length := by
    rcases encodeLength_der (n := c.length) (by omega) with ⟨h1, x, _, e⟩ | ⟨h1, x, d, ds, _, h3, h4, e⟩ <;>
    rcases encodeLength_der (n := c'.length) (by omega) with ⟨h1', x', _, e'⟩ | ⟨h1', x', d', ds', _, h3', h4', e'⟩ <;> rw [e, e']
    · simp
    · simp
    · omega
    · have b1 := beNat_lt (d' :: ds')
      rw [h4'] at b1
      have b2 : 256 ^ ds.length ≤ c.length := by
        rw [← h4, beNat]
        have : 1 ≤ d.toNat := by omega
        have := Nat.mul_le_mul_right (256 ^ ds.length) this
        omega
      have := (Nat.pow_lt_pow_iff_right (a := 256) (by decide)).1 (Nat.lt_of_le_of_lt b2 (Nat.lt_of_le_of_lt h b1))
      simp only [List.length_cons] at this ⊢
      omega
  unfold tlv encodeTagAndLength
  simp only [List.length_append]
  omega

theorem encodeBase128_min {n : Nat} {p : Bytes} (h : Base128 n p) : (encodeBase128 n).length ≤ p.length := by
  have ⟨h1, h2, h3⟩ := base128Len_spec n
  have e : (encodeBase128 n).length = base128Len n := by unfold encodeBase128; exact base128Bytes_length _ _
  rw [e]
  have h4 := h.lt
  have h5 := h.pos
  by_cases h0 : n = 0
  · subst h0
    exact h5
  · have := (Nat.pow_lt_pow_iff_right (a := 128) (by decide)).1 (Nat.lt_of_le_of_lt (h3 (by omega)) h4)
    omega

theorem encodeArcs_min {ns : List Nat} {c : Bytes} (h : ArcOctets ns c) : ((ns.map encodeBase128).flatten).length ≤ c.length := by
  induction h with
  | nil => simp
  | cons h1 _ _ _ ih =>
    have := encodeBase128_min h1
    simp only [List.map_cons, List.flatten_cons, List.length_append]
    omega

theorem encodeOid_min {oid : List Nat} {c : Bytes} (h : OidContents oid c) : ∃ o, encodeOid oid = .ok o ∧ o.length ≤ c.length := by
  obtain ⟨a, b, arcs, rfl, h1, h2, h3⟩ := h
  refine ⟨_, by rw [encodeOid, if_neg (by omega)], ?_⟩
  have := encodeArcs_min h3
  rwa [List.map_cons, List.flatten_cons] at this

theorem located_seq_iff {t : Ty} (ht : t.constructed = true) (hu : ∀ n, t.HasTag n ↔ n = 16) (hr : t ≠ .rawValue) {b inner rest : Bytes} :
    (∃ tl, Located t {} b tl inner rest) ↔ ∃ e, Elem 0 16 true inner e ∧ b = e ++ rest := by
  constructor
  · rintro ⟨tl, hl⟩
    obtain ⟨hdr, q1, q2, q3, q4⟩ := hl.plain_inv rfl
    refine ⟨hdr ++ inner, ⟨hdr, ?_, rfl⟩, q1⟩
    obtain ⟨hc, hp⟩ := q4
    obtain ⟨cls, tag, len, con⟩ := tl
    have hc : con = true := by
      rcases hc with hc | hc
      · exact absurd hc hr
      · exact hc.trans ht
    have hp : cls = 0 ∧ tag = 16 := by
      rcases hp with hp | ⟨hp, hp2⟩
      · exact absurd hp hr
      · exact ⟨hp, (hu _).1 hp2⟩
    have q3 : inner.length = len := q3
    rw [hp.1, hp.2, hc, ← q3] at q2
    exact q2
  · rintro ⟨e, he, rfl⟩
    exact ⟨_, he.located rfl (ht ▸ present_plain (t := t) plain0 ((hu _).2 rfl)) rest⟩

theorem reads_struct_located {env : AsnEnv} {raw : Bool} {fs : Fields} {v : (Ty.struct raw fs).interp} {b rest : Bytes}
    (h : Reads env (.struct raw fs) {} v b rest) : ∃ tl inner, Located (.struct raw fs) {} b tl inner rest ∧ ReadsAll env fs v.2 inner := by
  rw [Reads] at h
  rcases h with ⟨tl, inner, hl, h, _⟩ | ⟨h, _⟩
  · exact ⟨tl, inner, hl, h⟩
  · exact absurd (absent_optional h) (by simp)

theorem tlv_small {cls tag cls' tag' : Nat} {con con' : Bool} {c : Bytes} (h : tag < 31) (h' : tag' < 31) :
    (tlv cls con tag c).length = (tlv cls' con' tag' c).length := by
  unfold tlv encodeTagAndLength
  simp only
  rw [if_neg (by omega : ¬ 31 ≤ tag), if_neg (by omega : ¬ 31 ≤ tag')]
  simp

theorem elem_len {cls tag : Nat} {con : Bool} {content b : Bytes} (h : Elem cls tag con content b) : content.length < 2 ^ 31 := by
  obtain ⟨hdr, ⟨p, l, _, _, hl⟩, _⟩ := h
  exact hl.1

theorem located_len {t : Ty} {fp : FP} (he : fp.explicit = false) {b inner rest : Bytes} {tl : TagLen} (h : Located t fp b tl inner rest) :
    ∃ e, Elem tl.cls tl.tag tl.isCompound inner e ∧ b = e ++ rest := by
  obtain ⟨hdr, q1, q2, q3, _⟩ := h.plain_inv he
  exact ⟨hdr ++ inner, ⟨hdr, by rw [q3]; exact q2, rfl⟩, q1⟩

/-- An attribute that was read is encoded again in at most as many bytes. -/
theorem marshalAttr_min {env : AsnEnv} {v : attributeTy.interp} {b rest : Bytes} (h : Reads env attributeTy {} v b rest) :
    ∃ x, marshalAttr (P7Attr.of v) = some x ∧ x.length + rest.length ≤ b.length := by
  obtain ⟨tl, inner, hl, hall⟩ := reads_struct_located h
  obtain ⟨e, he, rfl⟩ := (located_seq_iff (t := attributeTy) rfl (fun n => Iff.rfl) (by simp [attributeTy])).1 ⟨tl, hl⟩
  obtain ⟨r, h1, h2⟩ := (readsAll_cons (v1 := v.2.1) (v2 := v.2.2)).1 hall
  obtain ⟨r2, h3, _⟩ := (readsAll_cons (v1 := v.2.2.1) (v2 := v.2.2.2)).1 h2
  rw [fp_empty] at h1
  rw [fp_set] at h3
  rcases (reads_prim (t := .oid) (by simp) (by simp) (by simp)).1 h1 with ⟨tl1, oc, hl1, ho⟩ | ⟨h, _⟩ | ⟨h, _⟩
  · rcases (reads_prim (t := .rawValue) (by simp) (by simp) (by simp)).1 h3 with ⟨tl2, val, hl2, hv⟩ | ⟨h, _⟩ | ⟨h, _⟩
    · obtain ⟨e1, he1, rfl⟩ := located_len rfl hl1
      obtain ⟨e2, he2, rfl⟩ := located_len rfl hl2
      rw [take_front] at hv
      have hv : v.2.2.1 = (⟨tl2.cls, tl2.tag, tl2.isCompound, val, e2⟩ : RawVal) := hv
      have ho : OidContents v.2.1 oc := ho
      have hfull : (P7Attr.of v).full = e2 := by
        show RawVal.full v.2.2.1 = e2
        rw [hv]
      have htag : tl1.tag = 6 := by
        obtain ⟨_, _, _, _, q4⟩ := hl1.plain_inv rfl
        rcases q4.2 with h | ⟨_, h⟩
        · cases h
        · exact h
      obtain ⟨o, h5, h6⟩ := encodeOid_min ho
      have h5 : encodeOid (P7Attr.of v).type = .ok o := h5
      refine ⟨_, by unfold marshalAttr; rw [h5], ?_⟩
      rw [hfull]
      have c1 := tlv_mono (cls := 0) (tag := 6) (con := false) h6 (elem_len he1)
      have c2 := tlv_min (by omega) he1
      have c3 := tlv_small (cls := 0) (tag := 6) (con := false) (cls' := tl1.cls) (tag' := tl1.tag) (con' := tl1.isCompound) (c := oc) (by omega) (by omega)
      have c4 : (tlv 0 false 6 o ++ e2).length ≤ (e1 ++ (e2 ++ r2)).length := by
        simp only [List.length_append]; omega
      have c5 := tlv_mono (cls := 0) (tag := 16) (con := true) c4 (elem_len he)
      have c6 := tlv_min (by omega) he
      rw [List.length_append]
      omega
    · exact absurd (absent_optional h) (by simp)
    · cases h
  · exact absurd (absent_optional h) (by simp)
  · cases h

theorem marshalAttrList_min {env : AsnEnv} {vs : List attributeTy.interp} {b : Bytes} (h : SeqOf (Reads env attributeTy {}) vs b) :
    ∃ x, marshalAttrList (vs.map P7Attr.of) = some x ∧ x.length ≤ b.length := by
  induction h with
  | nil => exact ⟨[], rfl, Nat.le_refl _⟩
  | cons _ h1 _ ih =>
    obtain ⟨x, e1, l1⟩ := marshalAttr_min h1
    obtain ⟨y, e2, l2⟩ := ih
    refine ⟨x ++ y, by rw [List.map_cons, marshalAttrList, e1, e2], ?_⟩
    rw [List.length_append]
    omega

theorem reads_slice_cases {env : AsnEnv} {s : Bool} {e : Ty} {fp : FP} {vs : List e.interp} {b rest : Bytes} (h : Reads env (.slice s e) fp vs b rest) :
    (∃ tl inner, Located (.slice s e) fp b tl inner rest ∧ SeqOf (Reads env e {}) vs inner) ∨ vs = [] := by
  have : ∀ w : (Ty.slice s e).interp, w = vs → Reads env (.slice s e) fp w b rest →
      (∃ tl inner, Located (.slice s e) fp b tl inner rest ∧ SeqOf (Reads env e {}) vs inner) ∨ vs = [] := by
    intro w hw h
    rw [Reads] at h
    rcases h with ⟨tl, inner, h1, _, h⟩ | ⟨_, h, _⟩
    · rw [hw] at h
      exact .inl ⟨tl, inner, h1, h⟩
    · rw [hw] at h
      exact .inr h
  exact this _ rfl h

theorem located_le {t : Ty} {fp : FP} {b inner rest : Bytes} {tl : TagLen} (h : Located t fp b tl inner rest) : rest.length ≤ b.length := by
  cases h <;> simp only [List.length_append] <;> omega

/-- The authenticated attributes of a signer info that was read are encoded again, in fewer than 2^31 bytes. -/
theorem signer_attrs_min {env : AsnEnv} {v : signerInfoTy.interp} {b rest : Bytes} (h : Reads env signerInfoTy {} v b rest) :
    ∃ body, marshalAttrList (P7Signer.of v).attrs = some body ∧ (tlv 0 true 17 body).length < 2 ^ 31 := by
  obtain ⟨tl, inner, hl, hall⟩ := reads_struct_located h
  obtain ⟨e, he, rfl⟩ := (located_seq_iff (t := signerInfoTy) rfl (fun n => Iff.rfl) (by simp [signerInfoTy])).1 ⟨tl, hl⟩
  have hlen := elem_len he
  obtain ⟨i1, g1, h⟩ := (readsAll_cons (v1 := v.2.1) (v2 := v.2.2)).1 hall
  obtain ⟨i2, g2, h⟩ := (readsAll_cons (v1 := v.2.2.1) (v2 := v.2.2.2)).1 h
  obtain ⟨i3, g3, h⟩ := (readsAll_cons (v1 := v.2.2.2.1) (v2 := v.2.2.2.2)).1 h
  obtain ⟨i4, g4, h⟩ := (readsAll_cons (v1 := v.2.2.2.2.1) (v2 := v.2.2.2.2.2)).1 h
  rw [fp_default1] at g1
  rw [fp_empty] at g2 g3
  rw [fp_opt0] at g4
  have l1 : i1.length ≤ inner.length := by
    rcases (reads_prim (t := .int) (by simp) (by simp) (by simp)).1 g1 with ⟨tl1, oc, hl1, _⟩ | ⟨h, _⟩ | ⟨h, _⟩
    · exact located_le hl1
    · exact absurd (absent_optional h) (by simp)
    · cases h
  have l2 : i2.length ≤ i1.length := by
    obtain ⟨f, _, rfl, _⟩ := reads_local g2
    simp
  have l3 : i3.length ≤ i2.length := by
    obtain ⟨f, _, rfl, _⟩ := reads_local g3
    simp
  show ∃ body, marshalAttrList (List.map P7Attr.of (v.2.2.2.2.1 : List attributeTy.interp)) = some body ∧ _
  rcases reads_slice_cases g4 with ⟨tl4, in4, hl4, hs⟩ | hnil
  · obtain ⟨body, hb, hm⟩ := marshalAttrList_min hs
    refine ⟨body, hb, ?_⟩
    obtain ⟨e4, he4, rfl⟩ := located_len rfl hl4
    have htag : tl4.tag < 31 := by
      obtain ⟨_, _, _, _, q4⟩ := hl4.plain_inv rfl
      have := q4.2.2
      have : (tl4.tag : Int) = 0 := this
      omega
    have c1 := tlv_mono (cls := 0) (tag := 17) (con := true) hm (elem_len he4)
    have c2 := tlv_min htag he4
    have c3 := tlv_small (cls := 0) (tag := 17) (con := true) (cls' := tl4.cls) (tag' := tl4.tag) (con' := tl4.isCompound) (c := in4) (by omega) htag
    rw [List.length_append] at l3
    omega
  · have : List.map P7Attr.of (v.2.2.2.2.1 : List attributeTy.interp) = [] := by
      have hnil : (v.2.2.2.2.1 : List attributeTy.interp) = [] := hnil
      rw [hnil]; rfl
    rw [this]
    exact ⟨[], rfl, by decide⟩

theorem signed_attrs_min {env : AsnEnv} {v : signedDataTy.interp} {b rest : Bytes} (h : Reads env signedDataTy {} v b rest) :
    ∀ s ∈ (SignedV.of v).signers, ∃ body, marshalAttrList s.attrs = some body ∧ (tlv 0 true 17 body).length < 2 ^ 31 := by
  obtain ⟨inner, h⟩ := reads_struct_inv h
  obtain ⟨_, _, h⟩ := (readsAll_cons (v1 := v.2.1) (v2 := v.2.2)).1 h
  obtain ⟨_, _, h⟩ := (readsAll_cons (v1 := v.2.2.1) (v2 := v.2.2.2)).1 h
  obtain ⟨_, _, h⟩ := (readsAll_cons (v1 := v.2.2.2.1) (v2 := v.2.2.2.2)).1 h
  obtain ⟨_, _, h⟩ := (readsAll_cons (v1 := v.2.2.2.2.1) (v2 := v.2.2.2.2.2)).1 h
  obtain ⟨_, _, h⟩ := (readsAll_cons (v1 := v.2.2.2.2.2.1) (v2 := v.2.2.2.2.2.2)).1 h
  obtain ⟨_, h, _⟩ := (readsAll_cons (v1 := v.2.2.2.2.2.2.1) (v2 := v.2.2.2.2.2.2.2)).1 h
  intro s hs
  have hs : s ∈ List.map P7Signer.of (v.2.2.2.2.2.2.1 : List signerInfoTy.interp) := hs
  obtain ⟨w, hw, rfl⟩ := List.mem_map.1 hs
  obtain ⟨_, _, hr⟩ := reads_slice_mem h hw
  exact signer_attrs_min hr

end Apk
