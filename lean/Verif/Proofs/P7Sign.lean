import Verif.Proofs.P7Written
import Verif.Proofs.MarshalDer
import Verif.Props.P7Message
import Verif.Props.Ber
/-! # Signed messages made by the package are read and verify -/
namespace Apk
namespace P7S
open P7M Mar

/-! ## What is written is DER -/

theorem tag_none {mp : MP} (h : mp.tag = none) : ∀ n, mp.tag = some n → 0 ≤ n := by
  intro n hn; rw [h] at hn; cases hn

theorem tag_k {mp : MP} {k : Nat} (h : mp.tag = some (k : Int)) : ∀ n, mp.tag = some n → 0 ≤ n := by
  intro n hn; rw [h] at hn; cases hn; exact Int.natCast_nonneg _

theorem allOf_of {α : Type} {P : α → Prop} : ∀ {l : List α}, (∀ a ∈ l, P a) → AllOf P l
  | [], _ => trivial
  | a :: _, h => ⟨h a (by simp), allOf_of (fun b hb => h b (List.mem_cons_of_mem _ hb))⟩

theorem allOf_map {α β : Type} {P : β → Prop} {f : α → β} {l : List α} (h : ∀ a ∈ l, P (f a)) : AllOf P (l.map f) :=
  allOf_of (fun b hb => by obtain ⟨a, ha, rfl⟩ := List.mem_map.1 hb; exact h a ha)

theorem rawDer_zero : RawDer {} := .inr ⟨rfl, fun h => by cases h⟩

theorem parts_struct {r : Bool} {fs : Fields} {mp : MP} (v : (Ty.struct r fs).interp) : DerParts (.struct r fs) mp v ↔ (∀ n, mp.tag = some n → 0 ≤ n) ∧
      if r = true ∧ v.1 ≠ [] then ∃ hdr tl content, v.1 = hdr ++ content ∧ DerHeader tl hdr ∧ DerSeq content else DerPartsAll fs v.2 := by rw [DerParts]

theorem parts_slice {s : Bool} {e : Ty} {mp : MP} (v : (Ty.slice s e).interp) : DerParts (.slice s e) mp v ↔ (∀ n, mp.tag = some n → 0 ≤ n) ∧ AllOf (DerParts e {}) v := by
  rw [DerParts]

theorem parts_cons {tag : Bytes} {t : Ty} {fs : Fields} (v : (Fields.cons tag t fs).interp) : DerPartsAll (.cons tag t fs) v ↔ DerParts t (parseMP tag) v.1 ∧ DerPartsAll fs v.2 := by
  rw [DerPartsAll]

theorem struct_parts {fs : Fields} {mp : MP} (hm : ∀ n, mp.tag = some n → 0 ≤ n) {raw : Bytes} {v : fs.interp} (h : DerPartsAll fs v) :
    DerParts (.struct false fs) mp ((raw, v) : Bytes × fs.interp) := by
  refine (parts_struct (r := false) ((raw, v) : Bytes × fs.interp)).2 ⟨hm, ?_⟩
  rw [if_neg (by simp)]
  exact h

theorem cons_parts {tag : Bytes} {t : Ty} {fs : Fields} {v : t.interp} {vs : fs.interp} (h1 : DerParts t (parseMP tag) v) (h2 : DerPartsAll fs vs) :
    DerPartsAll (.cons tag t fs) ((v, vs) : t.interp × fs.interp) := (parts_cons ((v, vs) : t.interp × fs.interp)).2 ⟨h1, h2⟩

theorem nil_parts {v : Fields.nil.interp} : DerPartsAll .nil v := by rw [DerPartsAll]; trivial

theorem leaf_parts {t : Ty} (h : t = .oid ∨ t = .int ∨ t = .bigInt ∨ t = .octets ∨ t = .time) (v : t.interp) {mp : MP} (hm : ∀ n, mp.tag = some n → 0 ≤ n) : DerParts t mp v := by
  rcases h with rfl | rfl | rfl | rfl | rfl <;> rw [DerParts] <;> first | exact hm | simp
theorem raw_parts' {mp : MP} (v : Ty.rawValue.interp) (h : RawDer v) : DerParts .rawValue mp v := by rw [DerParts]; exact h

theorem oid_parts {v : List Nat} {mp : MP} (hm : ∀ n, mp.tag = some n → 0 ≤ n) : DerParts .oid mp v := leaf_parts (by simp) _ hm
theorem int_parts {v : Int} {mp : MP} (hm : ∀ n, mp.tag = some n → 0 ≤ n) : DerParts .int mp v := leaf_parts (by simp) _ hm
theorem big_parts {v : Option Int} {mp : MP} (hm : ∀ n, mp.tag = some n → 0 ≤ n) : DerParts .bigInt mp v := leaf_parts (by simp) _ hm
theorem oct_parts {v : Bytes} {mp : MP} (hm : ∀ n, mp.tag = some n → 0 ≤ n) : DerParts .octets mp v := leaf_parts (by simp) _ hm
theorem time_parts {v : Int} {mp : MP} (hm : ∀ n, mp.tag = some n → 0 ≤ n) : DerParts .time mp v := leaf_parts (by simp) _ hm
theorem raw_parts {v : RawVal} {mp : MP} (h : RawDer v) : DerParts .rawValue mp v := raw_parts' v h
theorem slice_parts {s : Bool} {e : Ty} {v : List e.interp} {mp : MP} (hm : ∀ n, mp.tag = some n → 0 ≤ n) (h : AllOf (DerParts e {}) v) : DerParts (.slice s e) mp v :=
  (parts_slice v).2 ⟨hm, h⟩

theorem plain_tag (s : Bytes) (h : (parseMP s).tag = none) : ∀ n, (parseMP s).tag = some n → 0 ≤ n := tag_none h

theorem empty_tag : ∀ n, (parseMP []).tag = some n → 0 ≤ n := tag_none (by rw [mp_empty])
theorem zero_tag : ∀ n, ({} : MP).tag = some n → 0 ≤ n := tag_none rfl

theorem alg_parts {oid : List Nat} {mp : MP} (hm : ∀ n, mp.tag = some n → 0 ≤ n) : DerParts algIdTy mp (AlgId.go ⟨oid, {}⟩) :=
  struct_parts (fs := .cons [] .oid (.cons (b!"optional") .rawValue .nil)) hm
    (cons_parts (t := .oid) (oid_parts empty_tag) (cons_parts (t := .rawValue) (raw_parts rawDer_zero) nil_parts))

theorem attr_parts {a : P7AttrV} (hf : Fresh a) (hd : DerSeq a.value.bytes) : DerParts attributeTy {} a.go :=
  struct_parts (fs := .cons [] .oid (.cons (b!"set") .rawValue .nil)) zero_tag
    (cons_parts (t := .oid) (oid_parts empty_tag) (cons_parts (t := .rawValue) (raw_parts (.inr ⟨by rw [hf.2], fun _ => hd⟩)) nil_parts))

theorem content_parts {oid : List Nat} {v : RawVal} (hv : RawDer v) {mp : MP} (hm : ∀ n, mp.tag = some n → 0 ≤ n) :
    DerParts contentInfoTy mp (([] : Bytes), oid, v, ()) :=
  struct_parts (fs := .cons [] .oid (.cons (b!"explicit,optional,tag:0") .rawValue .nil)) hm
    (cons_parts (t := .oid) (oid_parts empty_tag) (cons_parts (t := .rawValue) (raw_parts hv) nil_parts))

theorem opt0_tag : ∀ n, (parseMP (b!"optional,tag:0")).tag = some n → 0 ≤ n := by rw [mp_opt0]; exact tag_k (k := 0) rfl
theorem opt1_tag : ∀ n, (parseMP (b!"optional,tag:1")).tag = some n → 0 ≤ n := by rw [mp_opt1]; exact tag_k (k := 1) rfl
theorem set_tag : ∀ n, (parseMP (b!"set")).tag = some n → 0 ≤ n := by rw [mp_set]; exact tag_none rfl
theorem default1_tag : ∀ n, (parseMP (b!"default:1")).tag = some n → 0 ≤ n := by rw [mp_default1]; exact tag_none rfl

theorem info_parts {m : Made} (hi : RawElem m.iss) (hd : DerSeq m.iss.full) (ha : ∀ a ∈ m.attrs, Fresh a ∧ DerSeq a.value.bytes) : DerParts signerInfoTy {} m.info.go :=
  struct_parts (fs := .cons (b!"default:1") .int (.cons [] iasTy (.cons [] algIdTy (.cons (b!"optional,tag:0") (.slice false attributeTy)
    (.cons [] algIdTy (.cons [] .octets (.cons (b!"optional,tag:1") (.slice false attributeTy) .nil))))))) zero_tag
    (cons_parts (t := .int) (int_parts default1_tag) (cons_parts (t := iasTy)
      (struct_parts (fs := .cons [] .rawValue (.cons [] .bigInt .nil)) empty_tag
        (cons_parts (t := .rawValue) (raw_parts (.inl ⟨Elem.ne hi, hd⟩)) (cons_parts (t := .bigInt) (big_parts empty_tag) nil_parts)))
      (cons_parts (t := algIdTy) (alg_parts empty_tag) (cons_parts (t := .slice false attributeTy) (slice_parts opt0_tag (allOf_map (fun a h => attr_parts (ha a h).1 (ha a h).2)))
        (cons_parts (t := algIdTy) (alg_parts empty_tag) (cons_parts (t := .octets) (oct_parts empty_tag)
          (cons_parts (t := .slice false attributeTy) (slice_parts opt1_tag trivial) nil_parts)))))))

theorem certs_parts {c : Bytes} (hc : c.length < 2 ^ 31) (hd : DerSeq c) : DerParts rawCertsTy (parseMP (b!"optional,tag:0")) ((certsRaw c, ()) : Bytes × Unit) := by
  have h := header_der (cls := 2) (tag := 0) (con := true) (by decide) (by decide) (by decide) hc
  have e : certsRaw c = encodeHeader 2 0 c.length true ++ c := by
    unfold certsRaw rawBytes
    exact if_neg (by simp)
  refine (parts_struct (r := true) (fs := .nil) ((certsRaw c, ()) : Bytes × Unit)).2 ⟨opt0_tag, ?_⟩
  have hne : (true = true ∧ certsRaw c ≠ []) := by
    refine ⟨rfl, ?_⟩
    rw [e]
    intro h'
    exact header_ne h (List.append_eq_nil_iff.1 h').1
  rw [if_pos hne]
  exact ⟨_, _, c, e, h, hd⟩

theorem octets_seq {x : Bytes} (h : x.length < 2 ^ 63) : DerSeq (tlv 0 false 4 x) := by
  obtain ⟨t, ht⟩ := header_enc (cls := 0) (tag := 4) (con := false) (body := x) (by intro h; cases h) h
  exact derSeq_one ht

theorem message_der {env : P7Env} {x : Option Bytes} {certs : List SignCert} {digest : Bytes} {made : List Made} {b : Bytes}
    (hm : ∀ m ∈ made, RawElem m.iss ∧ DerSeq m.iss.full ∧ ∀ a ∈ m.attrs, Fresh a ∧ DerSeq a.value.bytes)
    (hc : (certs.map SignCert.raw).flatten.length < 2 ^ 31) (hcd : ∀ c ∈ certs, DerSeq c.raw) (hx : ∀ y, x = some y → y.length < 2 ^ 63)
    (h : finish env ⟨[1,2,840,113549,1,7,1], contentVal x, [⟨[1,3,14,3,2,26], {}⟩], made.map Made.info, certs, digest⟩ = .ok b) (hl : b.length < 2 ^ 31) :
    ∃ t, DerEnc t b := by
  unfold finish at h
  dsimp only at h
  cases hi : marshal env.mar signedDataTy (signedGo [⟨[1,3,14,3,2,26], {}⟩] [1,2,840,113549,1,7,1] (contentVal x) (certsRaw (certs.map SignCert.raw).flatten) (made.map Made.info)) with
  | error e => rw [hi] at h; cases h
  | ok inner =>
    rw [hi] at h
    unfold wrapContent at h
    dsimp only at h
    cases hw : marshal env.mar contentInfoTy (([] : Bytes), [1,2,840,113549,1,7,2], (⟨2, 0, true, inner, []⟩ : RawVal), ()) with
    | error e => rw [hw] at h; cases h
    | ok b' =>
      rw [hw] at h
      cases h
      unfold marshal at hw hi
      rw [mp_empty] at hw hi
      obtain ⟨o, ho, e⟩ := content_bytes hw
      have l1 := tlv_length 0 16 true (tlv 0 false 6 o ++ tlv 2 true 0 inner)
      have l3 := tlv_length 2 0 true inner
      have l4 : (tlv 0 false 6 o ++ tlv 2 true 0 inner).length = (tlv 0 false 6 o).length + (tlv 2 true 0 inner).length := List.length_append
      rw [← e] at l1
      have hcv : RawDer (contentVal x) := by
        cases x with
        | none => exact rawDer_zero
        | some y => exact .inr ⟨rfl, fun _ => octets_seq (hx y rfl)⟩
      have hp : DerParts signedDataTy {} (signedGo [⟨[1,3,14,3,2,26], {}⟩] [1,2,840,113549,1,7,1] (contentVal x) (certsRaw (certs.map SignCert.raw).flatten) (made.map Made.info)) :=
        struct_parts (fs := .cons (b!"default:1") .int (.cons (b!"set") (.slice false algIdTy) (.cons [] contentInfoTy
          (.cons (b!"optional,tag:0") rawCertsTy (.cons (b!"optional,tag:1") (.slice false certListTy) (.cons (b!"set") (.slice false signerInfoTy) .nil)))))) zero_tag
          (cons_parts (t := .int) (int_parts default1_tag) (cons_parts (t := .slice false algIdTy) (slice_parts set_tag ⟨alg_parts zero_tag, trivial⟩)
            (cons_parts (t := contentInfoTy) (content_parts hcv empty_tag) (cons_parts (t := rawCertsTy) (certs_parts hc (derSeq_flatten (by
                intro c hc
                obtain ⟨c', h', rfl⟩ := List.mem_map.1 hc
                exact hcd c' h')))
              (cons_parts (t := .slice false certListTy) (slice_parts opt1_tag trivial) (cons_parts (t := .slice false signerInfoTy)
                (slice_parts set_tag (allOf_map (fun s hs => by
                  obtain ⟨m, hm', rfl⟩ := List.mem_map.1 hs
                  exact info_parts (hm m hm').1 (hm m hm').2.1 (hm m hm').2.2))) nil_parts))))))
      have hs := makeField_der env.mar _ _ _ _ hi hp (by omega)
      exact makeField_one (by simp [contentInfoTy]) ⟨rfl, rfl⟩ hw (content_parts (.inr ⟨rfl, fun _ => hs⟩) zero_tag) (by omega)

/-! ## The attributes -/

/-- One attribute that is made from a type and a value. -/
def AttrFor (env : P7Env) (x : List Nat × Dyn) (a : P7AttrV) : Prop := a.type = x.1 ∧ ∃ b, a.value = ⟨0, 17, true, b, []⟩ ∧ marshal env.mar x.2.type x.2.val = .ok b

theorem sortableAttr_ok {env : P7Env} {oid : List Nat} {v : Dyn} {k : Bytes} {a : P7AttrV} (h : sortableAttr env oid v = .ok (k, a)) :
    AttrFor env (oid, v) a ∧ marshal env.mar attributeTy a.go = .ok k := by
  unfold sortableAttr at h
  cases hv : marshal env.mar v.type v.val with
  | error e => rw [hv] at h; cases h
  | ok b =>
    rw [hv] at h
    dsimp only at h
    cases hk : marshal env.mar attributeTy (P7AttrV.go ⟨oid, ⟨0, 17, true, b, []⟩⟩) with
    | error e => rw [hk] at h; cases h
    | ok k' =>
      rw [hk] at h
      cases h
      exact ⟨⟨rfl, b, rfl, hv⟩, hk⟩

theorem sortableAttrs_ok {env : P7Env} : ∀ {xs : List (List Nat × Dyn)} {l : List (Bytes × P7AttrV)}, sortableAttrs env xs = .ok l →
    ListRel (AttrFor env) xs (l.map Prod.snd) ∧ ∀ y ∈ l, marshal env.mar attributeTy y.2.go = .ok y.1
  | [], l, h => by cases h; exact ⟨.nil, by simp⟩
  | (oid, v) :: xs, l, h => by
    rw [sortableAttrs] at h
    cases h1 : sortableAttr env oid v with
    | error e => rw [h1] at h; cases h
    | ok a =>
      rw [h1] at h
      dsimp only at h
      cases h2 : sortableAttrs env xs with
      | error e => rw [h2] at h; cases h
      | ok as =>
        rw [h2] at h
        cases h
        obtain ⟨i1, i2⟩ := sortableAttrs_ok h2
        obtain ⟨j1, j2⟩ := sortableAttr_ok (k := a.1) (a := a.2) h1
        refine ⟨.cons j1 i1, ?_⟩
        intro y hy
        rcases List.mem_cons.1 hy with rfl | hy
        · exact j2
        · exact i2 y hy

theorem insertAttr_perm (a : Bytes × P7AttrV) : ∀ l, List.Perm (insertAttr a l) (a :: l)
  | [] => .refl _
  | b :: bs => by
    rw [insertAttr]
    split
    · exact ((insertAttr_perm a bs).cons b).trans (.swap a b bs)
    · exact .refl _

theorem sortAttrs_perm : ∀ l, List.Perm (sortAttrs l) l
  | [] => .refl _
  | a :: as => (insertAttr_perm a _).trans ((sortAttrs_perm as).cons a)

theorem insertAttr_fst (a : Bytes × P7AttrV) : ∀ l, (insertAttr a l).map Prod.fst = setInsert a.1 (l.map Prod.fst)
  | [] => rfl
  | b :: bs => by
    rw [insertAttr, List.map_cons, setInsert]
    split
    · rw [List.map_cons, insertAttr_fst a bs]
    · rfl

theorem sortAttrs_fst : ∀ l, (sortAttrs l).map Prod.fst = setSort (l.map Prod.fst)
  | [] => rfl
  | a :: as => by rw [sortAttrs, List.map_cons, setSort, insertAttr_fst, sortAttrs_fst as]

/-- The key by which attributes are sorted is their DER encoding. -/
theorem key_der {env : P7Env} {a : P7AttrV} {k e : Bytes} (hf : Fresh a) (hk : marshal env.mar attributeTy a.go = .ok k) (he : DerAttrV (readAttr a) e)
    (hl : e.length < 2 ^ 31) : k = e := by
  unfold marshal at hk
  rw [mp_empty] at hk
  obtain ⟨o, ho, rfl⟩ := attr_bytes hf hk
  obtain ⟨o', h1, h2⟩ := he
  have hlen : (o' ++ (readAttr a).value.full).length < 2 ^ 31 := by
    obtain ⟨x, l, _, _, _, _, rfl⟩ := h2
    simp only [List.length_cons, List.length_append] at hl ⊢
    omega
  have h3 := derElem_tlv h2 (by omega)
  have ho' : tlv 0 false 6 o = o' := by
    obtain ⟨x, y, arcs, c, e1, h4, h5, h6, h7⟩ := h1
    have hc : o = c := by
      have e1 : a.type = x :: y :: arcs := e1
      rw [e1, encodeOid] at ho
      rw [if_neg (by omega)] at ho
      rw [← derArcs_encode h6]
      exact (Except.ok.inj ho).symm
    rw [hc]
    refine derElem_tlv h7 ?_
    obtain ⟨x, l, _, _, _, _, rfl⟩ := h7
    simp only [List.length_cons, List.length_append] at hlen
    omega
  rw [ho']
  exact h3

theorem forMarshaling_sorted {env : P7Env} {xs : List (List Nat × Dyn)} {attrs : List P7AttrV} (h : forMarshaling env xs = .ok attrs) (hf : ∀ a ∈ attrs, Fresh a)
    {encs : List Bytes} (he : ListRel DerAttrV (attrs.map readAttr) encs) (hl : ∀ e ∈ encs, e.length < 2 ^ 31) : encs.Pairwise BytesLe := by
  unfold forMarshaling at h
  cases hs : sortableAttrs env xs with
  | error e => rw [hs] at h; cases h
  | ok l =>
    rw [hs] at h
    cases h
    have hk := (sortableAttrs_ok hs).2
    have hk' : ∀ y ∈ sortAttrs l, marshal env.mar attributeTy y.2.go = .ok y.1 := fun y hy => hk y ((sortAttrs_perm l).mem_iff.1 hy)
    have : encs = (sortAttrs l).map Prod.fst := by
      clear hs hk
      generalize sortAttrs l = l' at *
      induction l' generalizing encs with
      | nil => cases he; rfl
      | cons y ys ih =>
        rw [List.map_cons, List.map_cons] at he
        cases he with
        | cons h1 h2 =>
          rw [List.map_cons, ← ih (by exact fun e he => hl e (List.mem_cons_of_mem _ he)) (by exact fun a ha => hf a (List.mem_cons_of_mem _ ha)) (by exact h2) (by exact fun y hy => hk' y (List.mem_cons_of_mem _ hy)),
            key_der (hf _ List.mem_cons_self) (hk' _ List.mem_cons_self) h1 (hl _ List.mem_cons_self)]
    rw [this, sortAttrs_fst]
    exact setSort_sorted _

theorem forMarshaling_ok {env : P7Env} {xs : List (List Nat × Dyn)} {attrs : List P7AttrV} (h : forMarshaling env xs = .ok attrs) :
    ∃ as, ListRel (AttrFor env) xs as ∧ List.Perm as attrs := by
  unfold forMarshaling at h
  cases hs : sortableAttrs env xs with
  | error e => rw [hs] at h; cases h
  | ok l =>
    rw [hs] at h
    cases h
    exact ⟨_, (sortableAttrs_ok hs).1, ((sortAttrs_perm l).map Prod.snd).symm⟩

theorem listRel_mem_left {α β : Type} {R : α → β → Prop} : ∀ {l : List α} {m : List β}, ListRel R l m → ∀ a ∈ l, ∃ b ∈ m, R a b
  | _, _, .nil, a, ha => by cases ha
  | _, _, .cons h1 h2, a, ha => by
    rcases List.mem_cons.1 ha with rfl | ha
    · exact ⟨_, List.mem_cons_self, h1⟩
    · obtain ⟨b, hb, hr⟩ := listRel_mem_left h2 a ha
      exact ⟨b, List.mem_cons_of_mem _ hb, hr⟩

theorem listRel_map {α β γ : Type} {R : α → β → Prop} {S : α → γ → Prop} {f : β → γ} (h : ∀ a b, R a b → S a (f b)) : ∀ {l : List α} {m : List β}, ListRel R l m → ListRel S l (m.map f)
  | _, _, .nil => .nil
  | _, _, .cons h1 h2 => .cons (h _ _ h1) (listRel_map h h2)

/-- Attributes are written in the same way when they are made and when they were read. -/
theorem readAttr_made (menv : MarEnv) {a : P7AttrV} (h : Fresh a) : makeField menv attributeTy {} (readAttr a).go = makeField menv attributeTy {} a.go := by
  rw [attr_made, attr_made, fresh_raw h]
  have hne : tlv 0 true 17 a.value.bytes ≠ [] := by
    unfold tlv encodeTagAndLength
    simp
  have e : rawBytes (readAttr a).value = tlv 0 true 17 a.value.bytes := by
    unfold rawBytes readAttr
    exact if_pos hne
  rw [e]
  rfl

theorem makeElems_congr {α β γ : Type} {f : β → Except MErr Bytes} {g : α → β} {g' : γ → β} {r : α → γ} : ∀ {l : List α}, (∀ a ∈ l, f (g' (r a)) = f (g a)) →
    makeElems f ((l.map r).map g') = makeElems f (l.map g)
  | [], _ => rfl
  | a :: l, h => by
    rw [List.map_cons, List.map_cons, List.map_cons, makeElems, makeElems, h a (by simp), makeElems_congr (fun b hb => h b (List.mem_cons_of_mem _ hb))]

theorem attributes_read {env : P7Env} {s : P7Info} (hw : InfoWF s) {attrs : List P7AttrV} (ha : ∀ a ∈ attrs, Fresh a) (e : s.attrs = attrs.map readAttr) {b : Bytes}
    (h : marshalAttributes env attrs = .ok (some b)) : DerAttrSet s.attrs b := by
  obtain ⟨x, hx, hu⟩ := attributes_iff (env := env) hw
  rw [hu]
  obtain ⟨body, h1, h2⟩ := hw.size
  have hbl := Nat.lt_of_le_of_lt (tlv_length _ _ _ _) h2
  obtain ⟨encs, i1, i2, rfl⟩ := elems_made env.mar hw.attrs h1 (by omega)
  have hlen : (encodeSet encs).length = encs.flatten.length := flatten_length_perm (setSort_self_perm encs)
  have hl : (tlv 0 true 17 (encodeSet encs)).length < 2 ^ 31 := by
    have : (tlv 0 true 17 (encodeSet encs)).length = (tlv 0 true 17 encs.flatten).length := by
      unfold tlv; rw [List.length_append, List.length_append, hlen]
    omega
  have e2 := attributes_made i1 hl
  rw [e, makeElems_congr (r := readAttr) (g := P7AttrV.go) (g' := P7AttrV.go) (fun a h => readAttr_made env.mar (ha a h))] at i1
  have e1 := attributes_made i1 hl
  rw [h] at e1
  rw [hx] at e2
  have e1 := Option.some.inj (Except.ok.inj e1)
  have e2 := Option.some.inj (Except.ok.inj e2)
  rw [e1, e2]

/-! ## The steps -/

/-- What `AddSigner` adds. -/
structure Entry where
  cert : SignCert
  attrs : List P7AttrV
  sig : Bytes

def Entry.info (x : Entry) : P7Info := madeInfo ⟨0, 0, false, [], x.cert.rawIssuer⟩ x.cert.serial x.attrs x.sig

/-- What the steps add. -/
inductive MadeFor (env : P7Env) (data : Bytes) : List SignStep → List Entry → Prop
  | nil : MadeFor env data [] []
  | certificate {c : SignCert} {steps : List SignStep} {l : List Entry} : MadeFor env data steps l → MadeFor env data (.certificate c :: steps) l
  | signer {c : SignCert} {k : Nat} {now : Int} {extra : List (List Nat × Dyn)} {steps : List SignStep} {l : List Entry} {attrs : List P7AttrV} {bytes sig : Bytes} :
      forMarshaling env (attributesFor env data now extra) = .ok attrs → marshalAttributes env attrs = .ok (some bytes) →
      env.rsaSign k (env.hash .sha1 bytes) = some sig → MadeFor env data steps l → MadeFor env data (.signer c (.rsa k) now extra :: steps) (⟨c, attrs, sig⟩ :: l)

theorem signAttributes_ok {env : P7Env} {attrs : List P7AttrV} {key : P7Key} {sig : Bytes} (h : signAttributes env attrs key = .ok (.ok sig)) :
    ∃ k bytes, key = .rsa k ∧ marshalAttributes env attrs = .ok (some bytes) ∧ env.rsaSign k (env.hash .sha1 bytes) = some sig := by
  unfold signAttributes at h
  rcases hm : marshalAttributes env attrs with p | (_ | b)
  · rw [hm] at h; cases h
  · rw [hm] at h; cases h
  · rw [hm] at h
    dsimp only at h
    cases key with
    | other => cases h
    | rsa k =>
      dsimp only at h
      cases hs : env.rsaSign k (env.hash .sha1 b) with
      | none => rw [hs] at h; cases h
      | some s => rw [hs] at h; cases h; exact ⟨k, b, rfl, rfl, hs⟩

theorem steps_inv {env : P7Env} {data : Bytes} : ∀ {steps : List SignStep} {st st' : SignState}, st.contentType = [1,2,840,113549,1,7,1] → st.digest = env.hash .sha1 data →
    signSteps env st steps = .ok (.ok st') →
    ∃ l, MadeFor env data steps l ∧ st' = { st with certs := st.certs ++ steps.map SignStep.cert, infos := st.infos ++ l.map Entry.info }
  | [], st, st', _, _, h => by
    cases h
    exact ⟨[], .nil, by simp⟩
  | .certificate c :: steps, st, st', h1, h2, h => by
    rw [signSteps] at h
    obtain ⟨l, i1, i2⟩ := steps_inv (st := addCertificate st c) h1 h2 h
    refine ⟨l, .certificate i1, ?_⟩
    rw [i2]
    simp [addCertificate, SignStep.cert]
  | .signer c key now extra :: steps, st, st', h1, h2, h => by
    rw [signSteps] at h
    rcases ha : addSigner env st c key now extra with p | (e | st1)
    · rw [ha] at h; cases h
    · rw [ha] at h; cases h
    · rw [ha] at h
      dsimp only at h
      unfold addSigner at ha
      have e : signerAttrs st now extra = attributesFor env data now extra := by
        unfold signerAttrs attributesFor
        rw [h1, h2]
        rfl
      rw [e] at ha
      cases hf : forMarshaling env (attributesFor env data now extra) with
      | error e => rw [hf] at ha; cases ha
      | ok attrs =>
        rw [hf] at ha
        dsimp only at ha
        rcases hs : signAttributes env attrs key with p | (e | sig)
        · rw [hs] at ha; cases ha
        · rw [hs] at ha; cases ha
        · rw [hs] at ha
          dsimp only at ha
          have ha := Except.ok.inj (Except.ok.inj ha)
          subst ha
          obtain ⟨k, bytes, rfl, j1, j2⟩ := signAttributes_ok hs
          obtain ⟨l, i1, i2⟩ := steps_inv (env := env) (data := data) (steps := steps) (by exact h1) (by exact h2) h
          refine ⟨⟨c, attrs, sig⟩ :: l, .signer hf j1 j2 i1, ?_⟩
          rw [i2]
          simp [SignStep.cert, Entry.info, madeInfo]

theorem new_ok {env : P7Env} {data : Bytes} {st : SignState} (h : newSignedData env data = .ok st) :
    st = ⟨[1,2,840,113549,1,7,1], contentVal (some data), [⟨[1,3,14,3,2,26], {}⟩], [], [], env.hash .sha1 data⟩ := by
  unfold newSignedData at h
  cases hm : marshal env.mar .octets data with
  | error e => rw [hm] at h; cases h
  | ok c =>
    rw [hm] at h
    cases h
    unfold marshal at hm
    rw [mp_empty] at hm
    rw [oct_ok _ hm]
    rfl

/-! ## Certificates -/

theorem issuer_elem_of {env : AsnEnv} {w : certificateTy.interp} {b rest : Bytes} (h : Reads env certificateTy {} w b rest) : RawElem w.2.1.2.2.2.2.1 := by
  obtain ⟨inner, h⟩ := reads_struct_inv h
  obtain ⟨_, h, _⟩ := (readsAll_cons (v1 := w.2.1) (v2 := w.2.2)).1 h
  rw [fp_empty] at h
  obtain ⟨inner, h⟩ := reads_struct_inv h
  obtain ⟨_, _, h⟩ := (readsAll_cons (v1 := w.2.1.2.1) (v2 := w.2.1.2.2)).1 h
  obtain ⟨_, _, h⟩ := (readsAll_cons (v1 := w.2.1.2.2.1) (v2 := w.2.1.2.2.2)).1 h
  obtain ⟨_, _, h⟩ := (readsAll_cons (v1 := w.2.1.2.2.2.1) (v2 := w.2.1.2.2.2.2)).1 h
  obtain ⟨_, h, _⟩ := (readsAll_cons (v1 := w.2.1.2.2.2.2.1) (v2 := w.2.1.2.2.2.2.2)).1 h
  rw [fp_empty] at h
  exact (reads_raw_iff.1 h).1

theorem issuer_elem {ce : CertEnv} {cert iss : Bytes} (h : IssuerIs ce cert iss) : ∃ v : RawVal, RawElem v ∧ v.full = iss := by
  obtain ⟨raw, tbs, version, serial, alg, v, validity, subject, key, id1, id2, exts, outer, sig, h, rfl⟩ := h
  exact ⟨v, issuer_elem_of h, rfl⟩

theorem issuer_unique {ce : CertEnv} {cert a b : Bytes} (h : IssuerIs ce cert a) (h' : IssuerIs ce cert b) : a = b := by
  obtain ⟨v, h1, rfl⟩ := issuer_elem h
  obtain ⟨w, h2, rfl⟩ := issuer_elem h'
  rw [← (rawIssuer_iff (Elem.ne h1)).2 h, (rawIssuer_iff (Elem.ne h2)).2 h']

theorem cert_unique {ce : CertEnv} {b : Bytes} {p p' : Cert} {k k' : Key} (h : CertificateIs ce b p k) (h' : CertificateIs ce b p' k') : p = p' := by
  have h1 := parseCert509_iff.2 h
  rw [parseCert509_iff.2 h'] at h1
  exact (congrArg Prod.fst (Option.some.inj (Except.ok.inj h1))).symm

theorem cert_raw {ce : CertEnv} {b : Bytes} {p : Cert} {k : Key} (h : CertificateIs ce b p k) : p.raw = b := by
  obtain ⟨tbs, v0, spki, s0, a0, o0, version, nb, na, serial, sigOid, keyOid, outerOid, sigParams, keyParams, outerParams, issuer, subject, keyBits, iid, sid, sg,
      exts, re, hv, _⟩ := h
  have := (reads_struct_raw hv).1
  rw [List.append_nil] at this
  exact this.symm

theorem certs_are {ce : CertEnv} {raws : List Bytes} {parsed : List Cert} (h : ListRel (fun b p => ∃ k, CertificateIs ce b p k) raws parsed) :
    CertificatesAre ce parsed raws.flatten := by
  have : ∃ ps : List (Cert × Key), parsed = ps.map Prod.fst ∧ raws.map (fun c => parseCert509 ce c) = ps.map (fun p => .ok (some p)) := by
    induction h with
    | nil => exact ⟨[], rfl, rfl⟩
    | @cons b p bs ps h1 _ ih =>
      obtain ⟨k, h1⟩ := h1
      obtain ⟨qs, e1, e2⟩ := ih
      refine ⟨(p, k) :: qs, by rw [e1]; rfl, ?_⟩
      rw [List.map_cons, List.map_cons, e2, parseCert509_iff.2 h1]
  obtain ⟨ps, rfl, hp⟩ := this
  obtain ⟨vs, h1, h2⟩ := splitCerts_flatten hp _ (Nat.le_refl _)
  refine parseCerts509_iff.1 ?_
  unfold parseCerts509
  rw [h1]
  exact h2

/-! ## Everything together -/

open Classical in
/-- An element with the given encoding. -/
noncomputable def rawOf (b : Bytes) : RawVal := if h : ∃ v : RawVal, RawElem v ∧ v.full = b then Classical.choose h else {}

theorem rawOf_spec {b : Bytes} (h : ∃ v : RawVal, RawElem v ∧ v.full = b) : RawElem (rawOf b) ∧ (rawOf b).full = b := by
  unfold rawOf
  rw [dif_pos h]
  exact Classical.choose_spec h

noncomputable def Entry.made (x : Entry) : Made := ⟨rawOf x.cert.rawIssuer, x.cert.serial, x.attrs, x.sig⟩

theorem made_mem {env : P7Env} {data : Bytes} {steps : List SignStep} {l : List Entry} (h : MadeFor env data steps l) : ∀ x ∈ l, ∃ k now extra bytes,
    SignStep.signer x.cert (.rsa k) now extra ∈ steps ∧ forMarshaling env (attributesFor env data now extra) = .ok x.attrs ∧
    marshalAttributes env x.attrs = .ok (some bytes) ∧ env.rsaSign k (env.hash .sha1 bytes) = some x.sig := by
  induction h with
  | nil => intro x hx; cases hx
  | certificate _ ih =>
    intro x hx
    obtain ⟨k, now, extra, bytes, h1, h2⟩ := ih x hx
    exact ⟨k, now, extra, bytes, List.mem_cons_of_mem _ h1, h2⟩
  | @signer c k now extra steps l attrs bytes sig h1 h2 h3 _ ih =>
    intro x hx
    rcases List.mem_cons.1 hx with rfl | hx
    · exact ⟨k, now, extra, bytes, List.mem_cons_self, h1, h2, h3⟩
    · obtain ⟨k, now, extra, bytes, h1, h2⟩ := ih x hx
      exact ⟨k, now, extra, bytes, List.mem_cons_of_mem _ h1, h2⟩

/-- The attributes that are added are fine. -/
theorem attributes_ok {env : P7Env} {data : Bytes} {now : Int} {extra : List (List Nat × Dyn)} (h : ∀ x ∈ extra, ExtraOk x) :
    ∀ x ∈ attributesFor env data now extra, ValidOid x.1 ∧ DerParts x.2.type {} x.2.val ∧
      (x.1 = [1,2,840,113549,1,9,4] → x = ([1,2,840,113549,1,9,4], ⟨.octets, env.hash .sha1 data⟩)) := by
  intro x hx
  rcases List.mem_cons.1 hx with rfl | hx
  · refine ⟨⟨by decide, by decide, by decide, by decide⟩, leaf_parts (by simp) _ zero_tag, ?_⟩
    intro h
    exact absurd h (by decide)
  rcases List.mem_cons.1 hx with rfl | hx
  · exact ⟨⟨by decide, by decide, by decide, by decide⟩, leaf_parts (by simp) _ zero_tag, fun _ => rfl⟩
  rcases List.mem_cons.1 hx with rfl | hx
  · refine ⟨⟨by decide, by decide, by decide, by decide⟩, leaf_parts (by simp) _ zero_tag, ?_⟩
    intro h
    exact absurd (show ([1,2,840,113549,1,9,5] : List Nat) = [1,2,840,113549,1,9,4] from h) (by decide)
  obtain ⟨h1, h2, h3⟩ := h x hx
  exact ⟨h1, h3, fun c => absurd c h2⟩

theorem attrs_fresh {env : P7Env} {xs : List (List Nat × Dyn)} {attrs : List P7AttrV} (h : forMarshaling env xs = .ok attrs) (hx : ∀ x ∈ xs, ValidOid x.1) :
    ∀ a ∈ attrs, Fresh a ∧ ∃ x ∈ xs, AttrFor env x a := by
  obtain ⟨as, h1, h2⟩ := forMarshaling_ok h
  intro a ha
  obtain ⟨x, hx', hr⟩ := listRel_mem h1 a (h2.mem_iff.2 ha)
  refine ⟨⟨?_, ?_⟩, x, hx', hr⟩
  · rw [hr.1]; exact hx x hx'
  · obtain ⟨b, hb, _⟩ := hr.2
    rw [hb]

theorem infos_for {env : P7Env} {data : Bytes} {steps : List SignStep} {l : List Entry} (h : MadeFor env data steps l)
    (hi : ∀ x ∈ l, RawElem (rawOf x.cert.rawIssuer) ∧ (rawOf x.cert.rawIssuer).full = x.cert.rawIssuer) (hf : ∀ x ∈ l, ∀ a ∈ x.attrs, Fresh a) : InfosFor env data steps (l.map (fun x => x.made.read)) := by
  induction h with
  | nil => exact .nil
  | certificate _ ih => exact .certificate (ih hi hf)
  | @signer c k now extra steps l attrs bytes sig h1 h2 h3 _ ih =>
    rw [List.map_cons]
    refine .signer ?_ (ih (fun x hx => hi x (List.mem_cons_of_mem _ hx)) (fun x hx => hf x (List.mem_cons_of_mem _ hx)))
    obtain ⟨as, i1, i2⟩ := forMarshaling_ok h1
    refine ⟨rfl, (hi _ List.mem_cons_self).2, rfl, rfl, rfl, rfl, ⟨as.map readAttr, i2.map readAttr, listRel_map ?_ i1⟩,
      fun encs he hl => forMarshaling_sorted h1 (hf _ List.mem_cons_self) he hl⟩
    rintro x a ⟨j1, b, j2, j3⟩
    refine ⟨j1, rfl, rfl, rfl, ?_⟩
    show _ = Except.ok a.value.bytes
    rw [j2]
    exact j3

theorem elem_bound {cls tag : Nat} {con : Bool} {c b : Bytes} (h : Elem cls tag con c b) : c.length < 2 ^ 31 := by
  obtain ⟨hdr, ⟨p, l, _, _, hl⟩, _⟩ := h
  exact hl.1

theorem listEnc_mem {α : Type} {P : α → Bytes → Prop} {as : List α} {b : Bytes} (h : ListEnc P as b) : ∀ a ∈ as, ∃ x, P a x := by
  induction h with
  | nil => intro a ha; cases ha
  | cons h1 _ ih =>
    intro a ha
    rcases List.mem_cons.1 ha with rfl | ha
    · exact ⟨_, h1⟩
    · exact ih a ha

theorem message_bounds {ct : List Nat} {x : Option Bytes} {certs : List Bytes} {infos : List P7Info} {b : Bytes} (h : MessageEnc ct x certs infos b) :
    (∀ y, x = some y → y.length < 2 ^ 31) ∧ ∀ s ∈ infos, ∀ a ∈ s.attrs, a.value.bytes.length < 2 ^ 31 := by
  obtain ⟨n, v, algs, algSet, algsB, ci, cs, crls, sis, sisB, sd, o, w, _, _, _, _, ⟨o', _, hci⟩, _, _, hsis, _⟩ := h
  constructor
  · rintro y rfl
    rcases hci with ⟨h, _⟩ | ⟨x', oct, c, e, h, _⟩
    · cases h
    · cases e; exact elem_bound h
  · intro s hs a ha
    obtain ⟨x, v, serial, ser, ias, d, a', e, sig, u, _, _, _, _, _, _, _, hat, _⟩ := listEnc_mem hsis s hs
    rcases hat with ⟨h, _⟩ | ⟨c, hl, _⟩
    · rw [h] at ha; cases ha
    · obtain ⟨x, o, _, hr, _⟩ := listEnc_mem hl a ha
      exact elem_bound hr

/-- The message that is made, with its contents or (after `Detach`) without. -/
theorem signed_core {env : P7Env} {data : Bytes} {x : Option Bytes} {steps : List SignStep} {st0 st : SignState} {b : Bytes} {parsed : List Cert}
    (hnew : newSignedData env data = .ok st0) (hsteps : signSteps env st0 steps = .ok (.ok st)) (hfin : finish env { st with content := contentVal x } = .ok b)
    (hp : ListRel (fun s p => CertAgrees env.toCertEnv s.cert p ∧ StepOk env (steps.map SignStep.cert) s p) steps parsed)
    (hl : b.length < 2 ^ 31) (hc : (steps.map (fun s => s.cert.raw)).flatten.length < 2 ^ 31) :
    ∃ infos m, InfosFor env data steps infos ∧ List.Perm infos m.infos ∧ parseMsg env.toCertEnv b = .ok (some m) ∧
      m = ⟨x.getD [], parsed, m.infos, [1,2,840,113549,1,7,1], none⟩ ∧ ∀ s ∈ m.infos, SignerVerifies env { m with content := data } s := by
  have h0 := new_ok hnew
  obtain ⟨l, hmade, hst⟩ := steps_inv (data := data) (by rw [h0]) (by rw [h0]) hsteps
  rw [h0] at hst
  subst hst
  -- the entries
  have hent : ∀ y ∈ l, ∃ k now extra bytes p, SignStep.signer y.cert (.rsa k) now extra ∈ steps ∧ p ∈ parsed ∧ CertAgrees env.toCertEnv y.cert p ∧
      KeyAgrees env (.rsa k) p ∧ (∀ x ∈ extra, ExtraOk x) ∧
      (∀ c' ∈ steps.map SignStep.cert, c'.rawIssuer = y.cert.rawIssuer → c'.serial = y.cert.serial → c'.raw = y.cert.raw) ∧
      forMarshaling env (attributesFor env data now extra) = .ok y.attrs ∧ marshalAttributes env y.attrs = .ok (some bytes) ∧
      env.rsaSign k (env.hash .sha1 bytes) = some y.sig := by
    intro y hy
    obtain ⟨k, now, extra, bytes, h1, h2, h3, h4⟩ := made_mem hmade y hy
    obtain ⟨p, hpm, h5, h6, h7, h8⟩ := listRel_mem_left hp _ h1
    exact ⟨k, now, extra, bytes, p, h1, hpm, h5, h6, h7, h8, h2, h3, h4⟩
  have hiss : ∀ y ∈ l, RawElem (rawOf y.cert.rawIssuer) ∧ (rawOf y.cert.rawIssuer).full = y.cert.rawIssuer := by
    intro y hy
    obtain ⟨k, now, extra, bytes, p, _, _, h5, _⟩ := hent y hy
    exact rawOf_spec (issuer_elem h5.2.2.1)
  have hfresh : ∀ y ∈ l, ∀ a ∈ y.attrs, Fresh a := by
    intro y hy a ha
    obtain ⟨k, now, extra, bytes, p, _, _, _, _, h7, _, h9, _⟩ := hent y hy
    exact (attrs_fresh h9 (fun x hx => (attributes_ok h7 x hx).1) a ha).1
  have hinfo : l.map Entry.info = (l.map Entry.made).map Made.info := by
    rw [List.map_map]
    refine List.map_congr_left (fun y hy => ?_)
    show madeInfo ⟨0, 0, false, [], y.cert.rawIssuer⟩ y.cert.serial y.attrs y.sig = madeInfo ⟨0, 0, false, [], (rawOf y.cert.rawIssuer).full⟩ y.cert.serial y.attrs y.sig
    rw [(hiss y hy).2]
  have hcr : ((steps.map SignStep.cert).map SignCert.raw) = steps.map (fun s => s.cert.raw) := by rw [List.map_map]; rfl
  have hfin' : finish env ⟨[1,2,840,113549,1,7,1], contentVal x, [⟨[1,3,14,3,2,26], {}⟩], (l.map Entry.made).map Made.info, steps.map SignStep.cert, env.hash .sha1 data⟩ = .ok b := by
    rw [← hinfo]; exact hfin
  obtain ⟨infos, hperm, henc⟩ := message_written (by
      intro m hm
      obtain ⟨y, hy, rfl⟩ := List.mem_map.1 hm
      exact ⟨(hiss y hy).1, hfresh y hy⟩) (by rw [hcr]; exact hc) hfin' hl
  obtain ⟨hb1, hb2⟩ := message_bounds henc
  -- DER
  have hder : ∃ t, DerEnc t b := by
    refine message_der ?_ (by rw [hcr]; exact hc) ?_ (fun y hy => Nat.lt_trans (hb1 y hy) (by decide)) hfin' hl
    · intro m hm
      obtain ⟨y, hy, rfl⟩ := List.mem_map.1 hm
      obtain ⟨k, now, extra, bytes, p, _, _, h5, _, h7, _, h9, _⟩ := hent y hy
      refine ⟨(hiss y hy).1, ?_, ?_⟩
      · show DerSeq (rawOf y.cert.rawIssuer).full
        rw [(hiss y hy).2]; exact h5.2.2.2.1
      · intro a ha
        obtain ⟨hf, x, hx, _, bb, hv, hm⟩ := attrs_fresh h9 (fun x hx => (attributes_ok h7 x hx).1) a ha
        refine ⟨hf, ?_⟩
        have hlen : a.value.bytes.length < 2 ^ 31 := by
          refine hb2 _ (hperm.mem_iff.1 (List.mem_map.2 ⟨_, List.mem_map.2 ⟨y, hy, rfl⟩, rfl⟩)) (readAttr a) ?_
          exact List.mem_map.2 ⟨a, ha, rfl⟩
        rw [hv] at hlen ⊢
        unfold marshal at hm
        rw [mp_empty] at hm
        exact makeField_der _ _ _ _ _ hm (attributes_ok h7 x hx).2.1 (by omega)
    · intro c hc
      obtain ⟨s, hs, rfl⟩ := List.mem_map.1 hc
      obtain ⟨p, _, h5, _⟩ := listRel_mem_left hp s hs
      exact h5.2.2.2.2
  obtain ⟨t, ht⟩ := hder
  have hbd : ber2der b = .ok (.ok b) := by
    have := C41_identity_on_der ht hl []
    rwa [List.append_nil] at this
  -- Parse
  have hcerts : CertificatesAre env.toCertEnv parsed (steps.map (fun s => s.cert.raw)).flatten := by
    refine certs_are ?_
    clear hcr hinfo hfin' henc hc hfin hsteps hnew hent hiss hfresh hmade
    have : ∀ {ss : List SignStep} {ps : List Cert} {R : SignStep → Cert → Prop}, ListRel (fun s p => CertAgrees env.toCertEnv s.cert p ∧ R s p) ss ps →
        ListRel (fun b p => ∃ k, CertificateIs env.toCertEnv b p k) (ss.map (fun s => s.cert.raw)) ps := by
      intro ss ps R h
      induction h with
      | nil => exact .nil
      | cons h1 _ ih => exact .cons h1.1.1 ih
    exact this hp
  rw [hcr] at henc
  have hmsg := message_of (message_of_enc henc hcerts)
  have hparse : parseMsg env.toCertEnv b = .ok (some { content := x.getD [], certs := parsed, infos := infos, contentType := [1,2,840,113549,1,7,1] }) := by
    have hne : b ≠ [] := by
      rintro rfl
      exact absurd hbd (by simp [ber2der])
    unfold parseMsg
    rw [if_neg hne, hbd]
    exact hmsg
  refine ⟨l.map (fun y => y.made.read), _, infos_for hmade hiss hfresh, ?_, hparse, rfl, ?_⟩
  · have : l.map (fun y => y.made.read) = (l.map Entry.made).map Made.read := by rw [List.map_map]; rfl
    rw [this]; exact hperm
  -- Verify
  intro s hs
  have hw := (parseMsg_wf hparse s hs).1
  obtain ⟨m, hm, rfl⟩ := List.mem_map.1 (hperm.mem_iff.2 hs)
  obtain ⟨y, hy, rfl⟩ := List.mem_map.1 hm
  obtain ⟨k, now, extra, bytes, p, hstep, hpm, ⟨⟨kk, h5⟩, h5b, h5c, _⟩, h6, h7, h8, h9, h10, h11⟩ := hent y hy
  have hnames : ∀ q, NamesCert env.toCertEnv y.made.read q ↔ (some y.cert.serial = some q.serial ∧ IssuerIs env.toCertEnv q.raw y.cert.rawIssuer) := by
    intro q
    show (some y.cert.serial = some q.serial ∧ IssuerIs env.toCertEnv q.raw (rawOf y.cert.rawIssuer).full) ↔ _
    rw [(hiss y hy).2]
  have hfirst : FirstWith (NamesCert env.toCertEnv y.made.read) parsed p := by
    classical
    have hpn : NamesCert env.toCertEnv y.made.read p := by
      rw [hnames, cert_raw h5, h5b]; exact ⟨rfl, h5c⟩
    have hall : ∀ q ∈ parsed, NamesCert env.toCertEnv y.made.read q → q = p := by
      intro q hq hn
      rw [hnames] at hn
      obtain ⟨s, hs, ⟨⟨kq, i1⟩, i2, i3, _⟩, _⟩ := listRel_mem hp q hq
      rw [cert_raw i1] at hn
      have e := h8 s.cert (List.mem_map.2 ⟨s, hs, rfl⟩) (issuer_unique i3 hn.2) (by rw [← i2]; exact (Option.some.inj hn.1).symm)
      rw [e] at i1
      exact cert_unique i1 h5
    cases hf : parsed.find? (fun q => decide (NamesCert env.toCertEnv y.made.read q)) with
    | none => exact absurd (List.find?_eq_none.1 hf p hpm) (by simp [hpn])
    | some q =>
      have hq := (find_iff (P := NamesCert env.toCertEnv y.made.read) (fun q => by simp)).1 hf
      have hq2 := hq
      obtain ⟨pre, post, e1, e2, _⟩ := hq2
      rw [hall q (by rw [e1]; simp) e2] at hq
      exact hq
  obtain ⟨as, ha1, ha2⟩ := forMarshaling_ok h9
  have hat : ∀ a ∈ y.attrs, ∃ x ∈ attributesFor env data now extra, AttrFor env x a := fun a ha => (attrs_fresh h9 (fun x hx => (attributes_ok h7 x hx).1) a ha).2
  have hmd : ∃ a ∈ y.attrs, a.type = [1,2,840,113549,1,9,4] := by
    obtain ⟨a, ha, hr⟩ := listRel_mem_left ha1 ([1,2,840,113549,1,9,4], ⟨.octets, env.hash .sha1 data⟩) (by unfold attributesFor; simp)
    exact ⟨a, ha2.mem_iff.1 ha, hr.1⟩
  have hmd' : ∀ a ∈ y.attrs, a.type = [1,2,840,113549,1,9,4] → a.value.bytes = tlv 0 false 4 (env.hash .sha1 data) := by
    intro a ha e
    obtain ⟨x, hx, hr, bb, hv, hm⟩ := hat a ha
    rw [hr] at e
    have e := (attributes_ok h7 x hx).2.2 e
    subst e
    unfold marshal at hm
    rw [mp_empty] at hm
    rw [hv, oct_ok (env.hash .sha1 data) hm]
  have hne : y.attrs.map readAttr ≠ [] := by
    obtain ⟨a, ha, _⟩ := hmd
    intro h
    rw [List.map_eq_nil_iff.1 h] at ha
    cases ha
  refine ⟨.sha1, p, .sha1Rsa, bytes, .inl ⟨rfl, rfl⟩, hfirst, .inl (by show (([1,2,840,113549,1,1,5] : List Nat), _) ∈ _; decide), .inr ⟨hne, ?_, attributes_read hw (hfresh y hy) rfl h10⟩, h6 k bytes y.sig rfl h11⟩
  classical
  cases hf : (y.attrs.map readAttr).find? (fun a => decide (a.type = [1,2,840,113549,1,9,4])) with
  | none =>
    obtain ⟨a, ha, e⟩ := hmd
    exact absurd (List.find?_eq_none.1 hf (readAttr a) (List.mem_map.2 ⟨a, ha, rfl⟩)) (by simp [readAttr, e])
  | some a =>
    have hq := (find_iff (P := fun a : P7AttrV => a.type = [1,2,840,113549,1,9,4]) (fun q => by simp)).1 hf
    have hq2 := hq
    obtain ⟨pre, post, e1, e2, _⟩ := hq2
    obtain ⟨a', ha', rfl⟩ := List.mem_map.1 (show a ∈ y.attrs.map readAttr by rw [e1]; simp)
    have hv := hmd' a' ha' e2
    refine ⟨_, tlv 0 false 4 (env.hash .sha1 data), [], hq, ?_, ?_⟩
    · have hlen : a'.value.bytes.length < 2 ^ 31 := by
        refine hb2 _ hs (readAttr a') ?_
        exact List.mem_map.2 ⟨a', ha', rfl⟩
      rw [hv] at hlen
      have h4 : (env.hash .sha1 data).length < 2 ^ 31 := Nat.lt_of_le_of_lt (tlv_length 0 4 false (env.hash .sha1 data)) hlen
      exact tlv_elem (by decide) (by decide) h4
    · rw [List.append_nil]; exact hv

end P7S
end Apk
