import Verif.Proofs.P7Message
import Verif.Props.Keys
import Verif.Props.Marshal
/-! # Verification of messages -/
namespace Apk
namespace P7M

/-! ## Encodings of attributes -/

theorem encodeBase128_head (n : Nat) : ∃ (x : UInt8) (p : Bytes), encodeBase128 n = x :: p ∧ x.toNat ≠ 128 := by
  have hs := encodeBase128_spec n
  have e : (encodeBase128 n).length = base128Len n := by unfold encodeBase128; exact base128Bytes_length _ _
  have ⟨_, _, h3⟩ := base128Len_spec n
  generalize encodeBase128 n = b at hs e
  cases hs with
  | @last x hx => exact ⟨x, [], rfl, by omega⟩
  | @more x k p hx hk =>
    refine ⟨x, p, rfl, ?_⟩
    intro h
    rw [h] at h3
    have hlt := hk.lt
    have hlen : base128Len ((128 - 128) * 128 ^ p.length + k) - 1 = p.length := by
      rw [h] at e
      rw [← e]; simp
    rw [hlen] at h3
    by_cases h1 : 1 ≤ k
    · have := h3 (by omega); omega
    · have hz : k = 0 := by omega
      subst hz
      have : base128Len ((128 - 128) * 128 ^ p.length + 0) = 1 := by simp [base128Len]
      rw [this] at hlen
      have := hk.pos
      omega

theorem derArcs_of_encode : ∀ ns : List Nat, DerArcs ns ((ns.map encodeBase128).flatten)
  | [] => .nil
  | n :: ns => by
    obtain ⟨x, p, h1, h2⟩ := encodeBase128_head n
    have hs := encodeBase128_spec n
    rw [List.map_cons, List.flatten_cons, h1]
    rw [h1] at hs
    exact .cons hs h2 (derArcs_of_encode ns)

theorem tlv_der {cls tag : Nat} {con : Bool} {c : Bytes} (hc : cls < 4) (ht : tag < 31) (hl : c.length < 2 ^ 63) : DerElem cls tag con c (tlv cls con tag c) := by
  unfold tlv encodeTagAndLength
  simp only
  rw [if_neg (by omega), Nat.mod_eq_of_lt hc]
  refine ⟨_, _, hc, ht, ?_, encodeLength_der hl, rfl⟩
  cases con <;> simp <;> omega

theorem derElem_unique {cls tag : Nat} {con : Bool} {c b b' : Bytes} (h : DerElem cls tag con c b) (h' : DerElem cls tag con c b') : b = b' := by
  obtain ⟨x, l, _, _, h3, h4, rfl⟩ := h
  obtain ⟨x', l', _, _, h3', h4', rfl⟩ := h'
  rw [UInt8.toNat_inj.1 (h3.trans h3'.symm), h4.unique h4']

theorem derOid_unique {oid : List Nat} {b b' : Bytes} (h : DerOid oid b) (h' : DerOid oid b') : b = b' := by
  obtain ⟨x, y, arcs, c, rfl, _, _, h3, h4⟩ := h
  obtain ⟨x', y', arcs', c', e, _, _, h3', h4'⟩ := h'
  obtain ⟨rfl, rfl, rfl⟩ : x = x' ∧ y = y' ∧ arcs = arcs' := by
    injection e with e1 e2; injection e2 with e2 e3; exact ⟨e1, e2, e3⟩
  rw [← derArcs_encode h3] at h4
  rw [← derArcs_encode h3'] at h4'
  exact derElem_unique h4 h4'

theorem derAttrV_unique {a : P7AttrV} {b b' : Bytes} (h : DerAttrV a b) (h' : DerAttrV a b') : b = b' := by
  obtain ⟨o, h1, h2⟩ := h
  obtain ⟨o', h1', h2'⟩ := h'
  rw [derOid_unique h1 h1'] at h2
  exact derElem_unique h2 h2'

theorem listRel_unique {α β : Type} {R : α → β → Prop} (hu : ∀ a b b', R a b → R a b' → b = b') : ∀ {l : List α} {bs bs' : List β}, ListRel R l bs → ListRel R l bs' → bs = bs'
  | _, _, _, .nil, .nil => rfl
  | _, _, _, .cons h1 h2, .cons h1' h2' => by rw [hu _ _ _ h1 h1', listRel_unique hu h2 h2']

/-! ## The order of the elements of a SET -/

theorem bytesLe_of_not_lt : ∀ {x y : Bytes}, bytesLt y x = false → BytesLe x y
  | [], y, _ => .inl ⟨y, rfl⟩
  | x :: xs, [], h => by rw [bytesLt] at h; cases h
  | x :: xs, y :: ys, h => by
    rw [bytesLt] at h
    by_cases h1 : y.toNat < x.toNat
    · rw [if_pos h1] at h; cases h
    · rw [if_neg h1] at h
      by_cases h2 : x.toNat < y.toNat
      · exact .inr ⟨[], x, y, xs, ys, rfl, rfl, h2⟩
      · rw [if_neg h2] at h
        obtain rfl : x = y := UInt8.toNat_inj.1 (by omega)
        rcases bytesLe_of_not_lt h with ⟨t, ht⟩ | ⟨p, a, b, s, t, rfl, rfl, hlt⟩
        · exact .inl ⟨t, by rw [List.cons_append, ht]⟩
        · exact .inr ⟨x :: p, a, b, s, t, rfl, rfl, hlt⟩

theorem bytesLt_append : ∀ (p : Bytes) (a b : Bytes), bytesLt (p ++ a) (p ++ b) = bytesLt a b
  | [], a, b => rfl
  | x :: p, a, b => by
    rw [List.cons_append, List.cons_append, bytesLt, if_neg (by omega), if_neg (by omega)]
    exact bytesLt_append p a b

theorem not_lt_of_bytesLe {x y : Bytes} (h : BytesLe x y) : bytesLt y x = false := by
  rcases h with ⟨t, rfl⟩ | ⟨p, a, b, s, t, rfl, rfl, hlt⟩
  · have := bytesLt_append x t []
    rw [List.append_nil] at this
    rw [this]
    cases t <;> rfl
  · rw [bytesLt_append, bytesLt, if_neg (by omega), if_pos hlt]

theorem setInsert_sorted {x : Bytes} : ∀ {l : List Bytes}, l.Pairwise BytesLe → (setInsert x l).Pairwise BytesLe
  | [], _ => by simp [setInsert]
  | y :: ys, h => by
    obtain ⟨h1, h2⟩ := List.pairwise_cons.1 h
    rw [setInsert]
    by_cases hlt : bytesLt y x = true
    · rw [if_pos hlt]
      refine List.pairwise_cons.2 ⟨?_, setInsert_sorted h2⟩
      intro z hz
      have : z = x ∨ z ∈ ys := by
        have hp : (setInsert x ys).Perm (x :: ys) := by
          clear h h1 h2 hlt hz
          induction ys with
          | nil => exact .refl _
          | cons w ws ih =>
            rw [setInsert]
            split
            · exact (ih.cons w).trans (.swap x w ws)
            · exact .refl _
        exact List.mem_cons.1 (hp.mem_iff.1 hz)
      rcases this with rfl | hz
      · refine bytesLe_of_not_lt ?_
        cases hb : bytesLt z y with
        | false => rfl
        | true => have := bytesLt_trans hlt hb; rw [bytesLt_irrefl] at this; cases this
      · exact h1 z hz
    · rw [if_neg hlt]
      have hxy : BytesLe x y := bytesLe_of_not_lt (by simpa using hlt)
      refine List.pairwise_cons.2 ⟨?_, h⟩
      intro z hz
      rcases List.mem_cons.1 hz with rfl | hz
      · exact hxy
      · refine bytesLe_of_not_lt ?_
        have hzy := not_lt_of_bytesLe (h1 z hz)
        cases hb : bytesLt z x with
        | false => rfl
        | true =>
          -- z < x and ¬ y < x, so z < y or z = y... either way a contradiction
          exfalso
          have hyx : bytesLt y x = false := by simpa using hlt
          cases hxy' : bytesLt x y with
          | true => have := bytesLt_trans hb hxy'; rw [hzy] at this; cases this
          | false => have := bytesLt_total hyx hxy'; subst this; rw [hzy] at hb; cases hb

theorem setSort_sorted : ∀ l : List Bytes, (setSort l).Pairwise BytesLe
  | [] => .nil
  | _ :: xs => setInsert_sorted (setSort_sorted xs)

theorem setSort_of_sorted : ∀ {l : List Bytes}, l.Pairwise BytesLe → setSort l = l
  | [], _ => rfl
  | _ :: xs, h => by
    obtain ⟨h1, h2⟩ := List.pairwise_cons.1 h
    rw [setSort, setSort_of_sorted h2]
    cases xs with
    | nil => rfl
    | cons y ys => rw [setInsert, not_lt_of_bytesLe (h1 y (by simp))]; rfl

theorem sorted_unique {l s : List Bytes} (hp : s.Perm l) (hs : s.Pairwise BytesLe) : s = setSort l := by
  rw [← setSort_perm hp, setSort_of_sorted hs]

/-! ## The signed attributes -/

/-- The Go value of an attribute with its value as it was read or made. -/
theorem attr_made (menv : MarEnv) (a : P7AttrV) : makeField menv attributeTy {} a.go =
    (match encodeOid a.type with | .error _ => .error .oid | .ok o => .ok (tlv 0 true 16 (tlv 0 false 6 o ++ rawBytes a.value))) := by
  have hoid : makeField menv .oid (parseMP []) a.type = (match encodeOid a.type with | .error _ => .error .oid | .ok b => .ok (tlv 0 false 6 b)) := by
    refine (Mar.make_leaf (t := .oid) (.inl (by simp [Mar.IsLeaf])) _).trans ?_
    show fieldTagged {} (Ty.omits {} .oid a.type) 6 false (.ok 6) _ = _
    refine (congrArg (fun o => fieldTagged {} o 6 false (.ok 6) _) (Mar.omits_plain .oid a.type)).trans ?_
    cases he : encodeOid a.type <;> rfl
  have hraw : makeField menv .rawValue (parseMP (b!"set")) a.value = .ok (rawBytes a.value) :=
    Mar.make_raw _ (Mar.omits_required (mp := parseMP (b!"set")) (by rfl) (by rfl) _ _)
  refine (Mar.make_struct a.go).trans ?_
  refine (congrArg (fun o => fieldTagged {} o 16 true (.ok 16) _) (Mar.omits_plain attributeTy a.go)).trans ?_
  have hf2 : makeFields menv (.cons (b!"set") .rawValue .nil) (a.value, ()) = .ok (rawBytes a.value) := by
    refine (Mar.makeFields_cons _).trans ?_
    refine (congrArg (fun o => o >>= _) hraw).trans ?_
    refine (congrArg (fun o => o >>= fun bs => Except.ok (rawBytes a.value ++ bs)) (Mar.makeFields_nil (menv := menv) ())).trans ?_
    show Except.ok (rawBytes a.value ++ []) = _
    rw [List.append_nil]
  have hf1 : makeFields menv (.cons [] .oid (.cons (b!"set") .rawValue .nil)) (a.type, a.value, ()) =
      (match encodeOid a.type with | .error _ => .error .oid | .ok o => .ok (tlv 0 false 6 o ++ rawBytes a.value)) := by
    refine (Mar.makeFields_cons _).trans ?_
    refine (congrArg (fun o => o >>= _) hoid).trans ?_
    cases he : encodeOid a.type with
    | error e => rfl
    | ok o => exact congrArg (fun x => x >>= fun bs => Except.ok (tlv 0 false 6 o ++ bs)) hf2
  show (makeFields menv (.cons [] .oid (.cons (b!"set") .rawValue .nil)) (a.type, a.value, ()) >>= fun b => Except.ok (tlv 0 true 16 b)) = _
  rw [hf1]
  cases encodeOid a.type <;> rfl

/-- The encoding of the set of attributes, given the encodings of its elements. -/
theorem attrSet_made {menv : MarEnv} (hs : menv.sortSets = true) {attrs : List P7AttrV} {encs : List Bytes}
    (h : makeElems (makeField menv attributeTy {}) (attrs.map P7AttrV.go) = .ok encs) :
    marshal menv attrSetTy (([] : Bytes), attrs.map P7AttrV.go, ()) = .ok (tlv 0 true 16 (tlv 0 true 17 (encodeSet encs))) := by
  have hsl : ∀ l : (Ty.slice false attributeTy).interp, makeField menv (.slice false attributeTy) (parseMP (b!"set")) l =
      ((makeElems (makeField menv attributeTy {}) l).map encodeSet).map (tlv 0 true 17) := by
    intro l
    rw [Mar.make_slice, Mar.omits_required (mp := parseMP (b!"set")) (by rfl) (by rfl), hs]
    cases makeElems (makeField menv attributeTy {}) l <;> rfl
  refine (congrArg (fun mp => makeField menv attrSetTy mp (([] : Bytes), attrs.map P7AttrV.go, ())) parseMP_nil).trans ?_
  refine (Mar.make_struct (raw := false) (fs := .cons (b!"set") (.slice false attributeTy) .nil) (([] : Bytes), attrs.map P7AttrV.go, ())).trans ?_
  refine (congrArg (fun o => fieldTagged {} o 16 true (.ok 16) _) (Mar.omits_plain attrSetTy _)).trans ?_
  have hf1 : makeFields menv (.cons (b!"set") (.slice false attributeTy) .nil) (attrs.map P7AttrV.go, ()) = .ok (tlv 0 true 17 (encodeSet encs)) := by
    refine (Mar.makeFields_cons _).trans ?_
    have hsl' : makeField menv (.slice false attributeTy) (parseMP (b!"set")) (attrs.map P7AttrV.go) = .ok (tlv 0 true 17 (encodeSet encs)) := by
      refine (hsl _).trans ?_
      exact congrArg (fun o => (Except.map encodeSet o).map (tlv 0 true 17)) h
    refine (congrArg (fun o => o >>= _) hsl').trans ?_
    refine (congrArg (fun o => o >>= fun bs => Except.ok (tlv 0 true 17 (encodeSet encs) ++ bs)) (Mar.makeFields_nil (menv := menv) ())).trans ?_
    show Except.ok (tlv 0 true 17 (encodeSet encs) ++ []) = _
    rw [List.append_nil]
  show (makeFields menv (.cons (b!"set") (.slice false attributeTy) .nil) (attrs.map P7AttrV.go, ()) >>= fun b => Except.ok (tlv 0 true 16 b)) = _
  rw [hf1]
  rfl

/-- The set of attributes is what is left without the outer header. -/
theorem attributes_made {env : P7Env} {attrs : List P7AttrV} {encs : List Bytes}
    (h : makeElems (makeField env.mar attributeTy {}) (attrs.map P7AttrV.go) = .ok encs) (hl : (tlv 0 true 17 (encodeSet encs)).length < 2 ^ 31) :
    marshalAttributes env attrs = .ok (some (tlv 0 true 17 (encodeSet encs))) := by
  have hr := reads_any (env := env.toAsnEnv) (tlv_elem (cls := 0) (tag := 16) (con := true) (by decide) (by decide) hl) []
  rw [List.append_nil] at hr
  unfold marshalAttributes
  rw [attrSet_made rfl h]
  simp only
  rw [(C54_accepts_exactly_the_grammar _ _ _ _ _).2 hr]

theorem flatten_length_perm {l l' : List Bytes} (h : l.Perm l') : l.flatten.length = l'.flatten.length := h.flatten.length_eq

/-- Attributes that can be encoded: their encodings. -/
theorem elems_made (menv : MarEnv) : ∀ {attrs : List P7AttrV}, (∀ a ∈ attrs, AttrWF a.attr) → ∀ {body : Bytes}, marshalAttrList (attrs.map P7AttrV.attr) = some body →
    body.length < 2 ^ 63 →
    ∃ encs, makeElems (makeField menv attributeTy {}) (attrs.map P7AttrV.go) = .ok encs ∧ ListRel DerAttrV attrs encs ∧ body = encs.flatten
  | [], _, body, hb, _ => by
    cases hb
    exact ⟨[], rfl, .nil, rfl⟩
  | a :: as, h, body, hb, hl => by
    obtain ⟨⟨c, hc⟩, cls, tag, con, he⟩ := h a (by simp)
    obtain ⟨o, h1, h2⟩ := encodeOid_valid (oidContents_valid hc)
    have h1 : encodeOid a.type = .ok o := h1
    have he : Elem cls tag con a.value.bytes a.value.full := he
    have hr : rawBytes a.value = a.value.full := by rw [rawBytes, if_pos he.ne]
    have hm : marshalAttr a.attr = some (tlv 0 true 16 (tlv 0 false 6 o ++ a.value.full)) := by
      unfold marshalAttr
      rw [show encodeOid a.attr.type = .ok o from h1]
      rfl
    rw [List.map_cons, marshalAttrList, hm] at hb
    cases hm2 : marshalAttrList (as.map P7AttrV.attr) with
    | none => rw [hm2] at hb; cases hb
    | some body' =>
      rw [hm2] at hb
      have hb := Option.some.inj hb
      subst hb
      rw [List.length_append] at hl
      obtain ⟨encs, i1, i2, rfl⟩ := elems_made menv (fun x hx => h x (List.mem_cons_of_mem _ hx)) hm2 (by omega)
      have hmk := attr_made menv a
      rw [h1, hr] at hmk
      refine ⟨_ :: encs, ?_, .cons ?_ i2, rfl⟩
      · rw [List.map_cons, makeElems, hmk, i1]; rfl
      · have l1 := tlv_length 0 16 true (tlv 0 false 6 o ++ a.value.full)
        have l2 := tlv_length 0 6 false o
        rw [List.length_append] at l1
        refine ⟨tlv 0 false 6 o, ?_, tlv_der (by decide) (by decide) (by rw [List.length_append]; omega)⟩
        have hd := tlv_der (cls := 0) (tag := 6) (con := false) (c := o) (by decide) (by decide) (by omega)
        clear hmk hm hr i1 i2 hl l1 l2 h
        match ht : a.type, h1, hd with
        | [], h1, _ => rw [encodeOid] at h1; cases h1; all_goals simp
        | [x], h1, _ => rw [encodeOid] at h1; cases h1; all_goals simp
        | x :: y :: arcs, h1, hd =>
          rw [encodeOid] at h1
          by_cases hx : 2 < x ∨ (x < 2 ∧ 40 ≤ y)
          · rw [if_pos hx] at h1; cases h1
          · rw [if_neg hx] at h1
            have h1 := Except.ok.inj h1
            rw [← h1] at hd ⊢
            have := derArcs_of_encode ((x * 40 + y) :: arcs)
            rw [List.map_cons, List.flatten_cons] at this
            exact ⟨x, y, arcs, _, rfl, by omega, by omega, this, hd⟩

/-- What holds of the signer infos of every parsed message. -/
structure InfoWF (s : P7Info) : Prop where
  issuer : s.issuer.full ≠ []
  attrs : ∀ a ∈ s.attrs, AttrWF a.attr
  size : ∃ body, marshalAttrList (s.attrs.map P7AttrV.attr) = some body ∧ (tlv 0 true 17 body).length < 2 ^ 31

theorem attributes_iff {env : P7Env} {s : P7Info} (h : InfoWF s) :
    ∃ b, marshalAttributes env s.attrs = .ok (some b) ∧ ∀ x, DerAttrSet s.attrs x ↔ x = b := by
  obtain ⟨body, h1, h2⟩ := h.size
  have hbl := Nat.lt_of_le_of_lt (tlv_length _ _ _ _) h2
  obtain ⟨encs, i1, i2, rfl⟩ := elems_made env.mar h.attrs h1 (by omega)
  have hlen : (encodeSet encs).length = encs.flatten.length := flatten_length_perm (Mar.setSort_self_perm encs)
  have hl : (tlv 0 true 17 (encodeSet encs)).length < 2 ^ 31 :=
    Nat.lt_of_le_of_lt (tlv_mono (Nat.le_of_eq hlen) hbl) h2
  refine ⟨_, attributes_made i1 hl, ?_⟩
  have hd := tlv_der (cls := 0) (tag := 17) (con := true) (c := encodeSet encs) (by decide) (by decide) (by omega)
  intro x
  constructor
  · rintro ⟨encs', sorted, j1, j2, j3, j4⟩
    rw [listRel_unique (R := DerAttrV) (fun _ _ _ => derAttrV_unique) j1 i2] at j2
    rw [sorted_unique j2 j3] at j4
    exact derElem_unique j4 hd
  · rintro rfl
    exact ⟨encs, setSort encs, i2, Mar.setSort_self_perm encs, setSort_sorted encs, hd⟩

/-! ## Single checks -/

theorem p7HashOf_iff {oid : List Nat} {h : P7Hash} : p7HashOf oid = some h ↔ DigestAlgIs oid h := by
  unfold p7HashOf DigestAlgIs
  by_cases h1 : oid = [1,3,14,3,2,26]
  · subst h1
    rw [if_pos rfl]
    cases h <;> decide
  · rw [if_neg h1]
    by_cases h2 : oid = [2,16,840,1,101,3,4,2,1]
    · subst h2
      rw [if_pos rfl]
      cases h <;> decide
    · rw [if_neg h2]
      simp [h1, h2]

theorem pssAlg_iff {p : PssParams} {g : AlgId} {a : X509Alg} : p7PssAlg p g = some a ↔
    p.hash.params.full = [5, 0] ∧ p.mgf.oid = [1,2,840,113549,1,1,8] ∧ g.oid = p.hash.oid ∧ g.params.full = [5, 0] ∧ p.trailerField = 1 ∧
    ((p.hash.oid = [2,16,840,1,101,3,4,2,1] ∧ p.saltLength = 32 ∧ a = .sha256Pss) ∨ (p.hash.oid = [2,16,840,1,101,3,4,2,2] ∧ p.saltLength = 48 ∧ a = .sha384Pss) ∨
     (p.hash.oid = [2,16,840,1,101,3,4,2,3] ∧ p.saltLength = 64 ∧ a = .sha512Pss)) := by
  unfold p7PssAlg
  by_cases h : p.hash.params.full ≠ [5, 0] ∨ p.mgf.oid ≠ [1,2,840,113549,1,1,8] ∨ g.oid ≠ p.hash.oid ∨ g.params.full ≠ [5, 0] ∨ p.trailerField ≠ 1
  · rw [if_pos h]
    constructor
    · intro h; cases h
    · rintro ⟨h1, h2, h3, h4, h5, _⟩
      rcases h with h | h | h | h | h
      · exact absurd h1 h
      · exact absurd h2 h
      · exact absurd h3 h
      · exact absurd h4 h
      · exact absurd h5 h
  · rw [if_neg h]
    have h1 : p.hash.params.full = [5, 0] := Classical.byContradiction (fun c => h (.inl c))
    have h2 : p.mgf.oid = [1,2,840,113549,1,1,8] := Classical.byContradiction (fun c => h (.inr (.inl c)))
    have h3 : g.oid = p.hash.oid := Classical.byContradiction (fun c => h (.inr (.inr (.inl c))))
    have h4 : g.params.full = [5, 0] := Classical.byContradiction (fun c => h (.inr (.inr (.inr (.inl c)))))
    have h5 : p.trailerField = 1 := Classical.byContradiction (fun c => h (.inr (.inr (.inr (.inr c)))))
    simp only [h1, h2, h3, h4, h5, true_and]
    generalize p.hash.oid = o
    generalize p.saltLength = l
    by_cases c1 : o = [2,16,840,1,101,3,4,2,1] ∧ l = 32
    · rw [if_pos c1]
      obtain ⟨rfl, rfl⟩ := c1
      simp [eq_comm]
    · rw [if_neg c1]
      by_cases c2 : o = [2,16,840,1,101,3,4,2,2] ∧ l = 48
      · rw [if_pos c2]
        obtain ⟨rfl, rfl⟩ := c2
        simp [eq_comm]
      · rw [if_neg c2]
        by_cases c3 : o = [2,16,840,1,101,3,4,2,3] ∧ l = 64
        · rw [if_pos c3]
          obtain ⟨rfl, rfl⟩ := c3
          simp [eq_comm]
        · rw [if_neg c3]
          constructor
          · intro h; cases h
          · rintro (⟨h, h', _⟩ | ⟨h, h', _⟩ | ⟨h, h', _⟩)
            · exact absurd ⟨h, h'⟩ c1
            · exact absurd ⟨h, h'⟩ c2
            · exact absurd ⟨h, h'⟩ c3

theorem pss_iff {env : P7Env} {params : Bytes} {a : X509Alg} :
    (match env.stdPss params with
    | none => none
    | some p =>
      match env.stdAlg p.mgf.params.full with
      | none => none
      | some mgfHash => p7PssAlg p mgfHash) = some a ↔ P7PssIs env params a := by
  unfold P7PssIs
  cases hp : env.stdPss params with
  | none => simp
  | some p =>
    cases hm : env.stdAlg p.mgf.params.full with
    | none =>
      simp only [hm]
      constructor
      · intro h; cases h
      · rintro ⟨p', g, h1, h2, _⟩
        cases h1
        rw [hm] at h2; cases h2
    | some g =>
      simp only [hm]
      rw [pssAlg_iff]
      constructor
      · intro h; exact ⟨p, g, rfl, hm, h⟩
      · rintro ⟨p', g', h1, h2, h⟩
        cases h1
        rw [hm] at h2; cases h2
        exact h

/-- The table of the code, without RSA-PSS, is the table of the specification. -/
theorem sigTable_iff {oid : List Nat} (hne : oid ≠ [1,2,840,113549,1,1,10]) {a : X509Alg} :
    (sigDetails.find? (fun d => decide (oid = d.2.1))).map Prod.fst = some a ↔ (oid, a) ∈ signatureOids := by
  constructor
  · intro h
    cases hf : sigDetails.find? (fun d => decide (oid = d.2.1)) with
    | none => rw [hf] at h; cases h
    | some d =>
      rw [hf] at h
      have hd := List.find?_some hf
      have hm := List.mem_of_find?_eq_some hf
      have hd : oid = d.2.1 := of_decide_eq_true hd
      have ha : d.1 = a := Option.some.inj h
      subst ha
      subst hd
      have key : ∀ d ∈ sigDetails, d.2.1 ≠ [1,2,840,113549,1,1,10] → (d.2.1, d.1) ∈ signatureOids := by decide
      exact key d hm hne
  · intro h
    have key : ∀ q ∈ signatureOids, (sigDetails.find? (fun d => decide (q.1 = d.2.1))).map Prod.fst = some q.2 := by decide
    exact key (oid, a) h

theorem checkAlg_known {env : P7Env} {h : P7Hash} {ai : AlgId} (h1 : ai.oid ≠ [1,2,840,113549,1,1,1]) : checkAlg env h ai = p7SigAlg env ai := by
  unfold checkAlg
  cases p7SigAlg env ai with
  | some a => rfl
  | none => dsimp only; rw [if_neg h1]

theorem checkAlg_iff {env : P7Env} {h : P7Hash} {ai : AlgId} {a : X509Alg} : checkAlg env h ai = some a ↔ SignatureAlgIs env h ai a := by
  unfold SignatureAlgIs
  have hn10 : ∀ a, (([1,2,840,113549,1,1,10] : List Nat), a) ∉ signatureOids := by intro a; cases a <;> decide
  have hn1 : ∀ a, (([1,2,840,113549,1,1,1] : List Nat), a) ∉ signatureOids := by intro a; cases a <;> decide
  by_cases hp : ai.oid = [1,2,840,113549,1,1,10]
  · have hs : p7SigAlg env ai = some a ↔ P7PssIs env ai.params.full a := by
      unfold p7SigAlg
      rw [if_neg (by simp [hp])]
      exact pss_iff
    have hne1 : ai.oid ≠ [1,2,840,113549,1,1,1] := by rw [hp]; decide
    rw [checkAlg_known hne1, hs]
    rw [hp]
    have := hn10 a
    simp [this]
  · have hs : p7SigAlg env ai = (sigDetails.find? (fun d => decide (ai.oid = d.2.1))).map Prod.fst := by
      unfold p7SigAlg
      rw [if_pos hp]
    have hi : p7SigAlg env ai = some a ↔ (ai.oid, a) ∈ signatureOids := by rw [hs]; exact sigTable_iff hp
    by_cases h1 : ai.oid = [1,2,840,113549,1,1,1]
    · have hno : p7SigAlg env ai = none := by rw [hs, h1]; rfl
      unfold checkAlg
      rw [hno]
      dsimp only
      rw [if_pos h1, h1]
      have := hn1 a
      have hr : rsaAlgFor h = some a ↔ (h = .sha1 ∧ a = .sha1Rsa) ∨ (h = .sha256 ∧ a = .sha256Rsa) := by
        cases h <;> cases a <;> decide
      rw [hr]
      simp [this]
    · rw [checkAlg_known h1, hi]
      simp [hp, h1]

theorem rawIssuer_iff {env : CertEnv} {raw issuer : Bytes} (hne : issuer ≠ []) : rawIssuerOf env raw = issuer ↔ IssuerIs env raw issuer := by
  unfold rawIssuerOf IssuerIs
  obtain ⟨r, hr⟩ := unmAll_total env.toAsnEnv certificateTy raw
  rw [hr]
  cases r with
  | none =>
    constructor
    · intro h; exact absurd h.symm hne
    · rintro ⟨a, b, c, d, e, f, g, i, j, k, l, m, n, o, h, _⟩
      have h' := unmAll_iff.2 h
      rw [show unmAll env.toAsnEnv certificateTy raw = _ from h'] at hr
      cases hr
  | some c =>
    have hrd := unmAll_iff.1 hr
    constructor
    · rintro rfl
      obtain ⟨a, ⟨b, c, d, e, f, g, i, j, k, l, m, ⟨⟩⟩, n, o, ⟨⟩⟩ := c
      obtain ⟨g0, nb, na, ⟨⟩⟩ := g
      obtain ⟨j0, ka, kb, ⟨⟩⟩ := j
      exact ⟨a, b, c, d, e, f, _, i, _, k, l, m, n, o, hrd, rfl⟩
    · rintro ⟨a, b, c', d, e, f, g, i, j, k, l, m, n, o, h, rfl⟩
      have := (reads_unique hrd h).1
      subst this
      obtain ⟨g0, nb, na, ⟨⟩⟩ := g
      obtain ⟨j0, ka, kb, ⟨⟩⟩ := j
      rfl

theorem certMatches_iff {env : CertEnv} {s : P7Info} (h : s.issuer.full ≠ []) {c : Cert} : certMatches env s c = true ↔ NamesCert env s c := by
  unfold certMatches NamesCert
  rw [Bool.and_eq_true, decide_eq_true_iff, decide_eq_true_iff, rawIssuer_iff h]
  constructor
  · rintro ⟨h1, h2⟩; exact ⟨h1.symm, h2⟩
  · rintro ⟨h1, h2⟩; exact ⟨h1.symm, h2⟩

theorem find_iff {α : Type} {P : α → Prop} {p : α → Bool} (hp : ∀ x, p x = true ↔ P x) {l : List α} {a : α} : l.find? p = some a ↔ FirstWith P l a := by
  rw [List.find?_eq_some_iff_append]
  unfold FirstWith
  constructor
  · rintro ⟨h1, pre, post, rfl, h2⟩
    refine ⟨pre, post, rfl, (hp a).1 h1, ?_⟩
    intro x hx hP
    have := h2 x hx
    rw [(hp x).2 hP] at this
    simp at this
  · rintro ⟨pre, post, rfl, h1, h2⟩
    refine ⟨(hp a).2 h1, pre, post, rfl, ?_⟩
    intro x hx
    cases hb : p x with
    | false => rfl
    | true => exact absurd ((hp x).1 hb) (h2 x hx)

theorem firstWith_unique {α : Type} {P : α → Prop} {l : List α} {a b : α} (h : FirstWith P l a) (h' : FirstWith P l b) : a = b := by
  classical
  have hp : ∀ x, decide (P x) = true ↔ P x := fun x => decide_eq_true_iff
  have h1 := (find_iff hp).2 h
  have h2 := (find_iff hp).2 h'
  exact Option.some.inj (h1.symm.trans h2)

theorem certFor_iff {env : CertEnv} {s : P7Info} (h : s.issuer.full ≠ []) {certs : List Cert} {c : Cert} :
    p7CertFor env certs s = some c ↔ FirstWith (NamesCert env s) certs c := find_iff (fun _ => certMatches_iff h)

/-- The attribute that is read is the first one of the type. -/
theorem unmAttribute_eq {env : AsnEnv} {t : Ty} {oid : List Nat} : ∀ attrs : List P7AttrV, unmAttribute env t oid attrs =
    (match attrs.find? (fun a => decide (a.type = oid)) with
     | none => .ok (.error .noAttribute)
     | some a => match unmFirst env t a.value.bytes with
      | .error p => .error p
      | .ok none => .ok (.error .badAttribute)
      | .ok (some (v, _)) => .ok (.ok v))
  | [] => rfl
  | a :: as => by
    rw [unmAttribute, List.find?_cons]
    by_cases h : a.type = oid
    · rw [if_pos h, decide_eq_true h]; rfl
    · rw [if_neg h, decide_eq_false h]
      exact unmAttribute_eq as

theorem unmAttribute_total (env : AsnEnv) (t : Ty) (oid : List Nat) (attrs : List P7AttrV) : ∃ r, unmAttribute env t oid attrs = .ok r := by
  rw [unmAttribute_eq]
  cases attrs.find? (fun a => decide (a.type = oid)) with
  | none => exact ⟨_, rfl⟩
  | some a =>
    obtain ⟨r, hr⟩ := unmFirst_total env t a.value.bytes
    dsimp only
    rw [hr]
    cases r with
    | none => exact ⟨_, rfl⟩
    | some q => exact ⟨_, rfl⟩

theorem unmAttribute_iff {env : AsnEnv} {t : Ty} {oid : List Nat} {attrs : List P7AttrV} {v : t.interp} : unmAttribute env t oid attrs = .ok (.ok v) ↔
    ∃ a rest, FirstWith (fun a : P7AttrV => a.type = oid) attrs a ∧ Reads env t {} v a.value.bytes rest := by
  rw [unmAttribute_eq]
  have hp : ∀ x : P7AttrV, decide (x.type = oid) = true ↔ x.type = oid := fun x => decide_eq_true_iff
  cases hf : attrs.find? (fun a => decide (a.type = oid)) with
  | none =>
    constructor
    · intro h; cases h
    · rintro ⟨a, rest, h, _⟩
      rw [(find_iff hp).2 h] at hf; cases hf
  | some a =>
    dsimp only
    obtain ⟨r, hr⟩ := unmFirst_total env t a.value.bytes
    rw [hr]
    cases r with
    | none =>
      constructor
      · intro h; cases h
      · rintro ⟨a', rest, h, h2⟩
        rw [(find_iff hp).2 h] at hf
        cases hf
        rw [unmFirst_iff.2 h2] at hr; cases hr
    | some q =>
      obtain ⟨w, r⟩ := q
      constructor
      · intro h
        have : w = v := Except.ok.inj (Except.ok.inj h)
        subst this
        exact ⟨a, r, (find_iff hp).1 hf, unmFirst_iff.1 hr⟩
      · rintro ⟨a', rest, h, h2⟩
        rw [(find_iff hp).2 h] at hf
        cases hf
        rw [unmFirst_iff.2 h2] at hr
        have := Option.some.inj (Except.ok.inj hr)
        exact congrArg (fun z => Except.ok (Except.ok z)) (congrArg Prod.fst this).symm

theorem octetsAttr_iff {env : AsnEnv} {oid : List Nat} {attrs : List P7AttrV} {x : Bytes} :
    unmAttribute env .octets oid attrs = .ok (.ok x) ↔ OctetsAttr attrs oid x := by
  refine unmAttribute_iff.trans ?_
  constructor
  · rintro ⟨a, r, h1, h2⟩
    obtain ⟨o, h3, h4⟩ := reads_octets_iff.1 h2
    exact ⟨a, o, r, h1, h3, h4⟩
  · rintro ⟨a, o, r, h1, h3, h4⟩
    exact ⟨a, r, h1, reads_octets_iff.2 ⟨o, h3, h4⟩⟩

/-! ## Verify -/

theorem signedAttributes_iff {env : P7Env} {m : P7Msg} {h : P7Hash} {s : P7Info} (hs : InfoWF s) (digest : Bytes) {b : Bytes} :
    signedAttributes env m h s digest = .ok (.ok b) ↔ digest = env.hash h m.content ∧ DerAttrSet s.attrs b := by
  unfold signedAttributes
  by_cases hd : digest = env.hash h m.content
  · rw [if_neg (fun c => c hd)]
    obtain ⟨x, hx, hu⟩ := attributes_iff (env := env) hs
    rw [hx, hu]
    constructor
    · intro h; exact ⟨hd, (Except.ok.inj (Except.ok.inj h)).symm⟩
    · rintro ⟨_, h⟩; rw [h]
  · rw [if_pos hd]
    constructor
    · intro h; cases h
    · rintro ⟨h, _⟩; exact absurd h hd

theorem signedBytes_iff {env : P7Env} {m : P7Msg} {h : P7Hash} {s : P7Info} (hs : InfoWF s) {b : Bytes} : signedBytes env m h s = .ok (.ok b) ↔
    ((s.attrs = [] ∧ b = m.content) ∨
     (s.attrs ≠ [] ∧ OctetsAttr s.attrs [1,2,840,113549,1,9,4] (env.hash h m.content) ∧ DerAttrSet s.attrs b)) := by
  unfold signedBytes
  by_cases ha : s.attrs = []
  · rw [if_pos ha]
    simp [ha, eq_comm]
  · rw [if_neg ha]
    simp only [ha, false_and, false_or, not_false_iff, true_and, ne_eq]
    obtain ⟨r, hr⟩ := unmAttribute_total env.toAsnEnv .octets [1,2,840,113549,1,9,4] s.attrs
    rw [hr]
    cases r with
    | error e =>
      constructor
      · intro h; cases h
      · rintro ⟨h1, _⟩
        rw [octetsAttr_iff.2 h1] at hr; cases hr
    | ok digest =>
      refine (signedAttributes_iff hs digest).trans ?_
      constructor
      · rintro ⟨hd, h⟩
        refine ⟨?_, h⟩
        rw [← hd]; exact octetsAttr_iff.1 hr
      · rintro ⟨h1, h⟩
        refine ⟨?_, h⟩
        rw [octetsAttr_iff.2 h1] at hr
        exact (Except.ok.inj (Except.ok.inj hr)).symm

theorem marshalAttributes_total (env : P7Env) (attrs : List P7AttrV) : ∃ r, marshalAttributes env attrs = .ok r := by
  unfold marshalAttributes
  cases marshal env.mar attrSetTy (([] : Bytes), attrs.map P7AttrV.go, ()) with
  | error e => exact ⟨_, rfl⟩
  | ok b =>
    dsimp only
    obtain ⟨v, r, hu⟩ := C54_unmarshal_total env.toAsnEnv .rawValue b
    rw [hu]
    exact ⟨_, rfl⟩

theorem signedBytes_total (env : P7Env) (m : P7Msg) (h : P7Hash) (s : P7Info) : ∃ r, signedBytes env m h s = .ok r := by
  unfold signedBytes
  by_cases ha : s.attrs = []
  · rw [if_pos ha]; exact ⟨_, rfl⟩
  · rw [if_neg ha]
    obtain ⟨r, hr⟩ := unmAttribute_total env.toAsnEnv .octets [1,2,840,113549,1,9,4] s.attrs
    rw [hr]
    cases r with
    | error e => exact ⟨_, rfl⟩
    | ok digest =>
      show ∃ r, signedAttributes env m h s digest = .ok r
      unfold signedAttributes
      split
      · exact ⟨_, rfl⟩
      · obtain ⟨r, hr⟩ := marshalAttributes_total env s.attrs
        rw [hr]
        cases r <;> exact ⟨_, rfl⟩

theorem verifySigner_total (env : P7Env) (m : P7Msg) (s : P7Info) : ∃ r, verifySigner env m s = .ok r := by
  unfold verifySigner
  cases p7HashOf s.digestAlg.oid with
  | none => exact ⟨_, rfl⟩
  | some h =>
    dsimp only
    obtain ⟨r, hr⟩ := signedBytes_total env m h s
    rw [hr]
    cases r with
    | error e => exact ⟨_, rfl⟩
    | ok b =>
      dsimp only
      cases p7CertFor env.toCertEnv m.certs s with
      | none => exact ⟨_, rfl⟩
      | some c =>
        dsimp only
        cases checkAlg env h s.encAlg with
        | none => exact ⟨_, rfl⟩
        | some a => dsimp only; split <;> exact ⟨_, rfl⟩

theorem verifySigner_iff {env : P7Env} {m : P7Msg} {s : P7Info} (hs : InfoWF s) : verifySigner env m s = .ok (.ok ()) ↔ SignerVerifies env m s := by
  unfold verifySigner SignerVerifies
  cases hh : p7HashOf s.digestAlg.oid with
  | none =>
    constructor
    · intro h; cases h
    · rintro ⟨h, _, _, _, h1, _⟩
      rw [p7HashOf_iff.2 h1] at hh; cases hh
  | some h =>
    dsimp only
    obtain ⟨r, hr⟩ := signedBytes_total env m h s
    rw [hr]
    have uh : ∀ h', DigestAlgIs s.digestAlg.oid h' → h' = h := by
      intro h' hd
      rw [p7HashOf_iff.2 hd] at hh
      exact Option.some.inj hh
    cases r with
    | error e =>
      constructor
      · intro h; cases h
      · rintro ⟨h', _, _, b, h1, _, _, h4, _⟩
        obtain rfl := uh h' h1
        rw [(signedBytes_iff hs).2 h4] at hr; cases hr
    | ok b =>
      dsimp only
      cases hc : p7CertFor env.toCertEnv m.certs s with
      | none =>
        constructor
        · intro h; cases h
        · rintro ⟨h', c, _, _, _, h2, _⟩
          rw [(certFor_iff hs.issuer).2 h2] at hc; cases hc
      | some c =>
        dsimp only
        cases ha : checkAlg env h s.encAlg with
        | none =>
          constructor
          · intro h; cases h
          · rintro ⟨h', _, a, _, h1, _, h3, _⟩
            obtain rfl := uh h' h1
            rw [checkAlg_iff.2 h3] at ha; cases ha
        | some a =>
          dsimp only
          constructor
          · intro hk
            by_cases hv : env.checkSig c a b s.encDigest = true
            · exact ⟨h, c, a, b, p7HashOf_iff.1 hh, (certFor_iff hs.issuer).1 hc, checkAlg_iff.1 ha, (signedBytes_iff hs).1 hr, hv⟩
            · rw [if_neg hv] at hk; cases hk
          · rintro ⟨h', c', a', b', h1, h2, h3, h4, h5⟩
            obtain rfl := uh h' h1
            rw [(certFor_iff hs.issuer).2 h2] at hc
            cases hc
            rw [checkAlg_iff.2 h3] at ha
            cases ha
            rw [(signedBytes_iff hs).2 h4] at hr
            cases hr
            rw [if_pos h5]

theorem verifySigners_total (env : P7Env) (m : P7Msg) : ∀ l, ∃ r, verifySigners env m l = .ok r
  | [] => ⟨_, rfl⟩
  | s :: ss => by
    rw [verifySigners]
    obtain ⟨r, hr⟩ := verifySigner_total env m s
    rw [hr]
    cases r with
    | error e => exact ⟨_, rfl⟩
    | ok u => exact verifySigners_total env m ss

theorem verifySigners_iff {env : P7Env} {m : P7Msg} : ∀ {l : List P7Info}, (∀ s ∈ l, InfoWF s) → (verifySigners env m l = .ok (.ok ()) ↔ ∀ s ∈ l, SignerVerifies env m s)
  | [], _ => by simp [verifySigners]
  | s :: ss, h => by
    have h1 := verifySigner_iff (env := env) (m := m) (h s (by simp))
    have h2 := verifySigners_iff (env := env) (m := m) (fun x hx => h x (List.mem_cons_of_mem _ hx) : ∀ x ∈ ss, InfoWF x)
    rw [verifySigners, List.forall_mem_cons, ← h1, ← h2]
    obtain ⟨r, hr⟩ := verifySigner_total env m s
    rw [hr]
    cases r with
    | error e => simp
    | ok u => simp

theorem verifyMsg_total (env : P7Env) (m : P7Msg) : ∃ r, verifyMsg env m = .ok r := by
  unfold verifyMsg
  split
  · exact ⟨_, rfl⟩
  · exact verifySigners_total _ _ _

theorem verifyMsg_iff {env : P7Env} {m : P7Msg} (h : ∀ s ∈ m.infos, InfoWF s) : verifyMsg env m = .ok (.ok ()) ↔ MessageVerifies env m := by
  unfold verifyMsg MessageVerifies
  by_cases hn : m.infos = []
  · rw [if_pos hn]
    simp [hn]
  · rw [if_neg hn, verifySigners_iff h]
    simp [hn]

/-! ## Parsed messages are well formed -/

theorem reads_infos_issuer {env : AsnEnv} {v : signedDataTy.interp} {b rest : Bytes} (h : Reads env signedDataTy {} v b rest) :
    ∀ s ∈ signedInfos v, s.issuer.full ≠ [] ∧ ∃ i, s.serial = some i := by
  obtain ⟨inner, h⟩ := reads_struct_inv h
  obtain ⟨_, _, h⟩ := (readsAll_cons (v1 := v.2.1) (v2 := v.2.2)).1 h
  obtain ⟨_, _, h⟩ := (readsAll_cons (v1 := v.2.2.1) (v2 := v.2.2.2)).1 h
  obtain ⟨_, _, h⟩ := (readsAll_cons (v1 := v.2.2.2.1) (v2 := v.2.2.2.2)).1 h
  obtain ⟨_, _, h⟩ := (readsAll_cons (v1 := v.2.2.2.2.1) (v2 := v.2.2.2.2.2)).1 h
  obtain ⟨_, _, h⟩ := (readsAll_cons (v1 := v.2.2.2.2.2.1) (v2 := v.2.2.2.2.2.2)).1 h
  obtain ⟨_, h, _⟩ := (readsAll_cons (v1 := v.2.2.2.2.2.2.1) (v2 := v.2.2.2.2.2.2.2)).1 h
  intro s hs
  have hs : s ∈ List.map P7Info.of (v.2.2.2.2.2.2.1 : List signerInfoTy.interp) := hs
  obtain ⟨w, hw, rfl⟩ := List.mem_map.1 hs
  obtain ⟨_, _, hr⟩ := reads_slice_mem h hw
  obtain ⟨i, hi⟩ := signerInfo_serial hr
  refine ⟨?_, i, hi⟩
  obtain ⟨inner, h⟩ := reads_struct_inv hr
  obtain ⟨_, _, h⟩ := (readsAll_cons (v1 := w.2.1) (v2 := w.2.2)).1 h
  obtain ⟨_, h, _⟩ := (readsAll_cons (v1 := w.2.2.1) (v2 := w.2.2.2)).1 h
  rw [fp_empty] at h
  obtain ⟨inner, h⟩ := reads_struct_inv h
  obtain ⟨_, h, _⟩ := (readsAll_cons (v1 := w.2.2.1.2.1) (v2 := w.2.2.1.2.2)).1 h
  rw [fp_empty] at h
  exact (reads_raw_iff.1 h).1.ne

theorem parsed_wf {env : CertEnv} {d : Bytes} {m : P7Msg} (h : parseMsgDer env d = .ok (some m)) : ∀ s ∈ m.infos, InfoWF s ∧ ∃ i, s.serial = some i := by
  intro s hs
  obtain ⟨_, c0, s0, i0, rawCerts, rest, content, inner, version, algs, crls, infos, hci, hsd, hcerts, hcont, hinfos⟩ := message_inv h (List.ne_nil_of_mem hs)
  have e := infosAre_iff.1 hinfos
  have hsd' : Reads env.toAsnEnv signedDataTy {} _ content.bytes rest := hsd
  have h1 := reads_signed_attrs hsd'
  have h2 := signed_attrs_min hsd'
  have h3 := reads_infos_issuer hsd'
  have hm : s ∈ List.map P7Info.of infos := e ▸ hs
  obtain ⟨w, hw, rfl⟩ := List.mem_map.1 hm
  have hsg : (P7Info.of w).signer ∈ infos.map P7Signer.of := by
    rw [signer_of]; exact List.mem_map.2 ⟨w, hw, rfl⟩
  obtain ⟨i1, i2⟩ := h3 (P7Info.of w) hm
  refine ⟨⟨i1, ?_, ?_⟩, i2⟩
  · intro a ha
    exact h1 _ hsg _ (List.mem_map.2 ⟨a, ha, rfl⟩)
  · exact h2 _ hsg

end P7M
end Apk
