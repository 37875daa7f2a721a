import Verif.Proofs.P7Enc
/-! # What `Marshal` writes for messages -/
namespace Apk
namespace P7S
open P7M Mar

theorem mp_empty : parseMP [] = {} := parseMP_nil
theorem mp_default1 : parseMP (b!"default:1") = { dflt := some 1 } := by decide
theorem mp_set : parseMP (b!"set") = { set := true } := by decide
theorem mp_optional : parseMP (b!"optional") = { optional := true } := by decide
theorem mp_opt0 : parseMP (b!"optional,tag:0") = { optional := true, tag := some 0 } := by decide
theorem mp_opt1 : parseMP (b!"optional,tag:1") = { optional := true, tag := some 1 } := by decide
theorem mp_exp0 : parseMP (b!"explicit,optional,tag:0") = { optional := true, explicit := true, tag := some 0 } := by decide
theorem mp_tag1 : parseMP (b!"tag:1") = { tag := some 1 } := by decide

/-! ## Inversion -/

theorem cons_ok {menv : MarEnv} {tag : Bytes} {t : Ty} {fs : Fields} (v : t.interp) (vs : fs.interp) {b : Bytes}
    (h : makeFields menv (.cons tag t fs) ((v, vs) : t.interp × fs.interp) = .ok b) :
    ∃ x xs, makeField menv t (parseMP tag) v = .ok x ∧ makeFields menv fs vs = .ok xs ∧ b = x ++ xs := by
  have h := (makeFields_cons _).symm.trans h
  obtain ⟨x, hx, h⟩ := bind_ok h
  obtain ⟨xs, hxs, h⟩ := bind_ok h
  exact ⟨x, xs, hx, hxs, (Except.ok.inj h).symm⟩

theorem nil_ok {menv : MarEnv} (v : Fields.nil.interp) {b : Bytes} (h : makeFields menv .nil v = .ok b) : b = [] :=
  (Except.ok.inj ((makeFields_nil v).symm.trans h)).symm

theorem struct_ok {menv : MarEnv} {fs : Fields} (raw : Bytes) (v : fs.interp) {b : Bytes} (h : makeField menv (.struct false fs) {} ((raw, v) : Bytes × fs.interp) = .ok b) :
    ∃ c, makeFields menv fs v = .ok c ∧ b = tlv 0 true 16 c := by
  rcases fieldTagged_ok ((make_struct _).symm.trans h) with ⟨h1, _⟩ | ⟨_, t, t', c, _, _, e1, hset, hc, rfl⟩
  · exact absurd ((omits_plain _ _).symm.trans h1) (by simp)
  · cases e1
    rcases hset with ⟨h1, _⟩ | ⟨_, rfl⟩
    · cases h1
    · exact ⟨c, hc, rfl⟩

theorem oid_ok {menv : MarEnv} (v : List Nat) {b : Bytes} (h : makeField menv .oid {} v = .ok b) : ∃ o, encodeOid v = .ok o ∧ b = tlv 0 false 6 o := by
  have h := (make_leaf (t := .oid) (.inl (by simp [IsLeaf])) v).symm.trans h
  rcases fieldTagged_ok h with ⟨h1, _⟩ | ⟨_, t, t', c, _, _, e1, hset, hc, rfl⟩
  · exact absurd ((omits_plain _ _).symm.trans h1) (by simp)
  · cases e1
    rcases hset with ⟨h1, _⟩ | ⟨_, rfl⟩
    · cases h1
    · cases he : encodeOid v with
      | error e => rw [he] at hc; cases hc
      | ok o => rw [he] at hc; cases hc; exact ⟨_, rfl, rfl⟩

theorem int_ok {menv : MarEnv} {mp : MP} (hm : mp = {} ∨ mp = { dflt := some 1 }) (v : Int) {b : Bytes} (h : makeField menv .int mp v = .ok b) :
    b = tlv 0 false 2 (encodeInt64 v) := by
  have h := (make_leaf (t := .int) (.inl (by simp [IsLeaf])) v).symm.trans h
  rcases fieldTagged_ok h with ⟨h1, _⟩ | ⟨_, t, t', c, _, _, e1, hset, hc, rfl⟩
  · exact absurd ((omits_required (t := .int) (mp := mp) (v := v) (by rcases hm with rfl | rfl <;> rfl) (by rcases hm with rfl | rfl <;> rfl)).symm.trans h1) (by simp)
  · cases e1
    cases hc
    rcases hset with ⟨h1, h2, _⟩ | ⟨_, rfl⟩
    · cases h2
    · rcases hm with rfl | rfl <;> rfl

theorem big_ok {menv : MarEnv} (v : Int) {b : Bytes} (h : makeField menv .bigInt {} (some v : Option Int) = .ok b) : b = tlv 0 false 2 (encodeBigInt v) := by
  have h := (make_leaf (t := .bigInt) (.inl (by simp [IsLeaf])) (some v : Option Int)).symm.trans h
  rcases fieldTagged_ok h with ⟨h1, _⟩ | ⟨_, t, t', c, _, _, e1, hset, hc, rfl⟩
  · exact absurd ((omits_plain _ _).symm.trans h1) (by simp)
  · cases e1
    cases hc
    rcases hset with ⟨h1, _⟩ | ⟨_, rfl⟩
    · cases h1
    · rfl

theorem oct_ok {menv : MarEnv} (v : Bytes) {b : Bytes} (h : makeField menv .octets {} v = .ok b) : b = tlv 0 false 4 v := by
  have h := (make_leaf (t := .octets) (.inl (by simp [IsLeaf])) v).symm.trans h
  rcases fieldTagged_ok h with ⟨h1, _⟩ | ⟨_, t, t', c, _, _, e1, hset, hc, rfl⟩
  · exact absurd ((omits_plain _ _).symm.trans h1) (by simp)
  · cases e1
    cases hc
    rcases hset with ⟨h1, _⟩ | ⟨_, rfl⟩
    · cases h1
    · rfl

theorem raw_ok {menv : MarEnv} {mp : MP} (v : RawVal) {b : Bytes} (h : makeField menv .rawValue mp v = .ok b) :
    (Ty.omits mp .rawValue v = true ∧ b = []) ∨ (Ty.omits mp .rawValue v = false ∧ b = rawBytes v) := by
  have h : (if Ty.omits mp .rawValue v then Except.ok [] else Except.ok (rawBytes v) : Except MErr Bytes) = .ok b := (make_leaf (t := .rawValue) (.inr rfl) v).symm.trans h
  cases ho : Ty.omits mp .rawValue v with
  | true => rw [ho, if_pos rfl] at h; cases h; exact .inl ⟨rfl, rfl⟩
  | false => rw [ho, if_neg (by simp)] at h; cases h; exact .inr ⟨rfl, rfl⟩

theorem set_ok {menv : MarEnv} (hs : menv.sortSets = true) {e : Ty} (v : List e.interp) {b : Bytes} (h : makeField menv (.slice false e) { set := true } v = .ok b) :
    ∃ encs, makeElems (makeField menv e {}) v = .ok encs ∧ b = tlv 0 true 17 (encodeSet encs) := by
  rcases fieldTagged_ok ((make_slice (s := false) (e := e) v).symm.trans h) with ⟨h1, _⟩ | ⟨_, t, t', c, _, _, e1, hset, hc, rfl⟩
  · exact absurd ((omits_required (mp := { set := true }) rfl rfl (.slice false e) v).symm.trans h1) (by simp)
  · have e1 := Except.ok.inj e1
    rcases hset with ⟨_, _, rfl⟩ | ⟨h1, _⟩
    · cases he : makeElems (makeField menv e {}) v with
      | error er => rw [he] at hc; cases hc
      | ok encs =>
        rw [he] at hc
        have hc := Except.ok.inj hc
        have h17 : (menv.sortSets && decide ((17 : Int) = 17)) = true := by rw [hs]; rfl
        dsimp only at hc
        rw [if_pos h17] at hc
        subst hc
        exact ⟨encs, rfl, rfl⟩
    · cases h1

theorem opt_ok {menv : MarEnv} {e : Ty} {k : Nat} (v : List e.interp) {b : Bytes}
    (h : makeField menv (.slice false e) { optional := true, tag := some (k : Int) } v = .ok b) :
    (v = [] ∧ b = []) ∨ ∃ encs, makeElems (makeField menv e {}) v = .ok encs ∧ b = tlv 2 true k encs.flatten := by
  have h := (make_slice (s := false) (e := e) v).symm.trans h
  rcases fieldTagged_ok h with ⟨h1, rfl⟩ | ⟨_, t, t', c, _, _, e1, hset, hc, rfl⟩
  · left
    have : AbsentValue ({ optional := true, tag := some (k : Int) } : FP) (.slice false e) v :=
      omits_absent (mp := { optional := true, tag := some (k : Int) }) h1
    exact ⟨this, rfl⟩
  · right
    cases e1
    rcases hset with ⟨h1, _⟩ | ⟨_, rfl⟩
    · cases h1
    · cases he : makeElems (makeField menv e {}) v with
      | error er => rw [he] at hc; cases hc
      | ok encs =>
        rw [he] at hc
        have hc := Except.ok.inj hc
        have h16 : ¬ ((menv.sortSets && decide (((if (false = true) then 17 else 16) : Int) = 17)) = true) := by simp
        dsimp only at hc
        rw [if_neg h16] at hc
        subst hc
        refine ⟨encs, rfl, ?_⟩
        show encodeHeader 2 (k : Int) _ true ++ _ = _
        rw [encodeHeader, if_neg (by omega)]
        rfl

/-! ## The parts of a message -/

theorem oidElem_written {oid : List Nat} (hv : ValidOid oid) {o : Bytes} (h : encodeOid oid = .ok o) (hl : o.length < 2 ^ 31) : OidElem oid (tlv 0 false 6 o) := by
  obtain ⟨o', h1, h2⟩ := oid_contents hv
  rw [h] at h1; cases h1
  exact ⟨o, h2, tlv_elem (by decide) (by decide) hl⟩

theorem intElem_written {i : Int} (hi : IsInt64 i) : IntElem i (tlv 0 false 2 (encodeInt64 i)) := by
  obtain ⟨h1, h2, h3⟩ := encodeInt64_spec hi
  exact ⟨_, h1, h3, tlv_elem (by decide) (by decide) (by omega)⟩

theorem bigElem_written {i : Int} (hl : (encodeBigInt i).length < 2 ^ 31) : IntElem i (tlv 0 false 2 (encodeBigInt i)) := by
  obtain ⟨h1, h3⟩ := encodeBigInt_spec i
  exact ⟨_, h1, h3, tlv_elem (by decide) (by decide) hl⟩

theorem derOid_written {oid : List Nat} {o : Bytes} (h : encodeOid oid = .ok o) (hl : o.length < 2 ^ 63) : DerOid oid (tlv 0 false 6 o) := by
  have hd := tlv_der (cls := 0) (tag := 6) (con := false) (c := o) (by decide) (by decide) hl
  match oid, h with
  | [], h => rw [encodeOid] at h; cases h; all_goals simp
  | [x], h => rw [encodeOid] at h; cases h; all_goals simp
  | x :: y :: arcs, h =>
    rw [encodeOid] at h
    by_cases hx : 2 < x ∨ (x < 2 ∧ 40 ≤ y)
    · rw [if_pos hx] at h; cases h
    · rw [if_neg hx] at h
      have h := Except.ok.inj h
      rw [← h] at hd ⊢
      have := derArcs_of_encode ((x * 40 + y) :: arcs)
      rw [List.map_cons, List.flatten_cons] at this
      exact ⟨x, y, arcs, _, rfl, by omega, by omega, this, hd⟩

theorem alg_written {menv : MarEnv} {oid : List Nat} (hv : ValidOid oid) {b : Bytes} (h : makeField menv algIdTy {} (AlgId.go ⟨oid, {}⟩) = .ok b) (hl : b.length < 2 ^ 31) :
    AlgEncV ⟨oid, {}⟩ b := by
  obtain ⟨c, h', rfl⟩ := struct_ok (fs := .cons [] .oid (.cons (b!"optional") .rawValue .nil)) [] (oid, ({} : RawVal), ()) h
  obtain ⟨x, xs, h1, h2, rfl⟩ := cons_ok (t := .oid) (fs := .cons (b!"optional") .rawValue .nil) oid (({} : RawVal), ()) h'
  obtain ⟨y, ys, h3, h4, rfl⟩ := cons_ok (t := .rawValue) (fs := .nil) ({} : RawVal) () h2
  obtain rfl := nil_ok _ h4
  rw [mp_empty] at h1
  rw [mp_optional] at h3
  obtain ⟨o, h5, rfl⟩ := oid_ok _ h1
  have hy : y = [] := by
    rcases raw_ok _ h3 with ⟨_, h⟩ | ⟨h, _⟩
    · exact h
    · have : Ty.omits { optional := true } .rawValue ({} : RawVal) = true := by decide
      rw [this] at h; cases h
  subst hy
  rw [List.append_nil, List.append_nil] at hl ⊢
  have l1 := tlv_length 0 16 true (tlv 0 false 6 o)
  have l2 := tlv_length 0 6 false o
  exact ⟨_, oidElem_written hv h5 (by omega), .inl ⟨rfl, tlv_elem (by decide) (by decide) (by omega)⟩⟩

/-- The attribute as it is read. -/
def readAttr (a : P7AttrV) : P7AttrV := ⟨a.type, ⟨0, 17, true, a.value.bytes, tlv 0 true 17 a.value.bytes⟩⟩

/-- An attribute as it is made. -/
def Fresh (a : P7AttrV) : Prop := ValidOid a.type ∧ a.value = ⟨0, 17, true, a.value.bytes, []⟩

theorem fresh_raw {a : P7AttrV} (h : Fresh a) : rawBytes a.value = tlv 0 true 17 a.value.bytes := by
  rw [h.2]; rfl

theorem attr_bytes {menv : MarEnv} {a : P7AttrV} (ha : Fresh a) {b : Bytes} (h : makeField menv attributeTy {} a.go = .ok b) :
    ∃ o, encodeOid a.type = .ok o ∧ b = tlv 0 true 16 (tlv 0 false 6 o ++ tlv 0 true 17 a.value.bytes) := by
  have h := (attr_made menv a).symm.trans h
  rw [fresh_raw ha] at h
  cases he : encodeOid a.type with
  | error e => rw [he] at h; cases h
  | ok o => rw [he] at h; exact ⟨o, rfl, (Except.ok.inj h).symm⟩

theorem attr_written {menv : MarEnv} {a : P7AttrV} (ha : Fresh a) {b : Bytes} (h : makeField menv attributeTy {} a.go = .ok b) (hl : b.length < 2 ^ 31) :
    AttrEncV (readAttr a) b ∧ DerAttrV (readAttr a) b := by
  obtain ⟨o, he, rfl⟩ := attr_bytes ha h
  have l1 := tlv_length 0 16 true (tlv 0 false 6 o ++ tlv 0 true 17 a.value.bytes)
  have l2 := tlv_length 0 6 false o
  have l3 := tlv_length 0 17 true a.value.bytes
  rw [List.length_append] at l1
  have l4 : (tlv 0 false 6 o ++ tlv 0 true 17 a.value.bytes).length < 2 ^ 31 := by rw [List.length_append]; omega
  have e3 : Elem 0 17 true a.value.bytes (tlv 0 true 17 a.value.bytes) := tlv_elem (by decide) (by decide) (by omega)
  have e4 : DerElem 0 16 true (tlv 0 false 6 o ++ tlv 0 true 17 a.value.bytes) _ := tlv_der (by decide) (by decide) (by omega)
  exact ⟨⟨_, oidElem_written ha.1 he (by omega), e3, tlv_elem (by decide) (by decide) l4⟩, _, derOid_written he (by omega), e4⟩

theorem flatten_mem {bs : List Bytes} {b : Bytes} (h : b ∈ bs) : b.length ≤ bs.flatten.length := elems_len b h

/-- The elements of a slice. -/
theorem elems_written {α β γ : Type} {f : β → Except MErr Bytes} {g : α → β} {h : α → γ} {P : γ → Bytes → Prop} {n : Nat} : ∀ {l : List α} {encs : List Bytes},
    makeElems f (l.map g) = .ok encs → (∀ a ∈ l, ∀ b, f (g a) = .ok b → b.length < n → P (h a) b) → encs.flatten.length < n → ListRel P (l.map h) encs
  | [], encs, hm, _, _ => by cases hm; exact .nil
  | a :: l, encs, hm, hP, hl => by
    rw [List.map_cons, makeElems] at hm
    obtain ⟨x, hx, hm⟩ := bind_ok hm
    obtain ⟨xs, hxs, hm⟩ := bind_ok hm
    cases hm
    rw [List.flatten_cons, List.length_append] at hl
    exact .cons (hP a (by simp) x hx (by omega)) (elems_written hxs (fun a ha => hP a (List.mem_cons_of_mem _ ha)) (by omega))

theorem listEnc_of_rel {α : Type} {P : α → Bytes → Prop} : ∀ {l : List α} {encs : List Bytes}, ListRel P l encs → ListEnc P l encs.flatten
  | _, _, .nil => .nil
  | _, _, .cons h1 h2 => .cons h1 (listEnc_of_rel h2)

theorem attrs_written {menv : MarEnv} {attrs : List P7AttrV} (ha : ∀ a ∈ attrs, Fresh a) {encs : List Bytes}
    (h : makeElems (makeField menv attributeTy {}) (attrs.map P7AttrV.go) = .ok encs) (hl : encs.flatten.length < 2 ^ 31) :
    ListRel AttrEncV (attrs.map readAttr) encs ∧ ListRel DerAttrV (attrs.map readAttr) encs :=
  ⟨elems_written h (fun a h _ hb hl => (attr_written (ha a h) hb hl).1) hl, elems_written h (fun a h _ hb hl => (attr_written (ha a h) hb hl).2) hl⟩

/-- The signer info that `AddSigner` makes, and as it is read. -/
def madeInfo (iss : RawVal) (n : Int) (attrs : List P7AttrV) (sig : Bytes) : P7Info :=
  { issuer := iss, serial := some n, digestAlg := ⟨[1,3,14,3,2,26], {}⟩, attrs := attrs, encAlg := ⟨[1,2,840,113549,1,1,5], {}⟩, encDigest := sig }

theorem sha1_valid : ValidOid [1,3,14,3,2,26] := by
  refine ⟨by decide, by decide, by decide, ?_⟩
  decide
theorem sha1Rsa_valid : ValidOid [1,2,840,113549,1,1,5] := by
  refine ⟨by decide, by decide, by decide, ?_⟩
  decide
theorem data_valid : ValidOid [1,2,840,113549,1,7,1] := by
  refine ⟨by decide, by decide, by decide, ?_⟩
  decide
theorem signed_valid : ValidOid [1,2,840,113549,1,7,2] := by
  refine ⟨by decide, by decide, by decide, ?_⟩
  decide

theorem ias_written {menv : MarEnv} {iss : RawVal} (hi : RawElem iss) {n : Int} {b : Bytes}
    (h : makeField menv iasTy {} (([] : Bytes), (⟨0, 0, false, [], iss.full⟩ : RawVal), (some n : Option Int), ()) = .ok b) (hl : b.length < 2 ^ 31) :
    ∃ ser, IntElem n ser ∧ Elem 0 16 true (iss.full ++ ser) b := by
  obtain ⟨c, h', rfl⟩ := struct_ok (fs := .cons [] .rawValue (.cons [] .bigInt .nil)) [] ((⟨0, 0, false, [], iss.full⟩ : RawVal), (some n : Option Int), ()) h
  obtain ⟨x, xs, h1, h2, rfl⟩ := cons_ok (t := .rawValue) (fs := .cons [] .bigInt .nil) (⟨0, 0, false, [], iss.full⟩ : RawVal) ((some n : Option Int), ()) h'
  obtain ⟨y, ys, h3, h4, rfl⟩ := cons_ok (t := .bigInt) (fs := .nil) (some n : Option Int) () h2
  obtain rfl := nil_ok _ h4
  rw [mp_empty] at h1 h3
  obtain rfl := big_ok _ h3
  have hne : iss.full ≠ [] := Elem.ne hi
  rcases raw_ok _ h1 with ⟨h5, _⟩ | ⟨_, rfl⟩
  · exact absurd ((omits_plain .rawValue (⟨0, 0, false, [], iss.full⟩ : RawVal)).symm.trans h5) (by simp)
  have e : rawBytes ⟨0, 0, false, [], iss.full⟩ = iss.full := by unfold rawBytes; exact if_pos hne
  rw [e, List.append_nil] at hl ⊢
  have l1 := tlv_length 0 16 true (iss.full ++ tlv 0 false 2 (encodeBigInt n))
  have l2 := tlv_length 0 2 false (encodeBigInt n)
  have l3 : (iss.full ++ tlv 0 false 2 (encodeBigInt n)).length = iss.full.length + (tlv 0 false 2 (encodeBigInt n)).length := List.length_append
  exact ⟨_, bigElem_written (by omega), tlv_elem (by decide) (by decide) (by omega)⟩

theorem info_written {menv : MarEnv} {iss : RawVal} (hi : RawElem iss) {n : Int} {attrs : List P7AttrV} (ha : ∀ a ∈ attrs, Fresh a) {sig b : Bytes}
    (h : makeField menv signerInfoTy {} (madeInfo ⟨0, 0, false, [], iss.full⟩ n attrs sig).go = .ok b) (hl : b.length < 2 ^ 31) :
    InfoEnc (madeInfo iss n (attrs.map readAttr) sig) b := by
  obtain ⟨c, h', rfl⟩ := struct_ok (fs := .cons (b!"default:1") .int (.cons [] iasTy (.cons [] algIdTy (.cons (b!"optional,tag:0") (.slice false attributeTy)
    (.cons [] algIdTy (.cons [] .octets (.cons (b!"optional,tag:1") (.slice false attributeTy) .nil))))))) [] _ h
  obtain ⟨x1, r1, h1, h2, rfl⟩ := cons_ok (t := .int) (fs := .cons [] iasTy (.cons [] algIdTy (.cons (b!"optional,tag:0") (.slice false attributeTy)
    (.cons [] algIdTy (.cons [] .octets (.cons (b!"optional,tag:1") (.slice false attributeTy) .nil)))))) _ _ h'
  obtain ⟨x2, r2, h3, h4, rfl⟩ := cons_ok (t := iasTy) (fs := .cons [] algIdTy (.cons (b!"optional,tag:0") (.slice false attributeTy)
    (.cons [] algIdTy (.cons [] .octets (.cons (b!"optional,tag:1") (.slice false attributeTy) .nil))))) _ _ h2
  obtain ⟨x3, r3, h5, h6, rfl⟩ := cons_ok (t := algIdTy) (fs := .cons (b!"optional,tag:0") (.slice false attributeTy)
    (.cons [] algIdTy (.cons [] .octets (.cons (b!"optional,tag:1") (.slice false attributeTy) .nil)))) _ _ h4
  obtain ⟨x4, r4, h7, h8, rfl⟩ := cons_ok (t := .slice false attributeTy) (fs := .cons [] algIdTy (.cons [] .octets (.cons (b!"optional,tag:1") (.slice false attributeTy) .nil))) _ _ h6
  obtain ⟨x5, r5, h9, h10, rfl⟩ := cons_ok (t := algIdTy) (fs := .cons [] .octets (.cons (b!"optional,tag:1") (.slice false attributeTy) .nil)) _ _ h8
  obtain ⟨x6, r6, h11, h12, rfl⟩ := cons_ok (t := .octets) (fs := .cons (b!"optional,tag:1") (.slice false attributeTy) .nil) _ _ h10
  obtain ⟨x7, r7, h13, h14, rfl⟩ := cons_ok (t := .slice false attributeTy) (fs := .nil) _ _ h12
  obtain rfl := nil_ok _ h14
  rw [mp_default1] at h1
  rw [mp_empty] at h3 h5 h9 h11
  rw [mp_opt0] at h7
  rw [mp_opt1] at h13
  have hlen := tlv_length 0 16 true (x1 ++ (x2 ++ (x3 ++ (x4 ++ (x5 ++ (x6 ++ (x7 ++ [])))))))
  have hlen' := Nat.lt_of_le_of_lt hlen hl
  have hl2 := hlen'
  simp only [List.length_append, List.length_nil] at hl2
  obtain rfl : x1 = tlv 0 false 2 (encodeInt64 1) := int_ok (.inr rfl) _ h1
  obtain ⟨ser, i1, i2⟩ := ias_written hi h3 (by omega)
  have i3 := alg_written sha1_valid h5 (by omega)
  have i5 := alg_written sha1Rsa_valid h9 (by omega)
  obtain rfl : x6 = tlv 0 false 4 sig := oct_ok _ h11
  have hs := tlv_length 0 4 false sig
  have i4 : AttrsEncV 0 (attrs.map readAttr) x4 := by
    rcases opt_ok (k := 0) _ h7 with ⟨e, rfl⟩ | ⟨encs, he, rfl⟩
    · have e : attrs = [] := List.map_eq_nil_iff.1 e
      subst e
      exact .inl ⟨rfl, rfl⟩
    · have hl := tlv_length 2 0 true encs.flatten
      exact .inr ⟨_, listEnc_of_rel (attrs_written ha he (by omega)).1, tlv_elem (by decide) (by decide) (by omega)⟩
  have i7 : AttrsEncV 1 [] x7 := by
    rcases opt_ok (k := 1) _ h13 with ⟨e, rfl⟩ | ⟨encs, he, rfl⟩
    · exact .inl ⟨rfl, rfl⟩
    · cases he
      exact .inr ⟨_, .nil, tlv_elem (by decide) (by decide) (by decide)⟩
  rw [List.append_nil] at hlen' ⊢
  have i0 : IsInt64 1 := by constructor <;> decide
  have i6 : Elem 0 4 false sig (tlv 0 false 4 sig) := tlv_elem (by decide) (by decide) (by omega)
  exact ⟨_, n, ser, x2, x3, x4, x5, _, x7, i0, intElem_written i0, hi, rfl, i1, i2, i3, i4, i5, i6, i7, tlv_elem (by decide) (by decide) hlen'⟩

/-! ## The message -/

/-- A ContentInfo with contents. -/
theorem content_bytes {menv : MarEnv} {ct : List Nat} {c b : Bytes}
    (h : makeField menv contentInfoTy {} (([] : Bytes), ct, (⟨2, 0, true, c, []⟩ : RawVal), ()) = .ok b) :
    ∃ o, encodeOid ct = .ok o ∧ b = tlv 0 true 16 (tlv 0 false 6 o ++ tlv 2 true 0 c) := by
  obtain ⟨c', h', rfl⟩ := struct_ok (fs := .cons [] .oid (.cons (b!"explicit,optional,tag:0") .rawValue .nil)) [] (ct, (⟨2, 0, true, c, []⟩ : RawVal), ()) h
  obtain ⟨x, xs, h1, h2, rfl⟩ := cons_ok (t := .oid) (fs := .cons (b!"explicit,optional,tag:0") .rawValue .nil) ct ((⟨2, 0, true, c, []⟩ : RawVal), ()) h'
  obtain ⟨y, ys, h3, h4, rfl⟩ := cons_ok (t := .rawValue) (fs := .nil) (⟨2, 0, true, c, []⟩ : RawVal) () h2
  obtain rfl := nil_ok _ h4
  rw [mp_empty] at h1
  rw [mp_exp0] at h3
  obtain ⟨o, h5, rfl⟩ := oid_ok _ h1
  rcases raw_ok _ h3 with ⟨h6, _⟩ | ⟨_, rfl⟩
  · have : Ty.omits { optional := true, explicit := true, tag := some 0 } .rawValue (⟨2, 0, true, c, []⟩ : RawVal) = false := by rfl
    rw [this] at h6; cases h6
  · rw [List.append_nil]
    exact ⟨o, h5, rfl⟩

/-- A ContentInfo without contents. -/
theorem content_bytes_none {menv : MarEnv} {ct : List Nat} {b : Bytes} (h : makeField menv contentInfoTy {} (([] : Bytes), ct, ({} : RawVal), ()) = .ok b) :
    ∃ o, encodeOid ct = .ok o ∧ b = tlv 0 true 16 (tlv 0 false 6 o) := by
  obtain ⟨c', h', rfl⟩ := struct_ok (fs := .cons [] .oid (.cons (b!"explicit,optional,tag:0") .rawValue .nil)) [] (ct, ({} : RawVal), ()) h
  obtain ⟨x, xs, h1, h2, rfl⟩ := cons_ok (t := .oid) (fs := .cons (b!"explicit,optional,tag:0") .rawValue .nil) ct (({} : RawVal), ()) h'
  obtain ⟨y, ys, h3, h4, rfl⟩ := cons_ok (t := .rawValue) (fs := .nil) ({} : RawVal) () h2
  obtain rfl := nil_ok _ h4
  rw [mp_empty] at h1
  rw [mp_exp0] at h3
  obtain ⟨o, h5, rfl⟩ := oid_ok _ h1
  rcases raw_ok _ h3 with ⟨_, rfl⟩ | ⟨h6, _⟩
  · exact ⟨o, h5, by rw [List.append_nil, List.append_nil]⟩
  · have : Ty.omits { optional := true, explicit := true, tag := some 0 } .rawValue ({} : RawVal) = true := by decide
    rw [this] at h6; cases h6

/-- The contents of a message, or none (a detached signature). -/
def contentVal : Option Bytes → RawVal
  | some x => ⟨2, 0, true, tlv 0 false 4 x, []⟩
  | none => {}

theorem content_written {menv : MarEnv} {ct : List Nat} (hv : ValidOid ct) {x : Option Bytes} {b : Bytes}
    (h : makeField menv contentInfoTy {} (([] : Bytes), ct, contentVal x, ()) = .ok b) (hl : b.length < 2 ^ 31) : ContentEnc ct x b := by
  cases x with
  | none =>
    obtain ⟨o, h1, rfl⟩ := content_bytes_none h
    have l1 := tlv_length 0 16 true (tlv 0 false 6 o)
    have l2 := tlv_length 0 6 false o
    exact ⟨_, oidElem_written hv h1 (by omega), .inl ⟨rfl, tlv_elem (by decide) (by decide) (by omega)⟩⟩
  | some x =>
    obtain ⟨o, h1, rfl⟩ := content_bytes h
    have l1 := tlv_length 0 16 true (tlv 0 false 6 o ++ tlv 2 true 0 (tlv 0 false 4 x))
    have l2 := tlv_length 0 6 false o
    have l3 := tlv_length 2 0 true (tlv 0 false 4 x)
    have l4 := tlv_length 0 4 false x
    have l5 : (tlv 0 false 6 o ++ tlv 2 true 0 (tlv 0 false 4 x)).length = (tlv 0 false 6 o).length + (tlv 2 true 0 (tlv 0 false 4 x)).length := List.length_append
    exact ⟨_, oidElem_written hv h1 (by omega), .inr ⟨x, _, _, rfl, tlv_elem (by decide) (by decide) (by omega), tlv_elem (by decide) (by decide) (by omega),
      tlv_elem (by decide) (by decide) (by omega)⟩⟩

/-- The certificates. -/
theorem certs_ok {menv : MarEnv} {c b : Bytes} (hc : c.length < 2 ^ 31)
    (h : makeField menv rawCertsTy { optional := true, tag := some 0 } ((certsRaw c, ()) : Bytes × Unit) = .ok b) : b = tlv 2 true 0 c := by
  have hd : DerHeader ⟨2, 0, c.length, true⟩ (encodeHeader 2 0 c.length true) := header_der (tag := 0) (by decide) (by decide) (by decide) hc
  have e : certsRaw c = encodeHeader 2 0 c.length true ++ c := by
    unfold certsRaw rawBytes
    exact if_neg (by simp)
  have hne : certsRaw c ≠ [] := by
    rw [e]
    intro h
    exact header_ne hd (List.append_eq_nil_iff.1 h).1
  have hst : stripHeader (certsRaw c) = c := by rw [e]; exact stripHeader_of hd
  rcases fieldTagged_ok ((make_struct (raw := true) (fs := .nil) ((certsRaw c, ()) : Bytes × Unit)).symm.trans h) with ⟨h1, _⟩ | ⟨_, t, t', c', _, _, e1, hset, hc', rfl⟩
  · have : AbsentValue ({ optional := true, tag := some 0 } : FP) (.struct true .nil) ((certsRaw c, ()) : Bytes × Unit) :=
      omits_absent (mp := { optional := true, tag := some 0 }) h1
    have this : ((certsRaw c, ()) : Bytes × Unit) = ([], ()) := this
    exact absurd (congrArg Prod.fst this) hne
  · have hif : (true && decide (certsRaw c ≠ [])) = true := by simp [hne]
    dsimp only at hc'
    rw [if_pos hif, hst] at hc'
    cases hc'
    cases e1
    rcases hset with ⟨h1, _⟩ | ⟨_, rfl⟩
    · cases h1
    · rfl

theorem crls_ok {menv : MarEnv} {b : Bytes} (h : makeField menv (.slice false certListTy) { optional := true, tag := some 1 } ([] : List certListTy.interp) = .ok b) :
    b = [] ∨ Elem 2 1 true [] b := by
  rcases opt_ok (k := 1) _ h with ⟨_, rfl⟩ | ⟨encs, he, rfl⟩
  · exact .inl rfl
  · cases he; exact .inr (tlv_elem (by decide) (by decide) (by decide))

/-- A signer info as it is made and as it is read. -/
structure Made where
  iss : RawVal
  n : Int
  attrs : List P7AttrV
  sig : Bytes

def Made.info (x : Made) : P7Info := madeInfo ⟨0, 0, false, [], x.iss.full⟩ x.n x.attrs x.sig
def Made.read (x : Made) : P7Info := madeInfo x.iss x.n (x.attrs.map readAttr) x.sig

/-- What is written by `Finish`. -/
theorem message_written {env : P7Env} {x : Option Bytes} {certs : List SignCert} {digest : Bytes} {made : List Made} {b : Bytes}
    (hm : ∀ m ∈ made, RawElem m.iss ∧ ∀ a ∈ m.attrs, Fresh a)
    (hc : (certs.map SignCert.raw).flatten.length < 2 ^ 31)
    (h : finish env ⟨[1,2,840,113549,1,7,1], contentVal x, [⟨[1,3,14,3,2,26], {}⟩], made.map Made.info, certs, digest⟩ = .ok b) (hl : b.length < 2 ^ 31) :
    ∃ infos, List.Perm (made.map Made.read) infos ∧ MessageEnc [1,2,840,113549,1,7,1] x (certs.map SignCert.raw) infos b := by
  unfold finish at h
  dsimp only at h
  cases hi : marshal env.mar signedDataTy (signedGo [⟨[1,3,14,3,2,26], {}⟩] [1,2,840,113549,1,7,1] (contentVal x) (certsRaw (certs.map SignCert.raw).flatten) (made.map Made.info)) with
  | error e => rw [hi] at h; cases h
  | ok inner =>
    rw [hi] at h
    unfold wrapContent at h
    dsimp only at h
    cases hw : marshal env.mar contentInfoTy (([] : Bytes), [1,2,840,113549,1,7,2], (⟨2, 0, true, inner, []⟩ : RawVal), ()) with
    | error e => rw [hw] at h; cases h
    | ok b' =>
      rw [hw] at h
      cases h
      unfold marshal at hw hi
      rw [mp_empty] at hw hi
      obtain ⟨o, ho, rfl⟩ := content_bytes hw
      have l1 := tlv_length 0 16 true (tlv 0 false 6 o ++ tlv 2 true 0 inner)
      have l2 := tlv_length 0 6 false o
      have l3 := tlv_length 2 0 true inner
      have l4 : (tlv 0 false 6 o ++ tlv 2 true 0 inner).length = (tlv 0 false 6 o).length + (tlv 2 true 0 inner).length := List.length_append
      obtain ⟨c, h', rfl⟩ := struct_ok (fs := .cons (b!"default:1") .int (.cons (b!"set") (.slice false algIdTy) (.cons [] contentInfoTy
        (.cons (b!"optional,tag:0") rawCertsTy (.cons (b!"optional,tag:1") (.slice false certListTy) (.cons (b!"set") (.slice false signerInfoTy) .nil)))))) [] _ hi
      obtain ⟨x1, r1, h1, h2, rfl⟩ := cons_ok (t := .int) (fs := .cons (b!"set") (.slice false algIdTy) (.cons [] contentInfoTy
        (.cons (b!"optional,tag:0") rawCertsTy (.cons (b!"optional,tag:1") (.slice false certListTy) (.cons (b!"set") (.slice false signerInfoTy) .nil))))) _ _ h'
      obtain ⟨x2, r2, h3, h4, rfl⟩ := cons_ok (t := .slice false algIdTy) (fs := .cons [] contentInfoTy
        (.cons (b!"optional,tag:0") rawCertsTy (.cons (b!"optional,tag:1") (.slice false certListTy) (.cons (b!"set") (.slice false signerInfoTy) .nil)))) _ _ h2
      obtain ⟨x3, r3, h5, h6, rfl⟩ := cons_ok (t := contentInfoTy) (fs :=
        .cons (b!"optional,tag:0") rawCertsTy (.cons (b!"optional,tag:1") (.slice false certListTy) (.cons (b!"set") (.slice false signerInfoTy) .nil))) _ _ h4
      obtain ⟨x4, r4, h7, h8, rfl⟩ := cons_ok (t := rawCertsTy) (fs := .cons (b!"optional,tag:1") (.slice false certListTy) (.cons (b!"set") (.slice false signerInfoTy) .nil)) _ _ h6
      obtain ⟨x5, r5, h9, h10, rfl⟩ := cons_ok (t := .slice false certListTy) (fs := .cons (b!"set") (.slice false signerInfoTy) .nil) _ _ h8
      obtain ⟨x6, r6, h11, h12, rfl⟩ := cons_ok (t := .slice false signerInfoTy) (fs := .nil) _ _ h10
      obtain rfl := nil_ok _ h12
      rw [mp_default1] at h1
      rw [mp_set] at h3 h11
      rw [mp_empty] at h5
      rw [mp_opt0] at h7
      rw [mp_opt1] at h9
      have hlen := tlv_length 0 16 true (x1 ++ (x2 ++ (x3 ++ (x4 ++ (x5 ++ (x6 ++ []))))))
      have hl2 : (x1 ++ (x2 ++ (x3 ++ (x4 ++ (x5 ++ (x6 ++ [])))))).length < 2 ^ 31 := by omega
      have hl3 := hl2
      simp only [List.length_append, List.length_nil] at hl3
      obtain rfl : x1 = tlv 0 false 2 (encodeInt64 1) := int_ok (.inr rfl) _ h1
      obtain ⟨algs, ha, rfl⟩ := set_ok (e := algIdTy) rfl _ h3
      have l5 := tlv_length 0 17 true (encodeSet algs)
      have hap := setSort_self_perm algs
      have hal : algs.flatten.length = (encodeSet algs).length := (flatten_length_perm hap).symm
      have ha' : ListRel AlgEncV [(⟨[1,3,14,3,2,26], {}⟩ : AlgId)] algs := by
        have := elems_written (P := AlgEncV) (h := id) (n := 2 ^ 31) (l := [(⟨[1,3,14,3,2,26], {}⟩ : AlgId)]) ha (by
          intro a h b hb hl
          have : a = ⟨[1,3,14,3,2,26], {}⟩ := by simpa using h
          subst this
          exact alg_written sha1_valid hb hl) (by omega)
        exact this
      obtain ⟨algs', _, ha2⟩ := listRel_perm hap.symm ha'
      have i3 := content_written data_valid h5 (by omega)
      obtain rfl := certs_ok hc h7
      have i5 := crls_ok h9
      obtain ⟨encs, hs, rfl⟩ := set_ok (e := signerInfoTy) rfl _ h11
      have l6 := tlv_length 0 17 true (encodeSet encs)
      have hsp := setSort_self_perm encs
      have hsl : encs.flatten.length = (encodeSet encs).length := (flatten_length_perm hsp).symm
      have hs' : ListRel InfoEnc (made.map Made.read) encs := by
        refine elems_written (P := InfoEnc) (g := fun m : Made => m.info.go) (n := 2 ^ 31) (f := makeField env.mar signerInfoTy {}) ?_ ?_ (by omega)
        · exact (congrArg (makeElems (makeField env.mar signerInfoTy {})) (List.map_map (g := P7Info.go) (f := Made.info) (l := made)).symm).trans hs
        · intro m hmm b hb hl
          exact info_written (hm m hmm).1 (hm m hmm).2 hb hl
      obtain ⟨infos, hp, hs2⟩ := listRel_perm hsp.symm hs'
      have eA : Elem 0 17 true (encodeSet algs) (tlv 0 true 17 (encodeSet algs)) := tlv_elem (by decide) (by decide) (by omega)
      have eI : Elem 0 17 true (encodeSet encs) (tlv 0 true 17 (encodeSet encs)) := tlv_elem (by decide) (by decide) (by omega)
      have eS := tlv_elem (cls := 0) (tag := 16) (con := true) (by decide) (by decide) hl2
      have eO := oidElem_written signed_valid ho (by omega)
      have eW := tlv_elem (cls := 2) (tag := 0) (con := true) (by decide) (by decide) (Nat.lt_of_le_of_lt l3 (by omega : _ < 2 ^ 31))
      have eB := tlv_elem (cls := 0) (tag := 16) (con := true) (by decide) (by decide) (Nat.lt_of_le_of_lt l1 hl)
      have i0 : IsInt64 1 := by constructor <;> decide
      rw [List.append_nil] at eS eW eB ⊢
      exact ⟨infos, hp.symm, 1, _, algs', _, _, x3, _, x5, _, _, _, _, _, i0, intElem_written i0, listEnc_of_rel ha2, eA, i3,
        .inr (tlv_elem (by decide) (by decide) hc), i5, listEnc_of_rel hs2, eI, eS, eO, eW, eB⟩

end P7S
end Apk
