import Verif.Proofs.MarshalFits
import Verif.Proofs.Ber
/-! # What is written is DER -/
namespace Apk
namespace Mar

theorem base128_bytes {n : Nat} {b : Bytes} (h : Base128 n b) : ∃ hs y, b = hs ++ [y] ∧ (∀ h ∈ hs, 128 ≤ UInt8.toNat h) ∧ y.toNat < 128 := by
  induction h with
  | @last x h => exact ⟨[], x, rfl, by simp, h⟩
  | @more x n b h _ ih =>
    obtain ⟨hs, y, rfl, h1, h2⟩ := ih
    exact ⟨x :: hs, y, rfl, by simp only [List.mem_cons]; rintro z (rfl | hz); exact h; exact h1 z hz, h2⟩

theorem header_split {cls tag n : Nat} {con : Bool} (hn : n < 2 ^ 63) : ∃ t l, encodeTagAndLength ⟨cls, tag, n, con⟩ = t ++ l ∧ IsTag t ∧
    (∃ x r, t = x :: r ∧ x.toNat / 32 % 2 = if con then 1 else 0) ∧ DerLen n l := by
  have h4 : cls % 4 < 4 := Nat.mod_lt _ (by decide)
  unfold encodeTagAndLength
  simp only
  refine ⟨_, _, rfl, ?_, ?_, encodeLength_der hn⟩
  · by_cases ht : 31 ≤ tag
    · rw [if_pos ht]
      obtain ⟨hs, y, e, h1, h2⟩ := base128_bytes (encodeBase128_spec tag)
      refine .inr ⟨_, hs, y, ?_, h1, h2, by rw [e]⟩
      rw [u8_toNat_ofNat]
      cases con <;> simp only [Bool.false_eq_true, if_false, if_true] <;> omega
    · rw [if_neg ht]
      refine .inl ⟨_, ?_, rfl⟩
      rw [u8_toNat_ofNat]
      cases con <;> simp only [Bool.false_eq_true, if_false, if_true] <;> omega
  · by_cases ht : 31 ≤ tag
    · rw [if_pos ht]
      refine ⟨_, _, rfl, ?_⟩
      rw [u8_toNat_ofNat]
      cases con <;> simp only [Bool.false_eq_true, if_false, if_true] <;> omega
    · rw [if_neg ht]
      refine ⟨_, _, rfl, ?_⟩
      rw [u8_toNat_ofNat]
      cases con <;> simp only [Bool.false_eq_true, if_false, if_true] <;> omega

theorem derSeq_nil : DerSeq [] := ⟨[], .nil⟩

theorem derSeq_append {a b : Bytes} (h : DerSeq a) (h' : DerSeq b) : DerSeq (a ++ b) := by
  obtain ⟨ts, h⟩ := h
  obtain ⟨us, h'⟩ := h'
  refine ⟨ts ++ us, ?_⟩
  induction ts generalizing a with
  | nil => cases h; exact h'
  | cons t ts ih =>
    cases h with
    | cons h1 h2 => rw [List.append_assoc]; exact .cons h1 (ih h2)

theorem derSeq_flatten : ∀ {bs : List Bytes}, (∀ b ∈ bs, DerSeq b) → DerSeq bs.flatten
  | [], _ => derSeq_nil
  | b :: bs, h => derSeq_append (h b (by simp)) (derSeq_flatten (fun b hb => h b (List.mem_cons_of_mem _ hb)))

theorem header_enc {cls tag : Nat} {con : Bool} {body : Bytes} (hb : con = true → DerSeq body) (hn : body.length < 2 ^ 63) :
    ∃ t, DerEnc t (encodeTagAndLength ⟨cls, tag, body.length, con⟩ ++ body) := by
  obtain ⟨t, l, e, h1, ⟨x, r, h2, h3⟩, h4⟩ := header_split (cls := cls) (tag := tag) (con := con) hn
  rw [e]
  cases con with
  | false => exact ⟨_, .prim ⟨h1, x, r, h2, h3⟩ h4⟩
  | true =>
    obtain ⟨ts, hts⟩ := hb rfl
    exact ⟨_, .con ⟨h1, x, r, h2, h3⟩ hts h4⟩

theorem header_enc_int {cls : Nat} {tag : Int} {con : Bool} {body : Bytes} (h0 : 0 ≤ tag) (hb : con = true → DerSeq body) (hn : body.length < 2 ^ 63) :
    ∃ t, DerEnc t (encodeHeader cls tag body.length con ++ body) := by
  rw [encodeHeader, if_neg (by omega)]
  exact header_enc hb hn

theorem derSeq_one {t : Asn1} {b : Bytes} (h : DerEnc t b) : DerSeq b := ⟨[t], by have := DerEncs.cons h .nil; rwa [List.append_nil] at this⟩

theorem tagged_enc {mp : MP} (hm : ∀ n, mp.tag = some n → 0 ≤ n) {tag : Int} (h0 : 0 ≤ tag) {con : Bool} {body : Bytes} (hb : con = true → DerSeq body)
    (hl : (tagged mp tag con body).length < 2 ^ 63) : ∃ t, DerEnc t (tagged mp tag con body) := by
  unfold tagged at hl ⊢
  cases ht : mp.tag with
  | none =>
    rw [ht] at hl
    refine header_enc_int h0 hb ?_
    dsimp only at hl
    rw [List.length_append] at hl
    omega
  | some n =>
    rw [ht] at hl
    dsimp only at hl ⊢
    cases he : mp.explicit with
    | true =>
      rw [he, if_pos rfl, List.length_append, List.length_append] at hl
      rw [if_pos rfl]
      refine header_enc_int (hm n ht) (fun _ => ?_) (by rw [List.length_append]; omega)
      obtain ⟨t, h⟩ := header_enc_int (cls := 0) h0 hb (by omega)
      exact derSeq_one h
    | false =>
      rw [he, if_neg (by simp), List.length_append] at hl
      rw [if_neg (by simp)]
      exact header_enc_int (hm n ht) hb (by omega)

theorem fieldTagged_der {mp : MP} (hm : ∀ n, mp.tag = some n → 0 ≤ n) {om : Bool} {tag0 : Int} {con : Bool} {tag : Except MErr Int} {body : Int → Except MErr Bytes}
    {b : Bytes} (h : fieldTagged mp om tag0 con tag body = .ok b) (h0 : ∀ t, tag = .ok t → 0 ≤ t)
    (hb : con = true → ∀ t c, body t = .ok c → c.length < 2 ^ 63 → DerSeq c) (hl : b.length < 2 ^ 63) : b = [] ∨ ∃ t, DerEnc t b := by
  rcases fieldTagged_ok h with ⟨_, rfl⟩ | ⟨_, t, t', c, _, _, e1, hset, hc, rfl⟩
  · exact .inl rfl
  · have ht' : 0 ≤ t' := by
      rcases hset with ⟨_, _, rfl⟩ | ⟨_, rfl⟩
      · decide
      · exact h0 _ e1
    exact .inr (tagged_enc hm ht' (fun hcon => hb hcon _ _ hc (Nat.lt_of_le_of_lt tagged_body_le hl)) hl)

theorem raw_enc {v : RawVal} (h : RawDer v) (hl : (rawBytes v).length < 2 ^ 63) : DerSeq (rawBytes v) := by
  unfold rawBytes at hl ⊢
  rcases h with ⟨h1, h2⟩ | ⟨h1, h2⟩
  · rw [if_pos h1]; exact h2
  · rw [if_neg (by simp [h1])] at hl ⊢
    rw [List.length_append] at hl
    obtain ⟨t, h⟩ := header_enc (cls := v.cls) (tag := v.tag) h2 (by omega)
    exact derSeq_one h

theorem derSeq_of {b : Bytes} (h : b = [] ∨ ∃ t, DerEnc t b) : DerSeq b := by
  rcases h with rfl | ⟨t, h⟩
  · exact derSeq_nil
  · exact derSeq_one h

theorem timeOf_nonneg {env : MarEnv} {mp : MP} {v : Int} {t : Int} (h : (timeOf env mp v).map (fun r => (r.1 : Int)) = .ok t) : 0 ≤ t := by
  cases hr : timeOf env mp v with
  | error e => rw [hr] at h; cases h
  | ok r => rw [hr] at h; cases h; exact Int.natCast_nonneg _

theorem stringTag_nonneg {env : MarEnv} {mp : MP} {s : Bytes} {t : Int} (h : stringTag env mp s = .ok t) : 0 ≤ t := by
  unfold stringTag at h
  by_cases h0 : mp.stringType = 0
  · rw [if_pos h0] at h
    by_cases h1 : s.all (isPrintableByte false) = true
    · rw [if_pos h1] at h; cases h; decide
    · rw [if_neg h1] at h
      by_cases h2 : env.utf8Valid s = true
      · rw [if_pos h2] at h; cases h; decide
      · rw [if_neg h2] at h; cases h
  · rw [if_neg h0] at h; cases h; exact Int.natCast_nonneg _

theorem prim_der {menv : MarEnv} {t : Ty} (hleaf : IsLeaf t) {mp : MP} (hm : ∀ n, mp.tag = some n → 0 ≤ n) {v : t.interp} {b : Bytes}
    (h : makePrim menv mp t v = .ok b) (hl : b.length < 2 ^ 63) : DerSeq b := by
  obtain ⟨h1, h2, h3, h4⟩ := hleaf
  have simple : ∀ {om : Bool} {tag0 : Int} {body : Int → Except MErr Bytes}, 0 ≤ tag0 → fieldTagged mp om tag0 false (.ok tag0) body = .ok b → DerSeq b :=
    fun h0 h => derSeq_of (fieldTagged_der hm h (by intro t ht; cases ht; exact h0) (by intro h; cases h) hl)
  cases t
  case any => exact absurd rfl h1
  case rawValue => exact absurd rfl h2
  case struct r fs => exact absurd rfl (h3 r fs)
  case slice s e => exact absurd rfl (h4 s e)
  case time =>
    refine derSeq_of (fieldTagged_der hm h ?_ (by intro h; cases h) hl)
    intro t ht
    by_cases hs : mp.set = true
    · rw [if_pos hs] at ht; cases ht; decide
    · rw [if_neg hs] at ht; exact timeOf_nonneg ht
  case str =>
    exact derSeq_of (fieldTagged_der hm h (fun t ht => stringTag_nonneg ht) (by intro h; cases h) hl)
  case oid => exact simple (tag0 := 6) (by decide) h
  case bits => exact simple (tag0 := 3) (by decide) h
  case enumerated => exact simple (tag0 := 10) (by decide) h
  case flag => exact simple (tag0 := 1) (by decide) h
  case bigInt => exact simple (tag0 := 2) (by decide) h
  case bool => exact simple (tag0 := 1) (by decide) h
  case int => exact simple (tag0 := 2) (by decide) h
  case int32 => exact simple (tag0 := 2) (by decide) h
  case octets => exact simple (tag0 := 4) (by decide) h

theorem any_der {menv : MarEnv} {mp : MP} (hm : ∀ n, mp.tag = some n → 0 ≤ n) {v : Option AnyVal} {b : Bytes}
    (h : makeAny menv mp v = .ok b) (hl : b.length < 2 ^ 63) : DerSeq b := by
  cases v with
  | none => cases h
  | some a =>
    cases a with
    | str s => exact prim_der (menv := menv) (t := .str) (by simp [IsLeaf]) hm h hl
    | int s => exact prim_der (menv := menv) (t := .int) (by simp [IsLeaf]) hm h hl
    | bits s => exact prim_der (menv := menv) (t := .bits) (by simp [IsLeaf]) hm h hl
    | oid s => exact prim_der (menv := menv) (t := .oid) (by simp [IsLeaf]) hm h hl
    | time s => exact prim_der (menv := menv) (t := .time) (by simp [IsLeaf]) hm h hl
    | octets s => exact prim_der (menv := menv) (t := .octets) (by simp [IsLeaf]) hm h hl

theorem derParts_leaf {t : Ty} (hl : IsLeaf t) {mp : MP} {v : t.interp} (h : DerParts t mp v) : ∀ n, mp.tag = some n → 0 ≤ n := by
  obtain ⟨h1, h2, h3, h4⟩ := hl
  cases t
  case any => exact absurd rfl h1
  case rawValue => exact absurd rfl h2
  case struct r fs => exact absurd rfl (h3 r fs)
  case slice s e => exact absurd rfl (h4 s e)
  all_goals (rw [DerParts] at h; exact h; all_goals simp)

theorem stripHeader_of {hdr content : Bytes} {tl : TagLen} (h : DerHeader tl hdr) : stripHeader (hdr ++ content) = content := by
  unfold stripHeader
  rw [header_parse h]

theorem elems_len {bs : List Bytes} : ∀ b ∈ bs, b.length ≤ bs.flatten.length := by
  induction bs with
  | nil => simp
  | cons x xs ih =>
    intro b hb
    rw [List.flatten_cons, List.length_append]
    rcases List.mem_cons.1 hb with rfl | hb
    · omega
    · have := ih b hb; omega

theorem listRel_mem {α β : Type} {R : α → β → Prop} : ∀ {l : List α} {m : List β}, ListRel R l m → ∀ b ∈ m, ∃ a ∈ l, R a b
  | _, _, .nil, b, hb => by cases hb
  | _, _, .cons h1 h2, b, hb => by
    rcases List.mem_cons.1 hb with rfl | hb
    · exact ⟨_, by simp, h1⟩
    · obtain ⟨a, ha, h⟩ := listRel_mem h2 b hb
      exact ⟨a, List.mem_cons_of_mem _ ha, h⟩

mutual
theorem makeField_der (menv : MarEnv) : (t : Ty) → (mp : MP) → (v : t.interp) → (b : Bytes) → makeField menv t mp v = .ok b → DerParts t mp v → b.length < 2 ^ 63 → DerSeq b
  | .any, mp, v, b, h, hd, hl => by
    rw [makeField] at h
    rw [DerParts] at hd
    · exact any_der hd h hl
    all_goals simp
  | .rawValue, mp, v, b, h, hd, hl => by
    rw [DerParts] at hd
    rw [make_leaf (.inr rfl), makePrim] at h
    by_cases ho : Ty.omits mp .rawValue v = true
    · rw [if_pos ho] at h; cases h; exact derSeq_nil
    · rw [if_neg ho] at h; cases h; exact raw_enc hd hl
  | .struct raw fs, mp, v, b, h, hd, hl => by
    rw [DerParts] at hd
    rw [make_struct] at h
    refine derSeq_of (fieldTagged_der hd.1 h (by intro t ht; cases ht; decide) ?_ hl)
    intro _ t c hc hcl
    by_cases hr : raw = true ∧ v.1 ≠ []
    · rw [if_pos hr] at hd
      obtain ⟨_, hdr, tl, content, e, hh, hs⟩ := hd
      rw [if_pos (by rw [hr.1]; simpa using hr.2), e, stripHeader_of hh] at hc
      cases hc
      exact hs
    · rw [if_neg hr] at hd
      rw [if_neg (by intro hx; rw [Bool.and_eq_true, decide_eq_true_iff] at hx; exact hr hx)] at hc
      exact makeFields_der menv fs v.2 c hc hd.2 hcl
  | .slice s e, mp, v, b, h, hd, hl => by
    rw [DerParts] at hd
    rw [make_slice] at h
    refine derSeq_of (fieldTagged_der hd.1 h (by intro t ht; cases ht; split <;> decide) ?_ hl)
    intro _ t c hc hcl
    cases he : makeElems (makeField menv e {}) v with
    | error er => rw [he] at hc; cases hc
    | ok bs =>
      rw [he] at hc
      have hrel := elems_rel he
      have hcc := Except.ok.inj hc
      dsimp only at hcc
      have key : ∀ bs' : List Bytes, List.Perm bs' bs → bs'.flatten = c → DerSeq c := by
        rintro bs' hp rfl
        refine derSeq_flatten (fun x hx => ?_)
        obtain ⟨u, hu, hx'⟩ := listRel_mem hrel x (hp.mem_iff.1 hx)
        exact makeField_der menv e {} u x hx' (allOf_mem.1 hd.2 u hu) (Nat.lt_of_le_of_lt (elems_len x hx) hcl)
      by_cases hs : (menv.sortSets && decide (t = 17)) = true
      · rw [if_pos hs] at hcc
        exact key (setSort bs) (setSort_self_perm bs) hcc
      · rw [if_neg hs] at hcc
        exact key bs (.refl _) hcc
  | .oid, mp, v, b, h, hd, hl => prim_der (by simp [IsLeaf]) (derParts_leaf (by simp [IsLeaf]) hd) ((make_leaf (.inl (by simp [IsLeaf])) v).symm.trans h) hl
  | .bits, mp, v, b, h, hd, hl => prim_der (by simp [IsLeaf]) (derParts_leaf (by simp [IsLeaf]) hd) ((make_leaf (.inl (by simp [IsLeaf])) v).symm.trans h) hl
  | .time, mp, v, b, h, hd, hl => prim_der (by simp [IsLeaf]) (derParts_leaf (by simp [IsLeaf]) hd) ((make_leaf (.inl (by simp [IsLeaf])) v).symm.trans h) hl
  | .enumerated, mp, v, b, h, hd, hl => prim_der (by simp [IsLeaf]) (derParts_leaf (by simp [IsLeaf]) hd) ((make_leaf (.inl (by simp [IsLeaf])) v).symm.trans h) hl
  | .flag, mp, v, b, h, hd, hl => prim_der (by simp [IsLeaf]) (derParts_leaf (by simp [IsLeaf]) hd) ((make_leaf (.inl (by simp [IsLeaf])) v).symm.trans h) hl
  | .bigInt, mp, v, b, h, hd, hl => prim_der (by simp [IsLeaf]) (derParts_leaf (by simp [IsLeaf]) hd) ((make_leaf (.inl (by simp [IsLeaf])) v).symm.trans h) hl
  | .bool, mp, v, b, h, hd, hl => prim_der (by simp [IsLeaf]) (derParts_leaf (by simp [IsLeaf]) hd) ((make_leaf (.inl (by simp [IsLeaf])) v).symm.trans h) hl
  | .int, mp, v, b, h, hd, hl => prim_der (by simp [IsLeaf]) (derParts_leaf (by simp [IsLeaf]) hd) ((make_leaf (.inl (by simp [IsLeaf])) v).symm.trans h) hl
  | .int32, mp, v, b, h, hd, hl => prim_der (by simp [IsLeaf]) (derParts_leaf (by simp [IsLeaf]) hd) ((make_leaf (.inl (by simp [IsLeaf])) v).symm.trans h) hl
  | .octets, mp, v, b, h, hd, hl => prim_der (by simp [IsLeaf]) (derParts_leaf (by simp [IsLeaf]) hd) ((make_leaf (.inl (by simp [IsLeaf])) v).symm.trans h) hl
  | .str, mp, v, b, h, hd, hl => prim_der (by simp [IsLeaf]) (derParts_leaf (by simp [IsLeaf]) hd) ((make_leaf (.inl (by simp [IsLeaf])) v).symm.trans h) hl
theorem makeFields_der (menv : MarEnv) : (fs : Fields) → (v : fs.interp) → (b : Bytes) → makeFields menv fs v = .ok b → DerPartsAll fs v → b.length < 2 ^ 63 → DerSeq b
  | .nil, v, b, h, _, _ => by rw [makeFields] at h; cases h; exact derSeq_nil
  | .cons tag t fs, v, b, h, hd, hl => by
    rw [makeFields_cons] at h
    rw [DerPartsAll] at hd
    obtain ⟨x, hx, h⟩ := bind_ok h
    obtain ⟨xs, hxs, h⟩ := bind_ok h
    cases h
    rw [List.length_append] at hl
    exact derSeq_append (makeField_der menv t _ v.1 x hx hd.1 (by omega)) (makeFields_der menv fs v.2 xs hxs hd.2 (by omega))
end

/-- A value that is neither a RawValue nor left out is one element. -/
theorem makeField_one {menv : MarEnv} {t : Ty} {mp : MP} {v : t.interp} {b : Bytes} (hr : t ≠ .rawValue) (ho : mp.optional = false ∧ mp.omitEmpty = false)
    (h : makeField menv t mp v = .ok b) (hd : DerParts t mp v) (hl : b.length < 2 ^ 63) : ∃ t, DerEnc t b := by
  obtain ⟨ts, hs⟩ := makeField_der menv t mp v b h hd hl
  have one : ∀ {om : Bool} {tag0 : Int} {con : Bool} {tag : Except MErr Int} {body : Int → Except MErr Bytes}, om = false →
      (∀ n, mp.tag = some n → 0 ≤ n) → fieldTagged mp om tag0 con tag body = .ok b → (∀ t, tag = .ok t → 0 ≤ t) →
      (con = true → ∀ t c, body t = .ok c → DerSeq c) → ∃ t, DerEnc t b := by
    intro om tag0 con tag body hom hm h h0 hb
    rcases fieldTagged_ok h with ⟨h1, _⟩ | ⟨_, t, t', c, _, _, e1, hset, hc, rfl⟩
    · rw [hom] at h1; cases h1
    · have ht' : 0 ≤ t' := by
        rcases hset with ⟨_, _, rfl⟩ | ⟨_, rfl⟩
        · decide
        · exact h0 _ e1
      exact tagged_enc hm ht' (fun hcon => hb hcon _ _ hc) hl
  have hmp : ∀ {t : Ty} (v : t.interp), Ty.omits mp t v = false := fun v => omits_required ho.1 ho.2 _ v
  have prim : ∀ {t : Ty} {v : t.interp}, IsLeaf t → makePrim menv mp t v = .ok b → (∀ n, mp.tag = some n → 0 ≤ n) → ∃ t, DerEnc t b := by
    intro t v hleaf h hm
    obtain ⟨h1, h2, h3, h4⟩ := hleaf
    cases t
    case any => exact absurd rfl h1
    case rawValue => exact absurd rfl h2
    case struct r fs => exact absurd rfl (h3 r fs)
    case slice s e => exact absurd rfl (h4 s e)
    case time =>
      refine one (hmp v) hm h ?_ (by intro h; cases h)
      intro t ht
      by_cases hs : mp.set = true
      · rw [if_pos hs] at ht; cases ht; decide
      · rw [if_neg hs] at ht; exact timeOf_nonneg ht
    case str => exact one (hmp v) hm h (fun t ht => stringTag_nonneg ht) (by intro h; cases h)
    all_goals exact one (hmp v) hm h (by intro t ht; cases ht; decide) (by intro h; cases h)
  by_cases hleaf : IsLeaf t
  · exact prim hleaf ((make_leaf (.inl hleaf) v).symm.trans h) (derParts_leaf hleaf hd)
  · cases t
    case rawValue => exact absurd rfl hr
    case any =>
      rw [makeField] at h
      have hm : ∀ n, mp.tag = some n → 0 ≤ n := by
        rw [DerParts] at hd
        · exact hd
        all_goals simp
      have : ∀ v : Option AnyVal, makeAny menv mp v = .ok b → ∃ t, DerEnc t b := by
        intro v h
        cases v with
        | none => cases h
        | some a =>
          cases a with
          | str s => exact prim (t := .str) (v := s) (by simp [IsLeaf]) h hm
          | int s => exact prim (t := .int) (v := s) (by simp [IsLeaf]) h hm
          | bits s => exact prim (t := .bits) (v := s) (by simp [IsLeaf]) h hm
          | oid s => exact prim (t := .oid) (v := s) (by simp [IsLeaf]) h hm
          | time s => exact prim (t := .time) (v := s) (by simp [IsLeaf]) h hm
          | octets s => exact prim (t := .octets) (v := s) (by simp [IsLeaf]) h hm
      exact this v h
    case struct raw fs =>
      have hl' := hl
      rcases fieldTagged_ok ((make_struct v).symm.trans h) with ⟨h1, _⟩ | ⟨_, t, t', c, _, _, e1, hset, hc, rfl⟩
      · rw [hmp v] at h1; cases h1
      · rw [DerParts] at hd
        have hcl := Nat.lt_of_le_of_lt tagged_body_le hl
        have ht' : 0 ≤ t' := by
          cases e1
          rcases hset with ⟨_, _, rfl⟩ | ⟨_, rfl⟩ <;> decide
        refine tagged_enc hd.1 ht' (fun _ => ?_) hl
        by_cases hr : raw = true ∧ v.1 ≠ []
        · rw [if_pos hr] at hd
          obtain ⟨_, hdr, tl, content, e, hh, hs⟩ := hd
          rw [if_pos (by rw [hr.1]; simpa using hr.2), e, stripHeader_of hh] at hc
          cases hc
          exact hs
        · rw [if_neg hr] at hd
          rw [if_neg (by intro hx; rw [Bool.and_eq_true, decide_eq_true_iff] at hx; exact hr hx)] at hc
          exact makeFields_der menv fs v.2 c hc hd.2 hcl
    case slice s e =>
      have hm : ∀ n, mp.tag = some n → 0 ≤ n := by rw [DerParts] at hd; exact hd.1
      rcases fieldTagged_ok ((make_slice v).symm.trans h) with ⟨h1, _⟩ | ⟨_, t, t', c, _, _, e1, hset, hc, rfl⟩
      · rw [hmp v] at h1; cases h1
      · have ht' : 0 ≤ t' := by
          cases e1
          rcases hset with ⟨_, _, rfl⟩ | ⟨_, rfl⟩
          · decide
          · split <;> decide
        refine tagged_enc hm ht' (fun _ => ?_) hl
        have hcl := Nat.lt_of_le_of_lt tagged_body_le hl
        cases he : makeElems (makeField menv e {}) v with
        | error er => rw [he] at hc; cases hc
        | ok bs =>
          rw [he] at hc
          have hcc := Except.ok.inj hc
          rw [DerParts] at hd
          have key : ∀ bs' : List Bytes, List.Perm bs' bs → bs'.flatten = c → DerSeq c := by
            rintro bs' hp rfl
            refine derSeq_flatten (fun x hx => ?_)
            obtain ⟨u, hu, hx'⟩ := listRel_mem (elems_rel he) x (hp.mem_iff.1 hx)
            exact makeField_der menv e {} u x hx' (allOf_mem.1 hd.2 u hu) (Nat.lt_of_le_of_lt (elems_len x hx) hcl)
          dsimp only at hcc
          by_cases hs : (menv.sortSets && decide (t' = 17)) = true
          · rw [if_pos hs] at hcc
            exact key (setSort bs) (setSort_self_perm bs) hcc
          · rw [if_neg hs] at hcc
            exact key bs (.refl _) hcc
    all_goals exact absurd (by simp [IsLeaf]) hleaf

end Mar
end Apk
