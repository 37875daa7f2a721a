import Verif.Spec.Der
import Verif.Proofs.Unmarshal
/-! # The decoder reads exactly the grammar of `Spec/Der.lean`: headers and primitive contents -/
namespace Apk
set_option linter.unusedSimpArgs false

/-! ## Headers -/

theorem derLength_iff (b : Bytes) (n : Nat) (rest : Bytes) :
    parseDerLength b = .ok (n, rest) ↔ ∃ l, LengthOctets n l ∧ b = l ++ rest := by
  constructor
  · intro h
    obtain ⟨hn, x, p, rfl, hc⟩ := parseDerLength_sound h
    refine ⟨x :: p, ⟨hn, ?_⟩, rfl⟩
    rcases hc with ⟨h1, rfl, rfl⟩ | ⟨h1, h2, h3⟩
    · exact .inl ⟨x, rfl, rfl, h1⟩
    · exact .inr ⟨x, p, rfl, h2, h1, h3.symm⟩
  · rintro ⟨l, ⟨hn, ⟨x, rfl, hx, h128⟩ | ⟨x, ds, rfl, hne, hx, hb⟩⟩, rfl⟩
    · simp only [List.cons_append, List.nil_append, parseDerLength]
      rw [if_pos (by omega), hx]
    · have hxl := x.toNat_lt
      have hpos : 0 < ds.length := List.length_pos_iff.2 hne
      have : x.toNat % 128 = ds.length := by omega
      simp only [List.cons_append, parseDerLength]
      rw [if_neg (by omega), this, if_neg (by omega), parseLengthBytes_spec _ _ _ (by omega)]
      simp [hb]

theorem base128_iff (b : Bytes) (n : Nat) (rest : Bytes) :
    parseBase128 b = .ok (n, rest) ↔ ∃ p, (Base128 n p ∧ n < 2 ^ 31 ∧ p.length ≤ 5) ∧ b = p ++ rest := by
  constructor
  · intro h
    obtain ⟨p, h1, h2, h3, h4⟩ := parseBase128_sound h
    exact ⟨p, ⟨h1, h3, h4⟩, h2⟩
  · rintro ⟨p, ⟨h1, h2, h3⟩, rfl⟩
    unfold parseBase128
    rw [parseBase128Aux_spec h1 5 0 rest h3, if_neg (by omega)]
    simp

/-- The header parser accepts exactly the headers of the grammar. -/
theorem header_iff (b : Bytes) (t : TagLen) (rest : Bytes) :
    parseTagAndLength b = .ok (t, rest) ↔ ∃ hdr, DerHeader t hdr ∧ b = hdr ++ rest := by
  constructor
  · intro h
    cases b with
    | nil => simp [parseTagAndLength] at h
    | cons x xs =>
      have hx := x.toNat_lt
      simp only [parseTagAndLength] at h
      by_cases h31 : x.toNat % 32 = 31
      · simp only [h31, if_true] at h
        split at h
        · simp at h
        · rename_i tag bs1 ht
          split at h
          · simp at h
          · rename_i n rest' hl
            simp only [Except.ok.injEq, Prod.mk.injEq] at h
            obtain ⟨rfl, rfl⟩ := h
            obtain ⟨q, ⟨hq1, hq2, hq3⟩, rfl⟩ := (base128_iff _ _ _).1 ht
            obtain ⟨l, hlo, rfl⟩ := (derLength_iff _ _ _).1 hl
            refine ⟨x :: q ++ l, ⟨x :: q, l, rfl, ⟨x, q, rfl, by simp only; omega, hq2, .inr ⟨hq1, hq3, ?_⟩⟩, hlo⟩, by simp⟩
            by_cases hc : x.toNat / 32 % 2 = 1
            · simp only [hc, decide_true, if_true]; omega
            · simp only [hc, decide_false, Bool.false_eq_true, if_false]; omega
      · simp only [h31, if_false] at h
        split at h
        · simp at h
        · rename_i n rest' hl
          simp only [Except.ok.injEq, Prod.mk.injEq] at h
          obtain ⟨rfl, rfl⟩ := h
          obtain ⟨l, hlo, rfl⟩ := (derLength_iff _ _ _).1 hl
          refine ⟨[x] ++ l, ⟨[x], l, rfl, ⟨x, [], rfl, by simp only; omega, by simp only; omega, .inl ⟨by simp only; omega, rfl, ?_⟩⟩, hlo⟩, by simp⟩
          by_cases hc : x.toNat / 32 % 2 = 1
          · simp only [hc, decide_true, if_true]; omega
          · simp only [hc, decide_false, Bool.false_eq_true, if_false]; omega
  · rintro ⟨hdr, ⟨p, l, rfl, ⟨x, q, rfl, hc, ht, hcase⟩, hl⟩, rfl⟩
    have hcomp : (if t.isCompound = true then 32 else 0) = 0 ∧ t.isCompound = false ∨
        (if t.isCompound = true then 32 else 0) = 32 ∧ t.isCompound = true := by
      cases t.isCompound <;> simp
    generalize (if t.isCompound = true then 32 else 0) = c at *
    have hlen : ∀ r, parseDerLength (l ++ r) = .ok (t.length, r) := fun r => (derLength_iff _ _ _).2 ⟨l, hl, rfl⟩
    rcases hcase with ⟨h31, rfl, hx⟩ | ⟨hb, h5, hx⟩
    · have e0 : x.toNat % 32 = t.tag := by omega
      have e1 : x.toNat / 64 = t.cls := by omega
      have e2 : decide (x.toNat / 32 % 2 = 1) = t.isCompound := by
        rcases hcomp with ⟨rfl, h⟩ | ⟨rfl, h⟩ <;> rw [h] <;> simp <;> omega
      simp only [List.cons_append, List.nil_append, List.append_assoc, parseTagAndLength]
      rw [if_neg (by omega)]
      simp only [hlen, e0, e1, e2]
    · have e0 : x.toNat % 32 = 31 := by omega
      have e1 : x.toNat / 64 = t.cls := by omega
      have e2 : decide (x.toNat / 32 % 2 = 1) = t.isCompound := by
        rcases hcomp with ⟨rfl, h⟩ | ⟨rfl, h⟩ <;> rw [h] <;> simp <;> omega
      have hbb : parseBase128 (q ++ (l ++ rest)) = .ok (t.tag, l ++ rest) := (base128_iff _ _ _).2 ⟨q, ⟨hb, ht, h5⟩, rfl⟩
      simp only [List.cons_append, List.append_assoc, parseTagAndLength]
      rw [if_pos e0, hbb]
      simp only [hlen, e1, e2]

theorem header_parse {t : TagLen} {hdr : Bytes} (h : DerHeader t hdr) (rest : Bytes) : parseTagAndLength (hdr ++ rest) = .ok (t, rest) :=
  (header_iff _ _ _).2 ⟨hdr, h, rfl⟩

theorem header_ne {t : TagLen} {hdr : Bytes} (h : DerHeader t hdr) : hdr ≠ [] := by
  obtain ⟨p, l, rfl, ⟨x, q, rfl, _⟩, _⟩ := h
  simp

/-- Headers are self-delimiting. -/
theorem header_unique {t t' : TagLen} {hdr hdr' r r' : Bytes} (h : DerHeader t hdr) (h' : DerHeader t' hdr') (e : hdr ++ r = hdr' ++ r') :
    t = t' ∧ hdr = hdr' ∧ r = r' := by
  have h1 := header_parse h r
  rw [e, header_parse h' r'] at h1
  simp only [Except.ok.injEq, Prod.mk.injEq] at h1
  obtain ⟨rfl, rfl⟩ := h1
  exact ⟨rfl, List.append_cancel_right e, rfl⟩

/-! ## Primitive contents -/

theorem arcs_iff (fuel cap : Nat) (b : Bytes) (vs : List Nat) (hc : b.length ≤ cap) (hf : b.length ≤ fuel) :
    parseArcs fuel cap b = .ok (.ok vs) ↔ ArcOctets vs b := by
  induction fuel generalizing cap b vs with
  | zero =>
    have : b = [] := List.length_eq_zero_iff.1 (by omega)
    subst this
    simp only [parseArcs, Except.ok.injEq]
    constructor
    · rintro rfl; exact .nil
    · intro h
      generalize hb : ([] : Bytes) = b at h
      cases h with
      | nil => rfl
      | cons h1 _ _ _ => have := h1.pos; have := congrArg List.length hb; simp at this; omega
  | succ fuel ih =>
    rw [parseArcs]
    by_cases hb : b = []
    · subst hb
      simp only [if_true, Except.ok.injEq]
      constructor
      · rintro rfl; exact .nil
      · intro h
        generalize hb : ([] : Bytes) = b at h
        cases h with
        | nil => rfl
        | cons h1 _ _ _ => have := h1.pos; have := congrArg List.length hb; simp at this; omega
    · rw [if_neg hb]
      constructor
      · intro h
        split at h
        · simp at h
        · rename_i v rest hv
          obtain ⟨p, ⟨hp, hlt, h5⟩, rfl⟩ := (base128_iff _ _ _).1 hv
          have hpos := hp.pos
          simp only [List.length_append] at hc hf
          obtain ⟨cap, rfl⟩ : ∃ f, cap = f + 1 := ⟨cap - 1, by omega⟩
          simp only at h
          split at h
          · simp at h
          · simp at h
          · rename_i vs' hvs
            simp only [Except.ok.injEq] at h
            subst h
            exact .cons hp hlt h5 ((ih cap rest vs' (by omega) (by omega)).1 hvs)
      · intro h
        cases h with
        | nil => exact absurd rfl hb
        | @cons n ns p r hp hlt h5 hr =>
          have hpos := hp.pos
          simp only [List.length_append] at hc hf
          obtain ⟨cap, rfl⟩ : ∃ f, cap = f + 1 := ⟨cap - 1, by omega⟩
          rw [(base128_iff _ _ _).2 ⟨p, ⟨hp, hlt, h5⟩, rfl⟩]
          simp only
          rw [(ih cap r ns (by omega) (by omega)).2 hr]

theorem oid_iff (b : Bytes) (o : List Nat) : parseOid b = .ok (.ok o) ↔ OidContents o b := by
  rw [parseOid]
  constructor
  · intro h
    split at h
    · simp at h
    · split at h
      · simp at h
      · rename_i v rest hv
        obtain ⟨p, ⟨hp, hlt, h5⟩, rfl⟩ := (base128_iff _ _ _).1 hv
        have hpos := hp.pos
        simp only at h
        split at h
        · simp at h
        · simp at h
        · rename_i vs hvs
          have hr := (arcs_iff _ _ _ _ (by simp only [List.length_append]; omega) (by simp only [List.length_append]; omega)).1 hvs
          simp only [Except.ok.injEq] at h
          subst h
          split
          · refine ⟨v / 40, v % 40, vs, rfl, by omega, by omega, .cons ?_ (by omega) h5 hr⟩
            have : v / 40 * 40 + v % 40 = v := by omega
            rw [this]; exact hp
          · refine ⟨2, v - 80, vs, rfl, by omega, by omega, .cons ?_ (by omega) h5 hr⟩
            have : 2 * 40 + (v - 80) = v := by omega
            rw [this]; exact hp
  · rintro ⟨a, c, arcs, rfl, ha, hac, h⟩
    generalize hl : (a * 40 + c) :: arcs = l at h
    cases h with
    | nil => cases hl
    | @cons n ns p r hp hlt h5 hr =>
      simp only [List.cons.injEq] at hl
      obtain ⟨rfl, rfl⟩ := hl
      have hpos := hp.pos
      rw [if_neg (by intro he; rw [List.append_eq_nil_iff] at he; rw [he.1] at hpos; simp at hpos),
        (base128_iff _ _ _).2 ⟨p, ⟨hp, hlt, h5⟩, rfl⟩]
      simp only
      rw [(arcs_iff _ _ _ _ (by simp only [List.length_append]; omega) (by simp only [List.length_append]; omega)).2 hr]
      simp only
      split
      · have e1 : (a * 40 + c) / 40 = a := by omega
        have e2 : (a * 40 + c) % 40 = c := by omega
        rw [e1, e2]; rfl
      · have e1 : a = 2 := by omega
        subst e1
        have e2 : 2 * 40 + c - 80 = c := by omega
        rw [e2]; rfl

theorem bits_iff (b : Bytes) (v : BitStr) : parseBitString b = .ok v ↔ BitContents v b := by
  cases b with
  | nil =>
    simp only [parseBitString]
    constructor
    · intro h; cases h
    · rintro ⟨p, h, _⟩; cases h
  | cons p bs =>
    simp only [parseBitString]
    constructor
    · intro h
      split at h
      · cases h
      · rename_i hn
        simp only [Except.ok.injEq] at h
        subst h
        have h7 : ¬ 7 < p.toNat := fun h => hn (.inl h)
        have hl : bs = [] → ¬ 0 < p.toNat := fun h h' => hn (.inr (.inl ⟨h, h'⟩))
        refine ⟨p, rfl, by omega, ?_, Classical.byContradiction (fun h => hn (.inr (.inr h)))⟩
        simp only
        cases bs with
        | nil => have := hl rfl; simp; omega
        | cons y ys => simp only [List.length_cons]; omega
    · rintro ⟨q, h, h8, hlen, hlast⟩
      simp only [List.cons.injEq] at h
      obtain ⟨rfl, rfl⟩ := h
      rw [if_neg]
      · have : v.bytes.length * 8 - p.toNat = v.bitLength := by omega
        rw [this]
      · rintro (h | ⟨h, h'⟩ | h)
        · omega
        · rw [h] at hlen; simp at hlen; omega
        · exact h hlast

theorem bool_iff (b : Bytes) (v : Bool) : parseBool b = .ok v ↔ (v = true ∧ b = [255]) ∨ (v = false ∧ b = [0]) := by
  match b with
  | [] => simp [parseBool]
  | _ :: _ :: _ => simp [parseBool]
  | [x] =>
    simp only [parseBool]
    by_cases h0 : x = 0
    · subst h0
      rw [if_pos rfl, Except.ok.injEq]
      constructor
      · rintro rfl; exact .inr ⟨rfl, rfl⟩
      · rintro (⟨_, h⟩ | ⟨rfl, _⟩)
        · simp at h
        · rfl
    · rw [if_neg h0]
      by_cases h1 : x = 255
      · subst h1
        rw [if_pos rfl, Except.ok.injEq]
        constructor
        · rintro rfl; exact .inl ⟨rfl, rfl⟩
        · rintro (⟨rfl, _⟩ | ⟨_, h⟩)
          · rfl
          · simp at h
      · rw [if_neg h1]
        constructor
        · intro h; cases h
        · rintro (⟨_, h⟩ | ⟨_, h⟩)
          · simp at h; exact absurd h h1
          · simp at h; exact absurd h h0

theorem int64_iff (b : Bytes) (i : Int) : parseInt64 b = .ok i ↔ MinimalInt b ∧ twos b = i ∧ IsInt64 i := by
  rw [parseInt64_iff]
  constructor
  · rintro ⟨h1, h2, rfl⟩
    refine ⟨h1, rfl, ?_⟩
    obtain ⟨l1, l2, _⟩ := minimal_bounds h1
    have hp : (256 : Nat) ^ (b.length - 1) ≤ 256 ^ 7 := Nat.pow_le_pow_right (by omega) (by omega)
    have e := natCast_pow256 (b.length - 1)
    rw [← e] at l1 l2
    have e7 : (256 : Nat) ^ 7 = 72057594037927936 := by decide
    generalize (256 : Nat) ^ (b.length - 1) = m at *
    rw [e7] at hp
    exact ⟨by omega, by omega⟩
  · rintro ⟨h1, rfl, h3⟩
    obtain ⟨g1, g2, g3⟩ := encodeInt64_spec h3
    have := twos_inj h1 g1 g3.symm
    rw [← this] at g2
    exact ⟨h1, g2, rfl⟩

theorem wrap32_of_int32 {i : Int} : i = wrap32 i ↔ IsInt32 i := by
  unfold wrap32 IsInt32 toI32
  dsimp only
  constructor
  · intro h; split at h <;> omega
  · intro h; split <;> omega

theorem int32_iff (b : Bytes) (i : Int) : parseInt32 b = .ok i ↔ MinimalInt b ∧ twos b = i ∧ IsInt32 i := by
  unfold parseInt32
  constructor
  · intro h
    split at h
    · cases h
    · split at h
      · cases h
      · rename_i v hv
        split at h
        · cases h
        · rename_i hw
          simp only [Except.ok.injEq] at h
          subst h
          obtain ⟨h1, h2, _⟩ := (int64_iff _ _).1 hv
          exact ⟨h1, h2, wrap32_of_int32.1 (Classical.byContradiction hw)⟩
  · rintro ⟨h1, h2, h3⟩
    rw [(checkInteger_ok b).2 h1]
    simp only
    have h64 : IsInt64 i := by unfold IsInt32 at h3; unfold IsInt64; omega
    rw [(int64_iff b i).2 ⟨h1, h2, h64⟩]
    simp only
    rw [if_neg (by rw [Classical.not_not]; exact wrap32_of_int32.2 h3)]

end Apk
