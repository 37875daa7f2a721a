import Verif.Spec.Name
import Verif.Proofs.V1ExactTop
/-! # Comparison of distinguished names -/
namespace Apk

/-! ## Values -/

/-- The character that is written. -/
def escByte (c : UInt8) : UInt8 := if c ∈ b!"\"\\,+<>;" then 92 else c

theorem isSpecial_iff (c : UInt8) : isSpecial c = true ↔ c ∈ b!"\"\\,+<>;" := by
  unfold isSpecial
  simp only [Bool.or_eq_true, decide_eq_true_eq, List.mem_cons, List.not_mem_nil, or_false, or_assoc]

theorem canonStep_eq (out : Bytes) (c : UInt8) : canonStep out c =
    if c = 32 then (if out = [] ∨ out.getLast? = some 32 then out else out ++ [32]) else out ++ [escByte c] := by
  unfold canonStep escByte
  by_cases h : c = 32
  · rw [if_pos h, if_pos h]
  · rw [if_neg h, if_neg h]
    by_cases hs : isSpecial c = true
    · rw [if_pos hs, if_pos ((isSpecial_iff c).1 hs)]
    · rw [if_neg hs, if_neg (fun hc => hs ((isSpecial_iff c).2 hc))]

theorem escByte_space (c : UInt8) : escByte c = 32 ↔ c = 32 := by
  unfold escByte
  split
  · rename_i h
    constructor
    · intro h2; exact absurd h2 (by decide)
    · rintro rfl; revert h; decide
  · exact Iff.rfl

theorem trimEnd_append (out : Bytes) (h : out.getLast? ≠ some 32) : trimEndSpaces out = out := by
  unfold trimEndSpaces
  cases hr : out.reverse with
  | nil => rw [List.reverse_eq_nil_iff] at hr; rw [hr]; rfl
  | cons c t =>
    have : out.getLast? = some c := by rw [← List.head?_reverse, hr]; rfl
    rw [this] at h
    rw [List.dropWhile_cons, if_neg (by simpa using h), ← hr, List.reverse_reverse]

theorem trimEnd_space (out : Bytes) : trimEndSpaces (out ++ [32]) = trimEndSpaces out := by
  unfold trimEndSpaces
  rw [List.reverse_append]
  rfl

theorem squeeze_keep {c : UInt8} {t : Bytes} (h : c ≠ 32) : squeeze (c :: t) = c :: squeeze t := by
  rw [squeeze, if_neg (fun hh => h hh.1)]

theorem fold_squeeze (t : Bytes) : ∀ out : Bytes, out ≠ [] → out.getLast? ≠ some 32 →
    trimEndSpaces (t.foldl canonStep out) = out ++ squeeze (t.map escByte) ∧
    trimEndSpaces (t.foldl canonStep (out ++ [32])) = out ++ squeeze (32 :: t.map escByte) := by
  induction t with
  | nil =>
    intro out h0 hl
    refine ⟨?_, ?_⟩
    · simp only [List.foldl_nil, List.map_nil, squeeze, List.append_nil]
      exact trimEnd_append out hl
    · simp only [List.foldl_nil, List.map_nil]
      rw [trimEnd_space, trimEnd_append out hl]
      simp [squeeze]
  | cons c t ih =>
    intro out h0 hl
    rw [List.foldl_cons, List.foldl_cons, canonStep_eq, canonStep_eq, List.map_cons]
    by_cases hc : c = 32
    · rw [if_pos hc, if_pos hc, if_neg (by rintro (h | h) <;> contradiction), if_pos (by right; simp)]
      have he : escByte c = 32 := (escByte_space c).2 hc
      rw [he]
      refine ⟨(ih out h0 hl).2, ?_⟩
      rw [(ih out h0 hl).2]
      rw [squeeze.eq_2 32 (32 :: _), if_pos ⟨rfl, .inr rfl⟩]
    · rw [if_neg hc, if_neg hc]
      have he : escByte c ≠ 32 := fun h => hc ((escByte_space c).1 h)
      refine ⟨?_, ?_⟩
      · rw [(ih (out ++ [escByte c]) (by simp) (by simpa using he)).1, squeeze_keep he]
        simp
      · rw [(ih (out ++ [32] ++ [escByte c]) (by simp) (by simpa using he)).1, squeeze.eq_2 32, if_neg (by simp [he]), squeeze_keep he]
        simp

theorem fold_squeeze_nil (t : Bytes) : trimEndSpaces (t.foldl canonStep []) = squeeze ((t.map escByte).dropWhile (fun c => c = 32)) := by
  induction t with
  | nil => rfl
  | cons c t ih =>
    rw [List.foldl_cons, canonStep_eq, List.map_cons, List.dropWhile_cons]
    by_cases hc : c = 32
    · rw [if_pos hc, if_pos (.inl rfl), ih, if_pos (by simpa using (escByte_space c).2 hc)]
    · have he : escByte c ≠ 32 := fun h => hc ((escByte_space c).1 h)
      rw [if_neg hc, if_neg (by simpa using he), List.nil_append, (fold_squeeze t [escByte c] (by simp) (by simpa using he)).1, squeeze_keep he]
      rfl

theorem canonValue_eq (v : Bytes) : canonValue v = squeeze ((escaped v).dropWhile (fun c => c = 32)) := by
  cases v with
  | nil => rfl
  | cons c v =>
    unfold canonValue escaped
    have hm : (c :: v).map (fun c => if c ∈ b!"\"\\,+<>;" then 92 else c) = (c :: v).map escByte := rfl
    rw [hm]
    show (if c = 35 then trimEndSpaces (v.foldl canonStep [92,35]) else trimEndSpaces ((c :: v).foldl canonStep [])) = _
    by_cases hc : c = 35
    · subst hc
      rw [if_pos rfl, if_pos (show (35 :: v).head? = some 35 from rfl), (fold_squeeze v [92, 35] (by simp) (by simp)).1]
      rw [List.map_cons, List.singleton_append, List.dropWhile_cons, if_neg (by decide), squeeze_keep (by decide)]
      rw [show escByte 35 = 35 from by decide, squeeze_keep (by decide)]
      rfl
    · rw [if_neg hc, if_neg (by simpa using hc), List.nil_append, fold_squeeze_nil]

theorem mem_squeeze {t : Bytes} {c : UInt8} (h : c ∈ squeeze t) : c ∈ t := by
  induction t with
  | nil => exact h
  | cons x t ih =>
    rw [squeeze] at h
    split at h
    · exact List.mem_cons_of_mem _ (ih h)
    · rcases List.mem_cons.1 h with h | h
      · exact h ▸ List.mem_cons_self
      · exact List.mem_cons_of_mem _ (ih h)

theorem mem_dropWhile {p : UInt8 → Bool} {t : Bytes} {c : UInt8} (h : c ∈ t.dropWhile p) : c ∈ t :=
  (List.dropWhile_suffix p).subset h

/-- The written value has no separators. -/
theorem canonValue_sep (v : Bytes) : 43 ∉ canonValue v ∧ 44 ∉ canonValue v := by
  have key : ∀ c : UInt8, c ∈ b!",+" → c ∉ canonValue v := by
    intro c hc h
    rw [canonValue_eq] at h
    have h := mem_dropWhile (mem_squeeze h)
    unfold escaped at h
    rcases List.mem_append.1 h with h | h
    · split at h
      · rw [List.mem_singleton] at h
        subst h; revert hc; decide
      · cases h
    · obtain ⟨x, hx, he⟩ := List.mem_map.1 h
      split at he
      · subst he; revert hc; decide
      · rename_i hn
        subst he
        refine hn ?_
        rcases List.mem_cons.1 hc with h | h
        · rw [h]; decide
        · rw [List.mem_singleton] at h; rw [h]; decide
  exact ⟨key 43 (by decide), key 44 (by decide)⟩

/-! ## Lower case -/

theorem LowerCase.map {L : Bytes → Bytes} (hL : LowerCase L) {s : Bytes} (h : ∀ c ∈ s, c.toNat < 128) : L s = s.map lowerAscii := by
  induction s with
  | nil => exact hL.nil
  | cons c s ih =>
    have := hL.ascii [] c s (h c List.mem_cons_self)
    rw [List.nil_append, hL.nil, List.nil_append] at this
    rw [this, ih (fun x hx => h x (List.mem_cons_of_mem _ hx))]
    rfl

theorem joinByte_eq (sep : UInt8) (l : List Bytes) : joinByte sep l = [sep].intercalate l := by
  induction l with
  | nil => rfl
  | cons x xs ih =>
    cases xs with
    | nil => simp [joinByte, List.intercalate]
    | cons y ys =>
      rw [joinByte, ih, List.intercalate_cons_cons, List.append_assoc, List.singleton_append]
      simp

theorem LowerCase.join {L : Bytes → Bytes} (hL : LowerCase L) {sep : UInt8} (hs : sep.toNat < 128) (hl : lowerAscii sep = sep) (l : List Bytes) :
    L (joinByte sep l) = joinByte sep (l.map L) := by
  induction l with
  | nil => exact hL.nil
  | cons x xs ih =>
    cases xs with
    | nil => rfl
    | cons y ys =>
      rw [joinByte, hL.ascii _ _ _ hs, ih, hl]
      · rfl
      · simp

theorem LowerCase.notMem {L : Bytes → Bytes} (hL : LowerCase L) {sep : UInt8} (hs : sep.toNat < 97) {s : Bytes} (h : sep ∉ s) : sep ∉ L s := by
  intro hm
  rcases hL.fresh s sep hm (by omega) with h1 | h1
  · exact h h1
  · omega

theorem joinByte_inj {sep : UInt8} {a b : List Bytes} (ha : ∀ t ∈ a, sep ∉ t) (hb : ∀ t ∈ b, sep ∉ t) (ha0 : ∀ t ∈ a, t ≠ []) (hb0 : ∀ t ∈ b, t ≠ [])
    (h : joinByte sep a = joinByte sep b) : a = b := by
  have ne : ∀ {l : List Bytes}, (∀ t ∈ l, t ≠ []) → l ≠ [] → joinByte sep l ≠ [] := by
    intro l h0 hn
    cases l with
    | nil => exact absurd rfl hn
    | cons x xs =>
      have hx := h0 x List.mem_cons_self
      cases xs with
      | nil => exact hx
      | cons y ys => rw [joinByte] <;> simp
  by_cases h1 : a = []
  · subst h1
    by_cases h2 : b = []
    · rw [h2]
    · exact absurd h.symm (ne hb0 h2)
  · by_cases h2 : b = []
    · subst h2
      exact absurd h (ne ha0 h1)
    · rw [joinByte_eq, joinByte_eq] at h
      rw [← splitByte_of_pieces h1 ha rfl, h, splitByte_of_pieces h2 hb rfl]

/-! ## Names -/

/-- The attribute types that occur in names. -/
def nameOids : List (List Nat) := [[2,5,4,6], [2,5,4,10], [2,5,4,11], [2,5,4,7], [2,5,4,8], [2,5,4,9], [2,5,4,17], [2,5,4,3], [2,5,4,5]]

/-- The parts of a name that count: for each field its type and the values. -/
def nameKey (f : Bytes → Bytes) (n : PName) : Rdns := n.rdns.map (fun rdn => rdn.map (fun p => (p.1, f p.2)))

theorem insertAtav_same {o : List Nat} {x : List Nat × Bytes} {l : List (List Nat × Bytes)} (hx : x.1 = o) (hl : ∀ p ∈ l, p.1 = o) (ho : o ∈ nameOids) :
    insertAtav x l = l ++ [x] := by
  have hless : lessOid o o = false := by
    have : ∀ o ∈ nameOids, lessOid o o = false := by decide
    exact this o ho
  induction l with
  | nil => rfl
  | cons y ys ih =>
    rw [insertAtav, hx, hl y List.mem_cons_self, hless]
    simp only [Bool.false_eq_true, if_false, List.cons_append]
    rw [ih (fun p hp => hl p (List.mem_cons_of_mem _ hp))]

theorem sortAtav_same {o : List Nat} {l : List (List Nat × Bytes)} (hl : ∀ p ∈ l, p.1 = o) (ho : o ∈ nameOids) : sortAtav l = l := by
  have key : ∀ (l acc : List (List Nat × Bytes)), (∀ p ∈ l, p.1 = o) → (∀ p ∈ acc, p.1 = o) →
      l.foldl (fun acc x => insertAtav x acc) acc = acc ++ l := by
    intro l
    induction l with
    | nil => intro acc _ _; simp
    | cons x xs ih =>
      intro acc h1 h2
      rw [List.foldl_cons, insertAtav_same (h1 x List.mem_cons_self) h2 ho, ih _ (fun p hp => h1 p (List.mem_cons_of_mem _ hp))]
      · simp
      · intro p hp
        rcases List.mem_append.1 hp with hp | hp
        · exact h2 p hp
        · rw [List.mem_singleton] at hp; rw [hp]; exact h1 x List.mem_cons_self
  exact key l [] hl (by simp)

theorem mem_rdnOf {o : List Nat} {vs : List Bytes} {rdn : List (List Nat × Bytes)} (h : rdn ∈ rdnOf o vs) : rdn ≠ [] ∧ ∀ p ∈ rdn, p.1 = o := by
  unfold rdnOf at h
  split at h
  · cases h
  · rename_i hn
    rw [List.mem_singleton] at h
    subst h
    refine ⟨by simpa using hn, fun p hp => ?_⟩
    obtain ⟨v, _, rfl⟩ := List.mem_map.1 hp
    rfl

theorem mem_rdns {n : PName} {rdn : List (List Nat × Bytes)} (h : rdn ∈ n.rdns) : rdn ≠ [] ∧ ∃ o ∈ nameOids, ∀ p ∈ rdn, p.1 = o := by
  unfold PName.rdns at h
  have wrap : ∀ {o : List Nat} {vs : List Bytes}, o ∈ nameOids → rdn ∈ rdnOf o vs → rdn ≠ [] ∧ ∃ o ∈ nameOids, ∀ p ∈ rdn, p.1 = o :=
    fun ho h => ⟨(mem_rdnOf h).1, _, ho, (mem_rdnOf h).2⟩
  simp only [List.mem_append] at h
  rcases h with (((((((h | h) | h) | h) | h) | h) | h) | h) | h
  · exact wrap (by decide) h
  · exact wrap (by decide) h
  · exact wrap (by decide) h
  · exact wrap (by decide) h
  · exact wrap (by decide) h
  · exact wrap (by decide) h
  · exact wrap (by decide) h
  · split at h
    · cases h
    · exact wrap (by decide) h
  · split at h
    · cases h
    · exact wrap (by decide) h

/-- Writing of a key. -/
def renderKey (k : Rdns) : Bytes := joinByte 44 (k.reverse.map (fun rdn => joinByte 43 (rdn.map (fun p => dotted p.1 ++ 61 :: p.2))))

theorem dotted_plain : ∀ o ∈ nameOids, (∀ c ∈ dotted o, c.toNat < 128 ∧ lowerAscii c = c ∧ c ≠ 43 ∧ c ≠ 44 ∧ c ≠ 61) := by decide

theorem dotted_inj' : ∀ o ∈ nameOids, ∀ q ∈ nameOids, dotted o = dotted q → o = q := by decide

theorem lower_atav {L : Bytes → Bytes} (hL : LowerCase L) {o : List Nat} (ho : o ∈ nameOids) (v : Bytes) :
    L (dotted o ++ 61 :: v) = dotted o ++ 61 :: L v := by
  rw [hL.ascii _ _ _ (by decide), hL.map (fun c hc => (dotted_plain o ho c hc).1)]
  have : (dotted o).map lowerAscii = dotted o := by
    conv => rhs; rw [← List.map_id (dotted o)]
    exact List.map_congr_left (fun c hc => (dotted_plain o ho c hc).2.1)
  rw [this]
  rfl

theorem canonical_eq {L : Bytes → Bytes} (hL : LowerCase L) (n : PName) : canonical L n = renderKey (nameKey (plainValue L) n) := by
  unfold canonical canonRdns renderKey nameKey
  rw [hL.join (by decide) (by decide), ← List.map_reverse, List.map_map, List.map_map]
  congr 1
  apply List.map_congr_left
  intro rdn hr
  obtain ⟨_, o, ho, hp⟩ := mem_rdns (List.mem_reverse.1 hr)
  simp only [Function.comp]
  rw [sortAtav_same hp ho, hL.join (by decide) (by decide), List.map_map, List.map_map]
  congr 1
  apply List.map_congr_left
  intro p hpp
  simp only [Function.comp, canonAtav]
  rw [hp p hpp, lower_atav hL ho, canonValue_eq]
  rfl

theorem key_props {L : Bytes → Bytes} (hL : LowerCase L) (n : PName) : ∀ rdn ∈ nameKey (plainValue L) n, rdn ≠ [] ∧
    ∀ p ∈ rdn, p.1 ∈ nameOids ∧ 43 ∉ p.2 ∧ 44 ∉ p.2 := by
  intro rdn hr
  obtain ⟨r0, h0, rfl⟩ := List.mem_map.1 hr
  obtain ⟨h1, o, ho, h2⟩ := mem_rdns h0
  refine ⟨by simpa using h1, fun p hp => ?_⟩
  obtain ⟨q, hq, rfl⟩ := List.mem_map.1 hp
  refine ⟨by rw [h2 q hq]; exact ho, ?_⟩
  have : plainValue L q.2 = L (canonValue q.2) := by rw [canonValue_eq]; rfl
  rw [this]
  exact ⟨hL.notMem (by decide) (canonValue_sep q.2).1, hL.notMem (by decide) (canonValue_sep q.2).2⟩

theorem atav_inj {o q : List Nat} {v w : Bytes} (ho : o ∈ nameOids) (hq : q ∈ nameOids) (h : dotted o ++ 61 :: v = dotted q ++ 61 :: w) : o = q ∧ v = w := by
  have stop : ∀ {a b v w : Bytes}, (61 : UInt8) ∉ a → (61 : UInt8) ∉ b → a ++ 61 :: v = b ++ 61 :: w → a = b ∧ v = w := by
    intro a
    induction a with
    | nil =>
      intro b v w _ hb h
      cases b with
      | nil => exact ⟨rfl, by simpa using h⟩
      | cons x b => simp only [List.nil_append, List.cons_append, List.cons.injEq] at h; exact absurd (h.1 ▸ List.mem_cons_self) hb
    | cons x a ih =>
      intro b v w ha hb h
      cases b with
      | nil => simp only [List.nil_append, List.cons_append, List.cons.injEq] at h; exact absurd (h.1 ▸ List.mem_cons_self) ha
      | cons y b =>
        simp only [List.cons_append, List.cons.injEq] at h
        obtain ⟨h1, h2⟩ := ih (fun hh => ha (List.mem_cons_of_mem _ hh)) (fun hh => hb (List.mem_cons_of_mem _ hh)) h.2
        exact ⟨by rw [h.1, h1], h2⟩
  obtain ⟨h1, h2⟩ := stop (fun hh => (dotted_plain o ho 61 hh).2.2.2.2 rfl) (fun hh => (dotted_plain q hq 61 hh).2.2.2.2 rfl) h
  exact ⟨dotted_inj' o ho q hq h1, h2⟩

theorem map_inj_mem {α β : Type} {f : α → β} {l m : List α} (hi : ∀ x ∈ l, ∀ y ∈ m, f x = f y → x = y) (h : l.map f = m.map f) : l = m := by
  induction l generalizing m with
  | nil => cases m with | nil => rfl | cons y m => cases h
  | cons x l ih =>
    cases m with
    | nil => cases h
    | cons y m =>
      simp only [List.map_cons, List.cons.injEq] at h
      rw [hi x List.mem_cons_self y List.mem_cons_self h.1, ih (fun a ha b hb => hi a (List.mem_cons_of_mem _ ha) b (List.mem_cons_of_mem _ hb)) h.2]

theorem renderKey_inj {k l : Rdns} (hk : ∀ rdn ∈ k, rdn ≠ [] ∧ ∀ p ∈ rdn, p.1 ∈ nameOids ∧ 43 ∉ p.2 ∧ 44 ∉ p.2)
    (hl : ∀ rdn ∈ l, rdn ≠ [] ∧ ∀ p ∈ rdn, p.1 ∈ nameOids ∧ 43 ∉ p.2 ∧ 44 ∉ p.2) (h : renderKey k = renderKey l) : k = l := by
  have at43 : ∀ p : List Nat × Bytes, p.1 ∈ nameOids ∧ 43 ∉ p.2 ∧ 44 ∉ p.2 → (43 : UInt8) ∉ dotted p.1 ++ 61 :: p.2 := by
    rintro p ⟨h1, h2, _⟩ hm
    rcases List.mem_append.1 hm with hm | hm
    · exact (dotted_plain p.1 h1 43 hm).2.2.1 rfl
    · rcases List.mem_cons.1 hm with hm | hm
      · revert hm; decide
      · exact h2 hm
  have at44 : ∀ p : List Nat × Bytes, p.1 ∈ nameOids ∧ 43 ∉ p.2 ∧ 44 ∉ p.2 → (44 : UInt8) ∉ dotted p.1 ++ 61 :: p.2 := by
    rintro p ⟨h1, _, h2⟩ hm
    rcases List.mem_append.1 hm with hm | hm
    · exact (dotted_plain p.1 h1 44 hm).2.2.2.1 rfl
    · rcases List.mem_cons.1 hm with hm | hm
      · revert hm; decide
      · exact h2 hm
  have join44 : ∀ rdn : List (List Nat × Bytes), (∀ p ∈ rdn, p.1 ∈ nameOids ∧ 43 ∉ p.2 ∧ 44 ∉ p.2) → (44 : UInt8) ∉ joinByte 43 (rdn.map (fun p => dotted p.1 ++ 61 :: p.2)) := by
    intro rdn
    induction rdn with
    | nil => intro _ h; cases h
    | cons p ps ih =>
      intro h
      cases ps with
      | nil => exact at44 p (h p List.mem_cons_self)
      | cons q qs =>
        rw [List.map_cons, List.map_cons, joinByte]
        · intro hm
          rcases List.mem_append.1 hm with hm | hm
          · exact at44 p (h p List.mem_cons_self) hm
          · rcases List.mem_cons.1 hm with hm | hm
            · revert hm; decide
            · exact ih (fun x hx => h x (List.mem_cons_of_mem _ hx)) hm
        · simp
  have ne : ∀ rdn : List (List Nat × Bytes), rdn ≠ [] → joinByte 43 (rdn.map (fun p => dotted p.1 ++ 61 :: p.2)) ≠ [] := by
    intro rdn h0
    cases rdn with
    | nil => exact absurd rfl h0
    | cons p ps =>
      cases ps with
      | nil => simp [joinByte]
      | cons q qs => rw [List.map_cons, List.map_cons, joinByte] <;> simp
  unfold renderKey at h
  have h1 := joinByte_inj (by
      intro t ht
      obtain ⟨r, hr, rfl⟩ := List.mem_map.1 ht
      exact join44 r (hk r (List.mem_reverse.1 hr)).2) (by
      intro t ht
      obtain ⟨r, hr, rfl⟩ := List.mem_map.1 ht
      exact join44 r (hl r (List.mem_reverse.1 hr)).2) (by
      intro t ht
      obtain ⟨r, hr, rfl⟩ := List.mem_map.1 ht
      exact ne r (hk r (List.mem_reverse.1 hr)).1) (by
      intro t ht
      obtain ⟨r, hr, rfl⟩ := List.mem_map.1 ht
      exact ne r (hl r (List.mem_reverse.1 hr)).1) h
  have h2 := map_inj_mem (fun x hx y hy e => ?_) h1
  · exact List.reverse_inj.1 h2
  · have kx := (hk x (List.mem_reverse.1 hx)).2
    have ky := (hl y (List.mem_reverse.1 hy)).2
    have h3 := joinByte_inj (by
        intro t ht
        obtain ⟨r, hr, rfl⟩ := List.mem_map.1 ht
        exact at43 r (kx r hr)) (by
        intro t ht
        obtain ⟨r, hr, rfl⟩ := List.mem_map.1 ht
        exact at43 r (ky r hr)) (by
        intro t ht
        obtain ⟨r, hr, rfl⟩ := List.mem_map.1 ht
        simp) (by
        intro t ht
        obtain ⟨r, hr, rfl⟩ := List.mem_map.1 ht
        simp) e
    refine map_inj_mem (fun p hp q hq e => ?_) h3
    obtain ⟨e1, e2⟩ := atav_inj (kx p hp).1 (ky q hq).1 e
    exact Prod.ext e1 e2

/-- One field of the key. -/
def keyField (o : List Nat) (k : Rdns) : List Bytes := k.flatten.filterMap (fun p => if p.1 = o then some p.2 else none)

theorem key_rdnOf (f : Bytes → Bytes) (o : List Nat) (vs : List Bytes) : (rdnOf o vs).map (fun rdn => rdn.map (fun p => (p.1, f p.2))) = rdnOf o (vs.map f) := by
  unfold rdnOf
  by_cases h : vs = []
  · rw [h]; rfl
  · rw [if_neg h, if_neg (by simpa using h)]
    simp [Function.comp_def]

theorem keyField_append (o : List Nat) (a b : Rdns) : keyField o (a ++ b) = keyField o a ++ keyField o b := by
  unfold keyField
  simp

theorem keyField_rdnOf (o q : List Nat) (vs : List Bytes) : keyField o (rdnOf q vs) = if q = o then vs else [] := by
  unfold keyField rdnOf
  by_cases h : vs = []
  · rw [if_pos h, h]; split <;> rfl
  · rw [if_neg h]
    simp only [List.flatten_cons, List.flatten_nil, List.append_nil, List.filterMap_map]
    by_cases hq : q = o
    · rw [if_pos hq]
      have : ((fun p : List Nat × Bytes => if p.1 = o then some p.2 else none) ∘ fun v => (q, v)) = some := by
        funext v; simp [hq]
      rw [this]
      simp
    · rw [if_neg hq]
      have : ((fun p : List Nat × Bytes => if p.1 = o then some p.2 else none) ∘ fun v => (q, v)) = fun _ => none := by
        funext v; simp [hq]
      rw [this]
      simp

/-- The single-valued field as a list. -/
def optValue (f : Bytes → Bytes) (v : Bytes) : List Bytes := if v = [] then [] else [f v]

theorem nameKey_eq (f : Bytes → Bytes) (n : PName) : nameKey f n =
    rdnOf [2, 5, 4, 6] (n.country.map f) ++ rdnOf [2, 5, 4, 10] (n.org.map f) ++ rdnOf [2, 5, 4, 11] (n.orgUnit.map f) ++
    rdnOf [2, 5, 4, 7] (n.locality.map f) ++ rdnOf [2, 5, 4, 8] (n.province.map f) ++ rdnOf [2, 5, 4, 9] (n.street.map f) ++
    rdnOf [2, 5, 4, 17] (n.postal.map f) ++ rdnOf [2, 5, 4, 3] (optValue f n.commonName) ++ rdnOf [2, 5, 4, 5] (optValue f n.serialNo) := by
  have opt : ∀ (o : List Nat) (v : Bytes), (if v = [] then [] else rdnOf o [v]).map (fun rdn : List (List Nat × Bytes) => rdn.map (fun p => (p.1, f p.2))) = rdnOf o (optValue f v) := by
    intro o v
    unfold optValue
    by_cases h : v = []
    · rw [if_pos h, if_pos h]; rfl
    · rw [if_neg h, if_neg h, key_rdnOf]; rfl
  unfold nameKey PName.rdns
  simp only [List.map_append, key_rdnOf, opt]

theorem optValue_iff {L : Bytes → Bytes} {a b : Bytes} : optValue (plainValue L) a = optValue (plainValue L) b ↔ SameValue L a b := by
  unfold optValue SameValue
  by_cases ha : a = []
  · by_cases hb : b = []
    · rw [ha, hb]; simp
    · simp [ha, hb]
  · by_cases hb : b = []
    · simp [ha, hb]
    · simp [ha, hb]

theorem sameName_iff {env : Env1} (hL : LowerCase env.toLower) {a b : PName} : SameName env a b ↔ AlikeNames env.toLower a b := by
  unfold SameName
  rw [canonical_eq hL, canonical_eq hL]
  constructor
  · intro h
    have hk := renderKey_inj (key_props hL a) (key_props hL b) h
    rw [nameKey_eq, nameKey_eq] at hk
    have get : ∀ o, keyField o _ = keyField o _ := fun o => congrArg (keyField o) hk
    simp only [keyField_append, keyField_rdnOf] at get
    refine ⟨?_, ?_, ?_, ?_, ?_, ?_, ?_, ?_, ?_⟩
    · show List.map _ _ = List.map _ _; simpa using get [2,5,4,6]
    · show List.map _ _ = List.map _ _; simpa using get [2,5,4,10]
    · show List.map _ _ = List.map _ _; simpa using get [2,5,4,11]
    · show List.map _ _ = List.map _ _; simpa using get [2,5,4,7]
    · show List.map _ _ = List.map _ _; simpa using get [2,5,4,8]
    · show List.map _ _ = List.map _ _; simpa using get [2,5,4,9]
    · show List.map _ _ = List.map _ _; simpa using get [2,5,4,17]
    · exact optValue_iff.1 (by simpa using get [2,5,4,3])
    · exact optValue_iff.1 (by simpa using get [2,5,4,5])
  · intro h
    rw [nameKey_eq, nameKey_eq, h.country, h.org, h.orgUnit, h.locality, h.province, h.street, h.postal, optValue_iff.2 h.commonName, optValue_iff.2 h.serialNo]

/-! ## Filling from the parsed name -/

/-- What one attribute adds to a field. -/
def addOf (o : List Nat) (p : List Nat × Option Bytes) : List Bytes := (if p.1 = o then p.2 else none).toList

theorem valuesOf_eq (o : List Nat) (l : List (List Nat × Option Bytes)) : l.filterMap (fun p => if p.1 = o then p.2 else none) = l.flatMap (addOf o) := by
  induction l with
  | nil => rfl
  | cons p l ih =>
    rw [List.filterMap_cons, List.flatMap_cons, ← ih]
    unfold addOf
    cases (if p.1 = o then p.2 else none) <;> rfl

theorem fillAttr_step (n : PName) (p : List Nat × Option Bytes) :
    (fillAttr n p).country = n.country ++ addOf [2,5,4,6] p ∧ (fillAttr n p).org = n.org ++ addOf [2,5,4,10] p ∧
    (fillAttr n p).orgUnit = n.orgUnit ++ addOf [2,5,4,11] p ∧ (fillAttr n p).locality = n.locality ++ addOf [2,5,4,7] p ∧
    (fillAttr n p).province = n.province ++ addOf [2,5,4,8] p ∧ (fillAttr n p).street = n.street ++ addOf [2,5,4,9] p ∧
    (fillAttr n p).postal = n.postal ++ addOf [2,5,4,17] p ∧
    (fillAttr n p).commonName = (addOf [2,5,4,3] p).getLast?.getD n.commonName ∧
    (fillAttr n p).serialNo = (addOf [2,5,4,5] p).getLast?.getD n.serialNo := by
  obtain ⟨o, v⟩ := p
  cases v with
  | none =>
    have : fillAttr n (o, none) = n := by unfold fillAttr; split <;> first | rfl | simp_all
    rw [this]
    simp [addOf]
  | some v =>
    unfold fillAttr
    split <;> simp_all [addOf]

theorem fill_fold (l : List (List Nat × Option Bytes)) : ∀ n : PName,
    (l.foldl fillAttr n).country = n.country ++ l.flatMap (addOf [2,5,4,6]) ∧ (l.foldl fillAttr n).org = n.org ++ l.flatMap (addOf [2,5,4,10]) ∧
    (l.foldl fillAttr n).orgUnit = n.orgUnit ++ l.flatMap (addOf [2,5,4,11]) ∧ (l.foldl fillAttr n).locality = n.locality ++ l.flatMap (addOf [2,5,4,7]) ∧
    (l.foldl fillAttr n).province = n.province ++ l.flatMap (addOf [2,5,4,8]) ∧ (l.foldl fillAttr n).street = n.street ++ l.flatMap (addOf [2,5,4,9]) ∧
    (l.foldl fillAttr n).postal = n.postal ++ l.flatMap (addOf [2,5,4,17]) ∧
    (l.foldl fillAttr n).commonName = (l.flatMap (addOf [2,5,4,3])).getLast?.getD n.commonName ∧
    (l.foldl fillAttr n).serialNo = (l.flatMap (addOf [2,5,4,5])).getLast?.getD n.serialNo := by
  induction l with
  | nil => intro n; simp
  | cons p l ih =>
    intro n
    obtain ⟨s1, s2, s3, s4, s5, s6, s7, s8, s9⟩ := fillAttr_step n p
    obtain ⟨i1, i2, i3, i4, i5, i6, i7, i8, i9⟩ := ih (fillAttr n p)
    simp only [List.foldl_cons, List.flatMap_cons]
    rw [i1, i2, i3, i4, i5, i6, i7, i8, i9, s1, s2, s3, s4, s5, s6, s7, s8, s9]
    simp only [List.append_assoc, List.getLast?_append, true_and]
    have key : ∀ (a b : List Bytes) (d : Bytes), b.getLast?.getD (a.getLast?.getD d) = (b.getLast?.or a.getLast?).getD d := by
      intro a b d
      cases b.getLast? <;> rfl
    exact ⟨key _ _ _, key _ _ _⟩

theorem fillName_eq (r : RawRdns) : fillName r =
    { country := valuesOf [2,5,4,6] r, org := valuesOf [2,5,4,10] r, orgUnit := valuesOf [2,5,4,11] r, locality := valuesOf [2,5,4,7] r,
      province := valuesOf [2,5,4,8] r, street := valuesOf [2,5,4,9] r, postal := valuesOf [2,5,4,17] r,
      commonName := lastValue [2,5,4,3] r, serialNo := lastValue [2,5,4,5] r } := by
  obtain ⟨i1, i2, i3, i4, i5, i6, i7, i8, i9⟩ := fill_fold r.flatten {}
  unfold fillName lastValue valuesOf
  simp only [valuesOf_eq]
  have ext : ∀ (a b : PName), a.country = b.country → a.org = b.org → a.orgUnit = b.orgUnit → a.locality = b.locality → a.province = b.province →
      a.street = b.street → a.postal = b.postal → a.commonName = b.commonName → a.serialNo = b.serialNo → a = b := by
    rintro ⟨⟩ ⟨⟩ h1 h2 h3 h4 h5 h6 h7 h8 h9
    simp only at h1 h2 h3 h4 h5 h6 h7 h8 h9
    subst h1 h2 h3 h4 h5 h6 h7 h8 h9
    rfl
  apply ext
  · rw [i1]; rfl
  · rw [i2]; rfl
  · rw [i3]; rfl
  · rw [i4]; rfl
  · rw [i5]; rfl
  · rw [i6]; rfl
  · rw [i7]; rfl
  · rw [i8]
  · rw [i9]

end Apk
