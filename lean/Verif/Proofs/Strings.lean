import Verif.Model.Strings
/-! # Renderings are faithful -/
namespace Apk
set_option linter.unusedSimpArgs false

theorem hexDigit_inj {a b : Nat} (ha : a < 16) (hb : b < 16) (h : hexDigit a = hexDigit b) : a = b := by
  have key : ∀ a : Fin 16, ∀ b : Fin 16, hexDigit a.1 = hexDigit b.1 → a.1 = b.1 := by decide
  exact key ⟨a, ha⟩ ⟨b, hb⟩ h

theorem map_hexDigit_inj : ∀ {l m : List Nat}, (∀ a ∈ l, a < 16) → (∀ a ∈ m, a < 16) → l.map hexDigit = m.map hexDigit → l = m := by
  intro l
  induction l with
  | nil => intro m _ _ h; cases m with
    | nil => rfl
    | cons => simp at h
  | cons a l ih =>
    intro m hl hm h
    cases m with
    | nil => simp at h
    | cons b m =>
      simp only [List.map_cons, List.cons.injEq] at h
      rw [hexDigit_inj (hl a (by simp)) (hm b (by simp)) h.1, ih (fun x hx => hl x (by simp [hx])) (fun x hx => hm x (by simp [hx])) h.2]

/-- Value of digits, least significant first. -/
def radixVal (base : Nat) : List Nat → Nat
  | [] => 0
  | d :: ds => d + base * radixVal base ds

theorem digitsRev_val (base : Nat) (hb : 2 ≤ base) : ∀ fuel n, n ≤ fuel → radixVal base (digitsRev base fuel n) = n := by
  intro fuel
  induction fuel with
  | zero => intro n hn; have : n = 0 := by omega
            subst this; simp [digitsRev, radixVal]
  | succ f ih =>
    intro n hn
    unfold digitsRev
    split
    · simp [radixVal]
    · have h1 : n / base ≤ f := by
        have h2 : n / base < n := Nat.div_lt_self (by omega) (by omega)
        omega
      simp only [radixVal, ih _ h1]
      exact Nat.mod_add_div n base

theorem digitsRev_lt (base : Nat) (hb : 2 ≤ base) : ∀ fuel n, ∀ d ∈ digitsRev base fuel n, d < base := by
  intro fuel
  induction fuel with
  | zero => intro n d hd; simp only [digitsRev, List.mem_singleton] at hd; subst hd; exact Nat.mod_lt _ (by omega)
  | succ f ih =>
    intro n d hd
    unfold digitsRev at hd
    split at hd
    · simp at hd; omega
    · rcases List.mem_cons.1 hd with h | h
      · subst h; exact Nat.mod_lt _ (by omega)
      · exact ih _ d h

theorem radixVal_zeros (base : Nat) (ds : List Nat) : ∀ k, radixVal base (ds ++ List.replicate k 0) = radixVal base ds := by
  intro k
  induction ds with
  | nil =>
    induction k with
    | zero => rfl
    | succ k ih => simp only [List.nil_append] at ih; simp [List.replicate_succ, radixVal, ih]
  | cons d ds ih => simp [radixVal, ih]

theorem fmtHexMin_inj {w v a b : Nat} (h : fmtHexMin w a = fmtHexMin v b) : a = b := by
  unfold fmtHexMin at h
  have hlt : ∀ w n, ∀ d ∈ List.replicate (w - (digitsRev 16 n n).length) 0 ++ (digitsRev 16 n n).reverse, d < 16 := by
    intro w n d hd
    rcases List.mem_append.1 hd with hd | hd
    · rw [(List.mem_replicate.1 hd).2]; omega
    · exact digitsRev_lt 16 (by omega) n n d (List.mem_reverse.1 hd)
  have h1 := map_hexDigit_inj (hlt w a) (hlt v b) h
  have hv : ∀ w n, radixVal 16 (List.replicate (w - (digitsRev 16 n n).length) 0 ++ (digitsRev 16 n n).reverse).reverse = n := by
    intro w n
    rw [List.reverse_append, List.reverse_reverse, List.reverse_replicate, radixVal_zeros, digitsRev_val 16 (by omega) n n (Nat.le_refl n)]
  rw [← hv w a, ← hv v b, h1]

theorem decDigits_inj {a b : Nat} (h : ((digitsRev 10 a a).reverse).map hexDigit = ((digitsRev 10 b b).reverse).map hexDigit) : a = b := by
  have hlt : ∀ n, ∀ d ∈ (digitsRev 10 n n).reverse, d < 16 := fun n d hd =>
    Nat.lt_trans (digitsRev_lt 10 (by omega) n n d (List.mem_reverse.1 hd)) (by omega)
  have h1 := List.reverse_inj.1 (map_hexDigit_inj (hlt a) (hlt b) h)
  rw [← digitsRev_val 10 (by omega) a a (Nat.le_refl a), ← digitsRev_val 10 (by omega) b b (Nat.le_refl b), h1]

theorem digitsRev_ne (base fuel n : Nat) : digitsRev base fuel n ≠ [] := by
  cases fuel with
  | zero => simp [digitsRev]
  | succ f => unfold digitsRev; split <;> simp

theorem decDigits_byte {n : Nat} : ∀ x ∈ ((digitsRev 10 n n).reverse).map hexDigit, 48 ≤ x.toNat ∧ x.toNat ≤ 57 := by
  intro x hx
  obtain ⟨d, hd, rfl⟩ := List.mem_map.1 hx
  have hlt := digitsRev_lt 10 (by omega) n n d (List.mem_reverse.1 hd)
  have key : ∀ d : Fin 10, 48 ≤ (hexDigit d.1).toNat ∧ (hexDigit d.1).toNat ≤ 57 := by decide
  exact key ⟨d, hlt⟩

theorem decDigits_head (n : Nat) : ∃ x l, ((digitsRev 10 n n).reverse).map hexDigit = x :: l ∧ 48 ≤ x.toNat ∧ x.toNat ≤ 57 := by
  cases h : ((digitsRev 10 n n).reverse).map hexDigit with
  | nil => simp [digitsRev_ne] at h
  | cons x l => exact ⟨x, l, rfl, decDigits_byte (n := n) x (by rw [h]; simp)⟩

theorem fmtDec_inj {i j : Int} (h : fmtDec i = fmtDec j) : i = j := by
  unfold fmtDec at h
  split at h <;> split at h
  · simp only [List.cons.injEq, true_and] at h
    have := decDigits_inj h; omega
  · obtain ⟨x, l, hx, h1, _⟩ := decDigits_head j.natAbs
    rw [hx] at h; simp only [List.cons.injEq] at h
    rw [← h.1] at h1; exact absurd h1 (by decide)
  · obtain ⟨x, l, hx, h1, _⟩ := decDigits_head i.natAbs
    rw [hx] at h; simp only [List.cons.injEq] at h
    rw [h.1] at h1; exact absurd h1 (by decide)
  · have := decDigits_inj h; omega

theorem fmtDec_shape (i : Int) : ∃ x l, (fmtDec i = x :: l ∨ fmtDec i = 45 :: x :: l) ∧ 48 ≤ x.toNat ∧ x.toNat ≤ 57 := by
  obtain ⟨x, l, hx, h1⟩ := decDigits_head i.natAbs
  unfold fmtDec
  refine ⟨x, l, ?_, h1⟩
  rw [hx]
  split
  · exact .inr rfl
  · exact .inl rfl

/-! ## Tables with distinct keys and names -/

theorem table_inj {κ : Type} [DecidableEq κ] (tab : List (κ × Bytes)) (h : (tab.map (·.2)).Nodup) {a b : κ} {s : Bytes}
    (ha : mget tab a = some s) (hb : mget tab b = some s) : a = b := by
  induction tab with
  | nil => simp [mget] at ha
  | cons p tab ih =>
    simp only [List.map_cons, List.nodup_cons, List.mem_map, not_exists, not_and] at h
    have hmem : ∀ c, mget tab c = some s → ∃ q ∈ tab, q.2 = s := by
      intro c hc
      unfold mget at hc
      cases hf : tab.find? (fun q => decide (q.1 = c)) with
      | none => rw [hf] at hc; simp at hc
      | some q =>
        rw [hf] at hc
        exact ⟨q, List.mem_of_find?_eq_some hf, by simpa using hc⟩
    have hsplit : ∀ c, mget (p :: tab) c = if p.1 = c then some p.2 else mget tab c := by
      intro c
      unfold mget
      by_cases hc : p.1 = c <;> simp [List.find?_cons, hc]
    rw [hsplit] at ha hb
    split at ha <;> split at hb
    · rename_i h1 h2; rw [← h1, ← h2]
    · obtain ⟨q, hq, hqs⟩ := hmem b hb
      cases ha
      exact absurd hqs (h.1 q hq)
    · obtain ⟨q, hq, hqs⟩ := hmem a ha
      cases hb
      exact absurd hqs (h.1 q hq)
    · exact ih h.2 ha hb

theorem table_name {κ : Type} [DecidableEq κ] {tab : List (κ × Bytes)} {a : κ} {s : Bytes} (ha : mget tab a = some s) :
    s ∈ tab.map (·.2) := by
  unfold mget at ha
  cases hf : tab.find? (fun q => decide (q.1 = a)) with
  | none => rw [hf] at ha; simp at ha
  | some q =>
    rw [hf] at ha
    simp only [Option.map_some, Option.some.injEq] at ha
    exact List.mem_map.2 ⟨q, List.mem_of_find?_eq_some hf, ha⟩

theorem blockIdString_inj {a b : Nat} (h : blockIdString a = blockIdString b) : a = b := by
  have hpre : ∀ s ∈ blockIdNames.map (·.2), s.head? ≠ some 85 := by decide
  unfold blockIdString at h
  split at h <;> split at h
  · rename_i s h1 _ t h2
    subst h; exact table_inj blockIdNames (by decide) h1 h2
  · rename_i s h1 _ h2
    exact absurd (by rw [h]; rfl) (hpre s (table_name h1))
  · rename_i h1 _ t h2
    exact absurd (by rw [← h]; rfl) (hpre t (table_name h2))
  · simp only [List.append_cancel_left_eq, List.append_cancel_right_eq] at h
    exact fmtHexMin_inj h

theorem algoString_inj {a b : Nat} (h : algoString a = algoString b) : a = b := by
  have hpre : ∀ s ∈ algoNames.map (·.2), s.head? ≠ some 48 := by decide
  unfold algoString at h
  split at h <;> split at h
  · rename_i s h1 _ t h2
    subst h; exact table_inj algoNames (by decide) h1 h2
  · rename_i s h1 _ h2
    exact absurd (by rw [h]; rfl) (hpre s (table_name h1))
  · rename_i h1 _ t h2
    exact absurd (by rw [← h]; rfl) (hpre t (table_name h2))
  · simp only [List.append_cancel_left_eq] at h
    exact fmtHexMin_inj h

theorem levelString_inj {a b : Int} (h : levelString a = levelString b) : a = b := by
  have hpre : ∀ s ∈ levelNames.map (·.2), ∀ x l, (s = x :: l ∨ s = 45 :: x :: l) → ¬ (48 ≤ x.toNat ∧ x.toNat ≤ 57) := by
    have h1 : ∀ s ∈ levelNames.map (·.2), ∀ x ∈ s.head?, ¬ (48 ≤ x.toNat ∧ x.toNat ≤ 57) := by decide
    have h2 : ∀ s ∈ levelNames.map (·.2), ∀ x ∈ s.tail.head?, s.head? = some 45 → ¬ (48 ≤ x.toNat ∧ x.toNat ≤ 57) := by decide
    intro s hs x l hx
    rcases hx with rfl | rfl
    · exact h1 _ hs x rfl
    · exact h2 _ hs x rfl rfl
  unfold levelString at h
  split at h <;> split at h
  · rename_i s h1 _ t h2
    subst h; exact table_inj levelNames (by decide) h1 h2
  · rename_i s h1 _ h2
    obtain ⟨x, l, hx, hd⟩ := fmtDec_shape b
    exact absurd hd (hpre s (table_name h1) x l (by rw [h]; exact hx))
  · rename_i h1 _ t h2
    obtain ⟨x, l, hx, hd⟩ := fmtDec_shape a
    exact absurd hd (hpre t (table_name h2) x l (by rw [← h]; exact hx))
  · exact fmtDec_inj h

/-! ## Joined lists -/

theorem sep_split {c : UInt8} : ∀ {x y u v : Bytes}, c ∉ x → c ∉ y → x ++ c :: u = y ++ c :: v → x = y ∧ u = v := by
  intro x
  induction x with
  | nil =>
    intro y u v _ hy h
    cases y with
    | nil => simpa using h
    | cons b y => simp at h; exact absurd h.1 (fun e => hy (by simp [e]))
  | cons a x ih =>
    intro y u v hx hy h
    cases y with
    | nil => simp at h; exact absurd h.1.symm (fun e => hx (by simp [e]))
    | cons b y =>
      simp only [List.cons_append, List.cons.injEq] at h
      have := ih (fun e => hx (by simp [e])) (fun e => hy (by simp [e])) h.2
      exact ⟨by rw [h.1, this.1], this.2⟩

theorem joinWith_cons2 (sep s t : Bytes) (l : List Bytes) : joinWith sep (s :: t :: l) = s ++ sep ++ joinWith sep (t :: l) := rfl

theorem joinWith_inj {c : UInt8} : ∀ {l m : List Bytes}, (∀ s ∈ l, c ∉ s) → (∀ s ∈ m, c ∉ s) → l ≠ [] → m ≠ [] →
    joinWith [c] l = joinWith [c] m → l = m := by
  intro l
  induction l with
  | nil => intro m _ _ h; exact absurd rfl h
  | cons s l ih =>
    intro m hl hm _ hm0 h
    cases m with
    | nil => exact absurd rfl hm0
    | cons t m =>
      have hs := hl s (by simp)
      have ht := hm t (by simp)
      cases l with
      | nil =>
        cases m with
        | nil => simp only [joinWith] at h; rw [h]
        | cons t' m =>
          rw [joinWith_cons2] at h; simp only [joinWith] at h
          exact absurd (by rw [h]; simp) hs
      | cons s' l =>
        cases m with
        | nil =>
          rw [joinWith_cons2] at h; simp only [joinWith] at h
          exact absurd (by rw [← h]; simp) ht
        | cons t' m =>
          rw [joinWith_cons2, joinWith_cons2] at h
          simp only [List.append_assoc, List.singleton_append] at h
          obtain ⟨h1, h2⟩ := sep_split hs ht h
          rw [h1, ih (fun x hx => hl x (by simp [hx])) (fun x hx => hm x (by simp [hx])) (by simp) (by simp) h2]

/-! ## Capability flags -/

/-- Without flags above bit 4 the loop gives the names of the flags that are set. -/
theorem capTexts_named (str : Nat → Option Bytes) (c : Nat) : ∀ is : List Nat, (∀ i ∈ is, c.testBit i = true → i < 5) →
    ∃ l, capTexts str c is = some l ∧ l.length = (is.filter (fun i => c.testBit i)).length ∧
      l = (is.filter (fun i => c.testBit i)).map (fun i => (mget capNames i).getD []) := by
  intro is
  induction is with
  | nil => intro _; exact ⟨[], rfl, rfl, rfl⟩
  | cons i is ih =>
    intro h
    obtain ⟨l, h1, h2, h3⟩ := ih (fun j hj => h j (by simp [hj]))
    unfold capTexts
    split
    · rename_i hb
      have hi := h i (by simp) hb
      have key : ∀ j : Fin 5, (mget capNames j.1).isSome = true := by decide
      obtain ⟨s, hs⟩ := Option.isSome_iff_exists.1 (key ⟨i, hi⟩)
      simp only at hs
      unfold capText
      rw [hs, h1]
      refine ⟨s :: l, rfl, ?_, ?_⟩
      · simp [List.filter_cons, hb, h2]
      · simp [List.filter_cons, hb, ← h3, hs]
    · rename_i hb
      rw [h1]
      refine ⟨l, rfl, ?_, ?_⟩
      · simpa [List.filter_cons, hb] using h2
      · simpa [List.filter_cons, hb] using h3

/-- With a flag above bit 4 the loop needs the method on a value that has such a flag itself. -/
theorem capTexts_none (str : Nat → Option Bytes) (c : Nat) : ∀ is : List Nat, (∃ i ∈ is, c.testBit i = true ∧ mget capNames i = none ∧ str (2 ^ i) = none) →
    capTexts str c is = none := by
  intro is
  induction is with
  | nil => rintro ⟨i, hi, _⟩; simp at hi
  | cons j is ih =>
    rintro ⟨i, hi, hb, hn, hs⟩
    unfold capTexts
    rcases List.mem_cons.1 hi with rfl | hi
    · rw [if_pos hb]
      unfold capText
      rw [hn]; simp only [hs]
    · have := ih ⟨i, hi, hb, hn, hs⟩
      rw [this]
      split
      · split <;> rfl
      · rfl

theorem capNames_none {i : Nat} (hi : 5 ≤ i) : mget capNames i = none := by
  unfold mget capNames
  have : ∀ p ∈ ([(0, b!"InstalledData"), (1, b!"SharedUserId"), (2, b!"Permission"), (3, b!"Rollback"), (4, b!"Auth")] : List (Nat × Bytes)), p.1 < 5 := by decide
  rw [List.find?_eq_none.2]
  · rfl
  · intro p hp; have := this p hp; simp; omega

theorem capsEval_diverges : ∀ depth c i, 5 ≤ i → i < 31 → c.testBit i = true → capsEval depth c = none := by
  intro depth
  induction depth with
  | zero => intros; rfl
  | succ d ih =>
    intro c i h1 h2 hb
    unfold capsEval
    rw [capTexts_none _ _ _ ⟨i, List.mem_range.2 h2, hb, capNames_none h1, ih _ i h1 h2 (by simp [Nat.testBit_two_pow_self])⟩]

/-- The names of the flags that are set, in the order of their bits. -/
theorem capsEval_named (c : Nat) (h : ∀ i, 5 ≤ i → i < 31 → c.testBit i = false) (depth : Nat) :
    capsEval (depth + 1) c = some (if ((List.range 5).filter (fun i => c.testBit i)).length ≠ 0 then
      joinWith (b!"|") (((List.range 5).filter (fun i => c.testBit i)).map (fun i => (mget capNames i).getD [])) else b!"None") := by
  have hr : (List.range 31).filter (fun i => c.testBit i) = (List.range 5).filter (fun i => c.testBit i) := by
    have hsplit : List.range 31 = List.range 5 ++ (List.range 26).map (5 + ·) := by decide
    rw [hsplit, List.filter_append]
    have : ((List.range 26).map (5 + ·)).filter (fun i => c.testBit i) = [] := by
      rw [List.filter_eq_nil_iff]
      intro i hi
      obtain ⟨j, hj, rfl⟩ := List.mem_map.1 hi
      have := List.mem_range.1 hj
      rw [h (5 + j) (by omega) (by omega)]; simp
    rw [this, List.append_nil]
  obtain ⟨l, h1, h2, h3⟩ := capTexts_named (capsEval depth) c (List.range 31) (by
    intro i hi hb
    refine Classical.byContradiction (fun hn => ?_)
    have := h i (by omega) (List.mem_range.1 hi)
    rw [hb] at this; exact absurd this (by simp))
  unfold capsEval
  rw [h1]
  simp only
  rw [h3, hr]
  simp

end Apk
