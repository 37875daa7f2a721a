import Verif.Model.CertInfo
/-! # sort.Sort and PickBestApkCert -/
namespace Apk
set_option linter.unusedSimpArgs false

/-! ## Every sorting algorithm only permutes -/

theorem swapAt_perm {α : Type} {l l' : List α} {i j : Nat} (h : swapAt l i j = .ok l') : l'.Perm l := by
  unfold swapAt at h
  split at h
  · rename_i a b ha hb
    cases h
    obtain ⟨hi, rfl⟩ := List.getElem?_eq_some_iff.1 ha
    obtain ⟨hj, rfl⟩ := List.getElem?_eq_some_iff.1 hb
    have := Array.swap_perm (xs := l.toArray) (i := i) (j := j) (by simpa using hi) (by simpa using hj)
    rw [Array.perm_iff_toList_perm] at this
    simpa using this
  · cases h

theorem run_perm {α : Type} (less : Nat → α → α → Go Bool) : ∀ (p : SortProg) (t : Nat) (l l' : List α), p.run less t l = .ok l' → l'.Perm l := by
  intro p
  induction p with
  | done => intro t l l' h; simp only [SortProg.run] at h; cases h; exact .refl _
  | swap i j k ih =>
    intro t l l' h
    simp only [SortProg.run] at h
    split at h
    · cases h
    · rename_i l1 h1
      exact (ih t l1 l' h).trans (swapAt_perm h1)
  | less i j k ih =>
    intro t l l' h
    simp only [SortProg.run] at h
    split at h
    · split at h
      · cases h
      · exact ih _ _ l l' h
    · cases h

theorem run_congr {α : Type} {f g : Nat → α → α → Go Bool} : ∀ (p : SortProg) (t : Nat) (l : List α),
    (∀ a ∈ l, ∀ b ∈ l, ∀ t, f t a b = g t a b) → p.run f t l = p.run g t l := by
  intro p
  induction p with
  | done => intro t l _; rfl
  | swap i j k ih =>
    intro t l h
    simp only [SortProg.run]
    cases hs : swapAt l i j with
    | error e => rfl
    | ok l1 =>
      have hp := swapAt_perm hs
      exact ih t l1 (fun a ha b hb => h a (hp.mem_iff.1 ha) b (hp.mem_iff.1 hb))
  | less i j k ih =>
    intro t l h
    simp only [SortProg.run]
    cases hi : l[i]? with
    | none => rfl
    | some a =>
      cases hj : l[j]? with
      | none => rfl
      | some b =>
        simp only
        rw [h a (List.mem_of_getElem? hi) b (List.mem_of_getElem? hj) t]
        cases g t a b with
        | error e => rfl
        | ok r => exact ih r (t + 1) l h

/-! ## The Go library's insertion sort -/

/-- Insertion into a list in reverse order: the new element moves down past the elements it has to precede. -/
def insRev {α : Type} (lt : α → α → Bool) (x : α) : List α → List α
  | [] => [x]
  | a :: l => if lt x a then a :: insRev lt x l else x :: a :: l

theorem insertionInner_run {α : Type} (lt : α → α → Bool) (k : SortProg) : ∀ (r : List α) (x : α) (post : List α) (t : Nat),
    ∃ t', (insertionInner k r.length).run (fun _ a b => .ok (lt a b)) t (r.reverse ++ x :: post) =
      k.run (fun _ a b => .ok (lt a b)) t' ((insRev lt x r).reverse ++ post) := by
  intro r
  induction r with
  | nil => intro x post t; exact ⟨t, by simp [insertionInner, insRev]⟩
  | cons a r ih =>
    intro x post t
    have hl : ((a :: r).reverse ++ x :: post) = r.reverse ++ a :: x :: post := by simp
    have h1 : (r.reverse ++ a :: x :: post)[r.length + 1]? = some x := by
      rw [List.getElem?_append_right (by simp)]; simp
    have h2 : (r.reverse ++ a :: x :: post)[r.length]? = some a := by
      rw [List.getElem?_append_right (by simp)]; simp
    simp only [List.length_cons, insertionInner, SortProg.run]
    rw [hl]
    simp only [h1, h2]
    cases hlt : lt x a with
    | false =>
      refine ⟨t + 1, ?_⟩
      simp [insRev, hlt]
    | true =>
      have hs : swapAt (r.reverse ++ a :: x :: post) (r.length + 1) r.length = .ok (r.reverse ++ x :: a :: post) := by
        unfold swapAt
        simp only [h1, h2]
        congr 1
        rw [List.set_append_right _ _ (by simp), List.set_append_right _ _ (by simp)]
        simp
      obtain ⟨t', ht⟩ := ih x (a :: post) (t + 1)
      refine ⟨t', ?_⟩
      simp only [if_true, SortProg.run, hs, ht, insRev, hlt]
      congr 1
      simp

theorem insertionOuter_run {α : Type} (lt : α → α → Bool) : ∀ (post r : List α) (t : Nat),
    (insertionOuter post.length r.length).run (fun _ a b => .ok (lt a b)) t (r.reverse ++ post) =
      .ok ((post.foldl (fun r x => insRev lt x r) r).reverse) := by
  intro post
  induction post with
  | nil => intro r t; simp [insertionOuter, SortProg.run]
  | cons x post ih =>
    intro r t
    simp only [List.length_cons, insertionOuter, List.foldl_cons]
    obtain ⟨t', h⟩ := insertionInner_run lt (insertionOuter post.length (r.length + 1)) r x post t
    rw [h]
    have hlen : (insRev lt x r).length = r.length + 1 := by
      clear h ih
      induction r with
      | nil => rfl
      | cons a r ih2 => unfold insRev; split <;> simp [ih2]
    have := ih (insRev lt x r) t'
    rw [hlen] at this
    exact this

/-- Insertion sort on a consistent comparison, as a fold. -/
theorem insertionSort_run {α : Type} (lt : α → α → Bool) (l : List α) (t : Nat) :
    (insertionSort l.length).run (fun _ a b => .ok (lt a b)) t l = .ok ((l.foldl (fun r x => insRev lt x r) []).reverse) := by
  cases l with
  | nil => rfl
  | cons x l =>
    have := insertionOuter_run lt l [x] t
    simpa [insertionSort, insRev] using this

/-- A strict weak order. -/
structure StrictWeak {α : Type} (lt : α → α → Bool) : Prop where
  irrefl : ∀ a, lt a a = false
  trans : ∀ {a b c}, lt a b = true → lt b c = true → lt a c = true
  incomp : ∀ {a b c}, lt a b = false → lt b c = false → lt a c = false

theorem StrictWeak.asymm {α : Type} {lt : α → α → Bool} (h : StrictWeak lt) {a b : α} (hab : lt a b = true) : lt b a = false := by
  cases hb : lt b a with
  | false => rfl
  | true => have := h.trans hab hb; rw [h.irrefl] at this; cases this

theorem insRev_mem {α : Type} (lt : α → α → Bool) (x y : α) (l : List α) : y ∈ insRev lt x l ↔ y = x ∨ y ∈ l := by
  induction l with
  | nil => simp [insRev]
  | cons a l ih =>
    unfold insRev
    split
    · simp only [List.mem_cons, ih]
      constructor
      · rintro (h | h | h) <;> simp [h]
      · rintro (h | h | h) <;> simp [h]
    · simp

theorem insRev_sorted {α : Type} {lt : α → α → Bool} (h : StrictWeak lt) (x : α) : ∀ (l : List α), l.Pairwise (fun a b => lt a b = false) →
    (insRev lt x l).Pairwise (fun a b => lt a b = false) := by
  intro l
  induction l with
  | nil => intro _; simp [insRev]
  | cons a l ih =>
    intro hp
    obtain ⟨h1, h2⟩ := List.pairwise_cons.1 hp
    unfold insRev
    split
    · rename_i hx
      refine List.pairwise_cons.2 ⟨?_, ih h2⟩
      intro b hb
      rcases (insRev_mem lt x b l).1 hb with rfl | hb
      · exact h.asymm hx
      · exact h1 b hb
    · rename_i hx
      have hx : lt x a = false := by simpa using hx
      refine List.pairwise_cons.2 ⟨?_, hp⟩
      intro b hb
      rcases List.mem_cons.1 hb with rfl | hb
      · exact hx
      · exact h.incomp hx (h1 b hb)

theorem insFold_sorted {α : Type} {lt : α → α → Bool} (h : StrictWeak lt) (l : List α) : ∀ (r : List α), r.Pairwise (fun a b => lt a b = false) →
    (l.foldl (fun r x => insRev lt x r) r).Pairwise (fun a b => lt a b = false) := by
  induction l with
  | nil => intro r hr; exact hr
  | cons x l ih => intro r hr; exact ih _ (insRev_sorted h x r hr)

/-- The last element of the reversed fold, the first of the sorted list: it is the first one that no element precedes. -/
theorem insRev_last {α : Type} {lt : α → α → Bool} (x : α) : ∀ (r : List α) (m : α), r.Pairwise (fun a b => lt a b = false) → StrictWeak lt →
    r.getLast? = some m → (insRev lt x r).getLast? = some (if lt x m then x else m) := by
  intro r
  induction r with
  | nil => intro m _ _ h; simp at h
  | cons a r ih =>
    intro m hp hsw hm
    obtain ⟨h1, h2⟩ := List.pairwise_cons.1 hp
    unfold insRev
    cases r with
    | nil =>
      simp only [List.getLast?_singleton, Option.some.injEq] at hm
      subst hm
      cases lt x a <;> simp [insRev]
    | cons a' r =>
      rw [List.getLast?_cons_cons] at hm
      cases hx : lt x a with
      | true =>
        have := ih m h2 hsw hm
        simp only [if_true]
        have hne : insRev lt x (a' :: r) ≠ [] := by unfold insRev; split <;> simp
        obtain ⟨b, l', hb⟩ := List.exists_cons_of_ne_nil hne
        rw [hb] at this ⊢
        rw [List.getLast?_cons_cons]
        exact this
      | false =>
        have hmem : m ∈ a' :: r := List.mem_of_getLast? hm
        have hxm := hsw.incomp hx (h1 m hmem)
        simp only [Bool.false_eq_true, if_false, hxm, List.getLast?_cons_cons]
        exact hm

theorem insFold_last {α : Type} {lt : α → α → Bool} (hsw : StrictWeak lt) : ∀ (l r : List α) (m : α), r.Pairwise (fun a b => lt a b = false) →
    r.getLast? = some m → (l.foldl (fun r x => insRev lt x r) r).getLast? = some (l.foldl (fun m x => if lt x m then x else m) m) := by
  intro l
  induction l with
  | nil => intro r m _ h; exact h
  | cons x l ih =>
    intro r m hp hm
    exact ih _ _ (insRev_sorted hsw x r hp) (insRev_last x r m hp hsw hm)

/-- The fold picks the first element that no element precedes. -/
theorem firstBest {α : Type} {lt : α → α → Bool} (hsw : StrictWeak lt) : ∀ (l : List α) (m : α), ∃ pre post,
    m :: l = pre ++ l.foldl (fun m x => if lt x m then x else m) m :: post ∧
      (∀ a ∈ pre, lt (l.foldl (fun m x => if lt x m then x else m) m) a = true) ∧
      (∀ a ∈ post, lt a (l.foldl (fun m x => if lt x m then x else m) m) = false) := by
  intro l
  induction l with
  | nil => intro m; exact ⟨[], [], rfl, by simp, by simp⟩
  | cons x l ih =>
    intro m
    simp only [List.foldl_cons]
    cases hx : lt x m with
    | true =>
      simp only [if_true]
      obtain ⟨pre, post, h1, h2, h3⟩ := ih x
      refine ⟨m :: pre, post, by rw [h1]; rfl, ?_, h3⟩
      intro a ha
      rcases List.mem_cons.1 ha with rfl | ha
      · cases pre with
        | nil =>
          simp only [List.nil_append, List.cons.injEq] at h1
          rw [← h1.1]; exact hx
        | cons b pre =>
          simp only [List.cons_append, List.cons.injEq] at h1
          exact hsw.trans (h2 x (by simp [h1.1])) hx
      · exact h2 a ha
    | false =>
      simp only [Bool.false_eq_true, if_false]
      obtain ⟨pre, post, h1, h2, h3⟩ := ih m
      cases pre with
      | nil =>
        simp only [List.nil_append, List.cons.injEq] at h1
        refine ⟨[], x :: l, by rw [← h1.1]; rfl, by simp, ?_⟩
        intro a ha
        rcases List.mem_cons.1 ha with rfl | ha
        · rw [← h1.1]; exact hx
        · rw [h1.2] at ha; exact h3 a ha
      | cons b pre =>
        simp only [List.cons_append, List.cons.injEq] at h1
        obtain ⟨rfl, h1⟩ := h1
        refine ⟨m :: x :: pre, post, ?_, ?_, h3⟩
        · show m :: x :: l = m :: x :: (pre ++ _)
          rw [← h1]
        · intro a ha
          have hbm := h2 m (by simp)
          rcases List.mem_cons.1 ha with rfl | ha
          · exact hbm
          rcases List.mem_cons.1 ha with rfl | ha
          · cases hc : lt (List.foldl (fun m x => if lt x m = true then x else m) m l) a with
            | true => rfl
            | false => rw [hsw.incomp hc hx] at hbm; cases hbm
          · exact h2 a (by simp [ha])

/-! ## The comparison -/

/-- Only a certificate that ended before it began is not "outdated". -/
theorem outdated_false_iff {now : Int} {c : Cert} : outdated now c = false ↔ c.notAfter ≤ now ∧ now ≤ c.notBefore := by
  unfold outdated
  simp only [Bool.or_eq_false_iff, decide_eq_false_iff_not, Int.not_lt, gt_iff_lt]

theorem outdated_of_lt {now : Int} {c : Cert} (h : c.notBefore < c.notAfter) : outdated now c = true := by
  cases ho : outdated now c with
  | true => rfl
  | false => obtain ⟨h1, h2⟩ := outdated_false_iff.1 ho; omega

theorem certLess_of_lt {now : Int} {ci cj : Cert} (h : ci.notBefore < ci.notAfter) : certLess now ci cj = decide (ci.sigAlg > cj.sigAlg) := by
  unfold certLess
  split
  · rfl
  · rename_i hne
    have : ci.sigAlg = cj.sigAlg := by simpa using hne
    simp [outdated_of_lt h, this]

/-- Comparison of chains by the algorithm of the leaves. -/
def algLess (a b : List Cert) : Bool :=
  match a, b with
  | ci :: _, cj :: _ => decide (ci.sigAlg > cj.sigAlg)
  | [], _ :: _ => false
  | _ :: _, [] => true
  | [], [] => false

theorem algLess_weak : StrictWeak algLess where
  irrefl a := by cases a <;> simp [algLess]
  trans := by
    intro a b c
    cases a <;> cases b <;> cases c <;> simp [algLess] <;> omega
  incomp := by
    intro a b c
    cases a <;> cases b <;> cases c <;> simp [algLess] <;> omega

theorem chainLess_eq {clock : Nat → Int} {l : List (List Cert)} (h : ∀ ch ∈ l, ∃ c cs, ch = c :: cs ∧ c.notBefore < c.notAfter) :
    ∀ a ∈ l, ∀ b ∈ l, ∀ t, chainLess clock t a b = .ok (algLess a b) := by
  intro a ha b hb t
  obtain ⟨c, cs, rfl, hc⟩ := h a ha
  obtain ⟨d, ds, rfl, _⟩ := h b hb
  simp only [chainLess, algLess, certLess_of_lt hc]


end Apk

namespace Apk

/-- The algorithm only touches positions below `n`. -/
def SortProg.Within (n : Nat) : SortProg → Prop
  | .done => True
  | .swap i j k => i < n ∧ j < n ∧ k.Within n
  | .less i j k => i < n ∧ j < n ∧ ∀ b, (k b).Within n

theorem run_ok {α : Type} {less : Nat → α → α → Go Bool} {n : Nat} : ∀ (p : SortProg) (t : Nat) (l : List α), l.length = n → p.Within n →
    (∀ a ∈ l, ∀ b ∈ l, ∀ t, ∃ r, less t a b = .ok r) → ∃ l', p.run less t l = .ok l' := by
  intro p
  induction p with
  | done => intro t l _ _ _; exact ⟨l, rfl⟩
  | swap i j k ih =>
    intro t l hl hw h
    obtain ⟨hi, hj, hk⟩ := hw
    have hs : ∃ l1, swapAt l i j = .ok l1 := by
      unfold swapAt
      rw [List.getElem?_eq_getElem (by omega), List.getElem?_eq_getElem (by omega)]
      exact ⟨_, rfl⟩
    obtain ⟨l1, hs⟩ := hs
    have hp := swapAt_perm hs
    simp only [SortProg.run, hs]
    exact ih t l1 (by rw [hp.length_eq, hl]) hk (fun a ha b hb => h a (hp.mem_iff.1 ha) b (hp.mem_iff.1 hb))
  | less i j k ih =>
    intro t l hl hw h
    obtain ⟨hi, hj, hk⟩ := hw
    have hi' : l[i]? = some (l[i]'(by omega)) := List.getElem?_eq_getElem (by omega)
    have hj' : l[j]? = some (l[j]'(by omega)) := List.getElem?_eq_getElem (by omega)
    simp only [SortProg.run, hi', hj']
    obtain ⟨r, hr⟩ := h _ (List.mem_of_getElem? hi') _ (List.mem_of_getElem? hj') t
    rw [hr]
    exact ih r (t + 1) l hl (hk r) h

theorem insertionInner_within {n : Nat} {k : SortProg} (hk : k.Within n) : ∀ i, i < n → (insertionInner k i).Within n := by
  intro i
  induction i with
  | zero => intro _; exact hk
  | succ i ih =>
    intro hi
    refine ⟨hi, by omega, ?_⟩
    intro b
    cases b
    · exact hk
    · exact ⟨hi, by omega, ih (by omega)⟩

theorem insertionOuter_within {n : Nat} : ∀ r i, i + r ≤ n → (insertionOuter r i).Within n := by
  intro r
  induction r with
  | zero => intro i _; trivial
  | succ r ih => intro i h; exact insertionInner_within (ih (i + 1) (by omega)) i (by omega)

theorem insertionSort_within (n : Nat) : (insertionSort n).Within n := by
  cases n with
  | zero => trivial
  | succ n => exact insertionOuter_within n 1 (by omega)

end Apk
