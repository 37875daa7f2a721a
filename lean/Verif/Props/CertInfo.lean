import Verif.Proofs.CertInfo
/-! # C44: PickBestApkCert -/
namespace Apk

/-! ## Specification -/

/-- What `sort.Sort` guarantees: it only touches positions of the slice, and when all comparisons agree with one strict weak order, no
    element of the result has to precede an earlier one. -/
structure SortCorrect (sorter : Nat → SortProg) : Prop where
  within : ∀ n, (sorter n).Within n
  sorts : ∀ {α : Type} (lt : α → α → Bool) (l l' : List α) (t : Nat), StrictWeak lt →
    (sorter l.length).run (fun _ a b => .ok (lt a b)) t l = .ok l' → l'.Pairwise (fun a b => lt b a = false)

/-- `c` is the first certificate (the leaf) of a chain of the list. -/
def LeafOf (chains : List (List Cert)) (c : Cert) : Prop := ∃ cs, c :: cs ∈ chains

/-! ## Theorems -/

/-- **C44**: the picked certificate is the leaf of one of the given chains, and the caller's slice holds the same chains afterwards, whatever
    the sorting algorithm and the clock do. -/
theorem C44_picks_a_leaf {sorter : Nat → SortProg} {clock : Nat → Int} {chains l : List (List Cert)} {o : Option Cert}
    (h : pickBest sorter clock chains = .ok (o, l)) : l.Perm chains ∧ (o = none ↔ chains = []) ∧ ∀ c, o = some c → LeafOf chains c := by
  unfold pickBest at h
  split at h
  · rename_i h0
    cases h
    exact ⟨.refl _, by simp [List.length_eq_zero_iff.1 h0], fun c hc => by cases hc⟩
  · rename_i h0
    split at h
    · cases h
    · rename_i l1 hr
      have hp := run_perm _ _ _ _ _ hr
      split at h
      · rename_i c cs rest
        cases h
        refine ⟨hp, ⟨(fun h => by cases h), (fun h => absurd (by rw [h]; rfl) h0)⟩, ?_⟩
        intro c' hc'
        cases hc'
        exact ⟨cs, hp.mem_iff.1 (by simp)⟩
      · cases h

/-- **C44**: with one chain, its leaf is picked. -/
theorem C44_single_chain {sorter : Nat → SortProg} {clock : Nat → Int} {c : Cert} {cs : List Cert} {l : List (List Cert)} {o : Option Cert}
    (h : pickBest sorter clock [c :: cs] = .ok (o, l)) : o = some c ∧ l = [c :: cs] := by
  obtain ⟨h1, h2, h3⟩ := C44_picks_a_leaf h
  have hl : l = [c :: cs] := List.perm_singleton.1 h1
  refine ⟨?_, hl⟩
  cases o with
  | none => exact absurd (h2.1 rfl) (by simp)
  | some c' =>
    obtain ⟨ds, hd⟩ := h3 c' rfl
    simp only [List.mem_singleton, List.cons.injEq] at hd
    rw [hd.1]

/-- **C44**: no panic when every chain has a certificate; an empty list gives nil. -/
theorem C44_never_panics {sorter : Nat → SortProg} (hs : SortCorrect sorter) (clock : Nat → Int) {chains : List (List Cert)}
    (hne : ∀ ch ∈ chains, ch ≠ []) : ∃ o l, pickBest sorter clock chains = .ok (o, l) := by
  unfold pickBest
  split
  · exact ⟨none, chains, rfl⟩
  · rename_i h0
    obtain ⟨l, hl⟩ := run_ok (less := chainLess clock) (sorter chains.length) 0 chains rfl (hs.within _) (by
      intro a ha b hb t
      cases a with
      | nil => exact absurd rfl (hne _ ha)
      | cons ca as =>
        cases b with
        | nil => exact absurd rfl (hne _ hb)
        | cons cb bs => exact ⟨_, rfl⟩)
    have hp := run_perm _ _ _ _ _ hl
    rw [hl]
    cases l with
    | nil => exact absurd hp.length_eq.symm h0
    | cons ch rest =>
      cases ch with
      | nil => exact absurd rfl (hne _ (hp.mem_iff.1 (by simp)))
      | cons c cs => exact ⟨_, _, rfl⟩

/-- **C44**: with certificates whose validity period is not empty, the picked one has the largest signature algorithm number of all leaves, and
    nothing else is looked at: not the current time, not the validity, not the age. -/
theorem C44_strongest_algorithm {sorter : Nat → SortProg} (hs : SortCorrect sorter) {clock : Nat → Int} {chains l : List (List Cert)} {c : Cert}
    (hv : ∀ c', LeafOf chains c' → c'.notBefore < c'.notAfter) (hne : ∀ ch ∈ chains, ch ≠ [])
    (h : pickBest sorter clock chains = .ok (some c, l)) :
    (∀ c', LeafOf chains c' → c'.sigAlg ≤ c.sigAlg) ∧ ∀ clock', pickBest sorter clock' chains = .ok (some c, l) := by
  have hshape : ∀ ch ∈ chains, ∃ c cs, ch = c :: cs ∧ c.notBefore < c.notAfter := by
    intro ch hch
    cases ch with
    | nil => exact absurd rfl (hne _ hch)
    | cons c cs => exact ⟨c, cs, rfl, hv c ⟨cs, hch⟩⟩
  have hrun : ∀ clock, (sorter chains.length).run (chainLess clock) 0 chains = (sorter chains.length).run (fun _ a b => .ok (algLess a b)) 0 chains :=
    fun clock => run_congr _ _ _ (fun a ha b hb t => chainLess_eq hshape a ha b hb t)
  constructor
  · unfold pickBest at h
    split at h
    · cases h
    · rw [hrun] at h
      split at h
      · cases h
      · rename_i l1 hr
        have hp := run_perm _ _ _ _ _ hr
        have hsort := hs.sorts algLess chains l1 0 algLess_weak hr
        split at h
        · rename_i d ds rest
          cases h
          rintro c' ⟨cs', hc'⟩
          have hc'' := hp.mem_iff.2 hc'
          rcases List.mem_cons.1 hc'' with heq | hmem
          · cases heq; exact Nat.le_refl _
          · have := (List.pairwise_cons.1 hsort).1 _ hmem
            simp only [algLess, decide_eq_false_iff_not] at this
            omega
        · cases h
  · intro clock'
    unfold pickBest at h ⊢
    rw [hrun] at h ⊢
    exact h

/-- Whatever strict weak order the comparisons agree with, no leaf precedes the picked one. -/
theorem pick_minimal {sorter : Nat → SortProg} (hs : SortCorrect sorter) {clock : Nat → Int} {chains l : List (List Cert)} {c : Cert}
    {lt : List Cert → List Cert → Bool} (hw : StrictWeak lt) (he : ∀ a ∈ chains, ∀ b ∈ chains, ∀ t, chainLess clock t a b = .ok (lt a b))
    (h : pickBest sorter clock chains = .ok (some c, l)) : ∃ cs, c :: cs ∈ chains ∧ ∀ ch ∈ chains, lt ch (c :: cs) = false := by
  unfold pickBest at h
  split at h
  · cases h
  · rw [run_congr _ _ _ he] at h
    split at h
    · cases h
    · rename_i l1 hr
      have hp := run_perm _ _ _ _ _ hr
      have hsort := hs.sorts lt chains l1 0 hw hr
      split at h
      · rename_i d ds rest
        cases h
        refine ⟨ds, hp.mem_iff.1 (List.mem_cons_self ..), fun ch hch => ?_⟩
        rcases List.mem_cons.1 (hp.mem_iff.2 hch) with heq | hmem
        · rw [heq]; exact hw.irrefl _
        · exact (List.pairwise_cons.1 hsort).1 _ hmem
      · cases h

theorem bytesGreater_iff : ∀ {a b : Bytes}, bytesGreater a b = true ↔ b < a := by
  intro a
  induction a with
  | nil => intro b; simp [bytesGreater]
  | cons x a ih =>
    intro b
    cases b with
    | nil => simp [bytesGreater]
    | cons y b =>
      rw [List.cons_lt_cons_iff]
      by_cases h : x = y
      · subst h
        simp only [bytesGreater, if_true, ih]
        constructor
        · exact fun h => .inr ⟨trivial, h⟩
        · rintro (h | h)
          · exact absurd h (UInt8.lt_irrefl _)
          · exact h.2
      · simp only [bytesGreater, if_neg h, decide_eq_true_eq]
        constructor
        · exact fun h => .inl (UInt8.lt_iff_toNat_lt.2 h)
        · rintro (h' | h')
          · exact UInt8.lt_iff_toNat_lt.1 h'
          · exact absurd h'.1.symm h

/-- The order of certificates none of which is valid at any time: strongest algorithm, latest start, latest end, largest bytes. -/
def LaterCert (a b : Cert) : Prop :=
  b.sigAlg < a.sigAlg ∨ b.sigAlg = a.sigAlg ∧ (b.notBefore < a.notBefore ∨ b.notBefore = a.notBefore ∧
    (b.notAfter < a.notAfter ∨ b.notAfter = a.notAfter ∧ b.raw < a.raw))

theorem LaterCert.trans {a b c : Cert} (h1 : LaterCert a b) (h2 : LaterCert b c) : LaterCert a c := by
  have ht : c.raw < b.raw → b.raw < a.raw → c.raw < a.raw := fun h h' => List.lt_trans h h'
  unfold LaterCert at *
  rcases h1 with h1 | ⟨h1, h1' | ⟨h1', h1'' | ⟨h1'', h1r⟩⟩⟩ <;> rcases h2 with h2 | ⟨h2, h2' | ⟨h2', h2'' | ⟨h2'', h2r⟩⟩⟩ <;>
    first
    | exact .inl (by omega)
    | exact .inr ⟨by omega, .inl (by omega)⟩
    | exact .inr ⟨by omega, .inr ⟨by omega, .inl (by omega)⟩⟩
    | exact .inr ⟨by omega, .inr ⟨by omega, .inr ⟨by omega, ht h2r h1r⟩⟩⟩

theorem LaterCert.incomp {a b c : Cert} (h1 : ¬ LaterCert a b) (h2 : ¬ LaterCert b c) : ¬ LaterCert a c := by
  have ht : ¬ b.raw < a.raw → ¬ c.raw < b.raw → ¬ c.raw < a.raw := fun h h' => List.not_lt.2 (List.le_trans (List.not_lt.1 h) (List.not_lt.1 h'))
  have h1a : ¬ b.sigAlg < a.sigAlg := fun h => h1 (.inl h)
  have h2a : ¬ c.sigAlg < b.sigAlg := fun h => h2 (.inl h)
  rintro (h | ⟨h, h' | ⟨h', h'' | ⟨h'', hr⟩⟩⟩)
  · omega
  all_goals
    have e1 : b.sigAlg = a.sigAlg := by omega
    have e2 : c.sigAlg = b.sigAlg := by omega
    have h1b : ¬ b.notBefore < a.notBefore := fun h => h1 (.inr ⟨e1, .inl h⟩)
    have h2b : ¬ c.notBefore < b.notBefore := fun h => h2 (.inr ⟨e2, .inl h⟩)
  · omega
  all_goals
    have e1' : b.notBefore = a.notBefore := by omega
    have e2' : c.notBefore = b.notBefore := by omega
    have h1c : ¬ b.notAfter < a.notAfter := fun h => h1 (.inr ⟨e1, .inr ⟨e1', .inl h⟩⟩)
    have h2c : ¬ c.notAfter < b.notAfter := fun h => h2 (.inr ⟨e2, .inr ⟨e2', .inl h⟩⟩)
  · omega
  · have e1'' : b.notAfter = a.notAfter := by omega
    have e2'' : c.notAfter = b.notAfter := by omega
    exact ht (fun h => h1 (.inr ⟨e1, .inr ⟨e1', .inr ⟨e1'', h⟩⟩⟩)) (fun h => h2 (.inr ⟨e2, .inr ⟨e2', .inr ⟨e2'', h⟩⟩⟩)) hr

open Classical in
/-- `LaterCert` on the leaves. -/
noncomputable def laterLess (a b : List Cert) : Bool :=
  match a, b with
  | ci :: _, cj :: _ => decide (LaterCert ci cj)
  | [], _ => false
  | _ :: _, [] => true

theorem laterLess_weak : StrictWeak laterLess where
  irrefl a := by
    cases a with
    | nil => rfl
    | cons a _ =>
      simp only [laterLess, decide_eq_false_iff_not, LaterCert]
      rintro (h | ⟨_, h | ⟨_, h | ⟨_, h⟩⟩⟩)
      · omega
      · omega
      · omega
      · exact List.lt_irrefl _ h
  trans := by
    intro a b c
    cases a <;> cases b <;> cases c <;> simp only [laterLess, decide_eq_true_eq, Bool.false_eq_true, imp_self, false_imp_iff, implies_true]
    exact LaterCert.trans
  incomp := by
    intro a b c
    cases a <;> cases b <;> cases c <;> simp only [laterLess, decide_eq_false_iff_not, Bool.true_eq_false, imp_self, false_imp_iff, implies_true]
    exact LaterCert.incomp

/-- **C44**: the remaining criteria of the comparison only ever decide between certificates that end before they begin, with the clock
    in between: then the latest start wins, then the latest end, then the larger encoding. -/
theorem C44_inverted_validity {sorter : Nat → SortProg} (hs : SortCorrect sorter) {clock : Nat → Int} {chains l : List (List Cert)} {c : Cert}
    (hv : ∀ c', LeafOf chains c' → (∀ t, c'.notAfter ≤ clock t ∧ clock t ≤ c'.notBefore) ∧ c'.notBefore - c'.notAfter < 2 ^ 63) (hne : ∀ ch ∈ chains, ch ≠ [])
    (h : pickBest sorter clock chains = .ok (some c, l)) : LeafOf chains c ∧ ∀ c', LeafOf chains c' → ¬ LaterCert c' c := by
  obtain ⟨cs, hc, hm⟩ := pick_minimal hs laterLess_weak (fun a ha b hb t => by
    cases a with
    | nil => exact absurd rfl (hne _ ha)
    | cons x xs =>
      cases b with
      | nil => exact absurd rfl (hne _ hb)
      | cons y ys =>
        obtain ⟨hx, hx'⟩ := hv x ⟨_, ha⟩
        obtain ⟨hy, hy'⟩ := hv y ⟨_, hb⟩
        have ox : outdated (clock t) x = false := by
          have := hx t
          simp only [outdated, Bool.or_eq_false_iff, decide_eq_false_iff_not]; omega
        have oy : outdated (clock t) y = false := by
          have := hy t
          simp only [outdated, Bool.or_eq_false_iff, decide_eq_false_iff_not]; omega
        have hx0 := hx 0
        have hy0 := hy 0
        show Except.ok _ = Except.ok _
        congr 1
        rw [Bool.eq_iff_iff]
        simp only [laterLess, decide_eq_true_eq]
        unfold certLess
        rw [ox, oy]
        by_cases h1 : x.sigAlg = y.sigAlg
        · rw [if_neg (not_not_intro h1), if_neg (by decide), if_neg (by decide)]
          by_cases h2 : x.notBefore = y.notBefore
          · rw [if_neg (not_not_intro h2)]
            by_cases h3 : x.notAfter = y.notAfter
            · rw [if_neg (not_not_intro h3), bytesGreater_iff]
              constructor
              · exact fun h => .inr ⟨h1.symm, .inr ⟨h2.symm, .inr ⟨h3.symm, h⟩⟩⟩
              · rintro (h | ⟨_, h | ⟨_, h | ⟨_, h⟩⟩⟩)
                · omega
                · omega
                · omega
                · exact h
            · rw [if_pos h3]
              have s1 : timeSub x.notAfter x.notBefore = x.notAfter - x.notBefore := by
                unfold timeSub
                simp only
                rw [if_neg (by omega), if_neg (by omega)]
              have s2 : timeSub y.notAfter y.notBefore = y.notAfter - y.notBefore := by
                unfold timeSub
                simp only
                rw [if_neg (by omega), if_neg (by omega)]
              rw [s1, s2, decide_eq_true_eq]
              constructor
              · exact fun h => .inr ⟨h1.symm, .inr ⟨h2.symm, .inl (by omega)⟩⟩
              · rintro (h | ⟨_, h | ⟨_, h | ⟨h, _⟩⟩⟩) <;> omega
          · rw [if_pos h2, decide_eq_true_eq]
            constructor
            · exact fun h => .inr ⟨h1.symm, .inl h⟩
            · rintro (h | ⟨_, h | ⟨h, _⟩⟩) <;> omega
        · rw [if_pos h1, decide_eq_true_eq]
          constructor
          · exact fun h => .inl h
          · rintro (h | ⟨h, _⟩) <;> omega) h
  refine ⟨⟨cs, hc⟩, ?_⟩
  rintro c' ⟨cs', hc'⟩
  have := hm _ hc'
  simpa only [laterLess, decide_eq_false_iff_not] using this

theorem insertionSort_correct : SortCorrect insertionSort where
  within := insertionSort_within
  sorts := by
    intro α lt l l' t hsw h
    rw [insertionSort_run] at h
    cases h
    rw [List.pairwise_reverse]
    exact insFold_sorted hsw l [] List.Pairwise.nil

/-- **C44**: with the insertion sort that Go uses for up to 12 elements, it is the first chain with that algorithm, in the order of the
    caller. -/
theorem C44_first_strongest {sorter : Nat → SortProg} {clock : Nat → Int} {chains : List (List Cert)} (hs : sorter chains.length = insertionSort chains.length)
    (hn : chains ≠ []) (hv : ∀ c', LeafOf chains c' → c'.notBefore < c'.notAfter) (hne : ∀ ch ∈ chains, ch ≠ []) :
    ∃ c cs pre post l, pickBest sorter clock chains = .ok (some c, l) ∧ chains = pre ++ (c :: cs) :: post ∧
      (∀ c', LeafOf pre c' → c'.sigAlg < c.sigAlg) ∧ ∀ c', LeafOf post c' → c'.sigAlg ≤ c.sigAlg := by
  have hshape : ∀ ch ∈ chains, ∃ c cs, ch = c :: cs ∧ c.notBefore < c.notAfter := by
    intro ch hch
    cases ch with
    | nil => exact absurd rfl (hne _ hch)
    | cons c cs => exact ⟨c, cs, rfl, hv c ⟨cs, hch⟩⟩
  have hrun : (sorter chains.length).run (chainLess clock) 0 chains = .ok ((chains.foldl (fun r x => insRev algLess x r) []).reverse) := by
    rw [hs, run_congr _ _ _ (fun a ha b hb t => chainLess_eq hshape a ha b hb t), insertionSort_run]
  cases chains with
  | nil => exact absurd rfl hn
  | cons m rest =>
    obtain ⟨pre, post, h1, h2, h3⟩ := firstBest algLess_weak rest m
    have hlast := insFold_last algLess_weak rest [m] m (by simp) rfl
    simp only [List.foldl_cons] at hrun
    have e1 : insRev algLess m [] = [m] := rfl
    rw [e1] at hrun
    generalize hb : rest.foldl (fun m x => if algLess x m = true then x else m) m = b at *
    have hbm : b ∈ m :: rest := by rw [h1]; simp
    obtain ⟨c, cs, rfl, _⟩ := hshape b hbm
    generalize hL : (rest.foldl (fun r x => insRev algLess x r) [m]).reverse = L at *
    have hLhead : L.head? = some (c :: cs) := by rw [← hL, List.head?_reverse]; exact hlast
    obtain ⟨tl, rfl⟩ : ∃ tl, L = (c :: cs) :: tl := by
      cases L with
      | nil => simp at hLhead
      | cons x tl => simp only [List.head?_cons, Option.some.injEq] at hLhead; exact ⟨tl, by rw [hLhead]⟩
    refine ⟨c, cs, pre, post, (c :: cs) :: tl, ?_, h1, ?_, ?_⟩
    · unfold pickBest
      rw [hrun]
      simp
    · rintro c' ⟨cs', hc'⟩
      have := h2 _ hc'
      simpa [algLess] using this
    · rintro c' ⟨cs', hc'⟩
      have := h3 _ hc'
      simpa [algLess] using this

/-! ## The documented preference does not hold -/

namespace Toy
/-- A certificate valid from 0 to 100. -/
def certLong : Cert := { raw := [1], spki := [], key := ⟨.rsa, 0, []⟩, sigAlg := 4, notBefore := 0, notAfter := 100 }
/-- A certificate valid from 0 to 10. -/
def certShort : Cert := { raw := [2], spki := [], key := ⟨.rsa, 0, []⟩, sigAlg := 4, notBefore := 0, notAfter := 10 }
/-- A certificate with another algorithm, not valid any more. -/
def certStrong : Cert := { raw := [3], spki := [], key := ⟨.rsa, 0, []⟩, sigAlg := 6, notBefore := -5, notAfter := -2 }
end Toy

/-- The certificate is valid at this time. -/
def ValidAt (now : Int) (c : Cert) : Prop := c.notBefore ≤ now ∧ now ≤ c.notAfter

/-- **C44** (the comment "expired cert is More than not-expired one" is false of the code): an expired certificate is picked although a valid one with the
    same algorithm is there. -/
theorem C44_expired_can_win : ∃ chains c c' l, pickBest insertionSort (fun _ => 50) chains = .ok (some c, l) ∧ LeafOf chains c' ∧
    c.sigAlg = c'.sigAlg ∧ ¬ ValidAt 50 c ∧ ValidAt 50 c' :=
  ⟨[[Toy.certShort], [Toy.certLong]], Toy.certShort, Toy.certLong, [[Toy.certShort], [Toy.certLong]], by decide, ⟨[], by decide⟩, rfl,
    by unfold ValidAt; decide, by unfold ValidAt; decide⟩

/-- **C44** (false of the code): the pick depends on the order of the chains, though they differ. -/
theorem C44_order_matters : ∃ a b c d l l', pickBest insertionSort (fun _ => 50) [a, b] = .ok (some c, l) ∧
    pickBest insertionSort (fun _ => 50) [b, a] = .ok (some d, l') ∧ c ≠ d :=
  ⟨[Toy.certShort], [Toy.certLong], Toy.certShort, Toy.certLong, [[Toy.certShort], [Toy.certLong]], [[Toy.certLong], [Toy.certShort]],
    by decide, by decide, by decide⟩

/-- The hypotheses of the theorems above are met by three chains; the strongest algorithm wins from the last place. -/
example : ∃ l, pickBest insertionSort (fun _ => 50) [[Toy.certShort, Toy.certLong], [Toy.certLong], [Toy.certStrong]] = .ok (some Toy.certStrong, l) :=
  ⟨[[Toy.certStrong], [Toy.certShort, Toy.certLong], [Toy.certLong]], by decide⟩
example : SortCorrect insertionSort := insertionSort_correct
example : ∀ ch ∈ [[Toy.certShort, Toy.certLong], [Toy.certLong], [Toy.certStrong]], ∃ c cs, ch = c :: cs ∧ c.notBefore < c.notAfter := by
  intro ch h
  simp only [List.mem_cons, List.not_mem_nil, or_false] at h
  rcases h with rfl | rfl | rfl <;> exact ⟨_, _, rfl, by decide⟩

/-- The hypotheses of `C44_inverted_validity` are met, and the later start wins. -/
example : ∃ l c d, pickBest insertionSort (fun _ => 50) [[c], [d]] = .ok (some d, l) ∧ c.notAfter ≤ 50 ∧ 50 ≤ c.notBefore ∧ d.notAfter ≤ 50 ∧ 50 ≤ d.notBefore ∧
    LaterCert d c :=
  ⟨_, { Toy.certLong with notBefore := 60, notAfter := 40 }, { Toy.certLong with notBefore := 70, notAfter := 30 }, rfl, by decide, by decide, by decide, by decide,
    .inr ⟨rfl, .inl (by decide)⟩⟩

/-- A chain without certificate panics as soon as it is compared. -/
theorem C44_empty_chain_panics : pickBest insertionSort (fun _ => 50) [[Toy.certLong], []] = .error .indexOutOfRange := by decide

end Apk
