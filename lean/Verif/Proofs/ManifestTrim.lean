import Verif.Proofs.Manifest
/-! # A line feed more at the end of a section (for the digests of signtool) -/
namespace Apk

/-- The value loop on one more line feed. -/
def snocVal : Go (Except ME (Bytes × Bytes × Nat)) → Go (Except ME (Bytes × Bytes × Nat))
  | .ok (.ok (v, [], n)) => .ok (.ok (v, [], n + 1))
  | .ok (.ok (v, c :: r, n)) => .ok (.ok (v, c :: r ++ [10], n))
  | .ok (.error e) => .ok (.error e)
  | .error p => .error p

theorem finishValue_snoc {value seg : Bytes} {len : Option Nat} (h : ∀ k, len = some k → k ≤ seg.length) (t : Bytes) :
    finishValue value (seg ++ t) len = finishValue value seg len := by
  cases len with
  | none => rfl
  | some k =>
    simp only [finishValue]
    rw [List.take_append_of_le_length (h k rfl)]

theorem readValue_snoc {x : Bytes} (hx : 13 ∉ x) (value seg : Bytes) (len : Option Nat) (clb : Nat)
    (hl : ∀ k, len = some k → k ≤ seg.length) :
    readValue (x ++ [10]) value seg len clb false = snocVal (readValue x value seg len clb false) := by
  induction x generalizing value seg len clb with
  | nil =>
    simp only [List.nil_append, readValue, snocVal, finishValue_snoc hl]
    simp
  | cons c rest ih =>
    have hr : 13 ∉ rest := fun h => hx (List.mem_cons_of_mem _ h)
    have hc : c ≠ 13 := fun h => hx (by rw [h]; exact List.mem_cons_self)
    have hl' : ∀ k, len = some k → k ≤ (seg ++ [c]).length := fun k hk => by
      have := hl k hk; simp only [List.length_append, List.length_singleton]; omega
    rw [List.cons_append]
    simp only [readValue, if_neg hc]
    split
    · rfl
    split
    · exact ih hr _ _ _ _ hl'
    split
    · split
      · rfl
      · exact ih hr _ _ _ _ (by simp)
    split
    · simp [snocVal, finishValue]
    · exact ih hr _ _ _ _ (by intro k hk; cases hk; simp)

/-- A header that is followed by a line feed, with one line feed more. -/
theorem readHeader_snoc {u : Bytes} (hu : 13 ∉ u) {clb : Nat} (hclb : clb ≤ 1) {h : Header}
    (hh : readHeader (u ++ [10]) clb = .ok (.ok h)) :
    ∃ h', readHeader (u ++ [10] ++ [10]) clb = .ok (.ok h') ∧ h'.attr = h.attr ∧
      ((h.rest = [] ∧ h'.rest = []) ∨ (∃ r, h.rest = r ++ [10] ∧ 13 ∉ r ∧ h'.rest = r ++ [10] ++ [10] ∧ h'.clb = h.clb)) := by
  rcases readHeader_inv hh with ⟨h0, _⟩ | ⟨_, hn, rfl⟩ | ⟨h0, name, body, v, r, n, h1, hc, hv, h2, rfl⟩
  · omega
  · refine ⟨⟨none, [], 0⟩, ?_, rfl, .inl ⟨rfl, rfl⟩⟩
    unfold readHeader
    rw [if_neg (by omega), splitColon_none.2 (fun hm => hn ?_)]
    rw [List.mem_append] at hm
    rcases hm with hm | hm
    · exact hm
    · rw [List.mem_singleton] at hm; cases hm
  · -- the body ends with the line feed
    have hb : ∃ w, body = w ++ [10] ∧ 13 ∉ w := by
      rcases List.eq_nil_or_concat body with rfl | ⟨w, l, rfl⟩
      · have h1' : u ++ [10] = (name ++ [58]) ++ [32] := by rw [h1]; simp
        have := congrArg List.getLast? h1'
        simp at this
      · have h1' : u ++ [10] = (name ++ 58 :: 32 :: w) ++ [l] := by rw [h1]; simp
        have h3 := congrArg List.getLast? h1'
        simp only [List.getLast?_append, List.getLast?_singleton, Option.some_or, Option.some.injEq] at h3
        subst h3
        refine ⟨w, by simp, fun hm => hu ?_⟩
        rw [List.append_cancel_right h1']
        simp [hm]
    obtain ⟨w, rfl, hw⟩ := hb
    have e1 := readValue_snoc hw [] [] (some 0) 0 (by intro k hk; cases hk; simp)
    have hw2 : 13 ∉ w ++ [10] := by simp [hw]
    have e2 := readValue_snoc hw2 [] [] (some 0) 0 (by intro k hk; cases hk; simp)
    rw [h2] at e2
    have hname : u ++ [10] ++ [10] = name ++ 58 :: 32 :: (w ++ [10] ++ [10]) := by rw [h1]; simp
    cases r with
    | nil =>
      have hn : 0 < n := by
        rw [h2] at e1
        revert e1
        generalize readValue w [] [] (some 0) 0 false = q
        intro e1
        unfold snocVal at e1
        split at e1
        · cases e1; omega
        · cases e1
        · cases e1
        · cases e1
      refine ⟨⟨some (lower name, v), [], n + 1⟩, ?_, ?_, .inl ⟨rfl, rfl⟩⟩
      · rw [hname, readHeader_of h0 hc hv e2, if_pos (by omega)]
      · rw [if_pos hn]
    | cons c r =>
      refine ⟨⟨if 0 < n then some (lower name, v) else none, c :: r ++ [10], n⟩, ?_, rfl, .inr ?_⟩
      · rw [hname, readHeader_of h0 hc hv e2]
      · obtain ⟨pre, hp⟩ := readValue_suffix h2
        have hne : c :: r ≠ [] := by simp
        have h3 : (c :: r).dropLast ++ [(c :: r).getLast hne] = c :: r := List.dropLast_concat_getLast hne
        have h4 : (c :: r).getLast hne = 10 := by
          have := congrArg List.getLast? hp
          rw [← h3, ← List.append_assoc] at this
          simpa using this
        rw [h4] at h3
        refine ⟨(c :: r).dropLast, h3.symm, fun hm => hw2 ?_, ?_, rfl⟩
        · rw [← hp]
          exact List.mem_append_right _ (List.dropLast_subset _ hm)
        · simp only [h3]

theorem readAttrs_nil {f : Nat} {clb : Nat} {m : Attrs} : ∃ n, readAttrs f [] clb m = .ok (.ok (m, [], n)) := by
  cases f with
  | zero => exact ⟨_, rfl⟩
  | succ f =>
    unfold readAttrs readHeader
    by_cases h : 1 < clb
    · rw [if_pos h]; exact ⟨0, rfl⟩
    · rw [if_neg h]; exact ⟨0, rfl⟩

theorem readAttrs_snoc {f g : Nat} {u : Bytes} (hu : 13 ∉ u) {clb : Nat} {m a b : Attrs} {r : Bytes} {n k : Nat}
    (hf : u.length + 1 < f) (hg : u.length + 2 < g)
    (h1 : readAttrs f (u ++ [10]) clb m = .ok (.ok (a, [], n))) (h2 : readAttrs g (u ++ [10] ++ [10]) clb m = .ok (.ok (b, r, k))) : a = b := by
  induction f generalizing g u clb m with
  | zero => omega
  | succ f ih =>
    cases g with
    | zero => omega
    | succ g =>
      simp only [readAttrs] at h1 h2
      split at h1
      · cases h1
      · cases h1
      rename_i h hh
      by_cases hclb : clb ≤ 1
      · obtain ⟨h', e1, e2, e3⟩ := readHeader_snoc hu hclb hh
        rw [e1] at h2
        simp only [e2] at h2
        split at h1
        · rename_i ha
          simp only [ha] at h2
          simp only [Except.ok.injEq, Prod.mk.injEq] at h1 h2
          exact h1.1.symm.trans h2.1
        · rename_i nm v ha
          simp only [ha] at h2
          rcases e3 with ⟨g1, g2⟩ | ⟨w, g1, g2, g3, g4⟩
          · rw [g1] at h1
            rw [g2] at h2
            obtain ⟨_, q1⟩ := readAttrs_nil (f := f) (clb := h.clb) (m := mset m nm v)
            obtain ⟨_, q2⟩ := readAttrs_nil (f := g) (clb := h'.clb) (m := mset m nm v)
            rw [q1] at h1
            rw [q2] at h2
            cases h1; cases h2; rfl
          · have hlen := (readHeader_some_len hh ha).1
            rw [g1] at h1
            rw [g3, g4] at h2
            rw [g1] at hlen
            simp only [List.length_append, List.length_singleton] at hlen
            exact ih g2 (by omega) (by omega) h1 h2
      · unfold readHeader at hh
        rw [if_pos (by omega)] at hh
        cases hh
        simp at h1

/-- Two sections that differ in a final line feed have the same attributes. -/
theorem SectionOf.snoc {u n1 n2 : Bytes} {a1 a2 : Attrs} {o : Attrs} (hu : 13 ∉ u) (h1 : SectionOf (u ++ [10]) n1 o a1)
    (h2 : SectionOf (u ++ [10] ++ [10]) n2 o a2) : a1 = a2 := by
  obtain ⟨r1, m1, e1, f1⟩ := h1
  obtain ⟨r2, m2, e2, f2⟩ := h2
  obtain ⟨h', g1, g2, g3⟩ := readHeader_snoc hu (by omega) e1
  rw [e2] at g1
  cases g1
  rcases g3 with ⟨q1, q2⟩ | ⟨w, q1, q2, q3, q4⟩
  · simp only at q1 q2
    subst q1; subst q2
    obtain ⟨_, x1⟩ := readAttrs_nil (f := 1) (clb := m1) (m := o)
    obtain ⟨_, x2⟩ := readAttrs_nil (f := 1) (clb := m2) (m := o)
    rw [List.length_nil, Nat.zero_add] at f1 f2
    rw [x1] at f1
    rw [x2] at f2
    cases f1; cases f2; rfl
  · simp only at q1 q3 q4
    subst q1; subst q3; subst q4
    exact readAttrs_snoc q2 (by simp) (by simp) f1 f2

end Apk
