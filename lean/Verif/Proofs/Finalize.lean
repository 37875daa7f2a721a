import Verif.Proofs.Blocks
/-! # SDK coverage and lineage consolidation -/
namespace Apk
set_option linter.unusedSimpArgs false

/-- A plausible SDK range. -/
def SignerInfo.Good (s : SignerInfo) : Prop := 1 ≤ s.minSdk ∧ s.minSdk ≤ s.maxSdk ∧ s.maxSdk ≤ 2147483647

/-- Ranges continue after `m`. -/
def ContigFrom : Int → List SignerInfo → Prop
  | _, [] => True
  | m, x :: xs => x.minSdk = m + 1 ∧ ContigFrom x.maxSdk xs

/-- Sizes do not decrease from `n` on. -/
def SizesFrom : Nat → List Lineage → Prop
  | _, [] => True
  | n, l :: ls => n ≤ l.nodes.length ∧ SizesFrom l.nodes.length ls

/-- The upper end. -/
def lastMaxOf : Int → List SignerInfo → Int
  | m, [] => m
  | _, x :: xs => lastMaxOf x.maxSdk xs

theorem finLoop_spec (s : List SignerInfo) : ∀ st : FinSt, st.error = none → st.firstMin ≠ 0 → (∀ x ∈ s, x.Good) →
    1 ≤ st.lastMax → st.lastMax ≤ 2147483647 →
    ((finLoop st s).error = none ↔ ContigFrom st.lastMax s ∧ SizesFrom st.lastSize (s.filterMap SignerInfo.lineage)) ∧
    ((finLoop st s).error = none → (finLoop st s).firstMin = st.firstMin ∧ (finLoop st s).lastMax = lastMaxOf st.lastMax s ∧
      (finLoop st s).lineages = st.lineages ++ s.filterMap SignerInfo.lineage) := by
  induction s with
  | nil =>
    intro st he _ _ _ _
    simp [finLoop, ContigFrom, SizesFrom, lastMaxOf, he]
  | cons x s ih =>
    intro st he hf hg hl1 hl2
    have hx := hg x (by simp)
    unfold finLoop
    have hw : x.minSdk ≠ wrap32 (st.lastMax + 1) ↔ x.minSdk ≠ st.lastMax + 1 := by
      by_cases h : st.lastMax + 1 ≤ 2147483647
      · rw [wrap32_of_range (by omega) h]
      · have h2 : st.lastMax = 2147483647 := by omega
        rw [h2]
        have : wrap32 (2147483647 + 1) = -2147483648 := by decide
        rw [this]
        have := hx.1; have := hx.2.1; have := hx.2.2
        constructor <;> intro _ <;> omega
    by_cases hc : x.minSdk ≠ st.lastMax + 1
    · rw [if_pos ⟨hf, hw.2 hc⟩]
      simp only [reduceCtorEq, false_iff, false_implies, and_true]
      intro h
      exact hc h.1.1
    · rw [if_neg (fun h => hc (hw.1 h.2))]
      have hc : x.minSdk = st.lastMax + 1 := by omega
      simp only [if_neg hf]
      cases hlin : x.lineage with
      | none =>
        simp only [List.filterMap_cons, hlin]
        have := ih { st with lastMax := x.maxSdk } he hf (fun y hy => hg y (List.mem_cons_of_mem _ hy))
          (by have := hx.1; have := hx.2.1; simp only; omega) hx.2.2
        obtain ⟨i1, i2⟩ := this
        refine ⟨?_, ?_⟩
        · rw [i1]; simp [ContigFrom, hc]
        · intro h; exact i2 h
      | some l =>
        simp only [List.filterMap_cons, hlin]
        by_cases hsz : l.nodes.length < st.lastSize
        · rw [if_pos hsz]
          simp only [reduceCtorEq, false_iff, false_implies, and_true]
          intro h
          have := h.2.1
          omega
        · rw [if_neg hsz]
          have := ih { st with lastMax := x.maxSdk, lastSize := l.nodes.length, lineages := st.lineages ++ [l] } he hf
            (fun y hy => hg y (List.mem_cons_of_mem _ hy))
            (by have := hx.1; have := hx.2.1; simp only; omega) hx.2.2
          obtain ⟨i1, i2⟩ := this
          refine ⟨?_, ?_⟩
          · rw [i1]; simp only [ContigFrom, hc, true_and, SizesFrom]
            constructor
            · rintro ⟨a, b⟩; exact ⟨a, by omega, b⟩
            · rintro ⟨a, _, b⟩; exact ⟨a, b⟩
          · intro h
            obtain ⟨j1, j2, j3⟩ := i2 h
            exact ⟨j1, j2, by rw [j3]; simp⟩

/-- The loop started on a non-empty list. -/
theorem finLoop_start {x : SignerInfo} {s : List SignerInfo} (hg : ∀ y ∈ x :: s, y.Good) :
    ((finLoop {} (x :: s)).error = none ↔ ContigFrom x.maxSdk s ∧ SizesFrom 0 ((x :: s).filterMap SignerInfo.lineage)) ∧
    ((finLoop {} (x :: s)).error = none → (finLoop {} (x :: s)).firstMin = x.minSdk ∧
      (finLoop {} (x :: s)).lastMax = lastMaxOf x.maxSdk s ∧
      (finLoop {} (x :: s)).lineages = (x :: s).filterMap SignerInfo.lineage) := by
  have hx := hg x (by simp)
  have hx0 : x.minSdk ≠ 0 := by have := hx.1; omega
  have hx1 : 1 ≤ x.maxSdk := by have := hx.1; have := hx.2.1; omega
  unfold finLoop
  rw [if_neg (by simp)]
  simp only [if_pos]
  cases hlin : x.lineage with
  | none =>
    simp only [List.filterMap_cons, hlin]
    obtain ⟨i1, i2⟩ := finLoop_spec s ⟨x.minSdk, x.maxSdk, 0, [], none⟩ rfl hx0 (fun y hy => hg y (List.mem_cons_of_mem _ hy)) hx1 hx.2.2
    exact ⟨i1, fun h => by simpa using i2 h⟩
  | some l =>
    simp only [List.filterMap_cons, hlin]
    rw [if_neg (by omega)]
    obtain ⟨i1, i2⟩ := finLoop_spec s ⟨x.minSdk, x.maxSdk, l.nodes.length, [l], none⟩ rfl hx0
      (fun y hy => hg y (List.mem_cons_of_mem _ hy)) hx1 hx.2.2
    refine ⟨?_, fun h => by simpa using i2 h⟩
    rw [List.nil_append, i1]
    simp [SizesFrom]

/-! ## Lineages -/

theorem nodesEqual_iff (a b : List LNode) : nodesEqual a b = true ↔ a.map LNode.key = b.map LNode.key := by
  induction a generalizing b with
  | nil => cases b <;> simp [nodesEqual]
  | cons x a ih =>
    cases b with
    | nil => simp [nodesEqual]
    | cons y b =>
      simp only [nodesEqual, Bool.and_eq_true, ih, List.map_cons, List.cons.injEq, LNode.equal, LNode.key, Prod.mk.injEq,
        decide_eq_true_eq]
      constructor
      · rintro ⟨⟨⟨⟨⟨h1, h2⟩, h3⟩, h4⟩, h5⟩, h6⟩; exact ⟨⟨h1, h2, h3, h4, h5⟩, h6⟩
      · rintro ⟨⟨h1, h2, h3, h4, h5⟩, h6⟩; exact ⟨⟨⟨⟨⟨h1, h2⟩, h3⟩, h4⟩, h5⟩, h6⟩

theorem nodesEqual_take (a t : List LNode) :
    nodesEqual a (t.take a.length) = true ↔ (a.map LNode.key) <+: (t.map LNode.key) := by
  rw [nodesEqual_iff, List.prefix_iff_eq_take, List.map_take, List.length_map]

theorem largest_mem (ls : List Lineage) : ∀ l, largestLineage l ls ∈ l :: ls := by
  induction ls with
  | nil => intro l; simp [largestLineage]
  | cons x ls ih =>
    intro l
    unfold largestLineage
    split
    · exact List.mem_cons_of_mem _ (ih x)
    · rcases List.mem_cons.1 (ih l) with h | h
      · rw [h]; simp
      · exact List.mem_cons_of_mem _ (List.mem_cons_of_mem _ h)

theorem largest_max (ls : List Lineage) : ∀ l, ∀ x ∈ l :: ls, x.nodes.length ≤ (largestLineage l ls).nodes.length := by
  induction ls with
  | nil => intro l x hx; simp at hx; subst hx; exact Nat.le_refl _
  | cons y ls ih =>
    intro l x hx
    unfold largestLineage
    split
    · rename_i h
      rcases List.mem_cons.1 hx with rfl | hx
      · have := ih y y (by simp); omega
      · exact ih y x hx
    · rename_i h
      rcases List.mem_cons.1 hx with rfl | hx
      · exact ih x x (by simp)
      · rcases List.mem_cons.1 hx with rfl | hx
        · have := ih l l (by simp); omega
        · exact ih l x (List.mem_cons_of_mem _ hx)

/-- Consolidation succeeds with a member that all others are prefixes of, if there is one. -/
theorem consolidate_ok_iff (ls : List Lineage) :
    (∃ o, consolidateLineages ls = .ok o) ↔ ls = [] ∨ ∃ t ∈ ls, ∀ u ∈ ls, (u.nodes.map LNode.key) <+: (t.nodes.map LNode.key) := by
  cases ls with
  | nil => simp [consolidateLineages]
  | cons l ls =>
    simp only [consolidateLineages, reduceCtorEq, false_or]
    constructor
    · rintro ⟨o, h⟩
      split at h
      · rename_i hall
        rw [List.all_eq_true] at hall
        exact ⟨_, largest_mem ls l, fun u hu => (nodesEqual_take _ _).1 (hall u hu)⟩
      · cases h
    · rintro ⟨t, ht, hp⟩
      have hlm := largest_mem ls l
      have hmax := largest_max ls l
      have hlen : t.nodes.length = (largestLineage l ls).nodes.length := by
        have h1 := (hp _ hlm).length_le
        simp only [List.length_map] at h1
        have h2 := hmax t ht
        omega
      have heq : (largestLineage l ls).nodes.map LNode.key = t.nodes.map LNode.key := by
        exact (hp _ hlm).eq_of_length (by simp [hlen])
      rw [if_pos]
      · exact ⟨_, rfl⟩
      · rw [List.all_eq_true]
        intro u hu
        rw [nodesEqual_take, heq]
        exact hp u hu

theorem consolidate_some {ls : List Lineage} {o : Option Lineage} (h : consolidateLineages ls = .ok o) :
    (o = none ↔ ls = []) ∧ ∀ t, o = some t → t ∈ ls ∧ ∀ u ∈ ls, (u.nodes.map LNode.key) <+: (t.nodes.map LNode.key) := by
  cases ls with
  | nil =>
    simp only [consolidateLineages, Except.ok.injEq] at h
    subst h; simp
  | cons l ls =>
    simp only [consolidateLineages] at h
    split at h
    · rename_i hall
      rw [List.all_eq_true] at hall
      simp only [Except.ok.injEq] at h
      subst h
      refine ⟨by simp, ?_⟩
      intro t ht
      simp only [Option.some.injEq] at ht
      subst ht
      exact ⟨largest_mem ls l, fun u hu => (nodesEqual_take _ _).1 (hall u hu)⟩
    · cases h

/-! ## From signer infos to views -/

theorem contig_views (vs : List V3View) : ∀ (v : V3View) (hi : Int),
    (ContigFrom v.maxSdk (vs.map V3View.info) ∧ lastMaxOf v.maxSdk (vs.map V3View.info) = hi) ↔
      Contiguous (v :: vs) v.minSdk hi := by
  induction vs with
  | nil =>
    intro v hi
    simp only [List.map_nil, ContigFrom, lastMaxOf, true_and]
    constructor
    · rintro rfl; exact .one v
    · intro h; cases h with
      | one => rfl
      | cons _ h => cases h
  | cons w vs ih =>
    intro v hi
    simp only [List.map_cons, ContigFrom, lastMaxOf]
    have e1 : (w.info).minSdk = w.minSdk := rfl
    have e2 : (w.info).maxSdk = w.maxSdk := rfl
    rw [e1, e2]
    constructor
    · rintro ⟨⟨h1, h2⟩, h3⟩
      have := (ih w hi).1 ⟨h2, h3⟩
      rw [h1] at this
      exact .cons v this
    · intro h
      cases h with
      | cons _ h =>
        have hm : w.minSdk = v.maxSdk + 1 := by
          generalize hlo : v.maxSdk + 1 = lo at h
          cases h <;> rfl
        rw [← hm] at h
        have := (ih w hi).2 h
        exact ⟨⟨hm, this.1⟩, this.2⟩

theorem Contiguous.head {vs : List V3View} {lo hi : Int} (h : Contiguous vs lo hi) : ∃ v vs', vs = v :: vs' ∧ lo = v.minSdk := by
  cases h with
  | one v => exact ⟨v, [], rfl, rfl⟩
  | cons v h => exact ⟨v, _, rfl, rfl⟩

/-- A view with a plausible SDK range. -/
def V3View.Good (v : V3View) : Prop := 1 ≤ v.minSdk ∧ v.minSdk ≤ v.maxSdk ∧ v.maxSdk ≤ 2147483647

theorem Contiguous.sorted {vs : List V3View} {lo hi : Int} (h : Contiguous vs lo hi) (hg : ∀ v ∈ vs, v.Good) :
    vs.Pairwise (fun a b => a.minSdk < b.minSdk) := by
  have key : ∀ {vs : List V3View} {lo hi : Int}, Contiguous vs lo hi → (∀ v ∈ vs, v.Good) → ∀ v ∈ vs, lo ≤ v.minSdk := by
    intro vs lo hi h
    induction h with
    | one v => intro _ w hw; simp at hw; subst hw; exact Int.le_refl _
    | cons v h ih =>
      intro hg w hw
      rcases List.mem_cons.1 hw with rfl | hw
      · exact Int.le_refl _
      · have h1 := ih (fun x hx => hg x (List.mem_cons_of_mem _ hx)) w hw
        have h2 := hg v (by simp)
        have := h2.2.1
        omega
  induction h with
  | one v => simp
  | cons v h ih =>
    have hg' := fun x hx => hg x (List.mem_cons_of_mem _ hx)
    refine List.pairwise_cons.2 ⟨?_, ih hg'⟩
    intro w hw
    have h1 := key h hg' w hw
    have h2 := (hg v (by simp)).2.1
    omega

theorem perm_map_lift {α β : Type} (f : α → β) {s t : List β} (h : s.Perm t) : ∀ {l : List α}, t = l.map f →
    ∃ l' : List α, l'.Perm l ∧ s = l'.map f := by
  induction h with
  | nil => intro l hl; exact ⟨[], (by cases l with | nil => exact .refl _ | cons => cases hl), rfl⟩
  | cons x h ih =>
    intro l hl
    cases l with
    | nil => cases hl
    | cons a l =>
      simp only [List.map_cons, List.cons.injEq] at hl
      obtain ⟨rfl, hl⟩ := hl
      obtain ⟨l', h1, h2⟩ := ih hl
      exact ⟨a :: l', h1.cons a, by rw [h2]; rfl⟩
  | swap x y l =>
    intro k hk
    cases k with
    | nil => cases hk
    | cons a k =>
      cases k with
      | nil => simp at hk
      | cons b k =>
        simp only [List.map_cons, List.cons.injEq] at hk
        obtain ⟨rfl, rfl, rfl⟩ := hk
        exact ⟨b :: a :: k, .swap _ _ _, rfl⟩
  | trans h1 h2 ih1 ih2 =>
    intro l hl
    obtain ⟨l2, p2, e2⟩ := ih2 hl
    obtain ⟨l1, p1, e1⟩ := ih1 e2
    exact ⟨l1, p1.trans p2, e1⟩

theorem sizes_pairwise (ls : List Lineage) : ∀ n, SizesFrom n ls ↔ (n :: ls.map (fun l => l.nodes.length)).Pairwise (· ≤ ·) := by
  induction ls with
  | nil => intro n; simp [SizesFrom]
  | cons l ls ih =>
    intro n
    rw [SizesFrom, ih]
    simp only [List.map_cons, List.pairwise_cons, List.mem_cons, List.mem_map, forall_eq_or_imp, forall_exists_index, and_imp,
      forall_apply_eq_imp_iff₂]
    constructor
    · rintro ⟨h1, h2, h3⟩
      exact ⟨⟨h1, fun a ha => Nat.le_trans h1 (h2 a ha)⟩, h2, h3⟩
    · rintro ⟨⟨h1, _⟩, h2, h3⟩; exact ⟨h1, h2, h3⟩

theorem info_lineages (vs : List V3View) :
    (vs.map V3View.info).filterMap SignerInfo.lineage = (vs.filterMap V3View.lineage).map (fun ns => ⟨lineageMinSdk ns, ns⟩) := by
  induction vs with
  | nil => rfl
  | cons v vs ih =>
    rw [List.map_cons, List.filterMap_cons, List.filterMap_cons, ih]
    cases h : v.lineage with
    | none => simp [V3View.info, h, mkLin]
    | some ns => simp [V3View.info, h, mkLin]

theorem sizes_views (vs : List V3View) :
    SizesFrom 0 ((vs.map V3View.info).filterMap SignerInfo.lineage) ↔
      (vs.filterMap V3View.lineage).Pairwise (fun a b => a.length ≤ b.length) := by
  rw [info_lineages, sizes_pairwise, List.pairwise_cons, List.map_map, List.pairwise_map]
  simp

theorem grow_iff (vs : List V3View) (o : Option Lineage)
    (hc : consolidateLineages ((vs.map V3View.info).filterMap SignerInfo.lineage) = .ok o)
    (hs : (vs.filterMap V3View.lineage).Pairwise (fun a b => a.length ≤ b.length)) :
    ∃ top, o = mkLin top ∧ LineagesGrow vs top := by
  obtain ⟨h1, h2⟩ := consolidate_some hc
  rw [info_lineages] at h1 h2
  cases o with
  | none =>
    refine ⟨none, rfl, hs, ?_⟩
    simp only [true_iff, List.map_eq_nil_iff, List.filterMap_eq_nil_iff] at h1
    exact h1
  | some t =>
    obtain ⟨h3, h4⟩ := h2 t rfl
    obtain ⟨ns, hns, rfl⟩ := List.mem_map.1 h3
    refine ⟨some ns, rfl, hs, ?_, ?_⟩
    · obtain ⟨v, hv, he⟩ := List.mem_filterMap.1 hns
      exact ⟨v, hv, he⟩
    · intro v hv l hl
      exact h4 ⟨lineageMinSdk l, l⟩ (List.mem_map.2 ⟨l, List.mem_filterMap.2 ⟨v, hv, hl⟩, rfl⟩)

theorem grow_consolidate {vs : List V3View} {top : Option (List LNode)} (h : LineagesGrow vs top) :
    ∃ o, consolidateLineages ((vs.map V3View.info).filterMap SignerInfo.lineage) = .ok o := by
  rw [consolidate_ok_iff, info_lineages]
  obtain ⟨_, h⟩ := h
  cases top with
  | none =>
    left
    simp only [List.map_eq_nil_iff, List.filterMap_eq_nil_iff]
    exact h
  | some t =>
    right
    obtain ⟨⟨v, hv, hvt⟩, hp⟩ := h
    refine ⟨⟨lineageMinSdk t, t⟩, List.mem_map.2 ⟨t, List.mem_filterMap.2 ⟨v, hv, hvt⟩, rfl⟩, ?_⟩
    intro u hu
    obtain ⟨l, hl, rfl⟩ := List.mem_map.1 hu
    obtain ⟨w, hw, hwl⟩ := List.mem_filterMap.1 hl
    exact hp w hw l hwl

/-! ## Finalisation -/

/-- The lower end of the range to cover. -/
def reqLo (actingAsV31 : Bool) (reqMin reqMax : Int) : Int := if actingAsV31 then reqMax else max reqMin 28
/-- The upper end of the range to cover. -/
def reqHi (rot reqMax : Int) : Int := if rot ≠ 0 then wrap32 (rot - 1) else reqMax

/-- Any sorted arrangement of the signers is the contiguous one when there is one. -/
theorem sorted_unique {vs sorted : List V3View} {s : List SignerInfo} {lo hi : Int} (hg : ∀ v ∈ vs, v.Good)
    (hperm : s.Perm (vs.map V3View.info)) (hs : s.Pairwise (fun a b => a.minSdk ≤ b.minSdk))
    (h1 : sorted.Perm vs) (h2 : Contiguous sorted lo hi) : s = sorted.map V3View.info := by
  have hg' : ∀ v ∈ sorted, v.Good := fun v hv => hg v (h1.mem_iff.1 hv)
  have hstrict := h2.sorted hg'
  have hp : s.Perm (sorted.map V3View.info) := hperm.trans (h1.map _).symm
  refine List.Perm.eq_of_pairwise (le := fun a b : SignerInfo => a.minSdk ≤ b.minSdk) ?_ hs ?_ hp
  · intro a b ha hb hab hba
    have ha' := hp.mem_iff.1 ha
    obtain ⟨va, hva, rfl⟩ := List.mem_map.1 ha'
    obtain ⟨vb, hvb, rfl⟩ := List.mem_map.1 hb
    have heq : va.minSdk = vb.minSdk := Int.le_antisymm hab hba
    -- equal minimum SDKs in a strictly sorted list
    have hinj : ∀ x ∈ sorted, ∀ y ∈ sorted, x.minSdk = y.minSdk → x = y := by
      intro x hx y hy hxy
      obtain ⟨i, hi, rfl⟩ := List.getElem_of_mem hx
      obtain ⟨j, hj, rfl⟩ := List.getElem_of_mem hy
      rcases Nat.lt_trichotomy i j with h | h | h
      · have := List.pairwise_iff_getElem.1 hstrict i j hi hj h; omega
      · subst h; rfl
      · have := List.pairwise_iff_getElem.1 hstrict j i hj hi h; omega
    rw [hinj va hva vb hvb heq]
  · rw [List.pairwise_map]
    exact hstrict.imp (fun h => Int.le_of_lt h)

/-- What finalisation does to a result, in terms of the loop over the sorted signers. -/
theorem finalizeSorted_eq (acting : Bool) (rot reqMin reqMax : Int) (s : List SignerInfo) (r : Core) :
    ∃ es lin, v3FinalizeSorted acting rot reqMin reqMax s r = { r with errors := r.errors ++ es, lineage := lin } ∧
      (es = [] ↔ (finLoop {} s).error = none ∧
        ¬ ((finLoop {} s).firstMin > reqLo acting reqMin reqMax ∨ (finLoop {} s).lastMax < reqHi rot reqMax) ∧
        (r.lineage = none → ∃ o, consolidateLineages (finLoop {} s).lineages = .ok o)) ∧
      (∀ l, r.lineage = some l → lin = some l) ∧
      (r.lineage = none → ∀ o, consolidateLineages (finLoop {} s).lineages = .ok o → lin = o) ∧
      (r.lineage = none → (∀ o, consolidateLineages (finLoop {} s).lineages ≠ .ok o) → lin = none) := by
  have elo : (if acting then reqMax else (if reqMin < 28 then 28 else reqMin)) = reqLo acting reqMin reqMax := by
    unfold reqLo; cases acting
    · simp only [Bool.false_eq_true, if_false]; split <;> omega
    · rfl
  unfold v3FinalizeSorted
  have ehi : (if rot ≠ 0 then wrap32 (rot - 1) else reqMax) = reqHi rot reqMax := rfl
  simp only [elo, ehi]
  generalize reqLo acting reqMin reqMax = lo
  generalize reqHi rot reqMax = hi
  generalize finLoop {} s = st
  cases he : st.error with
  | none =>
    simp only [reduceCtorEq, if_true, true_and]
    by_cases hm : st.firstMin > lo ∨ st.lastMax < hi
    · simp only [hm, if_true, not_true_eq_false, false_and, iff_false]
      simp only [Core.addError]
      cases hl : r.lineage with
      | some l => exact ⟨[.missingSdk], some l, by simp [hl], by simp, by simp, by simp, by simp⟩
      | none =>
        simp only
        cases hc : consolidateLineages st.lineages with
        | error e => exact ⟨[.missingSdk, e], none, by simp [hl, Core.addError], by simp, by simp, by simp, by simp⟩
        | ok o => exact ⟨[.missingSdk], o, by simp, by simp, by simp, by simp, by simp⟩
    · simp only [hm, if_false, not_false_eq_true, true_and]
      cases hl : r.lineage with
      | some l => exact ⟨[], some l, by simp [← hl], by simp, by simp, by simp, by simp⟩
      | none =>
        simp only
        cases hc : consolidateLineages st.lineages with
        | error e => exact ⟨[e], none, by simp [hl, Core.addError], by simp, by simp, by simp, by simp⟩
        | ok o => exact ⟨[], o, by simp, by simp, by simp, by simp, by simp⟩
  | some e =>
    simp only [reduceCtorEq, false_and, iff_false]
    by_cases hm : st.firstMin > lo ∨ st.lastMax < hi
    · simp only [hm, if_true]
      simp only [Core.addError]
      cases hl : r.lineage with
      | some l => exact ⟨[e, .missingSdk], some l, by simp [hl], by simp, by simp, by simp, by simp⟩
      | none =>
        simp only
        cases hc : consolidateLineages st.lineages with
        | error e' => exact ⟨[e, .missingSdk, e'], none, by simp [hl, Core.addError], by simp, by simp, by simp, by simp⟩
        | ok o => exact ⟨[e, .missingSdk], o, by simp, by simp, by simp, by simp, by simp⟩
    · simp only [hm, if_false]
      simp only [Core.addError]
      cases hl : r.lineage with
      | some l => exact ⟨[e], some l, by simp [hl], by simp, by simp, by simp, by simp⟩
      | none =>
        simp only
        cases hc : consolidateLineages st.lineages with
        | error e' => exact ⟨[e, e'], none, by simp [hl, Core.addError], by simp, by simp, by simp, by simp⟩
        | ok o => exact ⟨[e], o, by simp, by simp, by simp, by simp, by simp⟩

/-- Finalisation of a fresh result over any sorted arrangement of the signers. -/
theorem finalizeSorted_views {vs : List V3View} (hne : vs ≠ []) (hg : ∀ v ∈ vs, v.Good) {s : List SignerInfo}
    (hperm : s.Perm (vs.map V3View.info)) (hs : s.Pairwise (fun a b => a.minSdk ≤ b.minSdk)) (acting : Bool)
    (rot reqMin reqMax : Int) {r : Core} (hr : r.lineage = none) :
    ((∃ top, V3Covers vs (reqLo acting reqMin reqMax) (reqHi rot reqMax) top) →
      ∃ top, V3Covers vs (reqLo acting reqMin reqMax) (reqHi rot reqMax) top ∧
        v3FinalizeSorted acting rot reqMin reqMax s r = { r with lineage := mkLin top }) ∧
    ((¬ ∃ top, V3Covers vs (reqLo acting reqMin reqMax) (reqHi rot reqMax) top) →
      ∃ es lin, es ≠ [] ∧ v3FinalizeSorted acting rot reqMin reqMax s r = { r with errors := r.errors ++ es, lineage := lin }) := by
  obtain ⟨vs', p1, rfl⟩ := perm_map_lift V3View.info hperm rfl
  have hg' : ∀ v ∈ vs', v.Good := fun v hv => hg v (p1.mem_iff.1 hv)
  cases vs' with
  | nil => exact absurd (List.nil_perm.1 p1) hne
  | cons v vs' =>
  have hgi : ∀ y ∈ (v :: vs').map V3View.info, y.Good := by
    intro y hy
    obtain ⟨w, hw, rfl⟩ := List.mem_map.1 hy
    exact hg' w hw
  rw [List.map_cons] at hgi
  obtain ⟨f1, f2⟩ := finLoop_start hgi
  obtain ⟨es, lin, e1, e2, _, e3, _⟩ := finalizeSorted_eq acting rot reqMin reqMax ((v :: vs').map V3View.info) r
  rw [e1]
  rw [List.map_cons] at e2 e3
  -- the errorless case is exactly coverage by this arrangement
  have key : es = [] ↔ ∃ top, V3Covers vs (reqLo acting reqMin reqMax) (reqHi rot reqMax) top := by
    rw [e2]
    constructor
    · rintro ⟨g1, g2, g3⟩
      obtain ⟨c1, c2⟩ := f1.1 g1
      obtain ⟨d1, d2, d3⟩ := f2 g1
      rw [d3] at g3
      obtain ⟨o, ho⟩ := g3 hr
      obtain ⟨top, _, hgrow⟩ := grow_iff (v :: vs') o ho ((sizes_views _).1 c2)
      rw [d1, d2] at g2
      have hcont := (contig_views vs' v _).1 ⟨c1, rfl⟩
      have hv1 : v.info.minSdk = v.minSdk := rfl
      have hv2 : v.info.maxSdk = v.maxSdk := rfl
      rw [hv1, hv2] at g2
      exact ⟨top, v :: vs', _, _, p1, hcont, by omega, by omega, hgrow⟩
    · rintro ⟨top, sorted, lo, hi, q1, q2, q3, q4, q5⟩
      have hse := sorted_unique hg hperm hs q1 q2
      obtain ⟨w, ws, rfl, rfl⟩ := q2.head
      simp only [List.map_cons, List.cons.injEq] at hse
      have hwm : v.minSdk = w.minSdk := congrArg SignerInfo.minSdk hse.1
      have hwx : v.maxSdk = w.maxSdk := congrArg SignerInfo.maxSdk hse.1
      obtain ⟨c1, c2⟩ := (contig_views ws w hi).2 q2
      rw [← hse.2, ← hwx] at c1 c2
      obtain ⟨o, ho⟩ := grow_consolidate q5
      have hl : (finLoop {} (v.info :: vs'.map V3View.info)).error = none := by
        refine f1.2 ⟨c1, ?_⟩
        rw [hse.1, hse.2]
        exact (sizes_views (w :: ws)).2 q5.1
      obtain ⟨d1, d2, d3⟩ := f2 hl
      refine ⟨hl, ?_, fun _ => ?_⟩
      · rw [d1, d2]
        have hv1 : v.info.minSdk = v.minSdk := rfl
        have hv2 : v.info.maxSdk = v.maxSdk := rfl
        rw [hv1, hv2, c2]; omega
      · rw [d3, hse.1, hse.2]; exact ⟨o, ho⟩
  constructor
  · intro hcov
    have hes := key.2 hcov
    obtain ⟨g1, g2, g3⟩ := e2.1 hes
    obtain ⟨c1, c2⟩ := f1.1 g1
    obtain ⟨d1, d2, d3⟩ := f2 g1
    rw [d3] at g3 e3
    obtain ⟨o, ho⟩ := g3 hr
    obtain ⟨top, ht, hgrow⟩ := grow_iff (v :: vs') o ho ((sizes_views _).1 c2)
    rw [d1, d2] at g2
    have hcont := (contig_views vs' v _).1 ⟨c1, rfl⟩
    have hv1 : v.info.minSdk = v.minSdk := rfl
    have hv2 : v.info.maxSdk = v.maxSdk := rfl
    rw [hv1, hv2] at g2
    refine ⟨top, ⟨v :: vs', _, _, p1, hcont, by omega, by omega, hgrow⟩, ?_⟩
    rw [hes, e3 hr o ho, ht]; simp
  · intro hcov
    exact ⟨es, lin, fun h => hcov (key.1 h), rfl⟩

theorem insertSigner_perm (s : SignerInfo) (l : List SignerInfo) : (insertSigner s l).Perm (s :: l) := by
  induction l with
  | nil => exact .refl _
  | cons x l ih =>
    unfold insertSigner
    split
    · exact .refl _
    · exact (ih.cons x).trans (.swap _ _ _)

theorem insertSigner_sorted {s : SignerInfo} {l : List SignerInfo} (h : l.Pairwise (fun a b => a.minSdk ≤ b.minSdk)) :
    (insertSigner s l).Pairwise (fun a b => a.minSdk ≤ b.minSdk) := by
  induction l with
  | nil => simp [insertSigner]
  | cons x l ih =>
    obtain ⟨h1, h2⟩ := List.pairwise_cons.1 h
    unfold insertSigner
    split
    · rename_i hlt
      refine List.pairwise_cons.2 ⟨?_, h⟩
      intro y hy
      rcases List.mem_cons.1 hy with rfl | hy
      · exact Int.le_of_lt hlt
      · have := h1 y hy; omega
    · rename_i hlt
      refine List.pairwise_cons.2 ⟨?_, ih h2⟩
      intro y hy
      rcases List.mem_cons.1 ((insertSigner_perm s l).mem_iff.1 hy) with rfl | hy
      · omega
      · exact h1 y hy

theorem sortSigners_spec (l : List SignerInfo) : (sortSigners l).Perm l ∧ (sortSigners l).Pairwise (fun a b => a.minSdk ≤ b.minSdk) := by
  have key : ∀ (l acc : List SignerInfo), acc.Pairwise (fun a b => a.minSdk ≤ b.minSdk) →
      (l.foldl (fun acc s => insertSigner s acc) acc).Perm (l ++ acc) ∧
      (l.foldl (fun acc s => insertSigner s acc) acc).Pairwise (fun a b => a.minSdk ≤ b.minSdk) := by
    intro l
    induction l with
    | nil => intro acc h; exact ⟨.refl _, h⟩
    | cons x l ih =>
      intro acc h
      obtain ⟨i1, i2⟩ := ih (insertSigner x acc) (insertSigner_sorted h)
      refine ⟨i1.trans ?_, i2⟩
      refine ((insertSigner_perm x acc).append_left l).trans ?_
      exact List.perm_middle
  obtain ⟨h1, h2⟩ := key l [] List.Pairwise.nil
  exact ⟨(by rw [List.append_nil] at h1; exact h1), h2⟩

theorem V3SignerOK.good {env : Env} {maxSdk rot : Int} {signer : Bytes} {v : V3View}
    (h : V3SignerOK env maxSdk rot signer v) : v.Good := by
  obtain ⟨_, mn, mx, _, _, _, _, _, _, _, _, _, _, _, _, _, _, _, _, _, _, _, _, _, hmn, hmx, _, _, _, _, _, _, _, _, h1, h2, _⟩ := h
  refine ⟨h1, h2, ?_⟩
  rw [hmx]; exact (toI32_range mx).2

theorem V3Block.good {env : Env} {maxSdk rot : Int} {block : Bytes} {vs : List V3View} (h : V3Block env maxSdk rot block vs) :
    ∀ v ∈ vs, v.Good := by
  obtain ⟨_, _, l, _, _, _, rfl, h, _⟩ := h
  intro v hv
  obtain ⟨p, hp, rfl⟩ := List.mem_map.1 hv
  exact (h p hp).good

end Apk
