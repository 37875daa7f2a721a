import Verif.Proofs.Integrity
/-! # The integrity check as an explicit function of the covered sections and the digest map -/
namespace Apk
set_option linter.unusedSimpArgs false

/-- The error reported when some content digest cannot be computed. -/
def digestFailure (as : List CD) (secs : List Bytes) : E :=
  if (CD.chunked256 ∈ as ∨ CD.chunked512 ∈ as) ∧ 2 ^ 21 - 1 ≤ (mibChunks secs).length then .tooManyChunks else .verityNotAligned

/-- The errors reported by the integrity check of the map `m` iterated in the order `order`, and its Boolean result. -/
def integrityErrors (env : Env) (secs : List Bytes) (order : Digests) : List E × Bool :=
  if ∀ p ∈ order, (contentDigest env p.1 secs).isSome = true then
    ((order.filter (fun p => decide (contentDigest env p.1 secs ≠ some p.2))).map (fun p => E.digestMismatch p.1), true)
  else ([.digestCompute (digestFailure (order.map (·.1)) secs)], false)

theorem computeOneMb_failErr (env : Env) {ls : List Leaf} (hv : ∀ l ∈ ls, l.Valid) (as : List CD) (acc : Digests)
    (hne : as ≠ []) (hbig : 2 ^ 21 - 1 ≤ (mibChunks (ls.map Leaf.contents)).length) :
    computeOneMb env ls as acc = .ok (.error .tooManyChunks) := by
  cases as with
  | nil => exact absurd rfl hne
  | cons a as =>
    rw [computeOneMb, oneMbDigest_spec env a ls hv, if_pos (by omega)]

theorem contentDigest_oneMb_none {env : Env} {secs : List Bytes} {a : CD} (ha : a = .chunked256 ∨ a = .chunked512) :
    contentDigest env a secs = none ↔ 2 ^ 21 - 1 ≤ (mibChunks secs).length := by
  rcases ha with rfl | rfl <;> simp only [contentDigest] <;> split <;> simp <;> omega

theorem computeContentDigests_failErr (env : Env) {c0 : Leaf} {cs : List Leaf} (hs : SecsOK c0 cs) {as : List CD}
    (hnc : CD.nonChunked256 ∉ as) (h : ¬ ∀ a ∈ as, (contentDigest env a ((c0 :: cs).map Leaf.contents)).isSome = true) :
    computeContentDigests env as (c0 :: cs) = .ok (.error (digestFailure as ((c0 :: cs).map Leaf.contents))) := by
  unfold computeContentDigests
  rw [if_neg (by simpa using hnc)]
  simp only
  have hf : ∀ a ∈ as.filter (fun a => a = .chunked256 || a = .chunked512), a = .chunked256 ∨ a = .chunked512 := by
    intro a ha; simpa using (List.mem_filter.1 ha).2
  unfold digestFailure
  by_cases hc : (CD.chunked256 ∈ as ∨ CD.chunked512 ∈ as) ∧ 2 ^ 21 - 1 ≤ (mibChunks ((c0 :: cs).map Leaf.contents)).length
  · rw [if_pos hc, computeOneMb_failErr env hs.valid _ _ ?_ hc.2]
    rcases hc.1 with h1 | h1
    · exact List.ne_nil_of_mem (List.mem_filter.2 ⟨h1, rfl⟩)
    · exact List.ne_nil_of_mem (List.mem_filter.2 ⟨h1, rfl⟩)
  · rw [if_neg hc]
    have hall : ∀ a ∈ as.filter (fun a => a = .chunked256 || a = .chunked512),
        (contentDigest env a ((c0 :: cs).map Leaf.contents)).isSome = true := by
      intro a ha
      cases hd : contentDigest env a ((c0 :: cs).map Leaf.contents) with
      | some d => rfl
      | none =>
        refine absurd ⟨?_, (contentDigest_oneMb_none (hf a ha)).1 hd⟩ hc
        rcases hf a ha with rfl | rfl
        · exact Or.inl (List.mem_filter.1 ha).1
        · exact Or.inr (List.mem_filter.1 ha).1
    obtain ⟨m, e1, _, _⟩ := computeOneMb_ok env hs.valid _ [] hf hall
    rw [e1]
    simp only
    have hv : CD.verity256 ∈ as ∧ contentDigest env .verity256 ((c0 :: cs).map Leaf.contents) = none := by
      refine Classical.byContradiction (fun hn => h ?_)
      intro a ha
      cases a with
      | chunked256 => exact hall _ (List.mem_filter.2 ⟨ha, rfl⟩)
      | chunked512 => exact hall _ (List.mem_filter.2 ⟨ha, rfl⟩)
      | nonChunked256 => exact absurd ha hnc
      | verity256 =>
        cases hd : contentDigest env .verity256 ((c0 :: cs).map Leaf.contents) with
        | some d => rfl
        | none => exact absurd ⟨ha, hd⟩ hn
    rw [if_pos (by simpa using hv.1)]
    have hal : c0.length % 4096 ≠ 0 := by
      intro hal
      have := hv.2
      simp only [contentDigest, List.map_cons, List.headD_cons, Leaf.contents_length (hs.valid c0 (by simp))] at this
      rw [if_pos hal] at this; cases this
    rw [verityDigest_unaligned env c0 cs hal]

/-- The integrity check of a located APK as a function of the sections it covers. -/
theorem verifyIntegrity_eq (env : Env) {file head area cd rec : Bytes} (h : ApkLayout file head area cd rec)
    {m : Digests} (hne : m ≠ []) (r : Core) :
    verifyIntegrity env file (layoutFound head area cd rec) m r =
      if CD.nonChunked256 ∈ m.map (·.1) then .error .explicit
      else .ok ({ r with errors := r.errors ++ (integrityErrors env (signedSections head cd rec) (env.cdOrder m)).1 },
        (integrityErrors env (signedSections head cd rec) (env.cdOrder m)).2) := by
  obtain ⟨c0, cs, e1, hs, e2⟩ := layout_secs h
  unfold verifyIntegrity
  rw [e1, ← e2]
  have hperm := env.cdOrder_perm m
  have hone : env.cdOrder m ≠ [] := by
    intro hh; rw [hh] at hperm; exact hne (List.nil_perm.1 hperm)
  simp only
  by_cases hnc : CD.nonChunked256 ∈ m.map (·.1)
  · rw [if_pos hnc]
    have : CD.nonChunked256 ∈ (env.cdOrder m).map (·.1) := (hperm.map _).mem_iff.2 hnc
    unfold computeContentDigests
    rw [if_pos (by simpa using this)]
    rfl
  · rw [if_neg hnc]
    have hnc' : CD.nonChunked256 ∉ (env.cdOrder m).map (·.1) := fun hc => hnc ((hperm.map _).mem_iff.1 hc)
    by_cases hall : ∀ p ∈ env.cdOrder m, (contentDigest env p.1 ((c0 :: cs).map Leaf.contents)).isSome = true
    · obtain ⟨act, f1, f2⟩ := computeContentDigests_ok env hs (as := (env.cdOrder m).map (·.1)) (by simpa using hone)
        (by intro a ha; obtain ⟨p, hp, rfl⟩ := List.mem_map.1 ha; exact hall p hp)
      rw [f1]
      simp only [bind, Except.bind, integrityErrors]
      rw [if_pos hall]
      simp only [Except.ok.injEq, Prod.mk.injEq, and_true, Core.mk.injEq, true_and]
      congr 2
      apply List.filter_congr
      intro p hp
      rw [f2 p.1 (List.mem_map.2 ⟨p, hp, rfl⟩)]
      obtain ⟨d, hd⟩ := Option.isSome_iff_exists.1 (hall p hp)
      rw [hd]
      simp only [Option.getD_some, ne_eq, Option.some.injEq, decide_not]
      congr 1
      exact decide_eq_decide.2 ⟨fun h => h.symm, fun h => h.symm⟩
    · rw [computeContentDigests_failErr env hs hnc' ?_]
      · simp only [bind, Except.bind, integrityErrors]
        rw [if_neg hall]
        rfl
      · intro hh
        exact hall (fun p hp => hh p.1 (List.mem_map.2 ⟨p, hp, rfl⟩))

/-- The errors do not depend on the order, up to permutation. -/
theorem integrityErrors_perm (env : Env) (secs : List Bytes) {o o' : Digests} (h : o.Perm o') :
    (integrityErrors env secs o).1.Perm (integrityErrors env secs o').1 ∧
      (integrityErrors env secs o).2 = (integrityErrors env secs o').2 := by
  have hmem : ∀ p, p ∈ o ↔ p ∈ o' := fun p => h.mem_iff
  unfold integrityErrors
  by_cases hall : ∀ p ∈ o, (contentDigest env p.1 secs).isSome = true
  · rw [if_pos hall, if_pos (fun p hp => hall p ((hmem p).2 hp))]
    exact ⟨(h.filter _).map _, rfl⟩
  · rw [if_neg hall, if_neg (fun hh => hall (fun p hp => hh p ((hmem p).1 hp)))]
    have : digestFailure (o.map (·.1)) secs = digestFailure (o'.map (·.1)) secs := by
      unfold digestFailure
      simp only [(h.map (fun p => p.1)).mem_iff]
    rw [this]
    exact ⟨List.Perm.refl _, rfl⟩

end Apk
