import Verif.Spec.Scheme
import Verif.Proofs.Verity
import Verif.Proofs.Layout
import Verif.Proofs.V3Signer
import Verif.Model.Block
/-! # Content digests of the file against the declared ones -/
namespace Apk
set_option linter.unusedSimpArgs false

/-- The condition under which content digests are computed without panic. -/
structure SecsOK (c0 : Leaf) (cs : List Leaf) : Prop where
  valid : ∀ l ∈ c0 :: cs, l.Valid
  nonempty : 0 < (concatContents (c0 :: cs)).length
  size : (concatContents (c0 :: cs)).length ≤ 68719476736

theorem oneMb_contentDigest (env : Env) {ls : List Leaf} (hv : ∀ l ∈ ls, l.Valid) {a : CD} (ha : a = .chunked256 ∨ a = .chunked512) :
    (∀ d, contentDigest env a (ls.map Leaf.contents) = some d → oneMbDigest env a ls = .ok (.ok d)) ∧
    (contentDigest env a (ls.map Leaf.contents) = none → ∃ e, oneMbDigest env a ls = .ok (.error e)) := by
  rw [oneMbDigest_spec env a ls hv]
  rcases ha with rfl | rfl <;>
  · simp only [contentDigest, CD.hash]
    by_cases h : (mibChunks (ls.map Leaf.contents)).length < 2 ^ 21 - 1
    · rw [if_pos h, if_neg (by omega)]
      refine ⟨?_, by intro h; cases h⟩
      intro d hd; simp only [Option.some.injEq] at hd; rw [hd]
    · rw [if_neg h, if_pos (by omega)]
      exact ⟨(fun d hd => by cases hd), fun _ => ⟨_, rfl⟩⟩

theorem verity_contentDigest (env : Env) {c0 : Leaf} {cs : List Leaf} (hs : SecsOK c0 cs) :
    (∀ d, contentDigest env .verity256 ((c0 :: cs).map Leaf.contents) = some d → verityDigest env (c0 :: cs) = .ok (.ok d)) ∧
    (contentDigest env .verity256 ((c0 :: cs).map Leaf.contents) = none → ∃ e, verityDigest env (c0 :: cs) = .ok (.error e)) := by
  have hl := Leaf.contents_length (hs.valid c0 (by simp))
  simp only [contentDigest, List.map_cons, List.headD_cons]
  by_cases h : c0.contents.length % 4096 = 0
  · rw [if_pos h]
    refine ⟨?_, by intro h; cases h⟩
    intro d hd
    rw [verityDigest_ok env hs.valid (by omega) hs.nonempty (treeBytes_fits env _ hs.size)]
    simp only [Option.some.injEq] at hd
    rw [← hd]; rfl
  · rw [if_neg h]
    exact ⟨(fun d hd => by cases hd), fun _ => ⟨_, verityDigest_unaligned env c0 cs (by omega)⟩⟩

theorem computeOneMb_ok (env : Env) {ls : List Leaf} (hv : ∀ l ∈ ls, l.Valid) (as : List CD) : ∀ (acc : Digests),
    (∀ a ∈ as, a = .chunked256 ∨ a = .chunked512) →
    (∀ a ∈ as, (contentDigest env a (ls.map Leaf.contents)).isSome = true) →
    ∃ m, computeOneMb env ls as acc = .ok (.ok m) ∧ (as ≠ [] ∨ acc ≠ [] → m ≠ []) ∧
      ∀ t, mget m t = if t ∈ as then contentDigest env t (ls.map Leaf.contents) else mget acc t := by
  induction as with
  | nil => intro acc _ _; exact ⟨acc, rfl, by simp, by simp⟩
  | cons a as ih =>
    intro acc h1 h2
    obtain ⟨d, hd⟩ := Option.isSome_iff_exists.1 (h2 a (by simp))
    rw [computeOneMb, (oneMb_contentDigest env hv (h1 a (by simp))).1 d hd]
    simp only
    obtain ⟨m, e1, e2, e3⟩ := ih (mset acc a d) (fun x hx => h1 x (List.mem_cons_of_mem _ hx)) (fun x hx => h2 x (List.mem_cons_of_mem _ hx))
    refine ⟨m, e1, fun _ => e2 (Or.inr (mset_ne_nil _ _ _)), ?_⟩
    intro t
    rw [e3 t, mget_mset]
    by_cases ht : t ∈ as
    · rw [if_pos ht, if_pos (List.mem_cons_of_mem _ ht)]
    · rw [if_neg ht]
      by_cases hta : a = t
      · subst hta; simp [hd]
      · rw [if_neg hta, if_neg]
        intro hc; rcases List.mem_cons.1 hc with rfl | hc
        · exact hta rfl
        · exact ht hc

theorem computeOneMb_fail (env : Env) {ls : List Leaf} (hv : ∀ l ∈ ls, l.Valid) (as : List CD) : ∀ (acc : Digests),
    (∀ a ∈ as, a = .chunked256 ∨ a = .chunked512) →
    (∃ a ∈ as, contentDigest env a (ls.map Leaf.contents) = none) →
    ∃ e, computeOneMb env ls as acc = .ok (.error e) := by
  induction as with
  | nil => rintro acc _ ⟨a, ha, _⟩; cases ha
  | cons a as ih =>
    rintro acc h1 ⟨b, hb, hbn⟩
    rw [computeOneMb]
    cases hd : contentDigest env a (ls.map Leaf.contents) with
    | none =>
      obtain ⟨e, he⟩ := (oneMb_contentDigest env hv (h1 a (by simp))).2 hd
      rw [he]; exact ⟨e, rfl⟩
    | some d =>
      rw [(oneMb_contentDigest env hv (h1 a (by simp))).1 d hd]
      simp only
      refine ih _ (fun x hx => h1 x (List.mem_cons_of_mem _ hx)) ⟨b, ?_, hbn⟩
      rcases List.mem_cons.1 hb with rfl | hb
      · rw [hd] at hbn; cases hbn
      · exact hb

theorem computeContentDigests_ok (env : Env) {c0 : Leaf} {cs : List Leaf} (hs : SecsOK c0 cs) {as : List CD} (hne : as ≠ [])
    (h : ∀ a ∈ as, (contentDigest env a ((c0 :: cs).map Leaf.contents)).isSome = true) :
    ∃ m, computeContentDigests env as (c0 :: cs) = .ok (.ok m) ∧
      ∀ t ∈ as, mget m t = contentDigest env t ((c0 :: cs).map Leaf.contents) := by
  have hnc : ¬ as.contains .nonChunked256 = true := by
    intro hc
    have := h .nonChunked256 (by simpa using hc)
    simp [contentDigest] at this
  unfold computeContentDigests
  rw [if_neg hnc]
  simp only
  obtain ⟨m, e1, e2, e3⟩ := computeOneMb_ok env hs.valid (as.filter (fun a => a = .chunked256 || a = .chunked512)) []
    (by intro a ha; simpa using (List.mem_filter.1 ha).2) (fun a ha => h a (List.mem_filter.1 ha).1)
  rw [e1]
  simp only
  have hmem : ∀ t ∈ as, t ≠ .verity256 → t ∈ as.filter (fun a => a = .chunked256 || a = .chunked512) := by
    intro t ht hv
    refine List.mem_filter.2 ⟨ht, ?_⟩
    cases t with
    | chunked256 => rfl
    | chunked512 => rfl
    | verity256 => exact absurd rfl hv
    | nonChunked256 => exact absurd (by simpa using ht) hnc
  by_cases hver : CD.verity256 ∈ as
  · rw [if_pos (by simpa using hver)]
    obtain ⟨d, hd⟩ := Option.isSome_iff_exists.1 (h _ hver)
    rw [(verity_contentDigest env hs).1 d hd]
    refine ⟨_, rfl, ?_⟩
    intro t ht
    rw [mget_mset]
    by_cases htv : CD.verity256 = t
    · subst htv; rw [if_pos rfl, hd]
    · rw [if_neg htv, e3 t, if_pos (hmem t ht (fun e => htv e.symm))]
  · rw [if_neg (by simpa using hver)]
    have hmne : m ≠ [] := by
      apply e2
      left
      obtain ⟨a, ha⟩ := List.exists_mem_of_ne_nil _ hne
      exact List.ne_nil_of_mem (hmem a ha (by rintro rfl; exact hver ha))
    rw [if_neg (by simpa using hmne)]
    refine ⟨m, rfl, ?_⟩
    intro t ht
    rw [e3 t, if_pos (hmem t ht (by rintro rfl; exact hver ht))]

theorem computeContentDigests_fail (env : Env) {c0 : Leaf} {cs : List Leaf} (hs : SecsOK c0 cs) {as : List CD}
    (hnc : CD.nonChunked256 ∉ as) (h : ∃ a ∈ as, contentDigest env a ((c0 :: cs).map Leaf.contents) = none) :
    ∃ e, computeContentDigests env as (c0 :: cs) = .ok (.error e) := by
  obtain ⟨b, hb, hbn⟩ := h
  unfold computeContentDigests
  rw [if_neg (by simpa using hnc)]
  simp only
  have hf : ∀ a ∈ as.filter (fun a => a = .chunked256 || a = .chunked512), a = .chunked256 ∨ a = .chunked512 := by
    intro a ha; simpa using (List.mem_filter.1 ha).2
  by_cases hex : ∃ a ∈ as.filter (fun a => a = .chunked256 || a = .chunked512), contentDigest env a ((c0 :: cs).map Leaf.contents) = none
  · obtain ⟨e, he⟩ := computeOneMb_fail env hs.valid _ [] hf hex
    rw [he]; exact ⟨e, rfl⟩
  · obtain ⟨m, e1, _, _⟩ := computeOneMb_ok env hs.valid (as.filter (fun a => a = .chunked256 || a = .chunked512)) [] hf
      (by
        intro a ha
        cases hd : contentDigest env a ((c0 :: cs).map Leaf.contents) with
        | none => exact absurd ⟨a, ha, hd⟩ hex
        | some d => rfl)
    rw [e1]
    simp only
    have hbv : b = .verity256 := by
      cases b with
      | verity256 => rfl
      | nonChunked256 => exact absurd hb hnc
      | chunked256 => exact absurd ⟨_, List.mem_filter.2 ⟨hb, rfl⟩, hbn⟩ hex
      | chunked512 => exact absurd ⟨_, List.mem_filter.2 ⟨hb, rfl⟩, hbn⟩ hex
    subst hbv
    rw [if_pos (by simpa using hb)]
    obtain ⟨e, he⟩ := (verity_contentDigest env hs).2 hbn
    rw [he]; exact ⟨e, rfl⟩

theorem layout_secs {file head area cd rec : Bytes} (h : ApkLayout file head area cd rec) :
    ∃ c0 cs, sections file (layoutFound head area cd rec) = c0 :: cs ∧ SecsOK c0 cs ∧
      (c0 :: cs).map Leaf.contents = signedSections head cd rec := by
  have e1 : (Leaf.apk file 0 head.length).contents = head := by
    simp only [Leaf.contents]; rw [h.split]; unfold slice; simp [List.append_assoc]
  have e2 : (Leaf.apk file (head.length + (sigBlock area).length) (head.length + (sigBlock area).length + cd.length)).contents = cd := by
    simp only [Leaf.contents, Nat.add_sub_cancel_left]; rw [h.split]
    unfold slice
    rw [List.append_assoc (head ++ sigBlock area), ← List.length_append, List.drop_left, List.take_left]
  have e3 : (Leaf.bytes (eocdPatched rec head.length)).contents = redirected rec head.length := rfl
  have hmap : (sections file (layoutFound head area cd rec)).map Leaf.contents = signedSections head cd rec := by
    simp only [sections, layoutFound, List.map_cons, List.map_nil, List.length_append, e1, e2, e3, signedSections]
  obtain ⟨c, hc, _⟩ := h.eocd
  have hrec := hc.len
  have hsm := hc.small
  have hredlen : (redirected rec head.length).length = rec.length := by
    simp only [redirected, List.length_append, List.length_take, leBytes_length, List.length_drop]; omega
  have hconc : concatContents (sections file (layoutFound head area cd rec)) = head ++ cd ++ redirected rec head.length := by
    unfold concatContents; rw [hmap]; simp [signedSections]
  have hflen : file.length = head.length + (sigBlock area).length + cd.length + rec.length := by
    rw [h.split]; simp only [List.length_append]
  have ho := h.cdRef.offLt
  have hz := h.cdRef.sizeLt
  simp only [List.length_append] at ho
  refine ⟨_, _, rfl, ⟨?_, ?_, ?_⟩, hmap⟩
  · intro l hl
    simp only [layoutFound, List.mem_cons, List.not_mem_nil, or_false] at hl
    rcases hl with rfl | rfl | rfl
    · simp only [Leaf.Valid]; omega
    · simp only [Leaf.Valid, List.length_append]; omega
    · trivial
  · change 0 < (concatContents (sections file (layoutFound head area cd rec))).length
    rw [hconc]; simp only [List.length_append, hredlen]; omega
  · change (concatContents (sections file (layoutFound head area cd rec))).length ≤ _
    rw [hconc]; simp only [List.length_append, hredlen]; omega

/-- Integrity check against an arbitrary digest map: total, and errorless exactly when all digests match. -/
theorem verifyIntegrity_spec (env : Env) {file head area cd rec : Bytes} (h : ApkLayout file head area cd rec)
    {m : Digests} (hne : m ≠ []) (hnc : ∀ p ∈ m, p.1 ≠ .nonChunked256) (r : Core) :
    ((∀ p ∈ m, contentDigest env p.1 (signedSections head cd rec) = some p.2) →
      verifyIntegrity env file (layoutFound head area cd rec) m r = .ok (r, true)) ∧
    ((¬ ∀ p ∈ m, contentDigest env p.1 (signedSections head cd rec) = some p.2) →
      ∃ es ok, es ≠ [] ∧ verifyIntegrity env file (layoutFound head area cd rec) m r = .ok ({ r with errors := r.errors ++ es }, ok)) := by
  obtain ⟨c0, cs, e1, hs, e2⟩ := layout_secs h
  unfold verifyIntegrity
  rw [e1, ← e2]
  have hperm := env.cdOrder_perm m
  have hmem : ∀ p, p ∈ env.cdOrder m ↔ p ∈ m := fun p => hperm.mem_iff
  simp only
  have hone : env.cdOrder m ≠ [] := by
    intro hh; rw [hh] at hperm; exact hne (List.nil_perm.1 hperm)
  by_cases hall : ∀ a ∈ (env.cdOrder m).map (·.1), (contentDigest env a ((c0 :: cs).map Leaf.contents)).isSome = true
  · obtain ⟨act, f1, f2⟩ := computeContentDigests_ok env hs (by simpa using hone) hall
    rw [f1]
    simp only [bind, Except.bind]
    have hval : ∀ p ∈ env.cdOrder m, (mget act p.1) = contentDigest env p.1 ((c0 :: cs).map Leaf.contents) := by
      intro p hp; exact f2 p.1 (List.mem_map.2 ⟨p, hp, rfl⟩)
    constructor
    · intro hmt
      have : (env.cdOrder m).filter (fun p => decide (p.2 ≠ (mget act p.1).getD [])) = [] := by
        rw [List.filter_eq_nil_iff]
        intro p hp
        rw [hval p hp, hmt p ((hmem p).1 hp)]
        simp
      rw [this]; simp
    · intro hmt
      refine ⟨_, _, ?_, rfl⟩
      intro hnil
      apply hmt
      intro p hp
      have hp' := (hmem p).2 hp
      have hnil' : (env.cdOrder m).filter (fun p => decide (p.2 ≠ (mget act p.1).getD [])) = [] := by simpa using hnil
      rw [List.filter_eq_nil_iff] at hnil'
      have h3 := hnil' p hp'
      rw [hval p hp'] at h3
      obtain ⟨d, hd⟩ := Option.isSome_iff_exists.1 (hall p.1 (List.mem_map.2 ⟨p, hp', rfl⟩))
      rw [hd] at h3 ⊢
      simp only [Option.getD_some, ne_eq, decide_eq_true_eq, Decidable.not_not] at h3
      rw [h3]
  · have hex : ∃ a ∈ (env.cdOrder m).map (·.1), contentDigest env a ((c0 :: cs).map Leaf.contents) = none := by
      rcases Classical.em (∃ a ∈ (env.cdOrder m).map (·.1), contentDigest env a ((c0 :: cs).map Leaf.contents) = none) with h | h
      · exact h
      · exact absurd (fun a ha => by
          cases hd : contentDigest env a ((c0 :: cs).map Leaf.contents) with
          | none => exact absurd ⟨a, ha, hd⟩ h
          | some d => rfl) hall
    have hnc' : CD.nonChunked256 ∉ (env.cdOrder m).map (·.1) := by
      intro hc
      obtain ⟨p, hp, hpe⟩ := List.mem_map.1 hc
      exact hnc p ((hmem p).1 hp) hpe
    obtain ⟨e, he⟩ := computeContentDigests_fail env hs hnc' hex
    rw [he]
    simp only [bind, Except.bind]
    constructor
    · intro hmt
      obtain ⟨a, ha, han⟩ := hex
      obtain ⟨p, hp, rfl⟩ := List.mem_map.1 ha
      rw [hmt p ((hmem p).1 hp)] at han; cases han
    · intro _
      exact ⟨[.digestCompute e], false, by simp, rfl⟩

end Apk
