import Verif.Proofs.StampFull
import Verif.Proofs.Panic
import Verif.Proofs.Verdict
import Verif.Proofs.IntegrityEq
/-! # The digests a source stamp vouches for are those of the file -/
namespace Apk

theorem infix_flatten {l : List Bytes} {x : Bytes} (h : x ∈ l) : x <:+: l.flatten := by
  induction l with
  | nil => cases h
  | cons y ys ih =>
    rcases List.mem_cons.1 h with rfl | h
    · exact ⟨[], ys.flatten, by simp⟩
    · obtain ⟨a, b, e⟩ := ih h
      exact ⟨y ++ a, b, by simp [← e, List.append_assoc]⟩

theorem extract_nodup {env : Env} {sch : Scheme} {m : Int} {b : Bytes} {r : Core} {v3 : Option Core} {r' v3' cd fin}
    (h : extractCerts env sch m b r v3 = .ok (r', v3', cd, fin)) : KeysNodup cd := by
  have := tr_extractCerts (env := env) (file := (b :: r.extraBlocks.map Prod.snd).flatten) (s := sch) (m := m) (b := b) (r := r) (v3 := v3)
    (infix_flatten (by simp)) (fun p hp => infix_flatten (List.mem_cons_of_mem _ (List.mem_map.2 ⟨p, hp, rfl⟩)))
  rw [h] at this
  exact this.2

section
variable {env : Env} {file head area cd rec : Bytes} (hl : ApkLayout file head area cd rec)
include hl

theorem scheme_digests {sch : Scheme} {minSdk maxSdk : Int} {block : Bytes} {r : Core} {v3 : Option Core} {r' v3' m}
    (h : verifyScheme env file (layoutFound head area cd rec) sch minSdk maxSdk block r v3 = .ok (r', v3', m)) :
    KeysNodup m ∧ (r'.errors = r.errors → m ≠ [] ∧ ∀ p ∈ m, contentDigest env p.1 (signedSections head cd rec) = some p.2) := by
  obtain ⟨r1, v3a, cd1, fin, hx, hcase⟩ := verifyScheme_inv h
  have hnd := extract_nodup hx
  obtain ⟨es1, he1⟩ := (extract_grow hx).errors
  rcases hcase with ⟨_, rfl, _, rfl⟩ | ⟨_, _, rfl, _, rfl⟩ | ⟨_, hc, rfl, r2, ok, hI, hcc⟩
  · refine ⟨List.nodup_nil, fun h => ?_⟩
    simp [Core.addError, he1] at h
  · refine ⟨List.nodup_nil, fun h => ?_⟩
    simp [Core.addError, he1] at h
  · refine ⟨hnd, fun he => ?_⟩
    have hne : m ≠ [] := by intro hh; rw [hh] at hc; exact hc rfl
    refine ⟨hne, ?_⟩
    rw [verifyIntegrity_eq env hl hne] at hI
    split at hI
    · cases hI
    · simp only [Except.ok.injEq, Prod.mk.injEq] at hI
      obtain ⟨hI1, hI2⟩ := hI
      have hg : ∃ es, r'.errors = r2.errors ++ es := by
        rcases hcc with ⟨_, rfl, _⟩ | ⟨_, hc⟩
        · exact ⟨[], by simp⟩
        · have := finalize_grow sch minSdk maxSdk fin r2 v3a
          rw [← hc] at this
          exact this.errors
      obtain ⟨es, hg⟩ := hg
      rw [hg, ← hI1, he1] at he
      simp only [List.append_assoc] at he
      have h0 : (integrityErrors env (signedSections head cd rec) (env.cdOrder m)).1 = [] := by
        have := congrArg List.length he
        simp only [List.length_append] at this
        exact List.eq_nil_of_length_eq_zero (by omega)
      unfold integrityErrors at h0
      split at h0
      · rename_i hall
        simp only [List.map_eq_nil_iff, List.filter_eq_nil_iff, decide_eq_true_eq] at h0
        intro p hp
        exact Classical.byContradiction (h0 p ((env.cdOrder_perm m).mem_iff.2 hp))
      · cases h0

theorem pick_digests {minSdk maxSdk : Int} {blocks : List (Nat × Bytes)} {r : Core} {v3 : Option Core} {r' v3' m}
    (h : pickAndVerify env file (layoutFound head area cd rec) blocks minSdk maxSdk r v3 = .ok (r', v3', m)) :
    KeysNodup m ∧ (r.errors = [] → r'.errors = [] →
      (maxSdk < 24 ∧ m = []) ∨ (m ≠ [] ∧ ∀ p ∈ m, contentDigest env p.1 (signedSections head cd rec) = some p.2)) := by
  unfold pickAndVerify at h
  split at h
  · rename_i hs
    simp only [Except.ok.injEq, Prod.mk.injEq] at h
    obtain ⟨rfl, rfl, rfl⟩ := h
    refine ⟨List.nodup_nil, fun _ _ => Or.inl ⟨?_, rfl⟩⟩
    simp [supportsSigV2] at hs
    omega
  · split at h
    · simp only [Except.ok.injEq, Prod.mk.injEq] at h
      obtain ⟨rfl, rfl, rfl⟩ := h
      refine ⟨List.nodup_nil, fun _ he => ?_⟩
      simp [Core.addError] at he
    · obtain ⟨h1, h2⟩ := scheme_digests hl h
      exact ⟨h1, fun hr hr' => Or.inr (h2 (by rw [hr']; exact hr.symm))⟩

theorem fallback_digests {minSdk maxSdk : Int} {blocks : List (Nat × Bytes)} {r0 : Core} (h0 : r0.errors = []) {q} {r v3 m}
    (hq : pickAndVerify env file (layoutFound head area cd rec) blocks minSdk maxSdk r0 none = .ok q)
    (h : withFallback env file (layoutFound head area cd rec) blocks minSdk maxSdk q = .ok (r, v3, m)) :
    KeysNodup m ∧ (r.errors = [] →
      (maxSdk < 24 ∧ m = []) ∨ (m ≠ [] ∧ ∀ p ∈ m, contentDigest env p.1 (signedSections head cd rec) = some p.2)) := by
  obtain ⟨r1, v3a, m1⟩ := q
  unfold withFallback at h
  simp only at h
  split at h
  · obtain ⟨h1, h2⟩ := pick_digests hl h
    exact ⟨h1, fun hr => h2 rfl hr⟩
  · simp only [Except.ok.injEq, Prod.mk.injEq] at h
    obtain ⟨rfl, rfl, rfl⟩ := h
    obtain ⟨h1, h2⟩ := pick_digests hl hq
    exact ⟨h1, fun hr => h2 h0 hr⟩

end

theorem stampDigests_cd {m : Digests} (hnd : KeysNodup m) (hne : m ≠ []) (d : Bytes) :
    (∃ t x, stampDigests m d t = some x) ∧ ∀ t x, stampDigests m d t = some x → (t, x) ∈ m := by
  have hs : ∀ t, stampDigests m d t = (m.find? (fun p => decide (p.1 = t))).map (·.2) := by
    intro t; unfold stampDigests; rw [if_neg hne]
  constructor
  · cases m with
    | nil => exact absurd rfl hne
    | cons p ps => exact ⟨p.1, p.2, by rw [hs]; simp [List.find?]⟩
  · intro t x h
    rw [hs] at h
    obtain ⟨p, hp, rfl⟩ := Option.map_eq_some_iff.1 h
    have h1 := List.find?_some hp
    have h2 := List.mem_of_find?_eq_some hp
    simp only [decide_eq_true_eq] at h1
    rw [← h1]; exact h2

end Apk
