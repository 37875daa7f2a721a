import Verif.Proofs.Trace
import Verif.Props.Attack
/-! # C04: the extra blocks that are reported at the end of a verification -/
namespace Apk

theorem pickAndVerify_extra {env : Env} {file : Bytes} {f : Found} {blocks : List (Nat × Bytes)} {minSdk maxSdk : Int} {r r' : Core} {v3 v3' : Option Core}
    {dg : Digests} (h : pickAndVerify env file f blocks minSdk maxSdk r v3 = .ok (r', v3', dg)) : r'.extraBlocks = r.extraBlocks := by
  unfold pickAndVerify at h
  split at h
  · simp only [Except.ok.injEq, Prod.mk.injEq] at h
    rw [← h.1]
  · split at h
    · simp only [Except.ok.injEq, Prod.mk.injEq] at h
      rw [← h.1]
      rfl
    · exact (verifyScheme_grow h).extra

/-- What the extra blocks are after the fallback. -/
theorem withFallback_extra {env : Env} {file : Bytes} {f : Found} {ps blocks extra : List (Nat × Bytes)} {minSdk maxSdk : Int}
    (hm : Means ps maxSdk blocks extra) (h24 : 24 ≤ maxSdk) {r0 : Core} (hr0 : r0.certs = []) (hr0e : r0.errors = []) (hx : r0.extraBlocks = extra) {q}
    (hq : pickAndVerify env file f blocks minSdk maxSdk r0 none = .ok q) {r : Core} {v3 : Option Core} {dg : Digests}
    (hw : withFallback env file f blocks minSdk maxSdk q = .ok (r, v3, dg)) (id : Nat) :
    mget r.extraBlocks id = if extraId id maxSdk ∨ (id = idV3 ∧ r.schemeId = 2) then lastVal ps id else none := by
  have ht := tried hm h24 hr0 hr0e hq hw
  obtain ⟨r1, v31, dg1⟩ := q
  have h1 := (pickAndVerify_extra hq).trans hx
  have e3 : idV3 = blockIdSchemeV3 := rfl
  -- what has to be shown when the map is unchanged
  have keep : r.extraBlocks = extra → (r.schemeId = 2 → mget blocks blockIdSchemeV3 = none) →
      mget r.extraBlocks id = if extraId id maxSdk ∨ (id = idV3 ∧ r.schemeId = 2) then lastVal ps id else none := by
    intro hk hn
    rw [hk, hm.extra]
    by_cases he : extraId id maxSdk
    · rw [if_pos he, if_pos (.inl he)]
    · rw [if_neg he]
      by_cases h3 : id = idV3 ∧ r.schemeId = 2
      · rw [if_pos (.inr h3)]
        obtain ⟨rfl, h3⟩ := h3
        have hb := hm.b3
        rw [hn h3] at hb
        have : ¬ (maxSdk < 28 ∨ 33 ≤ maxSdk) := fun h => he ((extra3 maxSdk).2 h)
        rw [if_pos (by omega)] at hb
        exact hb
      · rw [if_neg (fun h => h.elim he h3)]
  unfold withFallback at hw
  simp only at hw
  split at hw
  · rename_i hc
    have h2 := pickAndVerify_extra hw
    cases h3 : mget blocks blockIdSchemeV3 with
    | some b3 =>
      rw [h3] at h2
      simp only [h1] at h2
      rw [h2, mget_mset]
      obtain ⟨hs3, h3'⟩ := hm.some3.1 h3
      by_cases he : blockIdSchemeV3 = id
      · rw [if_pos he]
        subst he
        rw [show lastVal ps blockIdSchemeV3 = some b3 from h3']
        by_cases hx3 : extraId blockIdSchemeV3 maxSdk
        · rw [if_pos (.inl hx3)]
        · have hs2 : r.schemeId = 2 := by
            have hx3' : ¬ (maxSdk < 28 ∨ 33 ≤ maxSdk) := fun h => hx3 ((extra3 maxSdk).2 h)
            have h31 : mget blocks blockIdSchemeV31 = none := by rw [hm.b31, if_neg (by omega)]
            obtain ⟨b2, hb2⟩ := Option.isSome_iff_exists.1 hc.2.2.2
            have h31m : mget (mdel blocks blockIdSchemeV3) blockIdSchemeV31 = none := by
              rw [mget_mdel, if_neg (by decide)]; exact h31
            have h3m : mget (mdel blocks blockIdSchemeV3) blockIdSchemeV3 = none := by
              rw [mget_mdel, if_pos rfl]
            have h2m : mget (mdel blocks blockIdSchemeV3) blockIdSchemeV2 = some b2 := by
              rw [mget_mdel, if_neg (by decide)]; exact hb2
            unfold pickAndVerify at hw
            rw [if_neg (by simp only [supportsSigV2, Bool.not_eq_true', decide_eq_false_iff_not]; omega), pick_v2 h31m h3m h2m] at hw
            exact (verifyScheme_grow hw).schemeId
          rw [if_pos (.inr ⟨rfl, hs2⟩)]
      · rw [if_neg he, hm.extra]
        by_cases hx3 : extraId id maxSdk
        · rw [if_pos hx3, if_pos (.inl hx3)]
        · rw [if_neg hx3, if_neg]
          rintro (h | h)
          · exact hx3 h
          · exact he (h.1.trans e3).symm
    | none =>
      rw [h3] at h2
      exact keep (h2.trans h1) (fun _ => h3)
  · simp only [Except.ok.injEq, Prod.mk.injEq] at hw
    refine keep (by rw [← hw.1]; exact h1) (fun hs => ?_)
    cases h3 : mget blocks blockIdSchemeV3 with
    | none => rfl
    | some b3 =>
      obtain ⟨hs3, h3'⟩ := hm.some3.1 h3
      cases h31 : mget blocks blockIdSchemeV31 with
      | some b31 =>
        unfold pickAndVerify at hq
        rw [if_neg (by simp only [supportsSigV2, Bool.not_eq_true', decide_eq_false_iff_not]; omega), pick_v31 h31] at hq
        have := (verifyScheme_grow hq).schemeId
        rw [← hw.1, this] at hs
        cases hs
      | none =>
        unfold pickAndVerify at hq
        rw [if_neg (by simp only [supportsSigV2, Bool.not_eq_true', decide_eq_false_iff_not]; omega), pick_v3 h31 h3] at hq
        have := (verifyScheme_grow hq).schemeId
        rw [← hw.1, this] at hs
        cases hs

/-- C04: the extra blocks that are reported in the end. They are the blocks that are not used, with their last values; the v3 block is
    added after a fallback to v2. Verification changes nothing else about them. -/
theorem C04_reported_extra_blocks {env : Env} {zip : Zip} {file head area cd rec : Bytes} {ps : List (Nat × Bytes)} {minSdk maxSdk : Int} {out : Outcome}
    (hl : ApkLayout file head area cd rec) (ha : PairArea area ps) (h : verifySigningBlock env zip file minSdk maxSdk = .ok out) :
    ∃ res, out.res = some res ∧
      ∀ id, mget res.core.extraBlocks id = if extraId id maxSdk ∨ (id = idV3 ∧ res.core.schemeId = 2) then lastVal ps id else none := by
  rcases located_inv hl h with ⟨e, _, hn⟩ | ⟨ps', st, q, r, v3, dg, stamp, fr, ha', hpp, hm, hq, hw, hs, hfr, hres, herr⟩
  · exact absurd ha (hn ps)
  cases pairArea_unique ha ha'
  refine ⟨_, hres, fun id => ?_⟩
  simp only
  by_cases h24 : 24 ≤ maxSdk
  · exact withFallback_extra hm h24 rfl rfl rfl hq hw id
  · unfold pickAndVerify at hq
    rw [if_pos (by simp only [supportsSigV2, Bool.not_eq_true', decide_eq_false_iff_not]; omega)] at hq
    cases hq
    unfold withFallback at hw
    simp only at hw
    rw [if_neg (by rintro ⟨h, _⟩; exact h rfl)] at hw
    simp only [Except.ok.injEq, Prod.mk.injEq] at hw
    rw [← hw.1]
    simp only
    rw [hm.extra]
    have : extraId id maxSdk ∨ (id = idV3 ∧ (1 : Nat) = 2) ↔ extraId id maxSdk := by simp
    simp only [this]

/-- A fallback: the v3 block is reported as an extra block although it was used. -/
example : ∃ out res, Toy.run Toy.psStale 24 30 = .ok out ∧ out.res = some res ∧ res.core.schemeId = 2 ∧
    mget res.core.extraBlocks idV3 = lastVal Toy.psStale idV3 ∧ mget res.core.extraBlocks idV3 ≠ none := by
  obtain ⟨out, h, hs⟩ := Toy.run_sum (ps := Toy.psStale) (a := 24) (b := 30) (some (2, [[Toy.certOf Toy.k2], [Toy.certOf Toy.k1]], []), none) (by decide +kernel)
  obtain ⟨res, h1, h2, _⟩ := Toy.sum_res hs
  obtain ⟨res', h3, h4⟩ := C04_reported_extra_blocks Toy.layoutStale Toy.pairAreaStale h
  cases h1.symm.trans h3
  have h5 := h4 idV3
  rw [if_pos (.inr ⟨rfl, h2⟩)] at h5
  exact ⟨out, res, h, h1, h2, h5, by rw [h5]; decide +kernel⟩

end Apk
