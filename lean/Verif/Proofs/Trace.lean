import Verif.Proofs.Verdict
/-! # What verification reports, successful or not -/
namespace Apk
set_option linter.unusedSimpArgs false

theorem verifyScheme_certs {env : Env} {file : Bytes} {f : Found} {sch : Scheme} {minSdk maxSdk : Int} {block : Bytes}
    {r : Core} {v3 : Option Core} {r' : Core} {v3' : Option Core} {m : Digests}
    (hv : verifyScheme env file f sch minSdk maxSdk block r v3 = .ok (r', v3', m)) :
    ∃ r1 v3a cd fin, extractCerts env sch maxSdk block r v3 = .ok (r1, v3a, cd, fin) ∧ r'.certs = r1.certs ∧
      ∃ es, r'.errors = r1.errors ++ es := by
  obtain ⟨r1, v3a, cd, fin, hx, hc⟩ := verifyScheme_inv hv
  refine ⟨r1, v3a, cd, fin, hx, ?_⟩
  have fcerts : ∀ (acting : Bool) (rot a b : Int) (s : List SignerInfo) (q : Core), (v3Finalize acting rot a b s q).certs = q.certs := by
    intro acting rot a b s q
    obtain ⟨es, lin, h, _⟩ := finalizeSorted_eq acting rot a b (sortSigners s) q
    unfold v3Finalize; rw [h]
  rcases hc with ⟨_, rfl, _⟩ | ⟨_, _, rfl, _⟩ | ⟨_, _, _, r2, ok, hI, hc⟩
  · exact ⟨rfl, _, rfl⟩
  · exact ⟨rfl, _, rfl⟩
  · have hI' : r2.certs = r1.certs ∧ ∃ es, r2.errors = r1.errors ++ es := by
      unfold verifyIntegrity at hI
      simp only [bind, Except.bind] at hI
      cases hcc : computeContentDigests env ((env.cdOrder cd).map (·.1)) (sections file f) with
      | error e => rw [hcc] at hI; cases hI
      | ok z =>
        rw [hcc] at hI
        cases z with
        | error e =>
          simp only [Except.ok.injEq, Prod.mk.injEq] at hI
          rw [← hI.1]; exact ⟨rfl, _, rfl⟩
        | ok m =>
          simp only [Except.ok.injEq, Prod.mk.injEq] at hI
          rw [← hI.1]; exact ⟨rfl, _, rfl⟩
    rcases hc with ⟨_, rfl, _⟩ | ⟨_, hc⟩
    · exact hI'
    · have e1 : r' = (finalizeScheme sch minSdk maxSdk fin r2 v3a).1 := by rw [← hc]
      rw [e1]
      obtain ⟨es1, h1⟩ := hI'.2
      obtain ⟨es2, h2⟩ := (finalize_grow sch minSdk maxSdk fin r2 v3a).errors
      refine ⟨?_, es1 ++ es2, by rw [h2, h1, List.append_assoc]⟩
      rw [← hI'.1]
      cases sch with
      | v2 => rfl
      | v3 => exact fcerts _ _ _ _ _ _
      | v31 =>
        simp only [finalizeScheme, v31Finalize]
        cases v3a with
        | none => exact fcerts _ _ _ _ _ _
        | some w => simp only [fcerts]

theorem strongest_31 {ps : List (Nat × Bytes)} {maxSdk : Int} {b : Bytes} (h : 33 ≤ maxSdk) (h' : lastVal ps idV31 = some b) :
    strongest ps maxSdk = some 31 := by
  unfold strongest; rw [if_pos ⟨h, by rw [h']; rfl⟩]
theorem strongest_3 {ps : List (Nat × Bytes)} {maxSdk : Int} {b : Bytes} (h31 : NoV31 ps maxSdk) (h : 28 ≤ maxSdk)
    (h' : lastVal ps idV3 = some b) : strongest ps maxSdk = some 3 := by
  unfold strongest
  rw [if_neg (by rintro ⟨a, b⟩; rw [h31 a] at b; cases b), if_pos ⟨h, by rw [h']; rfl⟩]
theorem strongest_2 {ps : List (Nat × Bytes)} {maxSdk : Int} {b : Bytes} (h31 : NoV31 ps maxSdk) (h3 : NoV3 ps maxSdk) (h : 24 ≤ maxSdk)
    (h' : lastVal ps idV2 = some b) : strongest ps maxSdk = some 2 := by
  unfold strongest
  rw [if_neg (by rintro ⟨a, b⟩; rw [h31 a] at b; cases b), if_neg (by rintro ⟨a, b⟩; rw [h3 a] at b; cases b), if_pos ⟨h, by rw [h']; rfl⟩]
theorem strongest_none {ps : List (Nat × Bytes)} {maxSdk : Int} (h31 : NoV31 ps maxSdk) (h3 : NoV3 ps maxSdk)
    (h2 : 24 ≤ maxSdk → lastVal ps idV2 = none) : strongest ps maxSdk = none := by
  unfold strongest
  rw [if_neg (by rintro ⟨a, b⟩; rw [h31 a] at b; cases b), if_neg (by rintro ⟨a, b⟩; rw [h3 a] at b; cases b),
    if_neg (by rintro ⟨a, b⟩; rw [h2 a] at b; cases b)]

/-- The scheme that was tried, for blocks that mean `ps`. -/
theorem tried {env : Env} {file : Bytes} {f : Found} {ps blocks extra : List (Nat × Bytes)} {minSdk maxSdk : Int}
    (hm : Means ps maxSdk blocks extra) (h24 : 24 ≤ maxSdk) {r0 : Core} (hr0 : r0.certs = []) (hr0e : r0.errors = []) {q}
    (hq : pickAndVerify env file f blocks minSdk maxSdk r0 none = .ok q) {r : Core} {v3 : Option Core} {dg : Digests}
    (hw : withFallback env file f blocks minSdk maxSdk q = .ok (r, v3, dg)) :
    (strongest ps maxSdk = none ∧ r.schemeId = 1 ∧ r.certs = [] ∧ r.errors = [.notFound .noSchemeBlock]) ∨
    strongest ps maxSdk = some r.schemeId ∨
    (strongest ps maxSdk = some 3 ∧ r.schemeId = 2 ∧ minSdk < 28 ∧ (lastVal ps idV2).isSome = true ∧ ∃ e, W.v3Error e ∈ r.warnings) := by
  have h24' : ¬ (!supportsSigV2 maxSdk) = true := by simp only [supportsSigV2, Bool.not_eq_true', decide_eq_false_iff_not]; omega
  obtain ⟨r1, v31, dg1⟩ := q
  have hq0 := hq
  unfold pickAndVerify at hq
  rw [if_neg h24'] at hq
  cases h31 : mget blocks blockIdSchemeV31 with
  | some b31 =>
    obtain ⟨hs31, h31'⟩ := hm.some31.1 h31
    right; left
    rw [strongest_31 hs31 h31']
    have h31m : mget (mdel blocks blockIdSchemeV3) blockIdSchemeV31 = some b31 := by
      rw [mget_mdel, if_neg (by decide)]; exact h31
    rw [pick_v31 h31] at hq
    simp only at hq
    have g := (verifyScheme_grow hq).schemeId
    unfold withFallback at hw
    simp only at hw
    split at hw
    · unfold pickAndVerify at hw
      rw [if_neg h24', pick_v31 h31m] at hw
      simp only at hw
      have g := (verifyScheme_grow hw).schemeId
      rw [g]; rfl
    · simp only [Except.ok.injEq, Prod.mk.injEq] at hw
      rw [← hw.1, g]; rfl
  | none =>
    cases h3 : mget blocks blockIdSchemeV3 with
    | some b3 =>
      obtain ⟨hs3, h3'⟩ := hm.some3.1 h3
      rw [strongest_3 (hm.noV31.1 h31) hs3 h3']
      rw [pick_v3 h31 h3] at hq
      simp only at hq
      have g := (verifyScheme_grow hq).schemeId
      unfold withFallback at hw
      simp only at hw
      split at hw
      · rename_i hc
        obtain ⟨hc1, hc2, hc3, hc4⟩ := hc
        right; right
        obtain ⟨b2, hb2⟩ := Option.isSome_iff_exists.1 hc4
        have h31m : mget (mdel blocks blockIdSchemeV3) blockIdSchemeV31 = none := by
          rw [mget_mdel, if_neg (by decide)]; exact h31
        have h3m : mget (mdel blocks blockIdSchemeV3) blockIdSchemeV3 = none := by
          rw [mget_mdel, if_pos rfl]
        have h2m : mget (mdel blocks blockIdSchemeV3) blockIdSchemeV2 = some b2 := by
          rw [mget_mdel, if_neg (by decide)]; exact hb2
        unfold pickAndVerify at hw
        rw [if_neg h24', pick_v2 h31m h3m h2m] at hw
        simp only at hw
        have g' := verifyScheme_grow hw
        refine ⟨rfl, g'.schemeId, hc3, by rw [(hm.some2.1 hb2).2]; rfl, ?_⟩
        obtain ⟨ws, hws⟩ := g'.warnings
        obtain ⟨e, es, hes⟩ := List.exists_cons_of_ne_nil hc1
        refine ⟨e, ?_⟩
        rw [hws, hes]; simp
      · simp only [Except.ok.injEq, Prod.mk.injEq] at hw
        right; left
        rw [← hw.1, g]; rfl
    | none =>
      cases h2 : mget blocks blockIdSchemeV2 with
      | none =>
        left
        rw [pick_none.2 ⟨h31, h3, h2⟩] at hq
        simp only [Except.ok.injEq, Prod.mk.injEq] at hq
        rw [withFallback_none (.inr (.inr (.inr h2)))] at hw
        simp only [Except.ok.injEq, Prod.mk.injEq] at hw
        refine ⟨strongest_none (hm.noV31.1 h31) (hm.noV3.1 h3) (fun h => ?_), ?_⟩
        · have := hm.b2; rw [if_pos h, h2] at this; exact this.symm
        · rw [← hw.1, ← hq.1]; simp [Core.addError, hr0, hr0e]
      | some b2 =>
        right; left
        obtain ⟨hs2, h2'⟩ := hm.some2.1 h2
        rw [strongest_2 (hm.noV31.1 h31) (hm.noV3.1 h3) hs2 h2']
        rw [pick_v2 h31 h3 h2] at hq
        simp only at hq
        have g := (verifyScheme_grow hq).schemeId
        simp only [Scheme.id] at g
        rw [withFallback_none (.inr (.inl (by rw [g]; omega)))] at hw
        simp only [Except.ok.injEq, Prod.mk.injEq] at hw
        rw [← hw.1, g]

end Apk
