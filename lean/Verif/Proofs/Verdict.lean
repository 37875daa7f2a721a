import Verif.Proofs.V31
import Verif.Spec.Verdict
import Verif.Model.Block
/-! # The whole verdict on the signing block -/
namespace Apk
set_option linter.unusedSimpArgs false

theorem encPairs_inj (ps : List (Nat × Bytes)) : ∀ qs : List (Nat × Bytes), (∀ p ∈ ps, PairOK p) → (∀ p ∈ qs, PairOK p) →
    encPairs ps = encPairs qs → ps = qs := by
  induction ps with
  | nil =>
    intro qs _ _ h
    exact (encPairs_nil_iff.1 (h ▸ rfl)).symm
  | cons p ps ih =>
    intro qs hp hq h
    cases qs with
    | nil => exact encPairs_nil_iff.1 h
    | cons q qs =>
      obtain ⟨i, v⟩ := p
      obtain ⟨j, w⟩ := q
      have h1 := hp (i, v) (by simp)
      have h2 := hq (j, w) (by simp)
      unfold PairOK at h1 h2
      simp only at h1 h2
      rw [encPairs_cons, encPairs_cons] at h
      simp only [encPair, List.append_assoc] at h
      obtain ⟨e1, h⟩ := List.append_inj h (by simp)
      obtain ⟨e2, h⟩ := List.append_inj h (by simp)
      have hl : 4 + v.length = 4 + w.length := leBytes_inj e1 (by omega) (by omega)
      have hi : i = j := leBytes_inj e2 (by omega) (by omega)
      obtain ⟨e3, h⟩ := List.append_inj h (by omega)
      rw [hi, e3, ih qs (fun p hp' => hp p (by simp [hp'])) (fun p hp' => hq p (by simp [hp'])) h]

theorem pairArea_unique {area : Bytes} {ps qs : List (Nat × Bytes)} (h : PairArea area ps) (h' : PairArea area qs) : ps = qs :=
  encPairs_inj ps qs h.2.1 h'.2.1 (h.1.symm.trans h'.1)

/-- The state after parsing the pairs means what the pairs say. -/
structure Means (ps : List (Nat × Bytes)) (maxSdk : Int) (blocks extra : List (Nat × Bytes)) : Prop where
  blocks : ∀ id, mget blocks id = if usedId id maxSdk then lastVal ps id else none
  extra : ∀ id, mget extra id = if extraId id maxSdk then lastVal ps id else none

theorem used31 (m : Int) : usedId blockIdSchemeV31 m ↔ 33 ≤ m := by simp [usedId, blockIdSchemeV31]
theorem used3 (m : Int) : usedId blockIdSchemeV3 m ↔ 28 ≤ m := by simp [usedId, blockIdSchemeV3]
theorem used2 (m : Int) : usedId blockIdSchemeV2 m ↔ 24 ≤ m := by simp [usedId, blockIdSchemeV2]
theorem extra3 (m : Int) : extraId blockIdSchemeV3 m ↔ m < 28 ∨ 33 ≤ m := by simp [extraId, blockIdSchemeV3]

section
variable {ps : List (Nat × Bytes)} {maxSdk : Int} {blocks extra : List (Nat × Bytes)} (hm : Means ps maxSdk blocks extra)
include hm

theorem Means.b31 : mget blocks blockIdSchemeV31 = if 33 ≤ maxSdk then lastVal ps idV31 else none := by
  rw [hm.blocks]; simp only [used31]; rfl
theorem Means.b3 : mget blocks blockIdSchemeV3 = if 28 ≤ maxSdk then lastVal ps idV3 else none := by
  rw [hm.blocks]; simp only [used3]; rfl
theorem Means.b2 : mget blocks blockIdSchemeV2 = if 24 ≤ maxSdk then lastVal ps idV2 else none := by
  rw [hm.blocks]; simp only [used2]; rfl
theorem Means.e3 : mget extra blockIdSchemeV3 = if maxSdk < 28 ∨ 33 ≤ maxSdk then lastVal ps idV3 else none := by
  rw [hm.extra]; simp only [extra3]; rfl

theorem Means.noV31 : mget blocks blockIdSchemeV31 = none ↔ NoV31 ps maxSdk := by
  rw [hm.b31]; unfold NoV31; split <;> simp [*]
theorem Means.noV3 : mget blocks blockIdSchemeV3 = none ↔ NoV3 ps maxSdk := by
  rw [hm.b3]; unfold NoV3; split <;> simp [*]

theorem Means.some31 {b : Bytes} : mget blocks blockIdSchemeV31 = some b ↔ 33 ≤ maxSdk ∧ lastVal ps idV31 = some b := by
  rw [hm.b31]; split <;> simp [*]
theorem Means.some3 {b : Bytes} : mget blocks blockIdSchemeV3 = some b ↔ 28 ≤ maxSdk ∧ lastVal ps idV3 = some b := by
  rw [hm.b3]; split <;> simp [*]
theorem Means.some2 {b : Bytes} : mget blocks blockIdSchemeV2 = some b ↔ 24 ≤ maxSdk ∧ lastVal ps idV2 = some b := by
  rw [hm.b2]; split <;> simp [*]

theorem Means.present {r : Core} (hr : r.extraBlocks = extra) : Present r = ExtraPresent ps maxSdk := by
  funext id
  unfold Present ExtraPresent
  rw [hr, hm.extra]
  by_cases h : extraId id maxSdk
  · rw [if_pos h]; cases lastVal ps id <;> simp [h]
  · rw [if_neg h]; simp [h]

theorem Means.present_fallback {r : Core} {b3 : Bytes} (hr : r.extraBlocks = mset extra blockIdSchemeV3 b3) :
    Present r = fun id => id = idV3 ∨ ExtraPresent ps maxSdk id := by
  funext id
  unfold Present
  rw [hr, mget_mset]
  have e : idV3 = blockIdSchemeV3 := rfl
  rw [e]
  have h := congrFun (hm.present (r := { extraBlocks := extra }) rfl) id
  unfold Present at h
  simp only at h
  by_cases hi : blockIdSchemeV3 = id
  · simp [hi]
  · rw [if_neg hi, h]
    have : ¬ id = blockIdSchemeV3 := fun h => hi h.symm
    simp [this]
end

/-- What the verifier does after locating the block. -/
theorem located_inv {env : Env} {zip : Zip} {file head area cd rec : Bytes} {minSdk maxSdk : Int} {out : Outcome}
    (hl : ApkLayout file head area cd rec) (h : verifySigningBlock env zip file minSdk maxSdk = .ok out) :
    (∃ e, out.err = some (.notFound e) ∧ ∀ ps, ¬ PairArea area ps) ∨
    ∃ ps st q r v3 dg stamp fr, PairArea area ps ∧ parsePairs env maxSdk area = .ok (st, none) ∧ Means ps maxSdk st.blocks st.extra ∧
      pickAndVerify env file (layoutFound head area cd rec) st.blocks minSdk maxSdk
        { extraBlocks := st.extra, warnings := st.warnings } none = .ok q ∧
      withFallback env file (layoutFound head area cd rec) st.blocks minSdk maxSdk q = .ok (r, v3, dg) ∧
      verifyStamp env zip r.schemeId minSdk maxSdk (mget st.blocks blockIdSourceStampV2) dg = .ok stamp ∧
      fr = frostingResult env file (layoutFound head area cd rec) st ∧
      out.res = some ⟨r, v3, fr, stamp⟩ ∧ out.err = r.lastError := by
  have h4 : ¬ file.length < 4 := by
    have := congrArg List.length hl.split
    simp [sigBlock, sigBlockMagic] at this; omega
  unfold verifySigningBlock at h
  rw [if_neg h4, layout_find env maxSdk hl] at h
  cases hp : parsePairs env maxSdk area with
  | error q => rw [hp] at h; cases h
  | ok x =>
    obtain ⟨st, e⟩ := x
    rw [hp] at h
    cases e with
    | some e =>
      simp only [Except.ok.injEq] at h
      subst h
      left
      refine ⟨e, rfl, fun ps ha => ?_⟩
      exact parsePairsAux_noerr ps _ area {} (Nat.lt_succ_self _) ha hp
    | none =>
      right
      obtain ⟨ps, ha, h2⟩ := parsePairsAux_sound _ (Nat.lt_succ_self _) hp
      simp only [bind, Except.bind] at h
      cases hq : pickAndVerify env file (layoutFound head area cd rec) st.blocks minSdk maxSdk
        { extraBlocks := st.extra, warnings := st.warnings } none with
      | error e => rw [hq] at h; cases h
      | ok q =>
        rw [hq] at h
        simp only at h
        cases hw : withFallback env file (layoutFound head area cd rec) st.blocks minSdk maxSdk q with
        | error e => rw [hw] at h; cases h
        | ok z =>
          obtain ⟨r, v3, dg⟩ := z
          rw [hw] at h
          simp only at h
          cases hs : verifyStamp env zip r.schemeId minSdk maxSdk (mget st.blocks blockIdSourceStampV2) dg with
          | error e => rw [hs] at h; cases h
          | ok stamp =>
            rw [hs] at h
            simp only [Except.ok.injEq] at h
            subst h
            exact ⟨ps, st, q, r, v3, dg, stamp, _, ha, rfl, ⟨fun id => by rw [h2.blocks id]; simp, fun id => by rw [h2.extra id]; simp⟩,
              hq, hw, hs, rfl, rfl, rfl⟩

theorem lastError_none {r : Core} : r.lastError = none ↔ r.errors = [] := by
  unfold Core.lastError; simp

theorem pick_none {blocks : List (Nat × Bytes)} : pickScheme blocks = none ↔
    mget blocks blockIdSchemeV31 = none ∧ mget blocks blockIdSchemeV3 = none ∧ mget blocks blockIdSchemeV2 = none := by
  unfold pickScheme
  cases mget blocks blockIdSchemeV31 <;> cases mget blocks blockIdSchemeV3 <;> cases mget blocks blockIdSchemeV2 <;> simp

theorem pick_v31 {blocks : List (Nat × Bytes)} {b : Bytes} (h : mget blocks blockIdSchemeV31 = some b) :
    pickScheme blocks = some (.v31, b) := by unfold pickScheme; rw [h]
theorem pick_v3 {blocks : List (Nat × Bytes)} {b : Bytes} (h1 : mget blocks blockIdSchemeV31 = none)
    (h : mget blocks blockIdSchemeV3 = some b) : pickScheme blocks = some (.v3, b) := by unfold pickScheme; rw [h1, h]
theorem pick_v2 {blocks : List (Nat × Bytes)} {b : Bytes} (h1 : mget blocks blockIdSchemeV31 = none)
    (h2 : mget blocks blockIdSchemeV3 = none) (h : mget blocks blockIdSchemeV2 = some b) :
    pickScheme blocks = some (.v2, b) := by unfold pickScheme; rw [h1, h2, h]

theorem withFallback_none {env : Env} {file : Bytes} {f : Found} {blocks : List (Nat × Bytes)} {minSdk maxSdk : Int}
    {r : Core} {v3 : Option Core} {dg : Digests} (h : r.errors = [] ∨ r.schemeId < 3 ∨ 28 ≤ minSdk ∨ mget blocks blockIdSchemeV2 = none) :
    withFallback env file f blocks minSdk maxSdk (r, v3, dg) = .ok (r, v3, dg) := by
  unfold withFallback
  simp only
  rw [if_neg]
  rintro ⟨h1, h2, h3, h4⟩
  rcases h with h | h | h | h
  · exact h1 h
  · omega
  · omega
  · rw [h] at h4; cases h4

theorem mkLin_nodes (top : Option (List LNode)) : (mkLin top).map Lineage.nodes = top := by
  cases top <;> rfl

section
variable {env : Env} {file head area cd rec : Bytes} (hl : ApkLayout file head area cd rec)
include hl

/-- Completeness of the first attempt, up to the choice of the reported lineage. -/
theorem pick_ok {minSdk maxSdk : Int} {ps blocks extra : List (Nat × Bytes)} (hm : Means ps maxSdk blocks extra)
    {ws : List W} {s : Nat} {cs : List (List Cert)} {top : Option (List LNode)}
    (h : Verdict env (signedSections head cd rec) minSdk maxSdk ps s cs top) :
    ∃ top' ws' v3 dg, Verdict env (signedSections head cd rec) minSdk maxSdk ps s cs top' ∧
      pickAndVerify env file (layoutFound head area cd rec) blocks minSdk maxSdk
        { extraBlocks := extra, warnings := ws } none =
        .ok ({ certs := cs, schemeId := s, lineage := mkLin top', extraBlocks := extra, warnings := ws ++ ws' }, v3, dg) := by
  cases h with
  | old h =>
    refine ⟨none, [], none, [], .old h, ?_⟩
    unfold pickAndVerify
    rw [if_pos (by simp only [supportsSigV2, Bool.not_eq_true', decide_eq_false_iff_not]; omega)]
    simp [mkLin]
  | v31 hs h31 h3 h =>
    rename_i b31 b3 vs vs3 top3
    have e3 : mget extra blockIdSchemeV3 = some b3 := by rw [hm.e3, if_pos (.inr hs)]; exact h3
    obtain ⟨ws', r3, top', top3', hA, hv, _⟩ := verifyScheme_v31_ok hl (r := { schemeId := 31, extraBlocks := extra, warnings := ws })
      (v3 := none) e3 h rfl
    refine ⟨top', ws', some r3, addDigests [] (v3Digests vs3), .v31 hs h31 h3 hA, ?_⟩
    unfold pickAndVerify
    rw [if_neg (by simp only [supportsSigV2, Bool.not_eq_true', decide_eq_false_iff_not]; omega), pick_v31 (hm.some31.2 ⟨hs, h31⟩)]
    simp only [Scheme.id]
    rw [hv]
    simp
  | v3 hs h31 h3 h =>
    rename_i b3 vs
    obtain ⟨ws', top', hA, hv⟩ := verifyScheme_v3_ok hl (r := { schemeId := 3, extraBlocks := extra, warnings := ws })
      (v3 := none) h rfl
    refine ⟨top', ws', none, addDigests [] (v3Digests vs), .v3 hs h31 h3 hA, ?_⟩
    unfold pickAndVerify
    rw [if_neg (by simp only [supportsSigV2, Bool.not_eq_true', decide_eq_false_iff_not]; omega), pick_v3 (hm.noV31.2 h31) (hm.some3.2 ⟨hs, h3⟩)]
    simp only [Scheme.id]
    rw [hv]
    simp
  | v2 hs h31 h3 h2 h h10 =>
    rename_i b2 vs
    have hp := hm.present (r := { schemeId := 2, extraBlocks := extra, warnings := ws }) rfl
    obtain ⟨ws', hv⟩ := verifyScheme_v2_ok hl (minSdk := minSdk) (r := { schemeId := 2, extraBlocks := extra, warnings := ws })
      (v3 := none) (by rw [hp]; exact h) (by simpa using h10)
    refine ⟨none, ws', none, addDigests [] (v2Digests vs), .v2 hs h31 h3 h2 h h10, ?_⟩
    unfold pickAndVerify
    rw [if_neg (by simp only [supportsSigV2, Bool.not_eq_true', decide_eq_false_iff_not]; omega),
      pick_v2 (hm.noV31.2 h31) (hm.noV3.2 h3) (hm.some2.2 ⟨hs, h2⟩)]
    simp only [Scheme.id]
    rw [hv]
    simp [mkLin]

/-- Without a verdict the first attempt fails. -/
theorem pick_fail {minSdk maxSdk : Int} {ps blocks extra : List (Nat × Bytes)} (hm : Means ps maxSdk blocks extra)
    {ws : List W} (h : ¬ ∃ s cs top, Verdict env (signedSections head cd rec) minSdk maxSdk ps s cs top)
    {r' : Core} {v3' : Option Core} {dg : Digests}
    (hv : pickAndVerify env file (layoutFound head area cd rec) blocks minSdk maxSdk
        { extraBlocks := extra, warnings := ws } none = .ok (r', v3', dg)) :
    r'.errors ≠ [] ∧ r'.extraBlocks = extra := by
  unfold pickAndVerify at hv
  have h24 : 24 ≤ maxSdk := by
    refine Classical.byContradiction (fun hn => h ⟨1, [], none, .old (by omega)⟩)
  rw [if_neg (by simp only [supportsSigV2, Bool.not_eq_true', decide_eq_false_iff_not]; omega)] at hv
  cases hp : pickScheme blocks with
  | none =>
    rw [hp] at hv
    simp only [Except.ok.injEq, Prod.mk.injEq] at hv
    rw [← hv.1]
    simp [Core.addError]
  | some x =>
    obtain ⟨sch, block⟩ := x
    rw [hp] at hv
    simp only at hv
    cases h31 : mget blocks blockIdSchemeV31 with
    | some b31 =>
      rw [pick_v31 h31] at hp
      simp only [Option.some.injEq, Prod.mk.injEq] at hp
      obtain ⟨rfl, rfl⟩ := hp
      obtain ⟨hs, h31'⟩ := hm.some31.1 h31
      simp only [Scheme.id] at hv
      refine ⟨fun he => ?_, ?_⟩
      · obtain ⟨b3, vs, vs3, top, top3, hb, hA⟩ := verifyScheme_v31_accepts hl rfl rfl hv (by simpa using he)
        simp only [hm.e3] at hb
        rw [if_pos (.inr hs)] at hb
        exact h ⟨_, _, _, .v31 hs h31' hb hA⟩
      · exact (verifyScheme_grow hv).extra
    | none =>
      cases h3 : mget blocks blockIdSchemeV3 with
      | some b3 =>
        rw [pick_v3 h31 h3] at hp
        simp only [Option.some.injEq, Prod.mk.injEq] at hp
        obtain ⟨rfl, rfl⟩ := hp
        obtain ⟨hs, h3'⟩ := hm.some3.1 h3
        simp only [Scheme.id] at hv
        obtain ⟨g, es, hes, he⟩ := verifyScheme_v3_fail hl (by rfl) (fun ⟨vs, top, hA⟩ => h ⟨_, _, _, .v3 hs (hm.noV31.1 h31) h3' hA⟩) hv
        exact ⟨by rw [he]; simpa using hes, g.extra⟩
      | none =>
        cases h2 : mget blocks blockIdSchemeV2 with
        | none => rw [pick_none.2 ⟨h31, h3, h2⟩] at hp; cases hp
        | some b2 =>
          rw [pick_v2 h31 h3 h2] at hp
          simp only [Option.some.injEq, Prod.mk.injEq] at hp
          obtain ⟨rfl, rfl⟩ := hp
          obtain ⟨hs, h2'⟩ := hm.some2.1 h2
          simp only [Scheme.id] at hv
          obtain ⟨g, es, hes, he⟩ := verifyScheme_v2_fail hl (fun ⟨vs, hA, h10⟩ => h ⟨_, _, _, .v2 hs (hm.noV31.1 h31) (hm.noV3.1 h3) h2'
            (by rw [hm.present rfl] at hA; exact hA) (by simpa using h10)⟩) hv
          exact ⟨by rw [he]; simpa using hes, g.extra⟩

/-- Soundness: a nil error means one of the schemes accepts. -/
theorem verdict_sound {zip : Zip} {minSdk maxSdk : Int} {out : Outcome}
    (h : verifySigningBlock env zip file minSdk maxSdk = .ok out) (he : out.err = none) :
    ∃ ps res, PairArea area ps ∧ out.res = some res ∧ res.core.errors = [] ∧
      (Verdict env (signedSections head cd rec) minSdk maxSdk ps res.core.schemeId res.core.certs (res.core.lineage.map Lineage.nodes) ∨
       ∃ stale vs, Fallback env (signedSections head cd rec) minSdk maxSdk ps stale vs ∧ res.core.schemeId = 2 ∧
         res.core.certs = stale ++ vs.map V2View.chain ∧ ∃ e, W.v3Error e ∈ res.core.warnings) := by
  rcases located_inv hl h with ⟨e, h1, _⟩ | ⟨ps, st, q, r, v3, dg, stamp, fr, ha, hpp, hm, hq, hw, hs, hfr, hres, herr⟩
  · rw [he] at h1; cases h1
  refine ⟨ps, _, ha, hres, ?_⟩
  have hnil : r.errors = [] := lastError_none.1 (by rw [← herr]; exact he)
  refine ⟨hnil, ?_⟩
  simp only
  by_cases hV : ∃ s cs top, Verdict env (signedSections head cd rec) minSdk maxSdk ps s cs top
  · obtain ⟨s, cs, top, hV⟩ := hV
    obtain ⟨top', ws', v3', dg', hV', hpk⟩ := pick_ok hl hm (ws := st.warnings) hV
    rw [hpk] at hq
    have hq := (Except.ok.inj hq).symm
    subst hq
    rw [withFallback_none (.inl rfl)] at hw
    simp only [Except.ok.injEq, Prod.mk.injEq] at hw
    obtain ⟨rfl, rfl, rfl⟩ := hw
    left
    simp only [mkLin_nodes]
    exact hV'
  · right
    obtain ⟨r1, v31, dg1⟩ := q
    obtain ⟨hne, hext⟩ := pick_fail hl hm hV hq
    unfold withFallback at hw
    simp only at hw
    by_cases hc : r1.errors ≠ [] ∧ r1.schemeId ≥ 3 ∧ minSdk < 28 ∧ (mget st.blocks blockIdSchemeV2).isSome
    · rw [if_pos hc] at hw
      obtain ⟨_, h3s, hmin, hb2⟩ := hc
      obtain ⟨b2, hb2⟩ := Option.isSome_iff_exists.1 hb2
      obtain ⟨h24, hb2'⟩ := hm.some2.1 hb2
      have h24' : ¬ (!supportsSigV2 maxSdk) = true := by simp only [supportsSigV2, Bool.not_eq_true', decide_eq_false_iff_not]; omega
      unfold pickAndVerify at hq hw
      rw [if_neg h24'] at hq hw
      cases h31 : mget st.blocks blockIdSchemeV31 with
      | some b31 =>
        exfalso
        obtain ⟨hs31, h31'⟩ := hm.some31.1 h31
        have h31m : mget (mdel st.blocks blockIdSchemeV3) blockIdSchemeV31 = some b31 := by
          rw [mget_mdel, if_neg (by decide)]; exact h31
        rw [pick_v31 h31] at hq
        rw [pick_v31 h31m] at hw
        simp only at hq hw
        have hnA : ¬ ∃ b3 vs vs3 top top3, mget st.extra blockIdSchemeV3 = some b3 ∧
            V31Accepts env (signedSections head cd rec) minSdk maxSdk b31 b3 vs vs3 top top3 := by
          rintro ⟨b3, vs, vs3, top, top3, hb, hA⟩
          rw [hm.e3, if_pos (.inr hs31)] at hb
          exact hV ⟨_, _, _, .v31 hs31 h31' hb hA⟩
        refine verifyScheme_v31_again hl (r := { schemeId := Scheme.v31.id, extraBlocks := st.extra, warnings := st.warnings }) rfl rfl hq hnA ?_ ?_ ?_ hw hnil
        · rfl
        · rfl
        · simp only
          rw [hext]
          have e3 := hm.e3
          rw [if_pos (.inr hs31)] at e3
          have b3 := hm.b3
          rw [if_pos (by omega)] at b3
          rw [b3]
          cases hlv : lastVal ps idV3 with
          | none => rfl
          | some b => simp only; rw [mget_mset_self, e3, hlv]
      | none =>
        have h31m : mget (mdel st.blocks blockIdSchemeV3) blockIdSchemeV31 = none := by
          rw [mget_mdel, if_neg (by decide)]; exact h31
        have h3m : mget (mdel st.blocks blockIdSchemeV3) blockIdSchemeV3 = none := by
          rw [mget_mdel, if_pos rfl]
        have h2m : mget (mdel st.blocks blockIdSchemeV3) blockIdSchemeV2 = some b2 := by
          rw [mget_mdel, if_neg (by decide)]; exact hb2
        rw [pick_v2 h31m h3m h2m] at hw
        simp only at hw
        cases h3 : mget st.blocks blockIdSchemeV3 with
        | none =>
          exfalso
          rw [pick_v2 h31 h3 hb2] at hq
          simp only at hq
          have := (verifyScheme_grow hq).schemeId
          simp only [Scheme.id] at this
          omega
        | some b3 =>
          obtain ⟨h28, h3'⟩ := hm.some3.1 h3
          rw [h3] at hw
          simp only [hext] at hw
          have hpres := hm.present_fallback (b3 := b3) (r := ⟨r1.certs, Scheme.v2.id, r1.lineage, mset st.extra blockIdSchemeV3 b3, r1.warnings ++ r1.errors.map W.v3Error, []⟩) rfl
          by_cases hA : ∃ vs, V2Accepts env (signedSections head cd rec) maxSdk (Present ⟨r1.certs, Scheme.v2.id, r1.lineage, mset st.extra blockIdSchemeV3 b3, r1.warnings ++ r1.errors.map W.v3Error, []⟩) b2 vs ∧ r1.certs.length + vs.length ≤ 10
          · obtain ⟨vs, hA, h10⟩ := hA
            obtain ⟨ws', hv⟩ := verifyScheme_v2_ok hl (minSdk := minSdk) (v3 := v31) hA h10
            rw [hv] at hw
            simp only [Except.ok.injEq, Prod.mk.injEq] at hw
            obtain ⟨rfl, -, -⟩ := hw
            refine ⟨r1.certs, vs, .mk h28 hmin (hm.noV31.1 h31) h3' ?_ hb2' (by rw [hpres] at hA; exact hA) h10, rfl, rfl, ?_⟩
            · rintro ⟨vs, top, hA⟩
              exact hV ⟨_, _, _, .v3 h28 (hm.noV31.1 h31) h3' hA⟩
            · obtain ⟨e, es, hes⟩ := List.exists_cons_of_ne_nil hne
              refine ⟨e, ?_⟩
              simp [hes]
          · exfalso
            obtain ⟨_, es, hes, hee⟩ := verifyScheme_v2_fail hl hA hw
            rw [hnil] at hee
            simp only [List.nil_append] at hee
            exact hes hee.symm
    · rw [if_neg hc] at hw
      simp only [Except.ok.injEq, Prod.mk.injEq] at hw
      exact absurd (hw.1 ▸ hnil) hne

/-- Completeness: whatever the first scheme accepts is accepted, with those certificates. -/
theorem verdict_complete {zip : Zip} {minSdk maxSdk : Int} {out : Outcome} {ps : List (Nat × Bytes)} (ha : PairArea area ps)
    (h : verifySigningBlock env zip file minSdk maxSdk = .ok out) {s : Nat} {cs : List (List Cert)} {top : Option (List LNode)}
    (hV : Verdict env (signedSections head cd rec) minSdk maxSdk ps s cs top) :
    out.err = none ∧ ∃ res, out.res = some res ∧ res.core.errors = [] ∧ res.core.schemeId = s ∧ res.core.certs = cs ∧
      Verdict env (signedSections head cd rec) minSdk maxSdk ps s cs (res.core.lineage.map Lineage.nodes) := by
  rcases located_inv hl h with ⟨e, h1, hn⟩ | ⟨ps', st, q, r, v3, dg, stamp, fr, ha', hpp, hm, hq, hw, hs, hfr, hres, herr⟩
  · exact absurd ha (hn ps)
  have hps := pairArea_unique ha ha'
  subst hps
  obtain ⟨top', ws', v3', dg', hV', hpk⟩ := pick_ok hl hm (ws := st.warnings) hV
  rw [hpk] at hq
  have hq := (Except.ok.inj hq).symm
  subst hq
  rw [withFallback_none (.inl rfl)] at hw
  simp only [Except.ok.injEq, Prod.mk.injEq] at hw
  obtain ⟨rfl, rfl, rfl⟩ := hw
  refine ⟨by rw [herr]; rfl, _, hres, rfl, rfl, rfl, ?_⟩
  simp only [mkLin_nodes]
  exact hV'

/-- The minimum SDK version of a reported lineage is the one computed from its nodes. -/
theorem verdict_lineage {zip : Zip} {minSdk maxSdk : Int} {out : Outcome} {ps : List (Nat × Bytes)} (ha : PairArea area ps)
    (h : verifySigningBlock env zip file minSdk maxSdk = .ok out) {s : Nat} {cs : List (List Cert)} {top : Option (List LNode)}
    (hV : Verdict env (signedSections head cd rec) minSdk maxSdk ps s cs top) :
    ∃ res top', out.res = some res ∧ res.core.lineage = mkLin top' := by
  rcases located_inv hl h with ⟨e, h1, hn⟩ | ⟨ps', st, q, r, v3, dg, stamp, fr, ha', hpp, hm, hq, hw, hs, hfr, hres, herr⟩
  · exact absurd ha (hn ps)
  have hps := pairArea_unique ha ha'
  subst hps
  obtain ⟨top', ws', v3', dg', hV', hpk⟩ := pick_ok hl hm (ws := st.warnings) hV
  rw [hpk] at hq
  have hq := (Except.ok.inj hq).symm
  subst hq
  rw [withFallback_none (.inl rfl)] at hw
  simp only [Except.ok.injEq, Prod.mk.injEq] at hw
  obtain ⟨rfl, rfl, rfl⟩ := hw
  exact ⟨_, top', hres, rfl⟩

end

end Apk
