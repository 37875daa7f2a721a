import Verif.Proofs.Top
import Verif.Props.V1Auth
import Verif.Proofs.NotFound
import Verif.Props.Verdict
import Verif.Props.Attack
import Verif.Props.Panics
/-! # Properties of the package API: C35 (verdict), C36 (Janus), C52 (manifest) -/
namespace Apk

/-! ## Outcomes of the signing block verification -/

theorem outcome_long {env : Env} {zip : Zip} {file : Bytes} {minSdk maxSdk : Int} {out : Outcome}
    (h : verifySigningBlock env zip file minSdk maxSdk = .ok out) (he : out.err = none ∨ isNotFound out.err = true) :
    4 ≤ file.length ∧ out.magic = leNat (file.take 4) ∧ ∃ r, out.res = some r := by
  unfold verifySigningBlock at h
  split at h
  · cases h
    rcases he with he | he <;> cases he
  · rename_i hlen
    refine ⟨by omega, ?_⟩
    simp only at h
    split at h
    · cases h
    · cases h; exact ⟨rfl, _, rfl⟩
    · cases h; exact ⟨rfl, _, rfl⟩
    · simp only [bind, Except.bind] at h
      split at h
      · cases h
      split at h
      · cases h
      split at h
      · cases h
      cases h
      exact ⟨rfl, _, rfl⟩

theorem dexMagic_iff {file : Bytes} (h : 4 ≤ file.length) : leNat (file.take 4) = dexMagic ↔ StartsWithDex file := by
  have hl : (file.take 4).length = 4 := by rw [List.length_take]; omega
  have hb : leBytes 4 dexMagic = [0x64, 0x65, 0x78, 0x0a] := by decide
  constructor
  · intro e
    have := leBytes_leNat (file.take 4)
    rw [hl, e, hb] at this
    unfold StartsWithDex
    rw [this]
    exact List.take_prefix 4 file
  · rintro ⟨t, rfl⟩
    have : ([0x64, 0x65, 0x78, 0x0a] ++ t : Bytes).take 4 = [0x64, 0x65, 0x78, 0x0a] := by simp
    rw [this]
    decide

/-- A valid signing block on platforms since Android 7 is of scheme 2 or later. -/
theorem block_scheme {env : Env} {zip : Zip} {file : Bytes} {minSdk maxSdk : Int} {out : Outcome}
    (h : verifySigningBlock env zip file minSdk maxSdk = .ok out) (he : out.err = none) :
    ∃ r, out.res = some r ∧ ((maxSdk < 24 ∧ r.core.schemeId = 1 ∧ r.core.certs = []) ∨
      (24 ≤ maxSdk ∧ (r.core.schemeId = 2 ∨ r.core.schemeId = 3 ∨ r.core.schemeId = 31))) := by
  obtain ⟨head, area, cd, rec, ps, res, hl, ha, h1, _, h3⟩ := accepted h he
  refine ⟨res, h1, ?_⟩
  rcases h3 with h3 | ⟨stale, vs, hf, h4, _⟩
  · generalize res.core.schemeId = s at h3 ⊢
    generalize res.core.certs = cs at h3 ⊢
    generalize res.core.lineage.map Lineage.nodes = l at h3
    cases h3 with
    | old h => exact .inl ⟨h, rfl, rfl⟩
    | v31 hs => exact .inr ⟨by omega, .inr (.inr rfl)⟩
    | v3 hs => exact .inr ⟨by omega, .inr (.inl rfl)⟩
    | v2 hs => exact .inr ⟨by omega, .inl rfl⟩
  · cases hf with
    | mk hs => exact .inr ⟨by omega, .inl h4⟩

/-! ## The verdict -/

theorem blockPart_err {out : Outcome} (h : isNotFound out.err = true) : (blockPart out).schemeId = 1 ∧ (blockPart out).certs = [] ∧
    (blockPart out).block = out.res := by
  unfold blockPart
  cases out.res with
  | none => exact ⟨rfl, rfl, rfl⟩
  | some r => simp [h]

theorem blockPart_ok {out : Outcome} {r : VRes} (h : out.err = none) (hr : out.res = some r) :
    blockPart out = ⟨r.core.schemeId, r.core.certs, some r⟩ := by
  unfold blockPart
  rw [hr, h]
  rfl

theorem sandboxError_none {i : SdkInfo} {maxSdk : Int} {out : Outcome} (he : out.err = none ∨ isNotFound out.err = true)
    (hr : ∃ r, out.res = some r) :
    sandboxError i maxSdk out.err (blockPart out).schemeId = none ↔ (NeedsV2 i maxSdk → BlockVerified out) := by
  have hb : BlockVerified out ↔ ¬ (out.err ≠ none ∨ (blockPart out).schemeId < 2) := by
    rcases he with he | he
    · obtain ⟨r, hr⟩ := hr
      rw [blockPart_ok he hr]
      unfold BlockVerified
      simp [he, hr]
    · have hne : out.err ≠ none := by intro h; rw [h] at he; cases he
      unfold BlockVerified
      simp [hne]
  have hs : (out.err ≠ none ∨ (blockPart out).schemeId < 2) ↔ (blockPart out).schemeId < 2 := by
    constructor
    · rintro (h | h)
      · rcases he with he | he
        · exact absurd he h
        · rw [(blockPart_err he).1]; omega
      · exact h
    · exact .inr
  unfold sandboxError NeedsV2
  rw [hb]
  have hq : requiresSandboxV2 maxSdk = true ↔ 26 ≤ maxSdk := by unfold requiresSandboxV2; simp
  simp only [hq, hs]
  split
  · rename_i h
    constructor
    · intro hx; cases hx
    · intro hx; exact absurd h.2.2 (hx (.inl ⟨h.1, h.2.1⟩))
  · rename_i h
    split
    · rename_i h'
      constructor
      · intro hx; cases hx
      · intro hx; exact absurd h'.2.2 (hx (.inr ⟨h'.1, h'.2.1⟩))
    · rename_i h'
      refine ⟨fun _ => ?_, fun _ => rfl⟩
      rintro (⟨a, b⟩ | ⟨a, b⟩) hc
      · exact h ⟨a, b, hc⟩
      · exact h' ⟨a, b, hc⟩

theorem v1Part_none {i : SdkInfo} {manErr : Option ManE} {maxSdk : Int} {out : Outcome} {c : List (List Cert)} {e : Option V1E} {res : TopRes} :
    v1Part i manErr maxSdk out c e = (res, none) ↔
      sandboxError i maxSdk out.err (blockPart out).schemeId = none ∧ e = none ∧ ((blockPart out).schemeId ≠ 1 → manErr = none) ∧
      out.magic ≠ dexMagic ∧ res = { blockPart out with certs := if (blockPart out).certs.length = 0 then c else (blockPart out).certs } := by
  unfold v1Part
  simp only
  split
  · rename_i s hs
    constructor
    · intro h; cases h
    · rintro ⟨h, _⟩; rw [hs] at h; cases h
  · rename_i hs
    split
    · constructor
      · intro h; cases h
      · rintro ⟨_, h, _⟩; cases h
    · split
      · rename_i m hm
        constructor
        · intro h; cases h
        · rintro ⟨_, _, h, _⟩
          split at hm
          · rename_i hn; rw [h hn] at hm; cases hm
          · cases hm
      · rename_i hm
        have hm' : (blockPart out).schemeId ≠ 1 → manErr = none := by
          intro hn; rw [if_pos hn] at hm; exact hm
        split
        · rename_i hd
          constructor
          · intro h; cases h
          · rintro ⟨_, _, _, h, _⟩; exact absurd hd h
        · rename_i hd
          constructor
          · intro h
            simp only [Prod.mk.injEq, and_true] at h
            exact ⟨hs, rfl, hm', hd, h.symm⟩
          · rintro ⟨_, _, _, _, h⟩
            rw [h]

/-- Acceptance, unfolded. -/
theorem verifyTop_none {env : EnvT} {ord : Ord1} {z : Zip1} {file : Bytes} {minSdk maxSdk : Int} {res : TopRes} :
    verifyTop env ord (some z) file minSdk maxSdk = .ok (res, none) ↔
      (sdkFacts env z minSdk maxSdk).1.min ≤ maxSdk ∧ ∃ out,
        verifySigningBlock env.toEnv z.zip file (sdkFacts env z minSdk maxSdk).1.min maxSdk = .ok out ∧
        ((out.err = none ∧ 24 ≤ (sdkFacts env z minSdk maxSdk).1.min ∧ res = blockPart out) ∨
         ((out.err = none ∧ (sdkFacts env z minSdk maxSdk).1.min < 24 ∨ isNotFound out.err = true) ∧
          ∃ c e, verifySchemeV1 env.toEnv1 ord z out.err.isNone (sdkFacts env z minSdk maxSdk).1.min maxSdk = .ok (c, e) ∧
            v1Part (sdkFacts env z minSdk maxSdk).1 (sdkFacts env z minSdk maxSdk).2 maxSdk out c e = (res, none))) := by
  unfold verifyTop
  rcases hfx : sdkFacts env z minSdk maxSdk with ⟨i, me⟩
  simp only [hfx]
  by_cases hr : i.min > maxSdk
  · rw [if_pos hr]
    constructor
    · intro h; cases h
    · rintro ⟨h, _⟩; omega
  rw [if_neg hr]
  cases hv : verifySigningBlock env.toEnv z.zip file i.min maxSdk with
  | error p =>
    constructor
    · intro h; cases h
    · rintro ⟨_, out, h, _⟩; cases h
  | ok out =>
    simp only
    have hs : supportsSigV2 i.min = true ↔ 24 ≤ i.min := by unfold supportsSigV2; simp
    by_cases hnf : isNotFound out.err = true
    · rw [if_pos hnf]
      have hne : out.err ≠ none := by intro h; rw [h] at hnf; cases hnf
      simp only
      rw [if_neg (fun h => hne h.2)]
      constructor
      · intro h
        refine ⟨by omega, out, rfl, .inr ⟨.inr hnf, ?_⟩⟩
        split at h
        · cases h
        · rename_i c e hc
          exact ⟨c, e, hc, by simpa using h⟩
      · rintro ⟨_, out', ho, h⟩
        cases ho
        rcases h with ⟨h, _⟩ | ⟨_, c, e, hc, h⟩
        · exact absurd h hne
        · rw [hc]; simp only; rw [h]
    · rw [if_neg hnf]
      cases hoe : out.err with
      | some e =>
        simp only
        constructor
        · intro h; cases h
        · rintro ⟨_, out', ho, h⟩
          cases ho
          rcases h with ⟨h, _⟩ | ⟨⟨h, _⟩ | h, _⟩
          · rw [hoe] at h; cases h
          · rw [hoe] at h; cases h
          · exact absurd h hnf
      | none =>
        simp only
        by_cases h24 : 24 ≤ i.min
        · rw [if_pos ⟨hs.2 h24, trivial⟩]
          constructor
          · intro h
            cases h
            exact ⟨by omega, out, rfl, .inl ⟨hoe, h24, rfl⟩⟩
          · rintro ⟨_, out', ho, h⟩
            cases ho
            rcases h with ⟨_, _, h⟩ | ⟨⟨_, h⟩ | h, _⟩
            · rw [h]
            · omega
            · exact absurd h hnf
        · rw [if_neg (fun h => h24 (hs.1 h.1))]
          constructor
          · intro h
            refine ⟨by omega, out, rfl, .inr ⟨.inl ⟨hoe, by omega⟩, ?_⟩⟩
            rw [hoe]
            split at h
            · cases h
            · rename_i c e hc
              exact ⟨c, e, hc, by simpa using h⟩
          · rintro ⟨_, out', ho, h⟩
            cases ho
            rcases h with ⟨_, h, _⟩ | ⟨_, c, e, hc, h⟩
            · omega
            · rw [hoe] at hc
              rw [hc]; simp only; rw [h]


theorem EffectiveMin.unique {env : EnvT} {z : Zip1} {a m m' : Int} (h : EffectiveMin env z a m) (h' : EffectiveMin env z a m') : m = m' := by
  rcases h with ⟨h1, rfl⟩ | ⟨h1, i, h2, rfl⟩ | ⟨h1, h2, rfl⟩ <;> rcases h' with ⟨g1, rfl⟩ | ⟨g1, j, g2, rfl⟩ | ⟨g1, g2, rfl⟩
  · rfl
  · exact absurd g1 h1
  · exact absurd g1 h1
  · exact absurd h1 g1
  · rw [h2.unique g2]
  · exact absurd h2 (g2 i)
  · exact absurd h1 g1
  · exact absurd g2 (h2 j)
  · rfl

/-- The rules for newer platforms, in terms of the manifest. -/
theorem needsV2_facts (env : EnvT) (z : Zip1) (minSdk maxSdk : Int) (P : Prop) :
    (NeedsV2 (sdkFacts env z minSdk maxSdk).1 maxSdk → P) ↔ ∀ i, ManifestSays env z i → NeedsV2 i maxSdk → P := by
  obtain ⟨_, h2, _, h4⟩ := sdkFacts_spec env z minSdk maxSdk
  constructor
  · intro h i hi hn
    by_cases hc : Consulted minSdk maxSdk
    · obtain ⟨e1, e2⟩ := h2 i hc hi
      apply h
      unfold NeedsV2
      rw [e1, e2]
      exact hn
    · unfold Consulted at hc
      unfold NeedsV2 at hn
      omega
  · intro h hn
    by_cases hc : Consulted minSdk maxSdk ∧ ¬ ManifestBad env z
    · obtain ⟨hc, hb⟩ := hc
      unfold ManifestBad at hb
      obtain ⟨i, hi⟩ := Classical.not_forall.1 hb
      have hi := Classical.not_not.1 hi
      obtain ⟨e1, e2⟩ := h2 i hc hi
      apply h i hi
      unfold NeedsV2 at hn
      rw [e1, e2] at hn
      exact hn
    · have : ¬ Consulted minSdk maxSdk ∨ ManifestBad env z := by
        by_cases hx : Consulted minSdk maxSdk
        · exact .inr (Classical.not_not.1 (fun hb => hc ⟨hx, hb⟩))
        · exact .inl hx
      obtain ⟨e1, e2⟩ := h4 this
      unfold NeedsV2 at hn
      rw [e1, e2] at hn
      omega

/-- The certificates and the scheme of a result, given the outcome of the signing block and the chains of the v1 signature. -/
def ReportOf (res : TopRes) (out : Outcome) (m : Int) (v1 : List (List Cert)) : Prop :=
  res.block = out.res ∧
  ((out.err = none ∧ out.res.map (fun r => (r.core.schemeId, r.core.certs)) = some (res.schemeId, res.certs) ∧ (res.certs = [] → 24 ≤ m)) ∨
   (out.err = none ∧ m < 24 ∧ out.res.map (fun r => (r.core.schemeId, r.core.certs)) = some (res.schemeId, []) ∧ res.certs = v1) ∨
   (isNotFound out.err = true ∧ res.schemeId = 1 ∧ res.certs = v1))

/-- C35: acceptance by the package, in terms of the manifest, the signing block verification and the v1 verification. -/
theorem C35_accepted_iff (env : EnvT) (ord : Ord1) (z : Zip1) (file : Bytes) (minSdk maxSdk : Int) :
    (∃ res, verifyTop env ord (some z) file minSdk maxSdk = .ok (res, none)) ↔
      ∃ m out, EffectiveMin env z minSdk m ∧ m ≤ maxSdk ∧ verifySigningBlock env.toEnv z.zip file m maxSdk = .ok out ∧
        PackageOk env ord z file minSdk maxSdk m out := by
  obtain ⟨h1, h2, h3, h4⟩ := sdkFacts_spec env z minSdk maxSdk
  have hscheme : ∀ {out : Outcome}, (out.err = none ∨ isNotFound out.err = true) → (∃ r, out.res = some r) →
      verifySigningBlock env.toEnv z.zip file (sdkFacts env z minSdk maxSdk).1.min maxSdk = .ok out →
      ((blockPart out).schemeId ≠ 1 ↔ BlockVerified out) := by
    intro out he hr hv
    rcases he with he | he
    · obtain ⟨r, hr', hs⟩ := block_scheme hv he
      rw [blockPart_ok he hr']
      unfold BlockVerified
      rw [hr']
      constructor
      · intro hne
        refine ⟨he, r, rfl, ?_⟩
        simp only at hne
        omega
      · rintro ⟨_, r', hrr, h2⟩
        cases hrr
        simp only
        omega
    · rw [(blockPart_err he).1]
      unfold BlockVerified
      constructor
      · intro h; exact absurd rfl h
      · rintro ⟨h, _⟩; rw [h] at he; cases he
  constructor
  · rintro ⟨res, h⟩
    obtain ⟨hle, out, hv, h⟩ := verifyTop_none.1 h
    refine ⟨_, out, h1, hle, hv, ?_⟩
    rcases h with ⟨he, h24, _⟩ | ⟨he, c, e, hc, hp⟩
    · exact .block he h24
    · have he' : out.err = none ∨ isNotFound out.err = true := by
        rcases he with ⟨he, _⟩ | he
        · exact .inl he
        · exact .inr he
      obtain ⟨hlen, hmag, hr⟩ := outcome_long hv he'
      obtain ⟨hs, rfl, hm, hd, _⟩ := v1Part_none.1 hp
      refine .jar c he hc ?_ ?_ ?_
      · rw [sandboxError_none he' hr] at hs
        exact (needsV2_facts ..).1 hs
      · intro hb hcons hbad
        exact absurd (hm ((hscheme he' hr hv).2 hb)) (h3.2 ⟨hcons, hbad⟩)
      · rw [← dexMagic_iff hlen, ← hmag]; exact hd
  · rintro ⟨m, out, hm, hle, hv, hp⟩
    cases hm.unique h1
    cases hp with
    | block he h24 =>
      exact ⟨_, verifyTop_none.2 ⟨hle, out, hv, .inl ⟨he, h24, rfl⟩⟩⟩
    | jar c he hc hn hb hd =>
      have he' : out.err = none ∨ isNotFound out.err = true := by
        rcases he with ⟨he, _⟩ | he
        · exact .inl he
        · exact .inr he
      obtain ⟨hlen, hmag, hr⟩ := outcome_long hv he'
      refine ⟨_, verifyTop_none.2 ⟨hle, out, hv, .inr ⟨he, c, none, hc, v1Part_none.2 ⟨?_, rfl, ?_, ?_, rfl⟩⟩⟩⟩
      · rw [sandboxError_none he' hr]
        exact (needsV2_facts ..).2 hn
      · intro hx
        have hbv := (hscheme he' hr hv).1 hx
        refine Classical.byContradiction (fun hne => ?_)
        obtain ⟨hcons, hbad⟩ := h3.1 hne
        exact hb hbv hcons hbad
      · rw [hmag]; exact fun hx => hd ((dexMagic_iff hlen).1 hx)

/-- C35: what an accepted file reports: the scheme and certificates of the signing block if it is valid, otherwise scheme 1 and the
    chains of the v1 signature. -/
theorem C35_reported {env : EnvT} {ord : Ord1} {z : Zip1} {file : Bytes} {minSdk maxSdk : Int} {res : TopRes}
    (h : verifyTop env ord (some z) file minSdk maxSdk = .ok (res, none)) :
    ∃ m out v1, EffectiveMin env z minSdk m ∧ verifySigningBlock env.toEnv z.zip file m maxSdk = .ok out ∧
      (m < 24 ∨ isNotFound out.err = true → verifySchemeV1 env.toEnv1 ord z out.err.isNone m maxSdk = .ok (v1, none)) ∧
      ReportOf res out m v1 := by
  obtain ⟨hle, out, hv, h⟩ := verifyTop_none.1 h
  rcases h with ⟨he, h24, rfl⟩ | ⟨he, c, e, hc, hp⟩
  · obtain ⟨_, _, r, hr⟩ := outcome_long hv (.inl he)
    refine ⟨_, out, [], (sdkFacts_spec ..).1, hv, ?_, ?_⟩
    · rintro (hx | hx)
      · omega
      · rw [he] at hx; cases hx
    · rw [blockPart_ok he hr]
      exact ⟨hr.symm, .inl ⟨he, by rw [hr]; rfl, fun _ => h24⟩⟩
  · obtain ⟨_, rfl, _, _, rfl⟩ := v1Part_none.1 hp
    refine ⟨_, out, c, (sdkFacts_spec ..).1, hv, fun _ => hc, ?_⟩
    rcases he with ⟨he, h24⟩ | he
    · obtain ⟨_, _, r, hr⟩ := outcome_long hv (.inl he)
      rw [blockPart_ok he hr]
      refine ⟨hr.symm, ?_⟩
      by_cases hl : r.core.certs.length = 0
      · refine .inr (.inl ⟨he, h24, ?_, ?_⟩)
        · rw [hr]; simp [List.length_eq_zero_iff.1 hl]
        · simp [hl]
      · refine .inl ⟨he, ?_, ?_⟩
        · rw [hr]; simp [hl]
        · intro hx
          simp only [hl, if_false] at hx
          rw [hx] at hl
          exact absurd rfl hl
    · obtain ⟨h1, h2, h3⟩ := blockPart_err he
      refine ⟨h3, .inr (.inr ⟨he, h1, ?_⟩)⟩
      simp [h2]

/-- C35: a file with a readable signing block with a scheme the newest platform knows is accepted only if the block verifies: the
    v1 signature cannot stand in for it. -/
theorem C35_block_not_bypassed {env : EnvT} {ord : Ord1} {z : Zip1} {file head area cd rec : Bytes} {minSdk maxSdk : Int} {res : TopRes}
    {ps : List (Nat × Bytes)} (hl : ApkLayout file head area cd rec) (ha : PairArea area ps) (hs : strongest ps maxSdk ≠ none)
    (h : verifyTop env ord (some z) file minSdk maxSdk = .ok (res, none)) :
    ∃ m, EffectiveMin env z minSdk m ∧
      (Verdict env.toEnv (signedSections head cd rec) m maxSdk ps res.schemeId res.certs
        (res.block.bind (fun r => r.core.lineage.map Lineage.nodes)) ∨
       ∃ stale vs, Fallback env.toEnv (signedSections head cd rec) m maxSdk ps stale vs ∧ res.schemeId = 2 ∧
         res.certs = stale ++ vs.map V2View.chain) := by
  have h24 : 24 ≤ maxSdk := by
    refine Classical.byContradiction (fun hn => hs ?_)
    rw [(C06_strongest_spec ps maxSdk).2.2.2]
    exact ⟨by omega, by omega, by omega⟩
  obtain ⟨m, out, v1, hm, hv, _, hb, hr⟩ := C35_reported h
  refine ⟨m, hm, ?_⟩
  obtain ⟨r, hr1, hr2⟩ := C06_strongest_scheme hl ha h24 hv
  have hnn : isNotFound out.err = true → False := by
    intro hn
    rw [found_not_notFound hl ha hs hv] at hn
    cases hn
  have he : out.err = none := by
    rcases hr with ⟨he, _⟩ | ⟨he, _⟩ | ⟨he, _⟩
    · exact he
    · exact he
    · exact (hnn he).elim
  obtain ⟨ps', r', ha', hr', _, hver⟩ := verdict_sound hl hv he
  cases pairArea_unique ha ha'
  rw [hr1] at hr'
  cases hr'
  have hne : r.core.certs ≠ [] := by
    rcases hver with hver | ⟨stale, vs, hf, _, hc, _⟩
    · generalize hsc : r.core.schemeId = s at hver
      generalize r.core.certs = cs at hver ⊢
      generalize r.core.lineage.map Lineage.nodes = l at hver
      cases hver with
      | old h => omega
      | v31 _ _ _ h => exact fun hx => h.2.1 (List.map_eq_nil_iff.1 hx)
      | v3 _ _ _ h => exact fun hx => h.2.1 (List.map_eq_nil_iff.1 hx)
      | v2 _ _ _ _ h => exact fun hx => h.2.1 (List.map_eq_nil_iff.1 hx)
    · rw [hc]
      cases hf with
      | mk _ _ _ _ _ _ h => exact fun hx => h.2.1 (List.map_eq_nil_iff.1 (List.append_eq_nil_iff.1 hx).2)
  have hrep : r.core.schemeId = res.schemeId ∧ r.core.certs = res.certs := by
    rcases hr with ⟨_, hx, _⟩ | ⟨_, _, hx, _⟩ | ⟨hx, _⟩
    · rw [hr1] at hx; simpa using hx
    · rw [hr1] at hx; simp at hx; exact absurd hx.2 hne
    · exact (hnn hx).elim
  rw [hb, hr1, ← hrep.1, ← hrep.2]
  rcases hver with hver | ⟨stale, vs, hf, h1, h2, _⟩
  · exact .inl hver
  · exact .inr ⟨stale, vs, hf, h1, h2⟩

/-- C35: the rules of newer platforms. An accepted file whose readable manifest declares a sandbox version above 1, on a range that
    reaches Android 8, or a target SDK version of 30 or more inside the range, has a signing block valid with scheme 2 or later. -/
theorem C35_new_platforms_need_v2 {env : EnvT} {ord : Ord1} {z : Zip1} {file : Bytes} {minSdk maxSdk : Int} {res : TopRes} {i : SdkInfo}
    (h : verifyTop env ord (some z) file minSdk maxSdk = .ok (res, none)) (hi : ManifestSays env z i)
    (hn : (26 ≤ maxSdk ∧ 1 < i.sandbox) ∨ (30 ≤ i.target ∧ i.target ≤ maxSdk)) :
    2 ≤ res.schemeId ∧ ∃ m out, EffectiveMin env z minSdk m ∧ verifySigningBlock env.toEnv z.zip file m maxSdk = .ok out ∧ BlockVerified out := by
  obtain ⟨m, out, v1, hm, hv, _, hb, hr⟩ := C35_reported h
  obtain ⟨m', out', hm', hle, hv', hok⟩ := (C35_accepted_iff env ord z file minSdk maxSdk).1 ⟨res, h⟩
  cases hm.unique hm'
  rw [hv] at hv'
  cases hv'
  have hbv : BlockVerified out := by
    cases hok with
    | block he h24 =>
      obtain ⟨r, hr, hx⟩ := block_scheme hv he
      refine ⟨he, r, hr, ?_⟩
      omega
    | jar c _ _ hx _ _ => exact hx i hi hn
  refine ⟨?_, m, out, hm, hv, hbv⟩
  obtain ⟨he, r, hr', h2⟩ := hbv
  rcases hr with ⟨_, hx, _⟩ | ⟨_, _, hx, _⟩ | ⟨hx, _⟩
  · rw [hr'] at hx; simp at hx; omega
  · rw [hr'] at hx; simp at hx; omega
  · rw [he] at hx; cases hx

/-- C35: a minimal version above the maximal one is refused, with an empty result. -/
theorem C35_empty_range_refused {env : EnvT} {ord : Ord1} {z : Zip1} {file : Bytes} {minSdk maxSdk m : Int}
    (hm : EffectiveMin env z minSdk m) (h : maxSdk < m) :
    verifyTop env ord (some z) file minSdk maxSdk = .ok ({}, some .badRange) := by
  have h1 := (sdkFacts_spec env z minSdk maxSdk).1.unique hm
  unfold verifyTop
  rcases hfx : sdkFacts env z minSdk maxSdk with ⟨i, me⟩
  rw [hfx] at h1
  simp only [hfx]
  simp only at h1
  rw [if_pos (by omega)]

/-- C35: if the range includes platforms before Android 7, or there is no signing block, the v1 signature has to be valid. -/
theorem C35_old_platforms_need_v1 {env : EnvT} {ord : Ord1} {z : Zip1} {file : Bytes} {minSdk maxSdk m : Int} {res : TopRes}
    (h : verifyTop env ord (some z) file minSdk maxSdk = .ok (res, none)) (hm : EffectiveMin env z minSdk m) (h24 : m < 24 ∨ res.schemeId = 1) :
    ∃ v1 b, verifySchemeV1 env.toEnv1 ord z b m maxSdk = .ok (v1, none) := by
  obtain ⟨m', out, v1, hm', hv, hv1, hb, hr⟩ := C35_reported h
  cases hm.unique hm'
  refine ⟨v1, _, hv1 ?_⟩
  by_cases hx : m < 24
  · exact .inl hx
  · refine .inr ?_
    have hle : m ≤ maxSdk := by
      obtain ⟨m', out', hm'', hle, _⟩ := (C35_accepted_iff env ord z file minSdk maxSdk).1 ⟨res, h⟩
      cases hm.unique hm''
      exact hle
    rcases hr with ⟨he, hy, _⟩ | ⟨_, hy, _⟩ | ⟨hy, _⟩
    · obtain ⟨r, hr', hz⟩ := block_scheme hv he
      rw [hr'] at hy
      simp at hy
      omega
    · exact absurd hy hx
    · exact hy

/-- C35: `Verify` and `VerifyReader` accept exactly what is accepted for all platforms from the smallest one the manifest asks for. -/
theorem C35_verify_default (env : EnvT) (ord : Ord1) (z : Zip1) (file : Bytes) :
    (∃ res, verifyDefault env ord (some z) file = .ok (res, none)) ↔
      ∃ m out, EffectiveMin env z (-1) m ∧ m ≤ 2147483647 ∧ verifySigningBlock env.toEnv z.zip file m 2147483647 = .ok out ∧
        PackageOk env ord z file (-1) 2147483647 m out :=
  C35_accepted_iff env ord z file (-1) 2147483647

/-- C35: a scheme that is reported with a nil error was really verified: 1 for the v1 signature, otherwise the signing block's. -/
theorem C35_accepted_means_verified {env : EnvT} {ord : Ord1} {z : Zip1} {file : Bytes} {minSdk maxSdk : Int} {res : TopRes}
    (h : verifyTop env ord (some z) file minSdk maxSdk = .ok (res, none)) :
    ∃ m, EffectiveMin env z minSdk m ∧ m ≤ maxSdk ∧
      ((∃ v1 b, verifySchemeV1 env.toEnv1 ord z b m maxSdk = .ok (v1, none)) ∨
       (24 ≤ m ∧ ∃ out, verifySigningBlock env.toEnv z.zip file m maxSdk = .ok out ∧ BlockVerified out)) := by
  obtain ⟨m, out, hm, hle, hv, hok⟩ := (C35_accepted_iff env ord z file minSdk maxSdk).1 ⟨res, h⟩
  refine ⟨m, hm, hle, ?_⟩
  cases hok with
  | block he h24 =>
    obtain ⟨r, hr, hx⟩ := block_scheme hv he
    exact .inr ⟨h24, out, hv, he, r, hr, by omega⟩
  | jar c _ hc _ _ _ => exact .inl ⟨c, _, hc⟩

/-! ## C36 -/

/-- C36: a file that starts with the magic of DEX files is accepted only with a valid signing block of scheme 2 or later and
    a range without platforms that look at the v1 signature. -/
theorem C36_dex_needs_block {env : EnvT} {ord : Ord1} {z : Zip1} {file : Bytes} {minSdk maxSdk m : Int} {res : TopRes}
    (h : verifyTop env ord (some z) file minSdk maxSdk = .ok (res, none)) (hd : StartsWithDex file) (hm : EffectiveMin env z minSdk m) :
    24 ≤ m ∧ 2 ≤ res.schemeId ∧ ∃ out, verifySigningBlock env.toEnv z.zip file m maxSdk = .ok out ∧ BlockVerified out ∧ res.block = out.res := by
  obtain ⟨m', out, v1, hm', hv, hv1, hb, hr⟩ := C35_reported h
  cases hm.unique hm'
  obtain ⟨m', out', hm'', hle, hv', hok⟩ := (C35_accepted_iff env ord z file minSdk maxSdk).1 ⟨res, h⟩
  cases hm.unique hm''
  rw [hv] at hv'
  cases hv'
  cases hok with
  | jar _ _ _ _ _ hx => exact absurd hd hx
  | block he h24 =>
    obtain ⟨r, hr', hx⟩ := block_scheme hv he
    refine ⟨h24, ?_, out, hv, ⟨he, r, hr', by omega⟩, hb⟩
    rcases hr with ⟨_, hy, _⟩ | ⟨_, hy, _⟩ | ⟨hy, _⟩
    · rw [hr'] at hy; simp at hy; omega
    · omega
    · rw [he] at hy; cases hy

/-- C36: so a file with the DEX magic is never accepted with scheme 1. -/
theorem C36_dex_never_v1 {env : EnvT} {ord : Ord1} {z : Zip1} {file : Bytes} {minSdk maxSdk : Int} {res : TopRes}
    (h : verifyTop env ord (some z) file minSdk maxSdk = .ok (res, none)) (hs : res.schemeId = 1) : ¬ [0x64, 0x65, 0x78, 0x0a] <+: file := by
  intro hd
  have := (C36_dex_needs_block h hd (sdkFacts_spec env z minSdk maxSdk).1).2.1
  omega

/-- C36: the mixed-file error is returned only if the signature is otherwise valid: the v1 signature is, the signing block is valid
    or absent, and every other rule is met. -/
theorem C36_mixed_means_otherwise_valid {env : EnvT} {ord : Ord1} {z : Zip1} {file : Bytes} {minSdk maxSdk : Int} {res : TopRes}
    (h : verifyTop env ord (some z) file minSdk maxSdk = .ok (res, some .mixedDex)) :
    StartsWithDex file ∧ ∃ m out c, EffectiveMin env z minSdk m ∧ m ≤ maxSdk ∧ verifySigningBlock env.toEnv z.zip file m maxSdk = .ok out ∧
      (out.err = none ∧ m < 24 ∨ isNotFound out.err = true) ∧
      verifySchemeV1 env.toEnv1 ord z out.err.isNone m maxSdk = .ok (c, none) ∧
      (∀ i, ManifestSays env z i → NeedsV2 i maxSdk → BlockVerified out) := by
  have h1 := (sdkFacts_spec env z minSdk maxSdk).1
  have hnv := needsV2_facts env z minSdk maxSdk
  unfold verifyTop at h
  rcases hfx : sdkFacts env z minSdk maxSdk with ⟨i, me⟩
  rw [hfx] at h1 hnv
  simp only [hfx] at h
  simp only at h1 hnv
  split at h
  · cases h
  rename_i hle
  split at h
  · cases h
  rename_i out hv
  split at h
  · cases h
  rename_i hnf
  split at h
  · cases h
  rename_i h24
  split at h
  · cases h
  rename_i c e hc
  have he : out.err = none ∧ i.min < 24 ∨ isNotFound out.err = true := by
    by_cases hx : isNotFound out.err = true
    · exact .inr hx
    · rw [if_neg hx] at hnf
      refine .inl ⟨hnf, ?_⟩
      have : ¬ supportsSigV2 i.min = true := fun hs => h24 ⟨hs, hnf⟩
      unfold supportsSigV2 at this
      simpa using this
  have he' : out.err = none ∨ isNotFound out.err = true := by
    rcases he with ⟨he, _⟩ | he
    · exact .inl he
    · exact .inr he
  obtain ⟨hlen, hmag, hr⟩ := outcome_long hv he'
  simp only [Except.ok.injEq] at h
  unfold v1Part at h
  simp only at h
  split at h
  · rename_i s hs
    unfold sandboxError at hs
    split at hs
    · cases hs; cases h
    · split at hs
      · cases hs; cases h
      · cases hs
  rename_i hs
  split at h
  · cases h
  split at h
  · cases h
  split at h
  · rename_i hm
    refine ⟨(dexMagic_iff hlen).1 (by rw [← hmag]; exact hm), i.min, out, c, h1, by omega, hv, he, hc, ?_⟩
    rw [sandboxError_none he' hr] at hs
    exact (hnv _).1 hs
  · cases h

end Apk
