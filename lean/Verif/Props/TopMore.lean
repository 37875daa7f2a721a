import Verif.Props.Top
import Verif.ToyJar
/-! # More properties of the package API: C52 (manifest), C45 (extraction), C26 and C51 (panics), and examples -/
namespace Apk

/-! ## C52 -/

/-- C52: what is read from the manifest: the first copy only, the attributes of the first `uses-sdk` element and the last sandbox version
    declared before it, as decimal 32-bit numerals, with the defaults 1, 0, 1. -/
theorem C52_manifest_meaning (env : EnvT) (z : Zip1) (i : SdkInfo) : getManifestInfo env z = .ok i ↔ ManifestSays env z i :=
  getManifestInfo_iff env z i

/-- C52: the facts read are unique. -/
theorem C52_manifest_unique {env : EnvT} {z : Zip1} {i j : SdkInfo} (h1 : ManifestSays env z i) (h2 : ManifestSays env z j) : i = j :=
  h1.unique h2

/-- C52: nothing after the first `uses-sdk` element counts, not even whether the rest can be parsed. -/
theorem C52_rest_ignored {pre post post' : List XTok} {as : List (Bytes × Bytes)} {f f' : Bool} {i : SdkInfo}
    (hp : ∀ t ∈ pre, ¬ IsUsesSdk t) (h : DocSays ⟨pre ++ .start (b!"uses-sdk") as :: post, f⟩ i) :
    DocSays ⟨pre ++ .start (b!"uses-sdk") as :: post', f'⟩ i := by
  cases h with
  | @uses pre' post'' as' s mn tg he hu hs h1 h2 =>
    simp only at he
    have : pre = pre' ∧ as = as' := by
      clear hs h1 h2
      induction pre generalizing pre' with
      | nil =>
        cases pre' with
        | nil => simp at he; exact ⟨rfl, he.1⟩
        | cons t ts =>
          simp at he
          exact absurd ⟨as, he.1.symm⟩ (hu t List.mem_cons_self)
      | cons x xs ih =>
        cases pre' with
        | nil =>
          simp at he
          exact absurd ⟨as', he.1⟩ (hp x List.mem_cons_self)
        | cons t ts =>
          simp at he
          obtain ⟨rfl, he⟩ := he
          obtain ⟨rfl, rfl⟩ := ih (fun t ht => hp t (List.mem_cons_of_mem _ ht)) (pre' := ts) (by simpa using he) (fun t ht => hu t (List.mem_cons_of_mem _ ht))
          exact ⟨rfl, rfl⟩
    obtain ⟨rfl, rfl⟩ := this
    exact .uses rfl hu hs h1 h2
  | no_uses hn => exact absurd ⟨as, rfl⟩ (hn (.start (b!"uses-sdk") as) (by simp))

/-- C52: giving -1 for the minimal version is the same as giving the version of the manifest. -/
theorem C52_any_min_is_manifest_min {env : EnvT} {ord : Ord1} {z : Zip1} {file : Bytes} {maxSdk : Int} {i : SdkInfo}
    (hi : ManifestSays env z i) : verifyTop env ord (some z) file (-1) maxSdk = verifyTop env ord (some z) file i.min maxSdk := by
  by_cases hx : i.min = -1
  · rw [hx]
  have hg := (getManifestInfo_iff ..).2 hi
  have e1 : sdkFacts env z (-1) maxSdk = (i, none) := by
    unfold sdkFacts
    rw [if_pos (.inl rfl), hg]
    simp [vAnyMin]
  by_cases h26 : 26 ≤ maxSdk
  · have e2 : sdkFacts env z i.min maxSdk = (i, none) := by
      unfold sdkFacts
      rw [if_pos (.inr (by unfold requiresSandboxV2; simpa using h26)), hg]
      simp [vAnyMin, hx]
    unfold verifyTop
    simp only [e1, e2]
  · have e2 : sdkFacts env z i.min maxSdk = (⟨i.min, 0, 0⟩, none) := by
      unfold sdkFacts
      rw [if_neg]
      rintro (h | h)
      · exact hx h
      · unfold requiresSandboxV2 at h; simp at h; omega
    have hsb : ∀ e s, sandboxError i maxSdk e s = none ∧ sandboxError ⟨i.min, 0, 0⟩ maxSdk e s = none := by
      intro e s
      unfold sandboxError requiresSandboxV2
      simp only [decide_eq_true_eq]
      exact ⟨by rw [if_neg (by omega), if_neg (by omega)], by rw [if_neg (by omega), if_neg (by omega)]⟩
    have hv : ∀ out c e, v1Part i none maxSdk out c e = v1Part ⟨i.min, 0, 0⟩ none maxSdk out c e := by
      intro out c e
      unfold v1Part
      simp only [(hsb _ _).1, (hsb _ _).2]
    unfold verifyTop
    simp only [e1, e2, hv]

/-! ## Panics -/

/-- C26, C51 for the package: verification panics only for the causes known for the signing block and for the v1 signature. -/
theorem C26_package_panic_causes_partial {env : EnvT} {ord : Ord1} {z : Option Zip1} {file : Bytes} {minSdk maxSdk : Int} {p : Panic}
    (h : verifyTop env ord z file minSdk maxSdk = .error p) :
    HasMisfit env.toEnv file ∨ HasNegativeIndex file ∨ ∃ z' m, z = some z' ∧ EffectiveMin env z' minSdk m ∧ V1PanicCause env.toEnv1 z' m := by
  unfold verifyTop at h
  cases z with
  | none => cases h
  | some z =>
    simp only at h
    have hm := (sdkFacts_spec env z minSdk maxSdk).1
    rcases hfx : sdkFacts env z minSdk maxSdk with ⟨i, me⟩
    rw [hfx] at hm
    simp only [hfx] at h
    split at h
    · cases h
    split at h
    · rename_i q hq
      rcases C26_panic_needs_misfit_partial _ _ _ _ _ _ hq with h | h
      · exact .inl h
      · exact .inr (.inl h)
    split at h
    · cases h
    split at h
    · cases h
    split at h
    · rename_i q hq
      exact .inr (.inr ⟨z, _, rfl, hm, C51_panic_causes_partial _ _ _ _ _ _ _ hq⟩)
    · cases h

/-- The same for the extraction of certificates. -/
theorem C26_package_extract_panic_causes_partial {env : EnvT} {ord : Ord1} {z : Option Zip1} {file : Bytes} {p : Panic}
    (h : extractTop env ord z file = .error p) :
    HasMisfit env.toEnv file ∨ HasNegativeIndex file ∨ ∃ z', z = some z' ∧ V1PanicCause env.toEnv1 z' (-1) := by
  unfold extractTop at h
  cases z with
  | none => cases h
  | some z =>
    simp only at h
    split at h
    · rename_i q hq
      rcases C26_extract_panic_needs_misfit_partial _ _ _ _ hq with h | h
      · exact .inl h
      · exact .inr (.inl h)
    split at h
    · cases h
    split at h
    · rename_i q hq
      exact .inr (.inr ⟨z, rfl, C51_extract_panic_causes_partial _ _ _ _ _ _ hq⟩)
    · cases h

/-! ## C45 -/

theorem extract_notFound_nil {env : Env} {file : Bytes} {maxSdk : Int} {cs : List (List Cert)} {e : Option E}
    (h : extractCertsReader env file maxSdk = .ok (cs, e)) (hn : isNotFound e = true) :
    cs = [] ∧ (4 ≤ file.length ∧ ∀ o st, findSignatureBlocks env file maxSdk = .ok (o, st, none) → pickScheme st.blocks = none) := by
  unfold extractCertsReader at h
  split at h
  · cases h; cases hn
  rename_i h4
  split at h
  · cases h
  · rename_i hf
    cases h
    refine ⟨rfl, by omega, fun o st hs => ?_⟩
    rw [hf] at hs; cases hs
  · rename_i st hf
    split at h
    · rename_i hp
      cases h
      refine ⟨rfl, by omega, fun o st' hs => ?_⟩
      rw [hf] at hs; cases hs; exact hp
    · rename_i sch block hp
      have hpost : Post (fun v => v.1.NF) (extractCerts env sch maxSdk block { schemeId := sch.id, extraBlocks := st.extra, warnings := st.warnings } none) := by
        exact fun v hv => (nf_extractCerts env sch maxSdk block (Core.NF.empty rfl rfl) (by intro q hq; cases hq) v hv).1
      simp only [bind, Except.bind] at h
      split at h
      · cases h
      · rename_i x hx
        obtain ⟨r, v3, cd, fin⟩ := x
        have hr : r.NF := hpost _ hx
        cases h
        unfold Core.lastError at hn
        cases hg : r.errors.getLast? with
        | none => rw [hg] at hn; cases hn
        | some e => rw [hg, hr.1 e (List.mem_of_getLast? hg)] at hn; cases hn

/-- C45 for the package: if the file has a readable signing block with a scheme, the extracted certificates are those of the block and
    the v1 signature is not looked at; otherwise they are those of the v1 signature, with its error. -/
theorem C45_package_extract {env : EnvT} {ord : Ord1} {z : Zip1} {file : Bytes} {cs : List (List Cert)} {e : Option ExtE}
    (h : extractTop env ord (some z) file = .ok (cs, e)) :
    (∃ e', extractCertsReader env.toEnv file vAnyMax = .ok (cs, e') ∧ isNotFound e' = false ∧ e = e'.map .block) ∨
    (∃ e' e1, extractCertsReader env.toEnv file vAnyMax = .ok ([], e') ∧ isNotFound e' = true ∧
      extractCertsV1 env.toEnv1 ord z (-1) vAnyMax = .ok (cs, e1) ∧ e = e1.map .v1) := by
  unfold extractTop at h
  simp only at h
  split at h
  · cases h
  rename_i c e' hx
  split at h
  · rename_i hn
    cases h
    exact .inl ⟨e', hx, by simpa using hn, rfl⟩
  · rename_i hn
    have hn : isNotFound e' = true := by simpa using hn
    obtain ⟨rfl, _⟩ := extract_notFound_nil hx hn
    split at h
    · cases h
    · rename_i c1 e1 hv
      cases h
      exact .inr ⟨e', e1, hx, hn, hv, rfl⟩

/-- C45 for the package: of an accepted file with a signing block, without fallback, `ExtractCerts` returns the certificates that
    `Verify` reports, and no error. -/
theorem C45_package_agrees {env : EnvT} {ord : Ord1} {z : Zip1} {file head area cd rec : Bytes} {res : TopRes} {ps : List (Nat × Bytes)}
    (hl : ApkLayout file head area cd rec) (ha : PairArea area ps) {minSdk : Int}
    (h : verifyTop env ord (some z) file minSdk 2147483647 = .ok (res, none)) (hs : strongest ps 2147483647 = some res.schemeId)
    {cs : List (List Cert)} {e : Option ExtE} (hx : extractTop env ord (some z) file = .ok (cs, e)) : cs = res.certs ∧ e = none := by
  have hs0 : strongest ps 2147483647 ≠ none := by rw [hs]; simp
  obtain ⟨m, out, v1, hm, hv, _, hb, hr⟩ := C35_reported h
  have hnn := found_not_notFound hl ha hs0 hv
  have he : out.err = none := by
    rcases hr with ⟨he, _⟩ | ⟨he, _⟩ | ⟨he, _⟩
    · exact he
    · exact he
    · rw [hnn] at he; cases he
  have hcerts : out.res.map (fun r => (r.core.schemeId, r.core.certs)) = some (res.schemeId, res.certs) := by
    obtain ⟨m', hm', hver⟩ := C35_block_not_bypassed hl ha hs0 h
    rcases hr with ⟨_, hy, _⟩ | ⟨_, _, hy, hz⟩ | ⟨hy, _⟩
    · exact hy
    · obtain ⟨ps', r, ha', hr', _, hver⟩ := verdict_sound hl hv he
      cases pairArea_unique ha ha'
      rw [hr'] at hy
      simp at hy
      exfalso
      rcases hver with hver | ⟨stale, vs, hf, _, hc, _⟩
      · generalize hsc : r.core.schemeId = s at hver
        obtain ⟨_, hy⟩ := hy
        generalize r.core.certs = cs at hver hy
        subst hy
        generalize r.core.lineage.map Lineage.nodes = l at hver
        generalize hcs : ([] : List (List Cert)) = cs at hver
        cases hver with
        | old h => omega
        | v31 _ _ _ h => exact h.2.1 (List.map_eq_nil_iff.1 hcs.symm)
        | v3 _ _ _ h => exact h.2.1 (List.map_eq_nil_iff.1 hcs.symm)
        | v2 _ _ _ _ h => exact h.2.1 (List.map_eq_nil_iff.1 hcs.symm)
      · rw [hy.2] at hc
        cases hf with
        | mk _ _ _ _ _ _ h => exact h.2.1 (List.map_eq_nil_iff.1 (List.append_eq_nil_iff.1 hc.symm).2)
    · rw [hnn] at hy; cases hy
  rcases C45_package_extract hx with ⟨e', h1, h2, rfl⟩ | ⟨e', e1, h1, h2, _⟩
  · obtain ⟨r, hr', _, hag⟩ := C45_extract_agrees hl ha (by decide) hv h1
    rw [hr'] at hcerts
    simp only [Option.map_some, Option.some.injEq, Prod.mk.injEq] at hcerts
    obtain ⟨g1, g2⟩ := hag (by rw [hcerts.1]; exact hs) (.inr (.inr (.inr he)))
    refine ⟨by rw [g1, hcerts.2], ?_⟩
    cases e' with
    | none => rfl
    | some x => exact absurd he (g2 (by simp))
  · obtain ⟨r, hr', _, hag⟩ := C45_extract_agrees hl ha (by decide) hv h1
    rw [hr'] at hcerts
    simp only [Option.map_some, Option.some.injEq, Prod.mk.injEq] at hcerts
    obtain ⟨g1, g2⟩ := hag (by rw [hcerts.1]; exact hs) (.inr (.inr (.inr he)))
    cases e' with
    | none => cases h2
    | some x => exact absurd he (g2 (by simp))

/-! ## Examples -/

namespace Toy

/-- The package environment with one document for AndroidManifest.xml. -/
def envT (d : XDoc) : EnvT := { jarEnv [] exFiles with axml := fun _ => d }

/-- A manifest document. -/
def doc (minSdk target sandbox : Bytes) : XDoc :=
  ⟨[.start (b!"manifest") [(b!"package", b!"a"), (b!"targetSandboxVersion", sandbox)], .other,
    .start (b!"uses-sdk") [(b!"minSdkVersion", minSdk), (b!"targetSdkVersion", target)], .start (b!"uses-sdk") [(b!"minSdkVersion", b!"x")]], true⟩

/-- Summary of a verdict. -/
def summaryT (r : Go (TopRes × Option TopE)) : Option (Nat × List (List Bytes) × Option TopE) :=
  match r with
  | .error _ => none
  | .ok (c, e) => some (c.schemeId, c.certs.map (fun ch => ch.map Cert.raw), e)

/-- An APK with a v2 block that starts with the DEX magic. -/
def dexHead : Bytes := [0x64, 0x65, 0x78, 0x0a, 0x50, 0x4b, 3, 4]
/-- A file without signing block that starts with the DEX magic. -/
def dexPlain : Bytes := dexHead ++ cdir ++ eocd cdir.length dexHead.length
/-- A file without signing block. -/
def plain : Bytes := head ++ cdir ++ eocd cdir.length head.length

/-- An APK that starts with the DEX magic, signed with v2. -/
def dexApk : Bytes :=
  let area := encPairs [(idV2, block [v2signer k1 (chunkedDigest env.sha256 (signedSections dexHead cdir (eocd cdir.length 0))) []])]
  dexHead ++ sigBlock area ++ cdir ++ eocd cdir.length (dexHead ++ sigBlock area).length
/-- A signing block whose only pair is longer than the block. -/
def brokenArea : Bytes := leBytes 8 5000 ++ leBytes 4 idV2 ++ [1, 2, 3, 4]
/-- A file with that block. -/
def brokenApk : Bytes := head ++ sigBlock brokenArea ++ cdir ++ eocd cdir.length (head ++ sigBlock brokenArea).length

theorem of_summaryT {r : Go (TopRes × Option TopE)} {s : Nat} {l : List (List Bytes)} {e : Option TopE} (h : summaryT r = some (s, l, e)) :
    ∃ res, r = .ok (res, e) ∧ res.schemeId = s ∧ res.certs.map (fun ch => ch.map Cert.raw) = l := by
  cases r with
  | error p => cases h
  | ok v =>
    obtain ⟨res, e'⟩ := v
    simp only [summaryT, Option.some.injEq, Prod.mk.injEq] at h
    exact ⟨res, by rw [h.2.2], h.1, h.2.1⟩

end Toy

set_option maxRecDepth 10000 in
/-- The verdicts on concrete files: v1 only; v2 with v1 below Android 7; a target SDK version or a sandbox version that needs v2; the
    same with v2; an unreadable manifest; a DEX file with a v1 signature. -/
theorem C35_examples :
    (∃ res, verifyTop (Toy.envT (Toy.doc (b!"21") (b!"29") (b!"1"))) Toy.ord (some Toy.exZip) Toy.plain (-1) 35 = .ok (res, none) ∧ res.schemeId = 1 ∧
      res.certs.map (fun ch => ch.map Cert.raw) = [[[0xC0, 1, 7]]]) ∧
    (∃ res, verifyTop (Toy.envT (Toy.doc (b!"21") (b!"30") (b!"1"))) Toy.ord (some Toy.exZip) (Toy.apkOf Toy.psV2) (-1) 35 = .ok (res, none) ∧
      res.schemeId = 2 ∧ res.certs.map (fun ch => ch.map Cert.raw) = [[[0xC0, 1, 11]]]) ∧
    (∃ res, verifyTop (Toy.envT (Toy.doc (b!"21") (b!"30") (b!"1"))) Toy.ord (some Toy.exZip) Toy.plain (-1) 35 = .ok (res, some .targetSdk) ∧
      res.schemeId = 1 ∧ res.certs.map (fun ch => ch.map Cert.raw) = [[[0xC0, 1, 7]]]) ∧
    (∃ res, verifyTop (Toy.envT (Toy.doc (b!"21") (b!"29") (b!"2"))) Toy.ord (some Toy.exZip) Toy.plain (-1) 35 = .ok (res, some .sandbox) ∧
      res.schemeId = 1 ∧ res.certs.map (fun ch => ch.map Cert.raw) = [[[0xC0, 1, 7]]]) ∧
    (∃ res, verifyTop (Toy.envT (Toy.doc (b!"36") (b!"29") (b!"2"))) Toy.ord (some Toy.exZip) Toy.plain (-1) 35 = .ok (res, some .badRange) ∧
      res.schemeId = 0 ∧ res.certs.map (fun ch => ch.map Cert.raw) = []) ∧
    (∃ res, verifyTop (Toy.envT (Toy.doc (b!"21") (b!"x") (b!"1"))) Toy.ord (some Toy.exZip) (Toy.apkOf Toy.psV2) (-1) 35 =
        .ok (res, some (.manifest .badAttr)) ∧ res.schemeId = 2 ∧ res.certs.map (fun ch => ch.map Cert.raw) = [[[0xC0, 1, 11]]]) := by
  refine ⟨?_, ?_, ?_, ?_, ?_, ?_⟩ <;> exact Toy.of_summaryT (by decide +kernel)

set_option maxRecDepth 10000 in
/-- An unreadable manifest lifts the rules for newer platforms if the archive has a v1 signature only: the file that is refused for
    its target SDK version is accepted when one attribute of its manifest, which v1 does not protect, is replaced. -/
theorem C35_unreadable_manifest_witness :
    (∃ res, verifyTop (Toy.envT (Toy.doc (b!"21") (b!"30") (b!"2"))) Toy.ord (some Toy.exZip) Toy.plain 21 35 = .ok (res, some .sandbox) ∧
      res.schemeId = 1 ∧ res.certs.map (fun ch => ch.map Cert.raw) = [[[0xC0, 1, 7]]]) ∧
    ManifestBad (Toy.envT (Toy.doc (b!"x") (b!"30") (b!"2"))) Toy.exZip ∧
    (∃ res, verifyTop (Toy.envT (Toy.doc (b!"x") (b!"30") (b!"2"))) Toy.ord (some Toy.exZip) Toy.plain 21 35 = .ok (res, none) ∧
      res.schemeId = 1 ∧ res.certs.map (fun ch => ch.map Cert.raw) = [[[0xC0, 1, 7]]]) := by
  refine ⟨Toy.of_summaryT (by decide +kernel), ?_, Toy.of_summaryT (by decide +kernel)⟩
  rw [manifestBad_iff]
  exact ⟨.badAttr, by decide +kernel⟩

set_option maxRecDepth 10000 in
/-- The hypotheses of the theorems of C36 are met: a DEX file with a v1 signature gives the mixed-file error, without the magic it is
    accepted. -/
theorem C36_example :
    StartsWithDex Toy.dexPlain ∧
    (∃ res, verifyTop (Toy.envT (Toy.doc (b!"21") (b!"29") (b!"1"))) Toy.ord (some Toy.exZip) Toy.dexPlain (-1) 35 = .ok (res, some .mixedDex) ∧
      res.schemeId = 1 ∧ res.certs.map (fun ch => ch.map Cert.raw) = [[[0xC0, 1, 7]]]) ∧
    (∃ res, verifyTop (Toy.envT (Toy.doc (b!"21") (b!"29") (b!"1"))) Toy.ord (some Toy.exZip) Toy.plain (-1) 35 = .ok (res, none) ∧
      res.schemeId = 1 ∧ res.certs.map (fun ch => ch.map Cert.raw) = [[[0xC0, 1, 7]]]) := by
  refine ⟨⟨[0x50, 0x4b, 3, 4] ++ Toy.cdir ++ Toy.eocd Toy.cdir.length Toy.dexHead.length, by decide +kernel⟩,
    Toy.of_summaryT (by decide +kernel), Toy.of_summaryT (by decide +kernel)⟩

set_option maxRecDepth 10000 in
/-- C36: a DEX file with a valid v2 signing block is accepted for Android 7 and later, as `C36_dex_needs_block` allows, and refused if the
    range includes older platforms. -/
theorem C36_dex_with_block :
    StartsWithDex Toy.dexApk ∧
    (∃ res, verifyTop (Toy.envT (Toy.doc (b!"24") (b!"29") (b!"1"))) Toy.ord (some Toy.exZip) Toy.dexApk (-1) 35 = .ok (res, none) ∧
      res.schemeId = 2 ∧ res.certs.map (fun ch => ch.map Cert.raw) = [[[0xC0, 1, 11]]]) ∧
    (∃ res, verifyTop (Toy.envT (Toy.doc (b!"23") (b!"29") (b!"1"))) Toy.ord (some Toy.exZip) Toy.dexApk (-1) 35 = .ok (res, some .mixedDex) ∧
      res.schemeId = 2 ∧ res.certs.map (fun ch => ch.map Cert.raw) = [[[0xC0, 1, 11]]]) := by
  refine ⟨List.isPrefixOf_iff_prefix.1 (by decide +kernel), Toy.of_summaryT (by decide +kernel), Toy.of_summaryT (by decide +kernel)⟩

set_option maxRecDepth 10000 in
/-- C35: a signing block that cannot be parsed counts as absent: the file below has one, and is accepted with its v1 signature. (So
    `C35_block_not_bypassed` needs a readable block.) -/
theorem C35_broken_block_counts_as_absent :
    Toy.brokenApk = Toy.head ++ sigBlock Toy.brokenArea ++ Toy.cdir ++ Toy.eocd Toy.cdir.length (Toy.head ++ sigBlock Toy.brokenArea).length ∧
    (∃ res, verifyTop (Toy.envT (Toy.doc (b!"24") (b!"29") (b!"1"))) Toy.ord (some Toy.exZip) Toy.brokenApk (-1) 35 = .ok (res, none) ∧
      res.schemeId = 1 ∧ res.certs.map (fun ch => ch.map Cert.raw) = [[[0xC0, 1, 7]]]) :=
  ⟨rfl, Toy.of_summaryT (by decide +kernel)⟩

namespace Toy
/-- Summary of an extraction. -/
def summaryX (r : Go (List (List Cert) × Option ExtE)) : Option (List (List Bytes) × Option ExtE) :=
  match r with
  | .error _ => none
  | .ok (c, e) => some (c.map (fun ch => ch.map Cert.raw), e)
end Toy

set_option maxRecDepth 10000 in
/-- C45 for the package: both cases occur. -/
theorem C45_package_examples :
    Toy.summaryX (extractTop (Toy.envT (Toy.doc (b!"24") (b!"29") (b!"1"))) Toy.ord (some Toy.exZip) (Toy.apkOf Toy.psV2)) = some ([[[0xC0, 1, 11]]], none) ∧
    Toy.summaryX (extractTop (Toy.envT (Toy.doc (b!"24") (b!"29") (b!"1"))) Toy.ord (some Toy.exZip) Toy.plain) = some ([[[0xC0, 1, 7]]], none) :=
  ⟨by decide +kernel, by decide +kernel⟩

/-- C52: concrete documents. -/
theorem C52_examples :
    getManifestInfo (Toy.envT (Toy.doc (b!"+021") (b!"-7") (b!"2"))) Toy.exZip = .ok ⟨21, -7, 2⟩ ∧
    getManifestInfo (Toy.envT (Toy.doc (b!"21") (b!"2147483648") (b!"2"))) Toy.exZip = .error .badAttr ∧
    getManifestInfo (Toy.envT ⟨[.start (b!"manifest") []], false⟩) Toy.exZip = .ok ⟨1, 0, 1⟩ ∧
    getManifestInfo (Toy.envT ⟨[.start (b!"manifest") []], true⟩) Toy.exZip = .error .parseFailed :=
  ⟨by decide +kernel, by decide +kernel, by decide +kernel, by decide +kernel⟩

end Apk
