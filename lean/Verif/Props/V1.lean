import Verif.Proofs.V1Verify
import Verif.Props.Manifest
import Verif.ToyJar
/-! # Properties of the v1 (JAR) scheme: C37, C38, C39, C46 -/
namespace Apk

/-! ## Unfolding acceptance -/

theorem verifySchemeV1_ok {env : Env1} {ord : Ord1} {z : Zip1} {hasBlock : Bool} {minSdk maxSdk : Int} {c : List (List Cert)}
    (h : verifySchemeV1 env ord z hasBlock minSdk maxSdk = .ok (c, none)) :
    ∃ mf sigs, newSchemeV1 env z = .ok (.ok (mf, sigs)) ∧ verifyV1Loaded env ord z mf sigs hasBlock minSdk maxSdk = .ok (c, none) := by
  unfold verifySchemeV1 at h
  split at h
  · cases h
  · cases h
  rename_i mf sigs hn
  exact ⟨mf, sigs, hn, h⟩

/-- What an accepted signature satisfies. -/
theorem judge_good {env : Env1} {ord : Ord1} {mf : Manifest} {hasBlock : Bool} {minSdk maxSdk : Int} {s : Ready} {c : Option (List Cert)}
    (h : judge env ord mf hasBlock minSdk maxSdk s = .ok (.good c)) :
    verifySignature1 env s.p7 s.sm.rawData minSdk maxSdk = .ok (c, none) ∧ downgraded s.sm hasBlock maxSdk = false ∧
      (∃ v, mget s.sm.main (b!"signature-version") = some v) ∧ checkMainAttrs env mf s.sm (signtoolFlag s.sm) minSdk maxSdk = none ∧
      Covers env mf s.sm minSdk maxSdk := by
  unfold judge at h
  split at h
  · cases h
  · cases h
  rename_i c' hc
  split at h
  · cases h
  rename_i hd
  split at h
  · cases h
  rename_i hv
  split at h
  · cases h
  rename_i hm
  split at h
  · rename_i hcov
    cases h
    refine ⟨hc, by simpa using hd, ?_, hm, (coversManifest_iff ..).1 hcov⟩
    cases hx : mget s.sm.main (b!"signature-version") with
    | none => rw [hx] at hv; simp at hv
    | some v => exact ⟨v, rfl⟩
  · cases h

theorem mem_goodOf {env : Env1} {ord : Ord1} {mf : Manifest} {hasBlock : Bool} {minSdk maxSdk : Int} {sigs : List Ready} {v : Valid}
    (h : v ∈ sigs.filterMap (goodOf env ord mf hasBlock minSdk maxSdk)) :
    v.sig ∈ sigs ∧ ∃ c, judge env ord mf hasBlock minSdk maxSdk v.sig = .ok (.good c) ∧ v.chain = c.getD [] := by
  obtain ⟨s, hs, he⟩ := List.mem_filterMap.1 h
  unfold goodOf at he
  split at he
  · rename_i c hj
    cases he
    exact ⟨hs, c, hj, rfl⟩
  · cases he

/-- Neither stopped nor bad: the signature itself is valid and no downgrade. -/
theorem judge_fine {env : Env1} {ord : Ord1} {mf : Manifest} {hasBlock : Bool} {minSdk maxSdk : Int} {s : Ready}
    (h1 : stopsAt env ord mf hasBlock minSdk maxSdk s = false) (h2 : isBad env ord mf hasBlock minSdk maxSdk s = false) :
    (∃ c, verifySignature1 env s.p7 s.sm.rawData minSdk maxSdk = .ok (c, none)) ∧ downgraded s.sm hasBlock maxSdk = false := by
  cases hj : judge env ord mf hasBlock minSdk maxSdk s with
  | error p => simp [stopsAt, hj] at h1
  | ok v =>
    have hns : ∀ c e, v ≠ .stop c e := by rintro c e rfl; simp [stopsAt, hj] at h1
    have hnb : ∀ c, v ≠ .bad c := by rintro c rfl; simp [isBad, hj] at h2
    unfold judge at hj
    split at hj
    · cases hj
    · cases hj; exact absurd rfl (hnb _)
    rename_i c hc
    refine ⟨⟨c, hc⟩, ?_⟩
    split at hj
    · cases hj; exact absurd rfl (hns _ _)
    rename_i hd
    simpa using hd

/-! ## C38: what an accepted archive looks like -/

/-- A signature of the archive that counts for the file `k`: a signature block and a signature file that lists `k` and covers
    the manifest; the block contains a correct signature of the signature file by the key of the certificate `leaf`. -/
structure SignedBy (env : Env1) (z : Zip1) (mf : Manifest) (minSdk maxSdk : Int) (k : Bytes) (leaf : Cert) : Prop where
  sig : ∃ p7 sm, Signature env z p7 sm ∧ (∃ as, mget sm.entries k = some as) ∧ (∃ v, mget sm.main (b!"signature-version") = some v) ∧
    Covers env mf sm minSdk maxSdk ∧ ∃ info ∈ considered p7 minSdk, GoodSigner env p7 sm.rawData maxSdk info leaf

theorem accepted_path {env : Env1} {ord : Ord1} {z : Zip1} {hasBlock : Bool} {minSdk maxSdk : Int} {mf : Manifest} {sigs : List Ready}
    {k : Bytes} (hsound : ∀ r ∈ sigs, Signature env z r.p7 r.sm)
    {v : Valid} (hv : v ∈ sigs.filterMap (goodOf env ord mf hasBlock minSdk maxSdk)) (hk : (mget v.sig.sm.entries k).isSome = true) :
    ∃ leaf rest, v.chain = leaf :: rest ∧ SignedBy env z mf minSdk maxSdk k leaf := by
  obtain ⟨hmem, c, hj, hc⟩ := mem_goodOf hv
  obtain ⟨h1, _, h3, _, h5⟩ := judge_good hj
  obtain ⟨leaf, hleaf, info, hinfo, hgood⟩ := verifySignature1_sound h1
  obtain ⟨more, hm, _⟩ := buildChain_spec hgood.mem
  subst hleaf
  refine ⟨leaf, more, by rw [hc, Option.getD_some, hm], ⟨_, _, hsound _ hmem, Option.isSome_iff_exists.1 hk, h3, h5, info, hinfo, hgood⟩⟩

/-- C38: if v1 verification succeeds, every regular file outside META-INF other than AndroidManifest.xml has an entry in the
    one main manifest whose digests match a copy of the file, and a valid signature file that covers the manifest lists it;
    the reported chains start with the certificates of those signatures. Missing from the full property: the contents of
    AndroidManifest.xml (see `C38_android_manifest_witness`). -/
theorem C38_accepted_covers_files_partial (env : Env1) (ord : Ord1) (z : Zip1) (hasBlock : Bool) (minSdk maxSdk : Int) (c : List (List Cert))
    (h : verifySchemeV1 env ord z hasBlock minSdk maxSdk = .ok (c, none)) :
    ∃ mf, MainManifest z mf ∧ (∀ n as, mget mf.entries n = some as → ∃ f, z.zip.file n = some f) ∧
      ∀ k f, Protected z k f →
        (∃ as, mget mf.entries k = some as ∧
          EntryOk env as (b!"-digest") minSdk maxSdk (fun a d => ∃ data, Copy f data ∧ a.hash env data = d)) ∧
        c ≠ [] ∧ ∀ chain ∈ c, ∃ leaf rest, chain.map Cert.raw = (leaf :: rest).map Cert.raw ∧ SignedBy env z mf minSdk maxSdk k leaf := by
  obtain ⟨mf, sigs, hn, hl⟩ := verifySchemeV1_ok h
  obtain ⟨hacc, hc⟩ := verifyV1Loaded_ok.1 hl
  obtain ⟨hmf, hsig, _, _⟩ := newSchemeV1_sound hn
  refine ⟨mf, hmf, ?_, ?_⟩
  · intro n as hn
    exact Option.isSome_iff_exists.1 (hacc.present (n, as) (mget_mem hn))
  · intro k f hk
    have hreq : k ∈ requiredPaths z := mem_requiredPaths.2 (.inl ⟨f, hk⟩)
    obtain ⟨as, f', h1, h2, h3, h4⟩ := hacc.files k hreq
    rw [hk.1] at h2
    cases h2
    have hp := ord.sigs_perm sigs
    have hgp := hp.filterMap (goodOf env ord mf hasBlock minSdk maxSdk)
    -- the reported chains match those of k
    have hmatch : certChainsMatch c (coverChains (sigs.filterMap (goodOf env ord mf hasBlock minSdk maxSdk)) k) = true := by
      cases hr : requiredPaths z with
      | nil => rw [hr] at hreq; cases hreq
      | cons q qs =>
        rw [hr] at hc
        dsimp only at hc
        rw [hc]
        refine certChainsMatch_trans (certChainsMatch_of_perm ?_) (hacc.same q (by rw [hr]; exact List.mem_cons_self) k hreq)
        exact coverChains_perm ((ord.cover_perm q _).trans hgp) q
    have hchains : ∀ ch ∈ coverChains (sigs.filterMap (goodOf env ord mf hasBlock minSdk maxSdk)) k,
        ∃ leaf rest, ch = leaf :: rest ∧ SignedBy env z mf minSdk maxSdk k leaf := by
      intro ch hch
      obtain ⟨v, hv, rfl⟩ := List.mem_map.1 hch
      obtain ⟨hv1, hv2⟩ := List.mem_filter.1 hv
      exact accepted_path hsig hv1 hv2
    refine ⟨⟨as, h1, (verifyEntry_file ..).1 h3⟩, ?_, ?_⟩
    · rintro rfl
      rw [certChainsMatch_iff] at hmatch
      exact h4 (List.length_eq_zero_iff.1 hmatch.1.symm)
    · intro chain hch
      rw [certChainsMatch_iff] at hmatch
      obtain ⟨ch, hch', he⟩ := List.mem_map.1 ((hmatch.2 (chain.map Cert.raw)).1 (List.mem_map.2 ⟨chain, hch, rfl⟩))
      obtain ⟨leaf, rest, rfl, hs⟩ := hchains ch hch'
      exact ⟨leaf, rest, he.symm, hs⟩

namespace Toy

/-- Files of the example archive. -/
def exFiles : List (Bytes × Bytes) := [(b!"classes.dex", [1, 2, 3]), (b!"AndroidManifest.xml", [5])]

/-- The example archive. -/
def exZip : Zip1 := zip1 (jar [] exFiles exFiles) (by decide +kernel)

/-- The example archive with other contents of AndroidManifest.xml. -/
def exZipManifest : Zip1 := zip1 (jar [] exFiles [(b!"classes.dex", [1, 2, 3]), (b!"AndroidManifest.xml", [6])]) (by decide +kernel)

/-- The example archive with other contents of classes.dex. -/
def exZipDex : Zip1 := zip1 (jar [] exFiles [(b!"classes.dex", [1, 2, 4]), (b!"AndroidManifest.xml", [5])]) (by decide +kernel)

/-- The example archive with a file added. -/
def exZipAdded : Zip1 := zip1 (jar [] exFiles ((b!"lib/x.so", [0]) :: exFiles)) (by decide +kernel)

theorem of_summary1 {r : Go (List (List Cert) × Option V1E)} {e : Option V1E} {l : List (List Bytes)} (h : summary1 r = some (e, l)) :
    ∃ c, r = .ok (c, e) ∧ c.map (fun ch => ch.map Cert.raw) = l := by
  cases r with
  | error p => cases h
  | ok v =>
    obtain ⟨c, e'⟩ := v
    simp only [summary1, Option.some.injEq, Prod.mk.injEq] at h
    exact ⟨c, by rw [h.1], h.2⟩

theorem of_summary1_panic {r : Go (List (List Cert) × Option V1E)} (h : summary1 r = none) : ∃ p, r = .error p := by
  cases r with
  | error p => exact ⟨p, rfl⟩
  | ok v => cases h

end Toy

/-- The hypothesis of C38 is satisfiable, with a protected file; and tampering with it or adding a file is rejected. -/
theorem C38_example :
    (∃ c, verifySchemeV1 (Toy.jarEnv [] Toy.exFiles) Toy.ord Toy.exZip false 24 30 = .ok (c, none)) ∧
    (∃ f, Protected Toy.exZip (b!"classes.dex") f) ∧
    (∃ c, verifySchemeV1 (Toy.jarEnv [] Toy.exFiles) Toy.ord Toy.exZipDex false 24 30 = .ok (c, some (.entry .fileHash))) ∧
    (∃ c, verifySchemeV1 (Toy.jarEnv [] Toy.exFiles) Toy.ord Toy.exZipAdded false 24 30 = .ok (c, some .noEntry)) := by
  refine ⟨?_, ⟨_, rfl, rfl, by decide, by decide⟩, ?_, ?_⟩
  · obtain ⟨c, h, _⟩ := Toy.of_summary1 (r := verifySchemeV1 (Toy.jarEnv [] Toy.exFiles) Toy.ord Toy.exZip false 24 30)
      (e := none) (l := [[[0xC0, 1, 7]]]) (by decide +kernel)
    exact ⟨c, h⟩
  · obtain ⟨c, h, _⟩ := Toy.of_summary1 (r := verifySchemeV1 (Toy.jarEnv [] Toy.exFiles) Toy.ord Toy.exZipDex false 24 30)
      (e := some (.entry .fileHash)) (l := [[[0xC0, 1, 7]]]) (by decide +kernel)
    exact ⟨c, h⟩
  · obtain ⟨c, h, _⟩ := Toy.of_summary1 (r := verifySchemeV1 (Toy.jarEnv [] Toy.exFiles) Toy.ord Toy.exZipAdded false 24 30)
      (e := some .noEntry) (l := [[[0xC0, 1, 7]]]) (by decide +kernel)
    exact ⟨c, h⟩

/-- C38 is false of the code for AndroidManifest.xml: two archives that differ only in the contents of this file (listed with
    a digest in the manifest) are both accepted, with the same certificates. -/
theorem C38_android_manifest_witness :
    (Toy.exZip.zip.file (b!"AndroidManifest.xml")).map (·.attempts) = some [some [5]] ∧
    (Toy.exZipManifest.zip.file (b!"AndroidManifest.xml")).map (·.attempts) = some [some [6]] ∧
    (∃ c, verifySchemeV1 (Toy.jarEnv [] Toy.exFiles) Toy.ord Toy.exZip false 24 30 = .ok (c, none) ∧
      c.map (fun ch => ch.map Cert.raw) = [[[0xC0, 1, 7]]]) ∧
    (∃ c, verifySchemeV1 (Toy.jarEnv [] Toy.exFiles) Toy.ord Toy.exZipManifest false 24 30 = .ok (c, none) ∧
      c.map (fun ch => ch.map Cert.raw) = [[[0xC0, 1, 7]]]) :=
  ⟨rfl, rfl, Toy.of_summary1 (by decide +kernel), Toy.of_summary1 (by decide +kernel)⟩

/-! ## C37: downgrade detection -/

/-- C37: if v1 verification succeeds without a valid signing block on a range of platforms that includes Android 7, then no
    signature file of the archive lists scheme 2 in `X-Android-APK-Signed`. (The loader keeps one signature per file name,
    hence the assumption on the names.) -/
theorem C37_downgrade_rejected (env : Env1) (ord : Ord1) (z : Zip1) (minSdk maxSdk : Int) (c : List (List Cert)) (hmax : 24 ≤ maxSdk)
    (hstems : DistinctStems z) (h : verifySchemeV1 env ord z false minSdk maxSdk = .ok (c, none))
    (fb fs : ZFile) (hp : SigPairOf z fb fs) (sm : Manifest) (hsm : parseManifest fs false = .ok (.ok sm))
    (ids : Bytes) (hids : mget sm.main (b!"x-android-apk-signed") = some ids) : ¬ ListsTwo ids := by
  obtain ⟨mf, sigs, hn, hl⟩ := verifySchemeV1_ok h
  obtain ⟨hacc, _⟩ := verifyV1Loaded_ok.1 hl
  obtain ⟨p7, _, r, hr, _, rfl⟩ := newSchemeV1_complete hn hstems hp hsm
  have := (judge_fine (hacc.noStop r hr) (hacc.noBad r hr)).2
  unfold downgraded at this
  rw [hids] at this
  simp only [Bool.not_false, Bool.true_and] at this
  have hs : supportsSigV2 maxSdk = true := by unfold supportsSigV2; simpa using hmax
  rw [hs, Bool.true_and] at this
  intro hc
  rw [(listsScheme2_iff ids).2 hc] at this
  cases this

/-- C37, for all loaded signatures whatever their names: each of them is valid and none lists scheme 2. -/
theorem C37_loaded_signatures (env : Env1) (ord : Ord1) (z : Zip1) (minSdk maxSdk : Int) (c : List (List Cert)) (hmax : 24 ≤ maxSdk)
    (h : verifySchemeV1 env ord z false minSdk maxSdk = .ok (c, none)) :
    ∃ mf sigs, newSchemeV1 env z = .ok (.ok (mf, sigs)) ∧ ∀ r ∈ sigs,
      (∃ info ∈ considered r.p7 minSdk, ∃ leaf, GoodSigner env r.p7 r.sm.rawData maxSdk info leaf) ∧
      ∀ ids, mget r.sm.main (b!"x-android-apk-signed") = some ids → ¬ ListsTwo ids := by
  obtain ⟨mf, sigs, hn, hl⟩ := verifySchemeV1_ok h
  obtain ⟨hacc, _⟩ := verifyV1Loaded_ok.1 hl
  refine ⟨mf, sigs, hn, fun r hr => ?_⟩
  obtain ⟨⟨ch, hv⟩, hd⟩ := judge_fine (hacc.noStop r hr) (hacc.noBad r hr)
  obtain ⟨leaf, _, info, hi, hg⟩ := verifySignature1_sound hv
  refine ⟨⟨info, hi, leaf, hg⟩, fun ids hids hc => ?_⟩
  unfold downgraded at hd
  rw [hids] at hd
  simp only [Bool.not_false, Bool.true_and] at hd
  have hs : supportsSigV2 maxSdk = true := by unfold supportsSigV2; simpa using hmax
  rw [hs, Bool.true_and, (listsScheme2_iff ids).2 hc] at hd
  cases hd

namespace Toy

/-- An extra attribute for signature files. -/
def signedAttrText (ids : Bytes) : Bytes := b!"X-Android-APK-Signed: " ++ ids ++ [13, 10]

/-- An archive whose signature file lists the schemes `ids`. -/
def exZipIds (ids : Bytes) : List ZFile := jar (signedAttrText ids) exFiles exFiles

end Toy

/-- C37 is not vacuous: the archive that lists "2, 3" is rejected, with a valid signing block or only for old platforms it is
    accepted; and an archive that lists only scheme 3 is accepted (the code looks for 2 only). -/
theorem C37_examples :
    (∃ c, verifySchemeV1 (Toy.jarEnv (Toy.signedAttrText (b!"2, 3")) Toy.exFiles) Toy.ord
      (Toy.zip1 (Toy.exZipIds (b!"2, 3")) (by decide +kernel)) false 24 30 = .ok (c, some .downgrade)) ∧
    (∃ c, verifySchemeV1 (Toy.jarEnv (Toy.signedAttrText (b!"2, 3")) Toy.exFiles) Toy.ord
      (Toy.zip1 (Toy.exZipIds (b!"2, 3")) (by decide +kernel)) true 24 30 = .ok (c, none)) ∧
    (∃ c, verifySchemeV1 (Toy.jarEnv (Toy.signedAttrText (b!"2, 3")) Toy.exFiles) Toy.ord
      (Toy.zip1 (Toy.exZipIds (b!"2, 3")) (by decide +kernel)) false 10 23 = .ok (c, none)) ∧
    (∃ c, verifySchemeV1 (Toy.jarEnv (Toy.signedAttrText (b!"3")) Toy.exFiles) Toy.ord
      (Toy.zip1 (Toy.exZipIds (b!"3")) (by decide +kernel)) false 28 30 = .ok (c, none)) := by
  refine ⟨?_, ?_, ?_, ?_⟩
  · obtain ⟨c, h, _⟩ := Toy.of_summary1 (r := verifySchemeV1 (Toy.jarEnv (Toy.signedAttrText (b!"2, 3")) Toy.exFiles) Toy.ord
      (Toy.zip1 (Toy.exZipIds (b!"2, 3")) (by decide +kernel)) false 24 30) (e := some .downgrade) (l := [[[0xC0, 1, 7]]]) (by decide +kernel)
    exact ⟨c, h⟩
  · obtain ⟨c, h, _⟩ := Toy.of_summary1 (r := verifySchemeV1 (Toy.jarEnv (Toy.signedAttrText (b!"2, 3")) Toy.exFiles) Toy.ord
      (Toy.zip1 (Toy.exZipIds (b!"2, 3")) (by decide +kernel)) true 24 30) (e := none) (l := [[[0xC0, 1, 7]]]) (by decide +kernel)
    exact ⟨c, h⟩
  · obtain ⟨c, h, _⟩ := Toy.of_summary1 (r := verifySchemeV1 (Toy.jarEnv (Toy.signedAttrText (b!"2, 3")) Toy.exFiles) Toy.ord
      (Toy.zip1 (Toy.exZipIds (b!"2, 3")) (by decide +kernel)) false 10 23) (e := none) (l := [[[0xC0, 1, 7]]]) (by decide +kernel)
    exact ⟨c, h⟩
  · obtain ⟨c, h, _⟩ := Toy.of_summary1 (r := verifySchemeV1 (Toy.jarEnv (Toy.signedAttrText (b!"3")) Toy.exFiles) Toy.ord
      (Toy.zip1 (Toy.exZipIds (b!"3")) (by decide +kernel)) false 28 30) (e := none) (l := [[[0xC0, 1, 7]]]) (by decide +kernel)
    exact ⟨c, h⟩

/-! ## C39: independence of the enumeration orders -/

theorem newSchemeV1_zip {env : Env1} {z1 z2 : Zip1} (h : z1.zip = z2.zip) : newSchemeV1 env z1 = newSchemeV1 env z2 := by
  unfold newSchemeV1
  rw [h]

theorem goodOf_ord (env : Env1) (o1 o2 : Ord1) (mf : Manifest) (hasBlock : Bool) (minSdk maxSdk : Int) :
    goodOf env o1 mf hasBlock minSdk maxSdk = goodOf env o2 mf hasBlock minSdk maxSdk := by
  funext s; unfold goodOf; rw [judge_ord env o1 o2]

theorem chainOf_ord (env : Env1) (o1 o2 : Ord1) (mf : Manifest) (hasBlock : Bool) (minSdk maxSdk : Int) :
    chainOf env o1 mf hasBlock minSdk maxSdk = chainOf env o2 mf hasBlock minSdk maxSdk := by
  funext s; unfold chainOf; rw [judge_ord env o1 o2]

theorem requiredPaths_mem {z1 z2 : Zip1} (h : z1.zip = z2.zip) (p : Bytes) : p ∈ requiredPaths z1 ↔ p ∈ requiredPaths z2 := by
  rw [mem_requiredPaths, mem_requiredPaths]
  unfold Protected
  rw [h]

theorem Accepts.ord {env : Env1} {o1 o2 : Ord1} {z1 z2 : Zip1} (hz : z1.zip = z2.zip) {mf : Manifest} {sigs : List Ready} {hasBlock : Bool}
    {minSdk maxSdk : Int} (h : Accepts env o1 z1 mf sigs hasBlock minSdk maxSdk) : Accepts env o2 z2 mf sigs hasBlock minSdk maxSdk := by
  have g := goodOf_ord env o1 o2 mf hasBlock minSdk maxSdk
  have k := chainOf_ord env o1 o2 mf hasBlock minSdk maxSdk
  refine ⟨fun s hs => ?_, fun s hs => ?_, g ▸ h.some, k ▸ h.few, hz ▸ h.present, fun p hp => ?_, fun p hp q hq => ?_⟩
  · have := h.noStop s hs
    unfold stopsAt at *
    rwa [judge_ord env o1 o2] at this
  · have := h.noBad s hs
    unfold isBad at *
    rwa [judge_ord env o1 o2] at this
  · have := h.files p ((requiredPaths_mem hz p).2 hp)
    rwa [g, hz] at this
  · have := h.same p ((requiredPaths_mem hz p).2 hp) q ((requiredPaths_mem hz q).2 hq)
    rwa [g] at this

/-- C39: whether v1 verification succeeds does not depend on the orders in which the maps (signatures, entries of the
    manifest and of the signature files, files of the archive) are enumerated; the reported chains are the same up to order
    and repetitions. -/
theorem C39_order_independent (env : Env1) (o1 o2 : Ord1) (z1 z2 : Zip1) (hz : z1.zip = z2.zip) (hasBlock : Bool) (minSdk maxSdk : Int)
    (c1 : List (List Cert)) (h : verifySchemeV1 env o1 z1 hasBlock minSdk maxSdk = .ok (c1, none)) :
    ∃ c2, verifySchemeV1 env o2 z2 hasBlock minSdk maxSdk = .ok (c2, none) ∧ c1.length = c2.length ∧
      ∀ r, r ∈ c1.map (fun ch => ch.map Cert.raw) ↔ r ∈ c2.map (fun ch => ch.map Cert.raw) := by
  obtain ⟨mf, sigs, hn, hl⟩ := verifySchemeV1_ok h
  obtain ⟨hacc, hc⟩ := verifyV1Loaded_ok.1 hl
  have hn2 : newSchemeV1 env z2 = .ok (.ok (mf, sigs)) := by rw [← newSchemeV1_zip hz]; exact hn
  have hacc2 : Accepts env o2 z2 mf sigs hasBlock minSdk maxSdk := hacc.ord hz
  have g := goodOf_ord env o1 o2 mf hasBlock minSdk maxSdk
  have k := chainOf_ord env o1 o2 mf hasBlock minSdk maxSdk
  have hok := (verifyV1Loaded_ok (c := _)).2 ⟨hacc2, rfl⟩
  have hrun : ∀ {c}, verifyV1Loaded env o2 z2 mf sigs hasBlock minSdk maxSdk = .ok (c, none) →
      verifySchemeV1 env o2 z2 hasBlock minSdk maxSdk = .ok (c, none) := by
    intro c hx
    unfold verifySchemeV1
    rw [hn2]
    exact hx
  refine ⟨_, hrun hok, certChainsMatch_iff _ _ |>.1 ?_⟩
  · rw [hc]
    have hp : (o1.sigs sigs).Perm (o2.sigs sigs) := (o1.sigs_perm sigs).trans (o2.sigs_perm sigs).symm
    have hp1 := (o1.sigs_perm sigs).filterMap (goodOf env o1 mf hasBlock minSdk maxSdk)
    have hp2 := (o2.sigs_perm sigs).filterMap (goodOf env o2 mf hasBlock minSdk maxSdk)
    cases h1 : requiredPaths z1 with
    | nil =>
      have h2 : requiredPaths z2 = [] := by
        cases h2 : requiredPaths z2 with
        | nil => rfl
        | cons p ps =>
          have := (requiredPaths_mem hz p).2 (by rw [h2]; exact List.mem_cons_self)
          rw [h1] at this
          cases this
      rw [h2]
      dsimp only
      rw [k]
      exact certChainsMatch_of_perm (hp.filterMap _)
    | cons p ps =>
      cases h2 : requiredPaths z2 with
      | nil =>
        have := (requiredPaths_mem hz p).1 (by rw [h1]; exact List.mem_cons_self)
        rw [h2] at this
        cases this
      | cons q qs =>
        dsimp only
        have a := hacc2.same p ((requiredPaths_mem hz p).1 (by rw [h1]; exact List.mem_cons_self)) q (by rw [h2]; exact List.mem_cons_self)
        rw [g] at hp1 ⊢
        exact certChainsMatch_trans (certChainsMatch_of_perm (coverChains_perm ((o1.cover_perm p _).trans hp1) p))
          (certChainsMatch_trans a (certChainsMatch_of_perm (coverChains_perm ((o2.cover_perm q _).trans hp2).symm q)))

/-- C39, the other direction: if v1 verification fails or panics for one order it does so for all. -/
theorem C39_failure_order_independent (env : Env1) (o1 o2 : Ord1) (z1 z2 : Zip1) (hz : z1.zip = z2.zip) (hasBlock : Bool) (minSdk maxSdk : Int)
    (h : ∀ c, verifySchemeV1 env o1 z1 hasBlock minSdk maxSdk ≠ .ok (c, none)) (c : List (List Cert)) :
    verifySchemeV1 env o2 z2 hasBlock minSdk maxSdk ≠ .ok (c, none) := by
  intro hc
  obtain ⟨c', hc', _⟩ := C39_order_independent env o2 o1 z2 z1 hz.symm hasBlock minSdk maxSdk c hc
  exact h c' hc'

end Apk
