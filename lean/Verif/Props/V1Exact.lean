import Verif.Props.V1Auth
import Verif.Proofs.V1ExactTop
/-! # C62 (exactly which archives the v1 scheme accepts, and with which chains), C63 (certificate extraction) -/
namespace Apk

theorem loaded_signatures {env : Env1} {z : Zip1} (hd : DistinctStems z) {mf : Manifest} {sigs : List Ready} (h : newSchemeV1 env z = .ok (.ok (mf, sigs))) :
    SignaturesAre env z sigs := by
  obtain ⟨h1, h2⟩ := newSchemeV1_sigs hd h
  exact ⟨h1, List.Pairwise.of_map Ready.name (fun a b hab e => hab (by rw [e])) h2⟩

theorem SignaturesAre.perm {env : Env1} {z : Zip1} {a b : List Ready} (h1 : SignaturesAre env z a) (h2 : SignaturesAre env z b) : a.Perm b :=
  (List.perm_ext_iff_of_nodup h1.2 h2.2).2 (fun r => (h1.1 r).trans (h2.1 r).symm)

theorem TheManifest.unique {z : Zip1} {a b : Manifest} (h1 : TheManifest z a) (h2 : TheManifest z b) : a = b := by
  obtain ⟨f, hf, ha⟩ := h1
  obtain ⟨g, hg, hb⟩ := h2
  rw [hf] at hg
  cases hg
  have e := (parseManifest_iff.2 ha).symm.trans (parseManifest_iff.2 hb)
  cases e
  rfl

/-- C62: an archive (whose signature blocks have distinct names) passes v1 verification exactly when it has one readable main
    manifest, all signature blocks with a signature file next to them are readable, and the signatures satisfy `JarAccepted`:
    every one is valid, at least one counts, there are at most ten, none reveals a downgrade, the files named in the manifest
    exist, and the required files have right digests and all the same signers. This holds for every enumeration order. -/
theorem C62_accepted_iff (env : Env1) (ord : Ord1) (z : Zip1) (hasBlock : Bool) (minSdk maxSdk : Int) (hd : DistinctStems z) :
    (∃ c, verifySchemeV1 env ord z hasBlock minSdk maxSdk = .ok (c, none)) ↔
      ∃ mf sigs, TheManifest z mf ∧ PairsReadable env z ∧ SignaturesAre env z sigs ∧ JarAccepted env z mf sigs hasBlock minSdk maxSdk := by
  constructor
  · rintro ⟨c, h⟩
    obtain ⟨mf, sigs, hn, hl⟩ := verifySchemeV1_ok h
    obtain ⟨h1, h2, _⟩ := (newSchemeV1_iff hd).1 ⟨sigs, hn⟩
    exact ⟨mf, sigs, h1, h2, loaded_signatures hd hn, accepts_iff.1 (verifyV1Loaded_ok.1 hl).1⟩
  · rintro ⟨mf, sigs, h1, h2, h3, h4⟩
    obtain ⟨r, hr, _⟩ := h4.counts
    obtain ⟨sigs', hn⟩ := (newSchemeV1_iff hd).2 ⟨h1, h2, r, (h3.1 r).1 hr⟩
    have hp := h3.perm (loaded_signatures hd hn)
    have hv := (verifyV1Loaded_ok (ord := ord)).2 ⟨accepts_iff.2 (h4.perm hp), rfl⟩
    exact ⟨_, by unfold verifySchemeV1; rw [hn]; exact hv⟩

/-- C62: the chains that an accepting verification reports, one for each signature that counts and lists the file, whatever
    required file one takes (and one for each signature, if there is no required file). -/
theorem C62_reported_chains (env : Env1) (ord : Ord1) (z : Zip1) (hasBlock : Bool) (minSdk maxSdk : Int) (hd : DistinctStems z) (c : List (List Cert))
    (h : verifySchemeV1 env ord z hasBlock minSdk maxSdk = .ok (c, none)) (mf : Manifest) (hmf : TheManifest z mf) (sigs : List Ready)
    (hs : SignaturesAre env z sigs) :
    (∀ p, Required z p → ChainsOf env minSdk maxSdk sigs (CountsFor env mf minSdk maxSdk p) c) ∧
    ((∀ p, ¬ Required z p) → ChainsOf env minSdk maxSdk sigs (fun _ => True) c) := by
  obtain ⟨mf', sigs', hn, hl⟩ := verifySchemeV1_ok h
  have hm : mf' = mf := ((newSchemeV1_iff hd).1 ⟨sigs', hn⟩).1.unique hmf
  subst hm
  have hp := (loaded_signatures hd hn).perm hs
  obtain ⟨h1, h2⟩ := verifyV1Loaded_chains hl
  exact ⟨fun p hr => (h1 p hr).perm hp (.refl _), fun hr => (h2 hr).perm hp (.refl _)⟩

/-! ## Extraction -/

theorem extractLoop_iff {env : Env1} {minSdk maxSdk : Int} {ss : List Ready} {c0 c : List (List Cert)} :
    extractLoop env minSdk maxSdk ss (c0, false) = .ok (c, false) ↔
      ∃ leaves, leaves.length = ss.length ∧ (∀ p ∈ ss.zip leaves, BlockSigns env p.1.p7 p.1.sm.rawData minSdk maxSdk p.2) ∧
        c = c0 ++ (ss.zip leaves).map (fun p => buildChain env p.1.p7.certs p.2) := by
  have bad : ∀ {ss : List Ready} {c0 c : List (List Cert)}, extractLoop env minSdk maxSdk ss (c0, true) ≠ .ok (c, false) := by
    intro ss
    induction ss with
    | nil => intro c0 c h; cases h
    | cons s ss ih =>
      intro c0 c h
      unfold extractLoop at h
      split at h
      · cases h
      · exact ih h
  induction ss generalizing c0 with
  | nil =>
    simp only [extractLoop, Except.ok.injEq, Prod.mk.injEq, and_true, List.length_nil, List.zip_nil_left, List.not_mem_nil, false_implies, implies_true,
      List.map_nil, List.append_nil, true_and]
    constructor
    · rintro rfl; exact ⟨[], rfl, rfl⟩
    · rintro ⟨_, _, h⟩; exact h.symm
  | cons s ss ih =>
    unfold extractLoop
    constructor
    · intro h
      split at h
      · cases h
      · rename_i o e hv
        cases e with
        | some e => exact absurd h bad
        | none =>
          obtain ⟨leaf, hb, rfl⟩ := verifySignature1_iff.1 hv
          obtain ⟨ls, h1, h2, h3⟩ := ih.1 h
          refine ⟨leaf :: ls, by simp [h1], ?_, ?_⟩
          · rw [List.zip_cons_cons, List.forall_mem_cons]; exact ⟨hb, h2⟩
          · rw [h3]; simp
    · rintro ⟨ls, h1, h2, h3⟩
      cases ls with
      | nil => cases h1
      | cons leaf ls =>
        rw [List.zip_cons_cons, List.forall_mem_cons] at h2
        rw [verifySignature1_iff.2 ⟨leaf, h2.1, rfl⟩]
        simp only
        refine ih.2 ⟨ls, by simpa using h1, h2.2, ?_⟩
        rw [h3]; simp

theorem extract_all {env : Env1} {minSdk maxSdk : Int} {ss : List Ready} :
    (∀ r ∈ ss, ∃ leaf, BlockSigns env r.p7 r.sm.rawData minSdk maxSdk leaf) ↔
      ∃ leaves, leaves.length = ss.length ∧ ∀ p ∈ ss.zip leaves, BlockSigns env p.1.p7 p.1.sm.rawData minSdk maxSdk p.2 := by
  induction ss with
  | nil => simp
  | cons s ss ih =>
    rw [List.forall_mem_cons, ih]
    constructor
    · rintro ⟨⟨leaf, h1⟩, ls, h2, h3⟩
      exact ⟨leaf :: ls, by simp [h2], by rw [List.zip_cons_cons, List.forall_mem_cons]; exact ⟨h1, h3⟩⟩
    · rintro ⟨ls, h1, h2⟩
      cases ls with
      | nil => cases h1
      | cons leaf ls =>
        rw [List.zip_cons_cons, List.forall_mem_cons] at h2
        exact ⟨⟨leaf, h2.1⟩, ls, by simpa using h1, h2.2⟩

open Classical in
theorem extract_chains {env : Env1} {minSdk maxSdk : Int} {ss : List Ready} {leaves : List Cert} (h1 : leaves.length = ss.length)
    (h2 : ∀ p ∈ ss.zip leaves, BlockSigns env p.1.p7 p.1.sm.rawData minSdk maxSdk p.2) :
    ChainsOf env minSdk maxSdk ss (fun _ => True) ((ss.zip leaves).map (fun p => buildChain env p.1.p7.certs p.2)) := by
  unfold ChainsOf
  induction ss generalizing leaves with
  | nil => simp
  | cons s ss ih =>
    cases leaves with
    | nil => cases h1
    | cons leaf ls =>
      rw [List.zip_cons_cons, List.forall_mem_cons] at h2
      obtain ⟨ih1, ih2⟩ := ih (leaves := ls) (by simpa using h1) h2.2
      rw [List.zip_cons_cons, List.map_cons, List.length_cons, ih1, List.countP_cons]
      refine ⟨by simp, fun raws => ?_⟩
      rw [List.map_cons, List.mem_cons, ih2]
      constructor
      · rintro (h | ⟨r, hr, h⟩)
        · exact ⟨s, List.mem_cons_self, trivial, (sigChain_iff h2.1).2 h⟩
        · exact ⟨r, List.mem_cons_of_mem _ hr, h⟩
      · rintro ⟨r, hr, h4, h5⟩
        rcases List.mem_cons.1 hr with rfl | hr
        · exact .inl ((sigChain_iff h2.1).1 h5)
        · exact .inr ⟨r, hr, h4, h5⟩

theorem extractCertsV1_iff {env : Env1} {ord : Ord1} {z : Zip1} {minSdk maxSdk : Int} {c : List (List Cert)} :
    extractCertsV1 env ord z minSdk maxSdk = .ok (c, none) ↔
      ∃ mf sigs, newSchemeV1 env z = .ok (.ok (mf, sigs)) ∧ extractLoop env minSdk maxSdk (ord.sigs sigs) ([], false) = .ok (c, false) := by
  unfold extractCertsV1
  constructor
  · intro h
    split at h
    · cases h
    · cases h
    · rename_i mf sigs hn
      split at h
      · cases h
      · rename_i c' bad hl
        cases bad with
        | true => cases h
        | false => cases h; exact ⟨mf, sigs, hn, hl⟩
  · rintro ⟨mf, sigs, hn, hl⟩
    rw [hn]
    simp only
    rw [hl]
    rfl

/-- C63: certificate extraction for v1 succeeds exactly when the archive has one readable main manifest, readable pairs, at least
    one signature, and all signatures are valid (nothing else about them is checked); -/
theorem C63_extracted_iff (env : Env1) (ord : Ord1) (z : Zip1) (minSdk maxSdk : Int) (hd : DistinctStems z) :
    (∃ c, extractCertsV1 env ord z minSdk maxSdk = .ok (c, none)) ↔
      (∃ mf, TheManifest z mf) ∧ PairsReadable env z ∧ (∃ r, TheSignature env z r) ∧
      ∀ r, TheSignature env z r → ∃ leaf, BlockSigns env r.p7 r.sm.rawData minSdk maxSdk leaf := by
  constructor
  · rintro ⟨c, h⟩
    obtain ⟨mf, sigs, hn, hl⟩ := extractCertsV1_iff.1 h
    obtain ⟨h1, h2, h3⟩ := (newSchemeV1_iff hd).1 ⟨sigs, hn⟩
    refine ⟨⟨mf, h1⟩, h2, h3, fun r hr => ?_⟩
    obtain ⟨ls, l1, l2, _⟩ := extractLoop_iff.1 hl
    exact extract_all.2 ⟨ls, l1, l2⟩ r ((ord.sigs_perm sigs).mem_iff.2 (((newSchemeV1_sigs hd hn).1 r).2 hr))
  · rintro ⟨⟨mf, h1⟩, h2, h3, h4⟩
    obtain ⟨sigs, hn⟩ := (newSchemeV1_iff hd).2 ⟨h1, h2, h3⟩
    obtain ⟨ls, l1, l2⟩ := extract_all.1 (fun r hr => h4 r (((newSchemeV1_sigs hd hn).1 r).1 ((ord.sigs_perm sigs).mem_iff.1 hr)))
    exact ⟨_, extractCertsV1_iff.2 ⟨mf, sigs, hn, extractLoop_iff.2 ⟨ls, l1, l2, rfl⟩⟩⟩

/-- C63: … and then it reports one chain for each signature of the archive. -/
theorem C63_extracted_chains (env : Env1) (ord : Ord1) (z : Zip1) (minSdk maxSdk : Int) (hd : DistinctStems z) (c : List (List Cert))
    (h : extractCertsV1 env ord z minSdk maxSdk = .ok (c, none)) (sigs : List Ready) (hs : SignaturesAre env z sigs) :
    ChainsOf env minSdk maxSdk sigs (fun _ => True) c := by
  obtain ⟨mf, sigs', hn, hl⟩ := extractCertsV1_iff.1 h
  obtain ⟨ls, l1, l2, l3⟩ := extractLoop_iff.1 hl
  rw [List.nil_append] at l3
  rw [l3]
  exact (extract_chains l1 l2).perm ((ord.sigs_perm sigs').trans ((loaded_signatures hd hn).perm hs)) (.refl _)

/-- C63: an archive that passes verification also passes extraction, and every chain reported by verification is reported by
    extraction; whatever the enumeration orders of the two runs. -/
theorem C63_verify_then_extract (env : Env1) (ord ord' : Ord1) (z : Zip1) (hasBlock : Bool) (minSdk maxSdk : Int) (hd : DistinctStems z) (c : List (List Cert))
    (h : verifySchemeV1 env ord z hasBlock minSdk maxSdk = .ok (c, none)) :
    ∃ d, extractCertsV1 env ord' z minSdk maxSdk = .ok (d, none) ∧
      ∀ raws ∈ c.map (fun ch => ch.map Cert.raw), raws ∈ d.map (fun ch => ch.map Cert.raw) := by
  obtain ⟨mf, sigs, h1, h2, h3, h4⟩ := (C62_accepted_iff env ord z hasBlock minSdk maxSdk hd).1 ⟨c, h⟩
  obtain ⟨r, hr, _⟩ := h4.counts
  obtain ⟨d, hx⟩ := (C63_extracted_iff env ord' z minSdk maxSdk hd).2 ⟨⟨mf, h1⟩, h2, ⟨r, (h3.1 r).1 hr⟩, fun r hr => h4.valid r ((h3.1 r).2 hr)⟩
  refine ⟨d, hx, fun raws hm => ?_⟩
  have hdx := C63_extracted_chains env ord' z minSdk maxSdk hd d hx sigs h3
  obtain ⟨c1, c2⟩ := C62_reported_chains env ord z hasBlock minSdk maxSdk hd c h mf h1 sigs h3
  rw [hdx.2]
  by_cases hreq : ∃ p, Required z p
  · obtain ⟨p, hp⟩ := hreq
    obtain ⟨r, hr, _, h5⟩ := ((c1 p hp).2 raws).1 hm
    exact ⟨r, hr, trivial, h5⟩
  · obtain ⟨r, hr, _, h5⟩ := ((c2 (fun p hp => hreq ⟨p, hp⟩)).2 raws).1 hm
    exact ⟨r, hr, trivial, h5⟩

theorem Toy.exZip_stems : DistinctStems Toy.exZip := by
  have key : Toy.exZip.zip.ordered.Pairwise (fun f g => isBlockName f.name = false ∨ isBlockName g.name = false) := by decide +kernel
  refine List.Pairwise.imp ?_ key
  intro f g h s hf hg
  have isb : ∀ {f : ZFile}, BlockStem f s → isBlockName f.name = true := by
    rintro f ⟨dir, ext, hn, he, hp, _⟩
    exact isBlockName_of (isBlock_base hp he hn) he hn
  rcases h with h | h
  · rw [isb hf] at h; cases h
  · rw [isb hg] at h; cases h

/-- The example archive meets the conditions of C62 and C63: it has a required file, it is accepted, and the conditions on the right
    hold for it. -/
theorem C62_example :
    DistinctStems Toy.exZip ∧ Required Toy.exZip (b!"classes.dex") ∧
    (∃ c, verifySchemeV1 (Toy.jarEnv [] Toy.exFiles) Toy.ord Toy.exZip false 24 30 = .ok (c, none) ∧ c.map (fun ch => ch.map Cert.raw) = [[[0xC0, 1, 7]]]) ∧
    ∃ mf sigs, TheManifest Toy.exZip mf ∧ PairsReadable (Toy.jarEnv [] Toy.exFiles) Toy.exZip ∧ SignaturesAre (Toy.jarEnv [] Toy.exFiles) Toy.exZip sigs ∧
      JarAccepted (Toy.jarEnv [] Toy.exFiles) Toy.exZip mf sigs false 24 30 := by
  have h := Toy.of_summary1 (r := verifySchemeV1 (Toy.jarEnv [] Toy.exFiles) Toy.ord Toy.exZip false 24 30) (e := none) (l := [[[0xC0, 1, 7]]]) (by decide +kernel)
  refine ⟨Toy.exZip_stems, .inl ⟨_, rfl, rfl, by decide, by decide⟩, h, ?_⟩
  obtain ⟨c, h, _⟩ := h
  exact (C62_accepted_iff _ _ _ _ _ _ Toy.exZip_stems).1 ⟨c, h⟩

end Apk
