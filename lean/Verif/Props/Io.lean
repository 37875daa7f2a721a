import Verif.Proofs.IoVerdict
import Verif.Props.TopMore
import Verif.Props.Frosting
/-! # C79: I/O errors

Verification with a reader whose calls may fail (`Model/Io`), compared with verification of the bytes of the file. -/
namespace Apk

/-- C79: with a reader that shows the file and never fails inside it, verification of the signing block gives what it gives on the bytes. -/
theorem C79_no_failure {d : Disk} {file : Bytes} (ho : d.Over file) (hn : ¬ d.Fails file) (env : Env) (zip : Zip) (minSdk maxSdk : Int) :
    verifyBlockIo env zip d minSdk maxSdk = verifySigningBlock env zip file minSdk maxSdk ∧
    extractCertsIo env d maxSdk = extractCertsReader env file maxSdk :=
  ⟨verifyBlockIo_eq ho hn env zip minSdk maxSdk, extractCertsIo_eq ho hn env maxSdk⟩

/-- C79: the same for the package API. -/
theorem C79_no_failure_package {d : Disk} {file : Bytes} (ho : d.Over file) (hn : ¬ d.Fails file) (env : EnvT) (ord : Ord1)
    (z : Option Zip1) (minSdk maxSdk : Int) :
    verifyTopIo env ord z d minSdk maxSdk = verifyTop env ord z file minSdk maxSdk ∧
    extractTopIo env ord z d = extractTop env ord z file := by
  constructor
  · unfold verifyTopIo verifyTop
    cases z with
    | none => rfl
    | some z => simp only [verifyBlockIo_eq ho hn]; rfl
  · unfold extractTopIo extractTop
    cases z with
    | none => rfl
    | some z => simp only [extractCertsIo_eq ho hn]; rfl

/-- C79: whatever calls fail, an accepted signing block of a file that is not ZIP64 is one that is accepted without failures. -/
theorem C79_accepted_despite_failures {d : Disk} {file : Bytes} (ho : d.Over file) (hz : ¬ Zip64 file) {env : Env} {zip : Zip}
    {minSdk maxSdk : Int} {out out' : Outcome} (h : verifyBlockIo env zip d minSdk maxSdk = .ok out) (he : out.err = none)
    (h' : verifySigningBlock env zip file minSdk maxSdk = .ok out') : out'.err = none :=
  (verifyBlockIo_accepts ho hz h he h').1

/-- C79: the scheme, certificates, lineage, errors and warnings, the v3 result and the source stamp are then the same too, unless a range that
    begins below Android 9 was verified again after an unreadable digest; that leaves a warning. -/
theorem C79_same_result {d : Disk} {file : Bytes} (ho : d.Over file) (hz : ¬ Zip64 file) {env : Env} {zip : Zip}
    {minSdk maxSdk : Int} {out out' : Outcome} (h : verifyBlockIo env zip d minSdk maxSdk = .ok out) (he : out.err = none)
    (h' : verifySigningBlock env zip file minSdk maxSdk = .ok out')
    (hr : 28 ≤ minSdk ∨ maxSdk < 28 ∨ ∀ res, out.res = some res → ∀ e, W.v3Error (.digestCompute e) ∉ res.core.warnings) :
    ∃ a b, out.res = some a ∧ out'.res = some b ∧ a.core = b.core ∧ a.v3 = b.v3 ∧ a.stamp = b.stamp := by
  rcases (verifyBlockIo_accepts ho hz h he h').2 with hs | ⟨hm, hM, res, hres, _, e, hw⟩
  · exact hs
  · rcases hr with hr | hr | hr
    · omega
    · omega
    · exact absurd hw (hr res hres e)

/-- C79: a Google Play signature (frosting) that is reported without an error in spite of failures is reported so without them. -/
theorem C79_frosting_despite_failures {d : Disk} {file : Bytes} (ho : d.Over file) (hz : ¬ Zip64 file) {env : Env} {zip : Zip}
    {minSdk maxSdk : Int} {out out' : Outcome} (h : verifyBlockIo env zip d minSdk maxSdk = .ok out)
    (h' : verifySigningBlock env zip file minSdk maxSdk = .ok out') {r : VRes} (hr : out.res = some r) {x : FrostRes}
    (hx : r.frosting = some x) (hx0 : x.error = none) : ∃ r', out'.res = some r' ∧ r'.frosting = some x :=
  frosting_despite ho hz h h' hr hx hx0

theorem blockIo_outcome {d : Disk} {file : Bytes} (ho : d.Over file) (hz : ¬ Zip64 file) {env : Env} {zip : Zip}
    {minSdk maxSdk : Int} {out out' : Outcome} (h : verifyBlockIo env zip d minSdk maxSdk = .ok out) (he : out.err = none)
    (h' : verifySigningBlock env zip file minSdk maxSdk = .ok out') :
    out'.err = none ∧ out'.magic = out.magic ∧ (2 ≤ (blockPart out).schemeId → 2 ≤ (blockPart out').schemeId) := by
  obtain ⟨he', hs⟩ := verifyBlockIo_accepts ho hz h he h'
  obtain ⟨_, _, _, _, _, _, _, _, _, _, _, _, _, _, _, _, _, _, _, _, hres, hmag⟩ := verifyBlockIo_inv ho hz h he
  obtain ⟨_, hmag', _⟩ := outcome_long h' (.inl he')
  refine ⟨he', by rw [hmag', hmag], fun h2 => ?_⟩
  obtain ⟨r, hr, hsch⟩ := block_scheme h' he'
  rw [blockPart_ok he' hr]; simp only
  rcases hsch with ⟨hlt, _, _⟩ | ⟨_, h3⟩
  · exfalso
    rcases hs with ⟨a, b, ha, hb, hc, _⟩ | ⟨_, hM, _⟩
    · rw [blockPart_ok he ha] at h2; simp only [hc] at h2
      rw [hr] at hb
      cases hb
      rcases block_scheme h' he' with ⟨r2, hr2, hx⟩
      rw [hr] at hr2
      cases hr2
      omega
    · omega
  · omega

/-- C79: a package accepted with a signing block in spite of failures is accepted without them. -/
theorem C79_package_despite_failures {d : Disk} {file : Bytes} (ho : d.Over file) (hz : ¬ Zip64 file) {env : EnvT} {ord : Ord1}
    {z : Option Zip1} {minSdk maxSdk : Int} {res : TopRes} (h : verifyTopIo env ord z d minSdk maxSdk = .ok (res, none))
    (hs : 2 ≤ res.schemeId) {res' : TopRes} {e' : Option TopE} (h' : verifyTop env ord z file minSdk maxSdk = .ok (res', e')) :
    e' = none ∧ 2 ≤ res'.schemeId := by
  unfold verifyTopIo at h
  unfold verifyTop at h'
  cases z with
  | none => simp at h
  | some z =>
    simp only at h h'
    rcases hfx : sdkFacts env z minSdk maxSdk with ⟨i, me⟩
    rw [hfx] at h h'
    simp only at h h'
    by_cases hr : i.min > maxSdk
    · rw [if_pos hr] at h; cases h
    rw [if_neg hr] at h h'
    cases hb : verifyBlockIo env.toEnv z.zip d i.min maxSdk with
    | error p => rw [hb] at h; cases h
    | ok out =>
      cases hb' : verifySigningBlock env.toEnv z.zip file i.min maxSdk with
      | error p => rw [hb'] at h'; cases h'
      | ok out' =>
        rw [hb] at h
        rw [hb'] at h'
        simp only at h h'
        by_cases hnf : isNotFound out.err = true
        · exfalso
          have hne : out.err ≠ none := by intro h; rw [h] at hnf; cases hnf
          rw [if_pos hnf] at h
          simp only at h
          rw [if_neg (fun h => hne h.2)] at h
          split at h
          · cases h
          · have hv := (v1Part_none.1 (Except.ok.inj h)).2.2.2.2
            rw [hv] at hs
            simp only [(blockPart_err hnf).1] at hs
            omega
        · rw [if_neg hnf] at h
          cases he : out.err with
          | some e => rw [he] at h; simp at h
          | none =>
            rw [he] at h
            obtain ⟨he', hmag, hsch⟩ := blockIo_outcome ho hz hb he hb'
            rw [he'] at h'
            simp only [isNotFound, Bool.false_eq_true, if_false] at h h'
            by_cases hs2 : supportsSigV2 i.min = true
            · rw [if_pos ⟨hs2, trivial⟩] at h h'
              have h1 := congrArg Prod.fst (Except.ok.inj h)
              have h2 := Except.ok.inj h'
              simp only at h1
              simp only [Prod.mk.injEq] at h2
              rw [← h1] at hs
              exact ⟨h2.2.symm, by rw [← h2.1]; exact hsch hs⟩
            · rw [if_neg (fun h => hs2 h.1)] at h h'
              cases hv : verifySchemeV1 env.toEnv1 ord z (none : Option E).isNone i.min maxSdk with
              | error p => rw [hv] at h; cases h
              | ok y =>
                obtain ⟨c, e⟩ := y
                rw [hv] at h h'
                obtain ⟨g1, g2, g3, g4, g5⟩ := v1Part_none.1 (Except.ok.inj h)
                have hs0 : 2 ≤ (blockPart out).schemeId := by rw [g5] at hs; exact hs
                have hs1 := hsch hs0
                have hsb : sandboxError i maxSdk out'.err (blockPart out').schemeId = none := by
                  have n1 : ¬ (blockPart out').schemeId < 2 := by omega
                  unfold sandboxError
                  rw [he', if_neg (fun h => h.2.2.elim (fun h => h rfl) n1), if_neg (fun h => n1 h.2.2)]
                have hacc := (v1Part_none (i := i) (manErr := me) (maxSdk := maxSdk) (out := out') (c := c) (e := e)).2
                  ⟨hsb, g2, fun _ => g3 (by omega), by rw [hmag]; exact g4, rfl⟩
                have h2 := Except.ok.inj h'
                rw [hacc] at h2
                simp only [Prod.mk.injEq] at h2
                exact ⟨h2.2.symm, by rw [← h2.1]; exact hs1⟩

/-! ## Examples and limits -/

namespace Toy

/-- A reader over the file some of whose calls fail. -/
def flaky (file : Bytes) (bad : List Nat) : Disk where
  size := some file.length
  read t off n := if t ∈ bad then none else readFull file off n
  read_len {t off n b} h := by
    split at h
    · cases h
    · unfold readFull at h
      split at h
      · cases h; unfold slice; rw [List.length_take, List.length_drop]; omega
      · cases h

theorem flaky_over (file : Bytes) (bad : List Nat) : (flaky file bad).Over file where
  size n h := by cases h; rfl
  read t off n b h := by
    simp only [flaky] at h
    split at h
    · cases h
    · unfold readFull at h
      split at h
      · rename_i hb; cases h; exact ⟨hb, rfl⟩
      · cases h

theorem flaky_sound (file : Bytes) : ¬ (flaky file []).Fails file := by
  rintro (h | ⟨t, off, n, hb, h⟩)
  · cases h
  · simp only [flaky, List.not_mem_nil, if_false, readFull] at h
    rw [if_pos hb] at h
    cases h

/-- Not a ZIP64 file, checked. -/
theorem not_zip64 {file : Bytes} (h : (match findEocd file with | .ok l => !isZip64 file l | .error _ => false) = true) : ¬ Zip64 file := by
  cases hE : findEocd file with
  | error e => rw [hE] at h; cases h
  | ok l =>
    rw [hE] at h
    intro hz
    simp only [(zip64_iff hE).2 hz] at h
    cases h

/-- A central directory that ends like a ZIP64 locator. -/
def cdir64 : Bytes := [0x50, 0x4b, 6, 7] ++ List.replicate 16 0
/-- A file with that directory, signed with v2. -/
def apk64 : Bytes :=
  let area := encPairs [(idV2, block [v2signer k1 (chunkedDigest env.sha256 (signedSections head cdir64 (eocd cdir64.length 0))) []])]
  head ++ sigBlock area ++ cdir64 ++ eocd cdir64.length (head ++ sigBlock area).length

/-- An APK with v3.1, v3 and v2 signatures. -/
def psAll : List (Nat × Bytes) := psV31 ++ [(idV2, block [v2signer k1 digest []])]

/-- An APK whose v2 signature is for other contents. -/
def psOther : List (Nat × Bytes) := [(idV2, block [v2signer k1 (digest.map (· + 1)) []])]

end Toy

set_option maxRecDepth 10000 in
/-- The hypotheses of `C79_accepted_despite_failures`: the first read of the end of the file fails and is repeated; the file is accepted, with
    the result of the undisturbed run. -/
theorem C79_example :
    (Toy.flaky (Toy.apkOf Toy.psV2) [1]).Over (Toy.apkOf Toy.psV2) ∧ (Toy.flaky (Toy.apkOf Toy.psV2) [1]).Fails (Toy.apkOf Toy.psV2) ∧
    ¬ Zip64 (Toy.apkOf Toy.psV2) ∧
    ∃ out, verifyBlockIo Toy.env Toy.noZip (Toy.flaky (Toy.apkOf Toy.psV2) [1]) 24 35 = .ok out ∧
      Toy.summary out = (some (2, [[Toy.certOf Toy.k1]], []), none) := by
  refine ⟨Toy.flaky_over _ _, .inr ⟨1, 0, 0, Nat.zero_le _, rfl⟩, Toy.not_zip64 (by decide +kernel), ?_⟩
  obtain ⟨out, h1, h2⟩ := Toy.of_check (x := verifyBlockIo Toy.env Toy.noZip (Toy.flaky (Toy.apkOf Toy.psV2) [1]) 24 35)
    (P := fun o => decide (Toy.summary o = (some (2, [[Toy.certOf Toy.k1]], []), none))) (by decide +kernel)
  exact ⟨out, h1, of_decide_eq_true h2⟩

/-- The hypotheses of `C79_frosting_despite_failures` are met: the first attempt to find the end of central directory fails, the frosting block
    is still found and verified. -/
example : (Toy.flaky (Toy.apkOf Toy.psFrosted) [1]).Over (Toy.apkOf Toy.psFrosted) ∧ ¬ Zip64 (Toy.apkOf Toy.psFrosted) ∧
    ∃ out r x, verifyBlockIo Toy.env Toy.noZip (Toy.flaky (Toy.apkOf Toy.psFrosted) [1]) 24 35 = .ok out ∧ out.res = some r ∧
      r.frosting = some x ∧ x.error = none ∧ x.protobufInfo = [5, 6] := by
  refine ⟨Toy.flaky_over _ _, Toy.not_zip64 (by decide +kernel), ?_⟩
  obtain ⟨out, h1, h2⟩ := Toy.of_check (x := verifyBlockIo Toy.env Toy.noZip (Toy.flaky (Toy.apkOf Toy.psFrosted) [1]) 24 35)
    (P := fun o => match o.res with
      | none => false
      | some r => match r.frosting with
        | none => false
        | some f => decide (f.error = none) && decide (f.protobufInfo = [5, 6])) (by decide +kernel)
  split at h2
  · cases h2
  · rename_i r hr
    split at h2
    · cases h2
    · rename_i f hf
      simp only [Bool.and_eq_true, decide_eq_true_eq] at h2
      exact ⟨out, r, f, h1, hr, hf, h2.1, h2.2⟩

set_option maxRecDepth 10000 in
/-- C79, limit: the ZIP64 check passes when its read fails. The file below is refused as ZIP64, and accepted if that one call fails. -/
theorem C79_zip64_witness :
    Zip64 Toy.apk64 ∧
    (∃ out, verifySigningBlock Toy.env Toy.noZip Toy.apk64 24 35 = .ok out ∧ out.err = some (.notFound .zip64)) ∧
    (Toy.flaky Toy.apk64 [2]).Over Toy.apk64 ∧
    (∃ out, verifyBlockIo Toy.env Toy.noZip (Toy.flaky Toy.apk64 [2]) 24 35 = .ok out ∧
      Toy.summary out = (some (2, [[Toy.certOf Toy.k1]], []), none)) := by
  refine ⟨?_, ?_, Toy.flaky_over _ _, ?_⟩
  · cases hE : findEocd Toy.apk64 with
    | error e => exact absurd (show (findEocd Toy.apk64).toOption.isSome = true by decide +kernel) (by rw [hE]; simp [Except.toOption])
    | ok l =>
      have : (match findEocd Toy.apk64 with | .ok l => isZip64 Toy.apk64 l | .error _ => false) = true := by decide +kernel
      rw [hE] at this
      exact (zip64_iff hE).1 this
  · obtain ⟨out, h1, h2⟩ := Toy.of_check (x := verifySigningBlock Toy.env Toy.noZip Toy.apk64 24 35)
      (P := fun o => decide (o.err = some (.notFound .zip64))) (by decide +kernel)
    exact ⟨out, h1, of_decide_eq_true h2⟩
  · obtain ⟨out, h1, h2⟩ := Toy.of_check (x := verifyBlockIo Toy.env Toy.noZip (Toy.flaky Toy.apk64 [2]) 24 35)
      (P := fun o => decide (Toy.summary o = (some (2, [[Toy.certOf Toy.k1]], []), none))) (by decide +kernel)
    exact ⟨out, h1, of_decide_eq_true h2⟩

set_option maxRecDepth 10000 in
/-- C79, limit: below Android 9 an unreadable digest of v3 leads to v2, and one of v3.1 to a second v3.1 run. Scheme and certificates differ from
    those of the undisturbed run; certificates are listed twice. -/
theorem C79_rerun_witness :
    (∃ out, verifySigningBlock Toy.env Toy.noZip (Toy.apkOf Toy.psV3) 24 35 = .ok out ∧
      Toy.summary out = (some (3, [[Toy.certOf Toy.k1]], []), none)) ∧
    (∃ out, verifyBlockIo Toy.env Toy.noZip (Toy.flaky (Toy.apkOf Toy.psV3) [5]) 24 35 = .ok out ∧
      Toy.summary out = (some (2, [[Toy.certOf Toy.k1], [Toy.certOf Toy.k1]], []), none)) ∧
    (∃ out, verifyBlockIo Toy.env Toy.noZip (Toy.flaky (Toy.apkOf Toy.psAll) [5]) 24 35 = .ok out ∧
      Toy.summary out = (some (31, [[Toy.certOf Toy.k2], [Toy.certOf Toy.k2]], []), none)) := by
  refine ⟨Toy.runV3, ?_, ?_⟩
  · obtain ⟨out, h1, h2⟩ := Toy.of_check (x := verifyBlockIo Toy.env Toy.noZip (Toy.flaky (Toy.apkOf Toy.psV3) [5]) 24 35)
      (P := fun o => decide (Toy.summary o = (some (2, [[Toy.certOf Toy.k1], [Toy.certOf Toy.k1]], []), none))) (by decide +kernel)
    exact ⟨out, h1, of_decide_eq_true h2⟩
  · obtain ⟨out, h1, h2⟩ := Toy.of_check (x := verifyBlockIo Toy.env Toy.noZip (Toy.flaky (Toy.apkOf Toy.psAll) [5]) 24 35)
      (P := fun o => decide (Toy.summary o = (some (31, [[Toy.certOf Toy.k2], [Toy.certOf Toy.k2]], []), none))) (by decide +kernel)
    exact ⟨out, h1, of_decide_eq_true h2⟩

set_option maxRecDepth 10000 in
/-- C79, limit: a failing read while the signing block is located counts as "no signing block". The package below, whose v2 signature does not
    match, is refused; when the read of the footer fails it is accepted with its v1 signature. `ExtractCerts` likewise returns the v1
    certificates instead of those of the block. -/
theorem C79_demotion_witness :
    (∃ res e, verifyTop (Toy.envT (Toy.doc (b!"24") (b!"29") (b!"1"))) Toy.ord (some Toy.exZip) (Toy.apkOf Toy.psOther) (-1) 35 = .ok (res, some e)) ∧
    (∃ res, verifyTopIo (Toy.envT (Toy.doc (b!"24") (b!"29") (b!"1"))) Toy.ord (some Toy.exZip) (Toy.flaky (Toy.apkOf Toy.psOther) [3]) (-1) 35 =
      .ok (res, none) ∧ res.schemeId = 1 ∧ res.certs.map (fun ch => ch.map Cert.raw) = [[[0xC0, 1, 7]]]) ∧
    Toy.summaryX (extractTop (Toy.envT (Toy.doc (b!"24") (b!"29") (b!"1"))) Toy.ord (some Toy.exZip) (Toy.apkOf Toy.psV2)) = some ([[[0xC0, 1, 11]]], none) ∧
    Toy.summaryX (extractTopIo (Toy.envT (Toy.doc (b!"24") (b!"29") (b!"1"))) Toy.ord (some Toy.exZip) (Toy.flaky (Toy.apkOf Toy.psV2) [3])) =
      some ([[[0xC0, 1, 7]]], none) := by
  refine ⟨?_, Toy.of_summaryT (by decide +kernel), by decide +kernel, by decide +kernel⟩
  obtain ⟨res, h, _⟩ := Toy.of_summaryT (s := 2) (l := [[[0xC0, 1, 11]]]) (e := some (.block (.digestMismatch .chunked256)))
    (r := verifyTop (Toy.envT (Toy.doc (b!"24") (b!"29") (b!"1"))) Toy.ord (some Toy.exZip) (Toy.apkOf Toy.psOther) (-1) 35) (by decide +kernel)
  exact ⟨res, _, h⟩

namespace Toy

/-- A reader that shows one file up to call `k` and another of the same size from then on. -/
def changing (a b : Bytes) (k : Nat) : Disk where
  size := some a.length
  read t off n := if t < k then readFull a off n else readFull b off n
  read_len {t off n x} h := by
    have key : ∀ f : Bytes, readFull f off n = some x → x.length = n := by
      intro f h
      unfold readFull at h
      split at h
      · cases h; unfold slice; rw [List.length_take, List.length_drop]; omega
      · cases h
    split at h
    · exact key _ h
    · exact key _ h

/-- Other first bytes. -/
def head2 : Bytes := [0x50, 0x4b, 3, 4, 99, 98, 97]
/-- A signing block for a file that begins with `head2`. -/
def area2 : Bytes := encPairs [(idV2, block [v2signer k1 (chunkedDigest env.sha256 (signedSections head2 cdir (eocd cdir.length 0))) []])]
/-- That block in a file that begins with `head`. -/
def fileA : Bytes := head ++ sigBlock area2 ++ cdir ++ eocd cdir.length (head ++ sigBlock area2).length
/-- A file that begins with `head2`, with zeros in place of the block. -/
def fileB : Bytes := head2 ++ List.replicate (sigBlock area2).length 0 ++ cdir ++ eocd cdir.length (head ++ sigBlock area2).length

end Toy

set_option maxRecDepth 10000 in
/-- C79, limit: the reader must show one file (`Disk.Over`). The contents are read after the signing block has been read, so a file that is
    replaced in between is accepted although neither version is. -/
theorem C79_changing_file_witness :
    Toy.fileA.length = Toy.fileB.length ∧
    (∃ out, verifySigningBlock Toy.env Toy.noZip Toy.fileA 24 35 = .ok out ∧ out.err = some (.digestMismatch .chunked256)) ∧
    (∃ out, verifySigningBlock Toy.env Toy.noZip Toy.fileB 24 35 = .ok out ∧ out.err = some (.notFound .noSigBlock)) ∧
    (∃ out, verifyBlockIo Toy.env Toy.noZip (Toy.changing Toy.fileA Toy.fileB 5) 24 35 = .ok out ∧
      Toy.summary out = (some (2, [[Toy.certOf Toy.k1]], []), none)) := by
  refine ⟨by decide +kernel, ?_, ?_, ?_⟩
  · obtain ⟨out, h1, h2⟩ := Toy.of_check (x := verifySigningBlock Toy.env Toy.noZip Toy.fileA 24 35)
      (P := fun o => decide (o.err = some (.digestMismatch .chunked256))) (by decide +kernel)
    exact ⟨out, h1, of_decide_eq_true h2⟩
  · obtain ⟨out, h1, h2⟩ := Toy.of_check (x := verifySigningBlock Toy.env Toy.noZip Toy.fileB 24 35)
      (P := fun o => decide (o.err = some (.notFound .noSigBlock))) (by decide +kernel)
    exact ⟨out, h1, of_decide_eq_true h2⟩
  · obtain ⟨out, h1, h2⟩ := Toy.of_check (x := verifyBlockIo Toy.env Toy.noZip (Toy.changing Toy.fileA Toy.fileB 5) 24 35)
      (P := fun o => decide (Toy.summary o = (some (2, [[Toy.certOf Toy.k1]], []), none))) (by decide +kernel)
    exact ⟨out, h1, of_decide_eq_true h2⟩

end Apk
