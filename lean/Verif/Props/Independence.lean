import Verif.Proofs.Sim
import Verif.Proofs.Verdict
import Verif.ToyApk
import Verif.Props.Verdict
/-! # What the verdict does not depend on (C27, C28) -/
namespace Apk
set_option linter.unusedSimpArgs false

/-- Two pair lists have the same scheme blocks in force. -/
def SameSchemes (ps ps' : List (Nat × Bytes)) : Prop :=
  lastVal ps idV2 = lastVal ps' idV2 ∧ lastVal ps idV3 = lastVal ps' idV3 ∧ lastVal ps idV31 = lastVal ps' idV31

/-- Two outcomes agree on everything the signature schemes are responsible for: the returned error, the recorded errors,
    scheme, certificates, lineage and the v3 sub-result, and the warnings other than those about Play frosting. -/
def SameVerdict (out out' : Outcome) : Prop :=
  out.err = out'.err ∧ ∃ res res', out.res = some res ∧ out'.res = some res' ∧
    res.core.schemeId = res'.core.schemeId ∧ res.core.certs = res'.core.certs ∧ res.core.lineage = res'.core.lineage ∧
    res.core.errors = res'.core.errors ∧ res.v3 = res'.v3 ∧
    res.core.warnings.filter (fun w => decide (w ≠ .frosting)) = res'.core.warnings.filter (fun w => decide (w ≠ .frosting))

theorem Means.blocksSim {ps ps' : List (Nat × Bytes)} {maxSdk : Int} {b x b' x' : List (Nat × Bytes)} (h : Means ps maxSdk b x)
    (h' : Means ps' maxSdk b' x') (hs : SameSchemes ps ps') : BlocksSim b b' := by
  obtain ⟨s2, s3, s31⟩ := hs
  exact ⟨by rw [h.b2, h'.b2, s2], by rw [h.b3, h'.b3, s3], by rw [h.b31, h'.b31, s31]⟩

theorem frosting_warnings {env : Env} {maxSdk : Int} {area : Bytes} {st : PairState} {e : Option E}
    (h : parsePairs env maxSdk area = .ok (st, e)) (he : e = none) : st.warnings.filter (fun w => decide (w ≠ .frosting)) = [] := by
  subst he
  obtain ⟨ps, _, h2⟩ := parsePairsAux_sound _ (Nat.lt_succ_self _) h
  obtain ⟨frs, _, _, _, hw⟩ := h2.frosting
  rw [hw, List.filter_eq_nil_iff]
  intro w hw'
  simp at hw'
  simp [hw']

/-- Two files whose covered sections are the same have the same integrity check. -/
theorem sameInt_sections {env : Env} {file file' head area area' cd rec rec' : Bytes} (hl : ApkLayout file head area cd rec)
    (hl' : ApkLayout file' head area' cd rec') (hrec : redirected rec head.length = redirected rec' head.length) :
    SameInt Eq env env file file' (layoutFound head area cd rec) (layoutFound head area' cd rec') where
  extract _ _ _ _ _ := rfl
  integ m hm r := by
    have hsec : signedSections head cd rec = signedSections head cd rec' := by simp only [signedSections, hrec]
    refine ⟨(integrityErrors env (signedSections head cd rec) (env.cdOrder m)).1, _,
      (integrityErrors env (signedSections head cd rec) (env.cdOrder m)).2, rfl, ?_⟩
    rw [verifyIntegrity_eq env hl hm, verifyIntegrity_eq env hl' hm, ← hsec]
    by_cases h : CD.nonChunked256 ∈ m.map (·.1)
    · left; simp only [h, if_true, and_self]
    · right; simp only [h, if_false, and_self]

theorem redirected_any {rec rec' : Bytes} (hlen : 20 ≤ rec.length) (hlen' : 20 ≤ rec'.length)
    (h : redirected rec 0 = redirected rec' 0) (n : Nat) : redirected rec n = redirected rec' n := by
  unfold redirected at h ⊢
  simp only [List.append_assoc] at h ⊢
  obtain ⟨h1, h2⟩ := List.append_inj h (by simp; omega)
  obtain ⟨_, h3⟩ := List.append_inj h2 rfl
  rw [h1, h3]

section
variable {env : Env} {zip : Zip} {minSdk maxSdk : Int} {file file' head area area' cd rec rec' : Bytes}
  {ps ps' : List (Nat × Bytes)}

/-- The scheme part of the two runs is related whenever both pair areas parse. -/
theorem scheme_part_sim (hl : ApkLayout file head area cd rec) (hl' : ApkLayout file' head area' cd rec')
    (hrec : redirected rec 0 = redirected rec' 0) (hs : SameSchemes ps ps') {st st' : PairState}
    (hw : st.warnings.filter (fun w => decide (w ≠ .frosting)) = [])
    (hw' : st'.warnings.filter (fun w => decide (w ≠ .frosting)) = [])
    (hm : Means ps maxSdk st.blocks st.extra) (hm' : Means ps' maxSdk st'.blocks st'.extra) :
    ∀ q, pickAndVerify env file (layoutFound head area cd rec) st.blocks minSdk maxSdk
          { extraBlocks := st.extra, warnings := st.warnings } none = .ok q →
      ∃ q', pickAndVerify env file' (layoutFound head area' cd rec') st'.blocks minSdk maxSdk
          { extraBlocks := st'.extra, warnings := st'.warnings } none = .ok q' ∧
        ∀ z, withFallback env file (layoutFound head area cd rec) st.blocks minSdk maxSdk q = .ok z →
        ∃ z', withFallback env file' (layoutFound head area' cd rec') st'.blocks minSdk maxSdk q' = .ok z' ∧
        ResSim (fun a b => a.filter (fun w => decide (w ≠ .frosting)) = b.filter (fun w => decide (w ≠ .frosting))) Eq z z' := by
  obtain ⟨c, hc, _⟩ := hl.eocd
  obtain ⟨c', hc', _⟩ := hl'.eocd
  have hlen := hc.len
  have hlen' := hc'.len
  have hI := sameInt_sections (env := env) hl hl' (redirected_any (by omega) (by omega) hrec head.length)
  have hW : AppRel (α := W) (fun a b => a.filter (fun w => decide (w ≠ .frosting)) = b.filter (fun w => decide (w ≠ .frosting))) :=
    AppRel.filt _
  have hE : AppRel (α := E) Eq := AppRel.eq
  have hb := hm.blocksSim hm' hs
  obtain ⟨s2, s3, s31⟩ := hs
  have hsim : CoreSim (fun a b => a.filter (fun w => decide (w ≠ .frosting)) = b.filter (fun w => decide (w ≠ .frosting))) Eq
      { extraBlocks := st.extra, warnings := st.warnings } { extraBlocks := st'.extra, warnings := st'.warnings } := by
    refine ⟨rfl, rfl, rfl, ?_, ?_, ?_, by rw [hw, hw'], rfl⟩
    · change mget st.extra idV2 = mget st'.extra idV2; rw [hm.extra, hm'.extra, s2]
    · change mget st.extra idV3 = mget st'.extra idV3; rw [hm.extra, hm'.extra, s3]
    · change mget st.extra idV31 = mget st'.extra idV31; rw [hm.extra, hm'.extra, s31]
  intro q hq
  have h1 := pickAndVerify_sim hW hE hI hb (mn := minSdk) (mx := maxSdk) (v3 := none) hsim
  rw [hq] at h1
  cases hq' : pickAndVerify env file' (layoutFound head area' cd rec') st'.blocks minSdk maxSdk
          { extraBlocks := st'.extra, warnings := st'.warnings } none with
  | error p => rw [hq'] at h1; exact h1.elim
  | ok q' =>
    rw [hq'] at h1
    refine ⟨q', rfl, ?_⟩
    intro z hz
    have h2 := withFallback_sim hW hE (fun h => by rw [h]) (fun h => by rw [h]) hI hb (mn := minSdk) (mx := maxSdk) h1
    rw [hz] at h2
    cases hz' : withFallback env file' (layoutFound head area' cd rec') st'.blocks minSdk maxSdk q' with
    | error p => rw [hz'] at h2; exact h2.elim
    | ok z' => rw [hz'] at h2; exact ⟨z', rfl, h2⟩

/-- C27: two APKs that differ only inside the signing block, and there only in entries other than the scheme blocks
    (frosting, source stamp, padding, unknown ids), get the same verdict, whatever those entries contain. The two EOCD
    records agree except for the offset of the central directory. -/
theorem C27_other_blocks_do_not_matter (hl : ApkLayout file head area cd rec) (hl' : ApkLayout file' head area' cd rec')
    (hrec : redirected rec 0 = redirected rec' 0) (ha : PairArea area ps) (ha' : PairArea area' ps') (hs : SameSchemes ps ps')
    {out out' : Outcome} (h : verifySigningBlock env zip file minSdk maxSdk = .ok out)
    (h' : verifySigningBlock env zip file' minSdk maxSdk = .ok out') : SameVerdict out out' := by
  rcases located_inv hl h with ⟨_, _, hn⟩ | ⟨qs, st, q, r, v3, dg, stamp, fr, g1, g2, g3, g4, g5, _, _, g8, g9⟩
  · exact absurd ha (hn ps)
  rcases located_inv hl' h' with ⟨_, _, hn⟩ | ⟨qs', st', q', r', v3', dg', stamp', fr', k1, k2, k3, k4, k5, _, _, k8, k9⟩
  · exact absurd ha' (hn ps')
  obtain rfl := pairArea_unique ha g1
  obtain rfl := pairArea_unique ha' k1
  obtain ⟨q1, e1, e2⟩ := scheme_part_sim hl hl' hrec hs (frosting_warnings g2 rfl) (frosting_warnings k2 rfl) g3 k3 q g4
  rw [e1] at k4
  cases k4
  obtain ⟨z', e3, e4⟩ := e2 _ g5
  rw [e3] at k5
  cases k5
  obtain ⟨e4, e5⟩ := e4
  simp only at e4 e5
  cases e5
  refine ⟨?_, _, _, g8, k8, e4.schemeId, e4.certs, e4.lineage, e4.e, rfl, e4.w⟩
  rw [g9, k9]; unfold Core.lastError; rw [e4.e]

/-- C27: removing all frosting and source stamp entries (and changing unknown ones) from an APK on which verification returns
    leaves an APK on which it also returns, with the same verdict. -/
theorem C27_stripping_other_blocks (hl : ApkLayout file head area cd rec) (hl' : ApkLayout file' head area' cd rec')
    (hrec : redirected rec 0 = redirected rec' 0) (ha : PairArea area ps) (ha' : PairArea area' ps') (hs : SameSchemes ps ps')
    (hno : ∀ p ∈ ps', p.1 ≠ 0x2146444e ∧ p.1 ≠ 0x6dff800d) {out : Outcome}
    (h : verifySigningBlock env zip file minSdk maxSdk = .ok out) :
    ∃ out', verifySigningBlock env zip file' minSdk maxSdk = .ok out' ∧ SameVerdict out out' := by
  suffices hex : ∃ out', verifySigningBlock env zip file' minSdk maxSdk = .ok out' by
    obtain ⟨out', h'⟩ := hex
    exact ⟨out', h', C27_other_blocks_do_not_matter hl hl' hrec ha ha' hs h h'⟩
  have hfv : frostingValues ps' = [] := by
    unfold frostingValues
    rw [List.map_eq_nil_iff, List.filter_eq_nil_iff]
    intro p hp
    simpa using (hno p hp).1
  obtain ⟨st', k2, k3⟩ := parsePairsAux_complete (env := env) (maxSdk := maxSdk) ps' (area'.length + 1) area' {} (Nat.lt_succ_self _) ha'
    (by rw [hfv]; simp)
  have hm' : Means ps' maxSdk st'.blocks st'.extra := ⟨fun id => by rw [k3.blocks id]; simp, fun id => by rw [k3.extra id]; simp⟩
  rcases located_inv hl h with ⟨_, _, hn⟩ | ⟨qs, st, q, r, v3, dg, stamp, fr, g1, g2, g3, g4, g5, _, _, g8, g9⟩
  · exact absurd ha (hn ps)
  obtain rfl := pairArea_unique ha g1
  obtain ⟨q1, e1, e2⟩ := scheme_part_sim hl hl' hrec hs (frosting_warnings g2 rfl) (frosting_warnings (e := none) k2 rfl) g3 hm' q g4
  obtain ⟨z', e3, _⟩ := e2 _ g5
  have hst : mget st'.blocks blockIdSourceStampV2 = none := by
    rw [hm'.blocks]
    split
    · cases hv : lastVal ps' blockIdSourceStampV2 with
      | none => rfl
      | some v => exact absurd rfl (hno _ (lastVal_mem hv)).2
    · rfl
  have h4 : ¬ file'.length < 4 := by
    have := congrArg List.length hl'.split
    simp [sigBlock, sigBlockMagic] at this; omega
  have k2' : parsePairs env maxSdk area' = .ok (st', none) := k2
  obtain ⟨r', v3', dg'⟩ := z'
  obtain ⟨sres, hsres⟩ : ∃ s, verifyStamp env zip r'.schemeId minSdk maxSdk none dg' = .ok s := by
    unfold verifyStamp; simp only; split <;> exact ⟨_, rfl⟩
  unfold verifySigningBlock
  rw [if_neg h4, layout_find env maxSdk hl', k2']
  simp only [bind, Except.bind, e1, e3, hst, hsres]
  exact ⟨_, rfl⟩

/-- C27: the certificates extracted without verification do not depend on the other entries either. -/
theorem C27_extract_certs_independent (hl : ApkLayout file head area cd rec) (hl' : ApkLayout file' head area' cd rec')
    (ha : PairArea area ps) (ha' : PairArea area' ps') (hs : SameSchemes ps ps')
    {x x' : List (List Cert) × Option E} (h : extractCertsReader env file maxSdk = .ok x)
    (h' : extractCertsReader env file' maxSdk = .ok x') : x = x' := by
  have inv : ∀ {file head area cd rec : Bytes} {ps : List (Nat × Bytes)} {x : List (List Cert) × Option E},
      ApkLayout file head area cd rec → PairArea area ps → extractCertsReader env file maxSdk = .ok x →
      ∃ st : PairState, Means ps maxSdk st.blocks st.extra ∧ (match pickScheme st.blocks with
        | none => (Except.ok ([], some (.notFound .noSchemeBlock)) : Go (List (List Cert) × Option E))
        | some (scheme, block) => do
          let (r, _, _, _) ← extractCerts env scheme maxSdk block
            { schemeId := scheme.id, extraBlocks := st.extra, warnings := st.warnings } none
          .ok (r.certs, r.lastError)) = .ok x := by
    intro file head area cd rec ps x hl ha h
    have h4 : ¬ file.length < 4 := by
      have := congrArg List.length hl.split
      simp [sigBlock, sigBlockMagic] at this; omega
    unfold extractCertsReader at h
    rw [if_neg h4, layout_find env maxSdk hl] at h
    cases hp : parsePairs env maxSdk area with
    | error q => rw [hp] at h; cases h
    | ok y =>
      obtain ⟨st, e⟩ := y
      rw [hp] at h
      cases e with
      | some e => exact absurd hp (parsePairsAux_noerr ps _ area {} (Nat.lt_succ_self _) ha)
      | none =>
        obtain ⟨qs, hq, h2⟩ := parsePairsAux_sound _ (Nat.lt_succ_self _) hp
        obtain rfl := pairArea_unique ha hq
        exact ⟨st, ⟨fun id => by rw [h2.blocks id]; simp, fun id => by rw [h2.extra id]; simp⟩, h⟩
  obtain ⟨st, m, g⟩ := inv hl ha h
  obtain ⟨st', m', g'⟩ := inv hl' ha' h'
  rw [← (m.blocksSim m' hs).pick] at g'
  cases hp : pickScheme st.blocks with
  | none => rw [hp] at g g'; simp only at g g'; rw [g] at g'; cases g'; rfl
  | some y =>
    obtain ⟨s, b⟩ := y
    rw [hp] at g g'
    simp only at g g'
    obtain ⟨s2, s3, s31⟩ := hs
    have hsim : CoreSim (fun _ _ => True) Eq { schemeId := s.id, extraBlocks := st.extra, warnings := st.warnings }
        { schemeId := s.id, extraBlocks := st'.extra, warnings := st'.warnings } := by
      refine ⟨rfl, rfl, rfl, ?_, ?_, ?_, trivial, rfl⟩
      · change mget st.extra idV2 = mget st'.extra idV2; rw [m.extra, m'.extra, s2]
      · change mget st.extra idV3 = mget st'.extra idV3; rw [m.extra, m'.extra, s3]
      · change mget st.extra idV31 = mget st'.extra idV31; rw [m.extra, m'.extra, s31]
    obtain ⟨r0, F, F', e1, e2, _, e3⟩ := hsim.framed
    rw [e1, F.extractCerts_ap] at g
    rw [e2, F'.extractCerts_ap] at g'
    cases hx : extractCerts env s maxSdk b r0 none with
    | error p => rw [hx] at g; cases g
    | ok y =>
      rw [hx] at g g'
      simp only [Except.map, bind, Except.bind, Except.ok.injEq] at g g'
      rw [← g, ← g']
      simp only [Frame.ap_certs, Prod.mk.injEq, true_and, Core.lastError, Frame.ap, e3]
end

/-! ## C28 -/

/-- C28: the errors the integrity check records are the same up to order for every iteration order of the content digest
    map, and so is its Boolean result; it panics for no order or for all. -/
theorem C28_integrity_errors_order_independent (env : Env) (mo hmo co hco) {file head area cd rec : Bytes}
    (hl : ApkLayout file head area cd rec) {m : Digests} (hm : m ≠ []) (r : Core) :
    (∃ p, verifyIntegrity env file (layoutFound head area cd rec) m r = .error p ∧
      verifyIntegrity (env.withOrder mo hmo co hco) file (layoutFound head area cd rec) m r = .error p) ∨
    ∃ es es' ok, es.Perm es' ∧
      verifyIntegrity env file (layoutFound head area cd rec) m r = .ok ({ r with errors := r.errors ++ es }, ok) ∧
      verifyIntegrity (env.withOrder mo hmo co hco) file (layoutFound head area cd rec) m r =
        .ok ({ r with errors := r.errors ++ es' }, ok) := by
  rw [verifyIntegrity_eq env hl hm, verifyIntegrity_eq (env.withOrder mo hmo co hco) hl hm]
  by_cases h : CD.nonChunked256 ∈ m.map (·.1)
  · left; simp only [h, if_true]; exact ⟨_, rfl, rfl⟩
  · right
    simp only [h, if_false]
    have hp := integrityErrors_perm env (signedSections head cd rec) ((env.cdOrder_perm m).trans (hco m).symm)
    refine ⟨_, _, _, hp.1, rfl, ?_⟩
    rw [hp.2]
    rfl

theorem parsePairs_order (env : Env) (mo hmo co hco) (maxSdk : Int) (b : Bytes) :
    parsePairs (env.withOrder mo hmo co hco) maxSdk b = parsePairs env maxSdk b := by
  have hsig : frVerifySignature (env.withOrder mo hmo co hco) = frVerifySignature env := by
    funext a b; unfold frVerifySignature; rfl
  have hloop : frLoop (env.withOrder mo hmo co hco) = frLoop env := by
    funext bl oA pm ps pz lim fuel si pos
    induction fuel generalizing si pos with
    | zero => rfl
    | succ n ih => simp only [frLoop, hsig, ih]
  have hfr : frParse (env.withOrder mo hmo co hco) = frParse env := by funext v; unfold frParse; rw [hloop]
  have hstep : pairStep (env.withOrder mo hmo co hco) maxSdk = pairStep env maxSdk := by
    funext st id v e; unfold pairStep; rw [hfr]
  unfold parsePairs
  have : ∀ fuel b st, parsePairsAux (env.withOrder mo hmo co hco) maxSdk fuel b st = parsePairsAux env maxSdk fuel b st := by
    intro fuel
    induction fuel with
    | zero => intros; rfl
    | succ n ih => intro b st; simp only [parsePairsAux, hstep, ih]
  exact this _ _ _

/-- The same errors up to order, and the last ones are both, or both not, of the not-found kind. -/
def PermNF (a b : List E) : Prop := a.Perm b ∧ isNotFound a.getLast? = isNotFound b.getLast?

theorem PermNF.nil_iff {a b : List E} (h : PermNF a b) : a = [] ↔ b = [] :=
  ⟨(fun e => by have := h.1; rw [e] at this; exact this.nil_eq.symm), (fun e => by have := h.1; rw [e] at this; exact this.eq_nil)⟩

theorem PermNF.appRel : AppRel PermNF where
  refl l := ⟨List.Perm.refl l, rfl⟩
  app := by
    intro a b c d h1 h2
    refine ⟨h1.1.append h2.1, ?_⟩
    by_cases hc : c = []
    · have hd := h2.nil_iff.1 hc
      subst hc hd
      simpa using h1.2
    · have hd : d ≠ [] := fun hd => hc (h2.nil_iff.2 hd)
      obtain ⟨x, hx⟩ := Option.isSome_iff_exists.1 (List.getLast?_isSome.2 hc)
      obtain ⟨y, hy⟩ := Option.isSome_iff_exists.1 (List.getLast?_isSome.2 hd)
      have := h2.2
      rw [hx, hy] at this
      simpa [List.getLast?_append, hx, hy] using this

theorem integrity_not_notFound (env : Env) (secs : List Bytes) (o : Digests) :
    isNotFound (integrityErrors env secs o).1.getLast? = false := by
  unfold integrityErrors
  split
  · simp only [List.getLast?_map]
    cases (o.filter _).getLast? <;> rfl
  · rfl

/-- C28: for all map iteration orders, verification of the same file reports the same scheme, certificates, lineage and v3
    sub-result, the same errors and warnings up to order, and an error under one order exactly if under the other. -/
theorem C28_verdict_order_independent (env : Env) (mo hmo co hco) {zip : Zip} {file : Bytes} {minSdk maxSdk : Int}
    {out out' : Outcome} (h : verifySigningBlock env zip file minSdk maxSdk = .ok out)
    (h' : verifySigningBlock (env.withOrder mo hmo co hco) zip file minSdk maxSdk = .ok out') :
    (out.err = none ↔ out'.err = none) ∧ (isNotFound out.err = true ↔ isNotFound out'.err = true) ∧
    (out.res.isSome = out'.res.isSome) ∧
    ∀ res res', out.res = some res → out'.res = some res' →
      res.core.schemeId = res'.core.schemeId ∧ res.core.certs = res'.core.certs ∧ res.core.lineage = res'.core.lineage ∧
      res.v3 = res'.v3 ∧ res.core.errors.Perm res'.core.errors ∧ res.core.warnings.Perm res'.core.warnings := by
  have hfind : findSignatureBlocks (env.withOrder mo hmo co hco) file maxSdk = findSignatureBlocks env file maxSdk := by
    unfold findSignatureBlocks; simp only [parsePairs_order]
  by_cases hbad : file.length < 4 ∨ ∃ o st e, findSignatureBlocks env file maxSdk = .ok (o, st, some e)
  · unfold verifySigningBlock at h h'
    rw [hfind] at h'
    by_cases h4 : file.length < 4
    · simp only [h4, if_true, Except.ok.injEq] at h h'
      subst h h'
      refine ⟨Iff.rfl, Iff.rfl, rfl, ?_⟩
      intro res res' hr; cases hr
    · obtain ⟨o, st, e, hn⟩ := hbad.resolve_left h4
      simp only [h4, if_false] at h h'
      rw [hn] at h h'
      cases o with
      | none =>
        simp only [Except.ok.injEq] at h h'
        subst h h'
        refine ⟨Iff.rfl, Iff.rfl, rfl, ?_⟩
        intro res res' hr hr'
        simp only [Option.some.injEq] at hr hr'
        subst hr hr'
        exact ⟨rfl, rfl, rfl, rfl, List.Perm.refl _, List.Perm.refl _⟩
      | some f =>
        simp only [Except.ok.injEq] at h h'
        subst h h'
        refine ⟨Iff.rfl, Iff.rfl, rfl, ?_⟩
        intro res res' hr hr'
        simp only [Option.some.injEq] at hr hr'
        subst hr hr'
        exact ⟨rfl, rfl, rfl, rfl, List.Perm.refl _, List.Perm.refl _⟩
  have hex : ∃ head area cd rec, ApkLayout file head area cd rec := by
    refine Classical.byContradiction (fun hex => ?_)
    obtain ⟨e, hn⟩ := no_layout_find env maxSdk (file := file) (fun a b c d hh => hex ⟨a, b, c, d, hh⟩)
    exact hbad (Or.inr ⟨_, _, e, hn⟩)
  obtain ⟨head, area, cd, rec, hl⟩ := hex
  have hI : SameInt PermNF env (env.withOrder mo hmo co hco) file file (layoutFound head area cd rec)
      (layoutFound head area cd rec) := by
    refine ⟨fun s m b r v3 => by rw [extractCerts_order], ?_⟩
    intro m hm r
    rw [verifyIntegrity_eq env hl hm, verifyIntegrity_eq (env.withOrder mo hmo co hco) hl hm]
    have hp := integrityErrors_perm env (signedSections head cd rec) ((env.cdOrder_perm m).trans (hco m).symm)
    refine ⟨_, _, (integrityErrors env (signedSections head cd rec) (env.cdOrder m)).2, ⟨hp.1, ?_⟩, ?_⟩
    · rw [integrity_not_notFound, integrity_not_notFound]
    · by_cases hn : CD.nonChunked256 ∈ m.map (·.1)
      · left; simp only [hn, if_true, and_self]
      · right
        rw [if_neg hn, if_neg hn]
        refine ⟨rfl, ?_⟩
        rw [hp.2]
        rfl
  rcases located_inv hl h with ⟨e, he, hn⟩ | ⟨ps, st, q, r, v3, dg, stamp, fr, g1, g2, g3, g4, g5, _, _, g8, g9⟩
  · exfalso
    have h4 : ¬ file.length < 4 := fun h4 => hbad (Or.inl h4)
    have hf := layout_find env maxSdk hl
    cases hp : parsePairs env maxSdk area with
    | error q =>
      unfold verifySigningBlock at h
      rw [if_neg h4, hf, hp] at h; cases h
    | ok x =>
      obtain ⟨st, o⟩ := x
      cases o with
      | some e => rw [hp] at hf; exact hbad (Or.inr ⟨_, _, _, hf⟩)
      | none =>
        obtain ⟨ps, hps, _⟩ := parsePairsAux_sound _ (Nat.lt_succ_self _) hp
        exact hn ps hps
  rcases located_inv hl h' with ⟨e', he', hn'⟩ | ⟨ps', st', q', r', v3', dg', stamp', fr', k1, k2, k3, k4, k5, _, _, k8, k9⟩
  · exact absurd g1 (hn' ps)
  rw [parsePairs_order, g2] at k2
  cases k2
  have hb : BlocksSim st.blocks st.blocks := ⟨rfl, rfl, rfl⟩
  have hs : CoreSim List.Perm PermNF { extraBlocks := st.extra, warnings := st.warnings } { extraBlocks := st.extra, warnings := st.warnings } :=
    ⟨rfl, rfl, rfl, rfl, rfl, rfl, List.Perm.refl _, PermNF.appRel.refl _⟩
  have h1 := pickAndVerify_sim AppRel.perm PermNF.appRel hI hb (mn := minSdk) (mx := maxSdk) (v3 := none) hs
  rw [g4, k4] at h1
  have h2 := withFallback_sim AppRel.perm PermNF.appRel PermNF.nil_iff (fun h => h.1.map _) hI hb (mn := minSdk) (mx := maxSdk) h1
  rw [g5, k5] at h2
  obtain ⟨h3, h5⟩ := h2
  simp only at h3 h5
  cases h5
  refine ⟨?_, ?_, (by rw [g8, k8]; rfl), ?_⟩
  · rw [g9, k9, lastError_none, lastError_none]; exact PermNF.nil_iff h3.e
  · rw [g9, k9]; unfold Core.lastError; rw [h3.e.2]
  · intro res res' hr hr'
    rw [g8] at hr; rw [k8] at hr'
    cases hr; cases hr'
    exact ⟨h3.schemeId, h3.certs, h3.lineage, rfl, h3.e.1, h3.w⟩

namespace Toy
/-- The v3 APK with an unknown entry, a source stamp and broken frosting added. -/
def psJunk : List (Nat × Bytes) :=
  (0x12345678, [1, 2, 3]) :: (0x6dff800d, [9, 9]) :: (0x2146444e, [0]) :: psV3

theorem runJunk : ∃ out, run psJunk 24 35 = .ok out ∧ summary out = (some (3, [[certOf k1]], []), none) := by
  obtain ⟨out, h1, h2⟩ := of_check (x := run psJunk 24 35) (P := fun o => decide (summary o = (some (3, [[certOf k1]], []), none))) (by decide +kernel)
  exact ⟨out, h1, of_decide_eq_true h2⟩
end Toy

-- the hypotheses of C27 are met by the v3 toy APK with and without junk entries
example : ∃ out out', verifySigningBlock Toy.env Toy.noZip (Toy.apkOf Toy.psV3) 24 35 = .ok out ∧
    verifySigningBlock Toy.env Toy.noZip (Toy.apkOf Toy.psJunk) 24 35 = .ok out' ∧ SameVerdict out out' := by
  obtain ⟨out, h, _⟩ := Toy.runV3
  obtain ⟨out', h', _⟩ := Toy.runJunk
  exact ⟨out, out', h, h', C27_other_blocks_do_not_matter (Toy.apkOf_layout Toy.psV3 (by decide +kernel) (by unfold Zip64Before; decide +kernel)) (Toy.apkOf_layout Toy.psJunk (by decide +kernel) (by unfold Zip64Before; decide +kernel))
    (by decide +kernel) (Toy.area_of (by decide +kernel) (by decide +kernel)) (Toy.area_of (by decide +kernel) (by decide +kernel)) ⟨by decide +kernel, by decide +kernel, by decide +kernel⟩ h h'⟩

-- a reversed iteration order is one of the orders C28 speaks about
example : ∃ out out', verifySigningBlock Toy.env Toy.noZip (Toy.apkOf Toy.psV3) 24 35 = .ok out ∧
    verifySigningBlock (Toy.env.withOrder List.reverse List.reverse_perm List.reverse List.reverse_perm) Toy.noZip (Toy.apkOf Toy.psV3) 24 35 = .ok out' := by
  obtain ⟨out, h, _⟩ := Toy.runV3
  obtain ⟨out', h', _⟩ := Toy.of_check (x := verifySigningBlock (Toy.env.withOrder List.reverse List.reverse_perm List.reverse List.reverse_perm) Toy.noZip (Toy.apkOf Toy.psV3) 24 35)
    (P := fun _ => true) (by decide +kernel)
  exact ⟨out, out', h, h'⟩

end Apk
