import Verif.Proofs.Io
/-! # Failing readers: the verdict on the signing block -/
namespace Apk

/-- A located signing block is one of an APK layout. -/
theorem find_layout {env : Env} {file : Bytes} {maxSdk : Int} {f : Found} {st : PairState} {e : Option E}
    (h : findSignatureBlocks env file maxSdk = .ok (some f, st, e)) :
    ∃ head area cd rec, ApkLayout file head area cd rec ∧ f = layoutFound head area cd rec ∧ parsePairs env maxSdk area = .ok (st, e) := by
  by_cases hl : ∃ head area cd rec, ApkLayout file head area cd rec
  · obtain ⟨head, area, cd, rec, hl⟩ := hl
    refine ⟨head, area, cd, rec, hl, ?_⟩
    rw [layout_find env maxSdk hl] at h
    cases hp : parsePairs env maxSdk area with
    | error p => rw [hp] at h; cases h
    | ok x =>
      obtain ⟨st', e'⟩ := x
      rw [hp] at h
      simp only [Except.ok.injEq, Prod.mk.injEq, Option.some.injEq] at h
      obtain ⟨rfl, rfl, rfl⟩ := h
      exact ⟨rfl, rfl⟩
  · obtain ⟨e', he⟩ := no_layout_find env maxSdk (file := file) (fun a b c d hx => hl ⟨a, b, c, d, hx⟩)
    rw [he] at h
    simp at h

theorem layout_valid {file head area cd rec : Bytes} (h : ApkLayout file head area cd rec) :
    ∀ l ∈ sections file (layoutFound head area cd rec), l.Valid := by
  obtain ⟨c0, cs, e, hs, _⟩ := layout_secs h
  rw [e]; exact hs.valid

theorem zip64_iff {file : Bytes} {l : Loc} (h : findEocd file = .ok l) : isZip64 file l = true ↔ Zip64 file := by
  obtain ⟨pre, rec, c, hs, hcd, h1, h2⟩ := findEocd_iff.1 h
  have hsplit : file = pre ++ rec := by obtain ⟨_, e1, e2⟩ := eocdRecord_pos hs.1; rw [e1, e2, List.take_append_drop]
  constructor
  · intro hz; exact ⟨pre, rec, c, hs, (isZip64_iff hsplit h1).1 hz⟩
  · rintro ⟨pre', rec', c', hs', hz⟩
    have hc : c = c' := by
      rcases Nat.lt_trichotomy c c' with hlt | he | hlt
      · exact absurd hs.1 (hs'.2 c hlt pre rec)
      · exact he
      · exact absurd hs'.1 (hs.2 c' hlt pre' rec')
    subst hc
    obtain ⟨_, e1, _⟩ := eocdRecord_pos hs.1
    obtain ⟨_, e2, _⟩ := eocdRecord_pos hs'.1
    exact (isZip64_iff hsplit h1).2 (by rw [e1, ← e2]; exact hz)

section
variable {d : Disk} {file : Bytes} (ho : d.Over file)
include ho

theorem frChunksIo_cases (fuel : Nat) : ∀ off size t,
    (frChunksIo d fuel off size t).1 = frSection file fuel off size ∨ ((frChunksIo d fuel off size t).1 = none ∧ d.Fails file) := by
  induction fuel with
  | zero => intro off size t; left; rfl
  | succ fuel ih =>
    intro off size t
    simp only [frChunksIo, frSection]
    by_cases hs : size = 0
    · rw [if_pos hs, if_pos hs]; left; rfl
    · rw [if_neg hs, if_neg hs]
      generalize min 0x2000 size = ch
      rcases read_cases ho t off ch with h | ⟨h, hf⟩
      · rw [h]
        unfold readFull
        by_cases hb : off + ch ≤ file.length
        · rw [if_pos hb, if_pos hb]
          simp only
          have h1 := ih (off + ch) (size - ch) (t + 1)
          cases hx : frChunksIo d fuel (off + ch) (size - ch) (t + 1) with
          | mk x t2 =>
            rw [hx] at h1
            simp only at h1
            rcases h1 with rfl | ⟨rfl, hf⟩
            · left; cases frSection file fuel (off + ch) (size - ch) <;> rfl
            · exact .inr ⟨rfl, hf⟩
        · rw [if_neg hb, if_neg hb]; left; rfl
      · rw [h]; exact .inr ⟨rfl, hf⟩

theorem frSectionIo_cases {off : Nat} (hoff : off ≤ file.length) (size t : Nat) :
    (frSectionIo d off size t).1 = frSection file (size + 1) off size ∨ ((frSectionIo d off size t).1 = none ∧ d.Fails file) := by
  unfold frSectionIo
  cases h : d.read t off 0 with
  | none => exact .inr ⟨rfl, .inr ⟨t, off, 0, by omega, h⟩⟩
  | some b => exact frChunksIo_cases ho (size + 1) off size (t + 1)

theorem frVerifyIo_cases (env : Env) (info : FrostInfo) (sigOff : Nat) (v2 : Option Bytes) {cdOff : Nat} (hcd : cdOff ≤ file.length)
    (cdSize : Nat) (eocd : Bytes) (t : Nat) :
    (frVerifyIo env info d sigOff v2 cdOff cdSize eocd t).1 = frVerifyApk env info file sigOff v2 cdOff cdSize eocd ∨
    ((frVerifyIo env info d sigOff v2 cdOff cdSize eocd t).1 ≠ none ∧ d.Fails file) := by
  unfold frVerifyIo frVerifyApk
  have h0 := frSectionIo_cases ho (Nat.zero_le _) sigOff t
  cases hx : frSectionIo d 0 sigOff t with
  | mk x t1 =>
    rw [hx] at h0
    simp only at h0
    rcases h0 with rfl | ⟨rfl, hf⟩
    · cases frSection file (sigOff + 1) 0 sigOff with
      | none => left; rfl
      | some before =>
        simp only
        have h1 := frSectionIo_cases ho hcd cdSize t1
        cases hy : frSectionIo d cdOff cdSize t1 with
        | mk y t2 =>
          rw [hy] at h1
          simp only at h1
          rcases h1 with rfl | ⟨rfl, hf⟩
          · left; cases frSection file (cdSize + 1) cdOff cdSize <;> rfl
          · exact .inr ⟨by simp, hf⟩
    · exact .inr ⟨by simp, hf⟩

theorem frostingIo_cases (env : Env) {f : Found} (hcd : f.loc.cdOff ≤ file.length) (st : PairState) (t : Nat) :
    (frostingIo env d f st t).1 = frostingResult env file f st ∨
    ((∃ x, (frostingIo env d f st t).1 = some x ∧ x.error ≠ none) ∧ d.Fails file) := by
  unfold frostingIo frostingResult
  cases st.frosting with
  | none => left; rfl
  | some fr =>
    simp only
    cases fr.info with
    | error e => left; rfl
    | ok info =>
      cases st.frostingRes with
      | none => left; rfl
      | some info' =>
        simp only
        cases mget st.blocks blockIdSchemeV2 with
        | some b =>
          rcases frVerifyIo_cases ho env info' f.sigOff (some b) hcd f.loc.cdSize f.loc.eocd t with h | ⟨h, hf⟩
          · left; rw [← h]
          · exact .inr ⟨⟨_, rfl, h⟩, hf⟩
        | none =>
          rcases frVerifyIo_cases ho env info' f.sigOff (mget st.extra blockIdSchemeV2) hcd f.loc.cdSize f.loc.eocd t with h | ⟨h, hf⟩
          · left; rw [← h]
          · exact .inr ⟨⟨_, rfl, h⟩, hf⟩

/-- The fallback: as on the file, or one more failed verification. -/
theorem fallbackIo_cases (env : Env) {f : Found} (hv : ∀ l ∈ sections file f, l.Valid) (bs : List (Nat × Bytes)) (mn mx : Int)
    (q : Core × Option Core × Digests) (t : Nat) :
    (∃ t', fallbackIo env d f bs mn mx q t = (withFallback env file f bs mn mx q).map (·, t')) ∨
    (d.Fails file ∧ ∃ x t', fallbackIo env d f bs mn mx q t = .ok (x, t') ∧ x.1.errors ≠ []) := by
  obtain ⟨r, v3, cd⟩ := q
  unfold fallbackIo withFallback
  simp only
  split
  · rcases pickIo_cases ho env hv (mdel bs blockIdSchemeV3) mn mx
        ⟨r.certs, r.schemeId, r.lineage, (match mget bs blockIdSchemeV3 with
          | some b => mset r.extraBlocks blockIdSchemeV3 b
          | none => r.extraBlocks), r.warnings ++ r.errors.map W.v3Error, []⟩ v3 t with h | ⟨hf, s, b, x, t', _, _, h, hu⟩
    · exact .inl h
    · refine .inr ⟨hf, x, t', h, ?_⟩
      obtain ⟨r1, v3', cd', fin, e, _, _, _, rfl⟩ := hu
      simp [Core.addError]
  · left; exact ⟨t, rfl⟩

end

theorem layout_cdOff {file head area cd rec : Bytes} (h : ApkLayout file head area cd rec) :
    (layoutFound head area cd rec).loc.cdOff ≤ file.length := by
  rw [h.split]; simp [layoutFound]

/-- With a reader that never fails, verification is what it is on the bytes of the file. -/
theorem verifyBlockIo_eq {d : Disk} {file : Bytes} (ho : d.Over file) (hn : ¬ d.Fails file) (env : Env) (zip : Zip) (mn mx : Int) :
    verifyBlockIo env zip d mn mx = verifySigningBlock env zip file mn mx := by
  unfold verifyBlockIo verifySigningBlock
  cases hs : d.size with
  | none => exact absurd (.inl hs) hn
  | some n =>
    have := ho.size n hs
    subst this
    simp only
    by_cases h4 : file.length < 4
    · rw [if_pos h4, if_pos h4]
    · rw [if_neg h4, if_neg h4]
      rcases read_cases ho 0 0 4 with h | ⟨_, hf⟩
      · rw [h]
        unfold readFull
        rw [if_pos (by omega)]
        simp only [List.drop_zero, slice]
        rcases findBlocksIo_cases ho env mx 1 with ⟨t', h⟩ | ⟨hf, _⟩ | ⟨hf, _⟩
        · rw [h]
          cases hfind : findSignatureBlocks env file mx with
          | error p => rfl
          | ok z =>
            obtain ⟨fo, st, e⟩ := z
            cases fo with
            | none => rfl
            | some f =>
              obtain ⟨head, area, cd, rec, hl, rfl, hp⟩ := find_layout hfind
              have hcd := layout_cdOff hl
              have hval := layout_valid hl
              have hfr := frostingIo_cases ho env hcd st t'
              cases e with
              | some e =>
                simp only [Except.map]
                rw [hfr.resolve_right (fun h => hn h.2)]
              | none =>
                simp only [Except.map]
                cases hx : frostingIo env d (layoutFound head area cd rec) st t' with
                | mk fr t1 =>
                  rw [hx] at hfr
                  have hfr := hfr.resolve_right (fun h => hn h.2)
                  simp only at hfr
                  simp only
                  rcases pickIo_cases ho env hval st.blocks mn mx { extraBlocks := st.extra, warnings := st.warnings } none t1 with ⟨t2, h⟩ | ⟨hf, _⟩
                  · rw [h]
                    cases pickAndVerify env file (layoutFound head area cd rec) st.blocks mn mx { extraBlocks := st.extra, warnings := st.warnings } none with
                    | error p => rfl
                    | ok q =>
                      simp only [Except.map, bind, Except.bind]
                      rcases fallbackIo_cases ho env hval st.blocks mn mx q t2 with ⟨t3, h⟩ | ⟨hf, _⟩
                      · rw [h]
                        cases withFallback env file (layoutFound head area cd rec) st.blocks mn mx q with
                        | error p => rfl
                        | ok w =>
                          obtain ⟨r, v3, cd'⟩ := w
                          simp only [Except.map]
                          cases verifyStamp env zip r.schemeId mn mx (mget st.blocks blockIdSourceStampV2) cd' with
                          | error p => rfl
                          | ok s => simp only [hfr]
                      · exact absurd hf hn
                  · exact absurd hf hn
        · exact absurd hf hn
        · exact absurd hf hn
      · exact absurd hf hn

theorem extractCertsIo_eq {d : Disk} {file : Bytes} (ho : d.Over file) (hn : ¬ d.Fails file) (env : Env) (mx : Int) :
    extractCertsIo env d mx = extractCertsReader env file mx := by
  unfold extractCertsIo extractCertsReader
  cases hs : d.size with
  | none => exact absurd (.inl hs) hn
  | some n =>
    have := ho.size n hs
    subst this
    simp only
    by_cases h4 : file.length < 4
    · rw [if_pos h4, if_pos h4]
    · rw [if_neg h4, if_neg h4]
      rcases read_cases ho 0 0 4 with h | ⟨_, hf⟩
      · rw [h]
        unfold readFull
        rw [if_pos (by omega)]
        simp only
        rcases findBlocksIo_cases ho env mx 1 with ⟨t', h⟩ | ⟨hf, _⟩ | ⟨hf, _⟩
        · rw [h]
          cases findSignatureBlocks env file mx with
          | error p => rfl
          | ok z =>
            obtain ⟨fo, st, e⟩ := z
            cases e with
            | some e => rfl
            | none =>
              simp only [Except.map]
              cases pickScheme st.blocks with
              | none => rfl
              | some x =>
                obtain ⟨s, b⟩ := x
                simp only [bind, Except.bind]
                cases extractCerts env s mx b { schemeId := s.id, extraBlocks := st.extra, warnings := st.warnings } none <;> rfl
        · exact absurd hf hn
        · exact absurd hf hn
      · exact absurd hf hn

/-! ## Acceptance in spite of failures -/

/-- `verify` keeps the certificates found while parsing. -/
theorem verifyScheme_keeps {env : Env} {file : Bytes} {f : Found} {sch : Scheme} {mn mx : Int} {b : Bytes} {r : Core} {v3 : Option Core}
    {r' : Core} {v3' : Option Core} {m : Digests} (hv : verifyScheme env file f sch mn mx b r v3 = .ok (r', v3', m))
    {r1 : Core} {v3a : Option Core} {cd : Digests} {fin : FinState} (hx : extractCerts env sch mx b r v3 = .ok (r1, v3a, cd, fin)) :
    r'.certs = r1.certs := by
  obtain ⟨r1', v3a', cd', fin', hx', hcase⟩ := verifyScheme_inv hv
  rw [hx] at hx'
  simp only [Except.ok.injEq, Prod.mk.injEq] at hx'
  obtain ⟨rfl, rfl, rfl, rfl⟩ := hx'
  rcases hcase with ⟨_, rfl, _⟩ | ⟨_, _, rfl, _⟩ | ⟨_, _, _, r2, ok, hI, hc⟩
  · rfl
  · rfl
  · have h2 : r2.certs = r1.certs := by
      unfold verifyIntegrity at hI
      simp only at hI
      cases hcc : computeContentDigests env ((env.cdOrder cd).map (·.1)) (sections file f) with
      | error e => rw [hcc] at hI; cases hI
      | ok z =>
        rw [hcc] at hI
        cases z with
        | error e => cases hI; rfl
        | ok w => cases hI; rfl
    have h3 : ∀ acting rot a c s (q : Core), (v3Finalize acting rot a c s q).certs = q.certs := by
      intro acting rot a c s q
      obtain ⟨es, lin, h, _⟩ := finalizeSorted_eq acting rot a c (sortSigners s) q
      unfold v3Finalize
      rw [h]
    rcases hc with ⟨_, rfl, _⟩ | ⟨_, hfz⟩
    · exact h2
    · have : r' = (finalizeScheme sch mn mx fin r2 v3a).1 := congrArg Prod.fst hfz
      rw [this]
      cases sch with
      | v2 => exact h2
      | v3 => exact (h3 _ _ _ _ _ _).trans h2
      | v31 =>
        simp only [finalizeScheme, v31Finalize]
        cases v3a with
        | none => exact (h3 _ _ _ _ _ _).trans h2
        | some v => exact (h3 _ _ _ _ _ _).trans h2

section
variable {env : Env} {file head area cd rec : Bytes} (hl : ApkLayout file head area cd rec)
include hl

/-- v3.1 accepted on what an unreadable first attempt left behind: v3.1 accepts. -/
theorem unread_v31 {mn mx : Int} {b : Bytes} {r q q' : Core} {v3 w w' : Option Core} {m' : Digests} {x : Core × Option Core × Digests}
    (hr : r.lineage = none) (hc : r.certs = []) (hu : Unread env .v31 mx b r v3 x)
    (hq1 : q.certs = x.1.certs) (hq2 : q.lineage = x.1.lineage)
    (hq3 : mget q.extraBlocks blockIdSchemeV3 = mget r.extraBlocks blockIdSchemeV3)
    (hv' : verifyScheme env file (layoutFound head area cd rec) .v31 mn mx b q w = .ok (q', w', m')) (he : q'.errors = q.errors) :
    ∃ b3 vs vs3 top top3, mget r.extraBlocks blockIdSchemeV3 = some b3 ∧
      V31Accepts env (signedSections head cd rec) mn mx b b3 vs vs3 top top3 := by
  obtain ⟨b3, vs, vs3, top3, h1, h2, h3, h4, h5, h6, h7, h8⟩ := verifyScheme_v31_inv hl hv' he
  obtain ⟨r1, v3', cd', fin, e, hx, hcl, _, rfl⟩ := hu
  have hlin : q.lineage = none := by rw [hq2]; exact ((extract_grow hx).lineage).trans hr
  obtain ⟨q1, cd31, s31, hp, hbb⟩ := extract_v31 hx
  obtain ⟨ws, hw⟩ := v3ParseSigners_ok (p := ⟨true, mx, 0⟩) (r := r) (V3BlockOK_iff.2 ⟨h2, rfl⟩)
  rw [hw] at hp
  simp only [Except.ok.injEq, Prod.mk.injEq] at hp
  obtain ⟨hqq, -, rfl⟩ := hp
  have hr1 : r1.certs = vs.map V3View.chain := by
    rcases hbb with ⟨_, cdx, hxe⟩ | ⟨b3, r3, cd3, s3, hb3, hp3, hxe⟩ <;>
    · simp only [Prod.mk.injEq] at hxe
      obtain ⟨rfl, -, -, -⟩ := hxe
      rw [← hqq]
      simp [hc, Core.addError]
  have hne : vs ≠ [] := by
    rintro rfl
    exact hcl (by rw [hr1]; rfl)
  obtain ⟨top, ht⟩ := finCond_covers hne h2.good h4 (.inl hlin)
  exact ⟨b3, vs, vs3, top, top3, by rw [← hq3]; exact h1, h2, hne, ht, h5, h6, h7, h8⟩

end

/-- The two results differ at most in the frosting part. -/
def SameResult (a b : Outcome) : Prop :=
  ∃ x y, a.res = some x ∧ b.res = some y ∧ x.core = y.core ∧ x.v3 = y.v3 ∧ x.stamp = y.stamp

/-- The steps of a run that ends without an error. -/
theorem verifyBlockIo_inv {d : Disk} {file : Bytes} (ho : d.Over file) (hz : ¬ Zip64 file) {env : Env} {zip : Zip} {mn mx : Int}
    {out : Outcome} (h : verifyBlockIo env zip d mn mx = .ok out) (he : out.err = none) :
    ∃ head area cd rec st t q t1 r v3 dg t2 fr stamp, ApkLayout file head area cd rec ∧
      findSignatureBlocks env file mx = .ok (some (layoutFound head area cd rec), st, none) ∧
      pickIo env d (layoutFound head area cd rec) st.blocks mn mx { extraBlocks := st.extra, warnings := st.warnings } none t = .ok (q, t1) ∧
      fallbackIo env d (layoutFound head area cd rec) st.blocks mn mx q t1 = .ok ((r, v3, dg), t2) ∧ r.errors = [] ∧
      verifyStamp env zip r.schemeId mn mx (mget st.blocks blockIdSourceStampV2) dg = .ok stamp ∧
      out.res = some ⟨r, v3, fr, stamp⟩ ∧ out.magic = leNat (file.take 4) := by
  unfold verifyBlockIo at h
  cases hs : d.size with
  | none => rw [hs] at h; cases h; cases he
  | some n =>
    rw [hs] at h
    have := ho.size n hs
    subst this
    simp only at h
    by_cases h4 : file.length < 4
    · rw [if_pos h4] at h; cases h; cases he
    · rw [if_neg h4] at h
      cases hm : d.read 0 0 4 with
      | none => rw [hm] at h; cases h; cases he
      | some m =>
        rw [hm] at h
        simp only at h
        have hfb : ∃ t', findBlocksIo env d file.length mx 1 = (findSignatureBlocks env file mx).map (·, t') := by
          rcases findBlocksIo_cases ho env mx 1 with hx | ⟨_, t', hx⟩ | ⟨_, l, hl, hzz⟩
          · exact hx
          · rw [hx] at h; cases h; cases he
          · exact absurd ((zip64_iff hl).1 hzz) hz
        obtain ⟨t', hfb⟩ := hfb
        rw [hfb] at h
        cases hfind : findSignatureBlocks env file mx with
        | error p => rw [hfind] at h; cases h
        | ok z =>
          obtain ⟨fo, st, e⟩ := z
          rw [hfind] at h
          cases fo with
          | none =>
            by_cases hl : ∃ head area cd rec, ApkLayout file head area cd rec
            · obtain ⟨head, area, cd, rec, hl⟩ := hl
              rw [layout_find env mx hl] at hfind
              cases hp : parsePairs env mx area with
              | error p => rw [hp] at hfind; cases hfind
              | ok x => rw [hp] at hfind; obtain ⟨_, _⟩ := x; simp at hfind
            · obtain ⟨e', he'⟩ := no_layout_find env mx (file := file) (fun a b c d hx => hl ⟨a, b, c, d, hx⟩)
              rw [he'] at hfind
              simp only [Except.ok.injEq, Prod.mk.injEq, true_and] at hfind
              obtain ⟨rfl, rfl⟩ := hfind
              cases h; cases he
          | some f =>
            obtain ⟨head, area, cd, rec, hl, rfl, hp⟩ := find_layout hfind
            cases e with
            | some e => cases h; cases he
            | none =>
              simp only [Except.map] at h
              cases hx : frostingIo env d (layoutFound head area cd rec) st t' with
              | mk fr t1 =>
                rw [hx] at h
                simp only at h
                cases hq : pickIo env d (layoutFound head area cd rec) st.blocks mn mx { extraBlocks := st.extra, warnings := st.warnings } none t1 with
                | error p => rw [hq] at h; cases h
                | ok qq =>
                  obtain ⟨q, t2⟩ := qq
                  rw [hq] at h
                  simp only at h
                  cases hw : fallbackIo env d (layoutFound head area cd rec) st.blocks mn mx q t2 with
                  | error p => rw [hw] at h; cases h
                  | ok ww =>
                    obtain ⟨⟨r, v3, dg⟩, t3⟩ := ww
                    rw [hw] at h
                    simp only at h
                    cases hst : verifyStamp env zip r.schemeId mn mx (mget st.blocks blockIdSourceStampV2) dg with
                    | error p => rw [hst] at h; cases h
                    | ok stamp =>
                      rw [hst] at h
                      have h := Except.ok.inj h
                      subst h
                      exact ⟨head, area, cd, rec, st, t1, q, t2, r, v3, dg, t3, fr, stamp, hl, rfl, hq, hw, lastError_none.1 he, hst, rfl, by obtain ⟨_, hm2⟩ := ho.read 0 0 4 m hm; rw [hm2]; rfl⟩

/-- Acceptance under failures implies acceptance without; the same result unless v2 was used below Android 9. -/
theorem verifyBlockIo_accepts {d : Disk} {file : Bytes} (ho : d.Over file) (hz : ¬ Zip64 file) {env : Env} {zip : Zip} {mn mx : Int}
    {out out' : Outcome} (h : verifyBlockIo env zip d mn mx = .ok out) (he : out.err = none)
    (h' : verifySigningBlock env zip file mn mx = .ok out') :
    out'.err = none ∧ (SameResult out out' ∨ mn < 28 ∧ 28 ≤ mx ∧ ∃ res, out.res = some res ∧ (res.core.schemeId = 2 ∨ res.core.schemeId = 31) ∧
      ∃ e, W.v3Error (.digestCompute e) ∈ res.core.warnings) := by
  obtain ⟨head, area, cd, rec, st, t, q, t1, r, v3, dg, t2, fr, stamp, hl, hfind, hq, hw, hnil, hst, hres, h4⟩ := verifyBlockIo_inv ho hz h he
  obtain ⟨head', area', cd', rec', hl', hfe, hpp⟩ := find_layout hfind
  obtain ⟨rfl, rfl, rfl, rfl⟩ := layout_unique hl hl'
  have hval := layout_valid hl
  rcases located_inv hl h' with ⟨e, h1, hn⟩ | ⟨ps, st', q', r', v3', dg', stamp', fr', ha, hpp', hm, hq', hw', hs', hfr', hres', herr'⟩
  · exfalso
    obtain ⟨ps, hps⟩ : ∃ ps, PairArea area ps := by
      obtain ⟨ps, ha, _⟩ := parsePairsAux_sound _ (Nat.lt_succ_self _) hpp
      exact ⟨ps, ha⟩
    exact hn ps hps
  rw [hpp] at hpp'
  simp only [Except.ok.injEq, Prod.mk.injEq, and_true] at hpp'
  subst hpp'
  rcases pickIo_cases ho env hval st.blocks mn mx { extraBlocks := st.extra, warnings := st.warnings } none t with ⟨t', hx⟩ | ⟨_, s, b, x, t', hsup, hp, hx, hu⟩
  · rw [hx, hq'] at hq
    simp only [Except.map, Except.ok.injEq, Prod.mk.injEq] at hq
    obtain ⟨rfl, rfl⟩ := hq
    rcases fallbackIo_cases ho env hval st.blocks mn mx q' t' with ⟨t'', hy⟩ | ⟨_, y, t'', hy, hne⟩
    · rw [hy, hw'] at hw
      simp only [Except.map, Except.ok.injEq, Prod.mk.injEq] at hw
      obtain ⟨⟨rfl, rfl, rfl⟩, rfl⟩ := hw
      rw [hst] at hs'
      cases hs'
      exact ⟨by rw [herr']; exact lastError_none.2 hnil, .inl ⟨_, _, hres, hres', rfl, rfl, rfl⟩⟩
    · rw [hy] at hw
      simp only [Except.ok.injEq, Prod.mk.injEq] at hw
      obtain ⟨rfl, rfl⟩ := hw
      exact absurd hnil hne
  · rw [hx] at hq
    simp only [Except.ok.injEq, Prod.mk.injEq] at hq
    obtain ⟨rfl, rfl⟩ := hq
    have hu0 := hu
    obtain ⟨r1, v3a, cd1, fin, e, hex, hcl, hdl, rfl⟩ := hu
    have hext := extract_grow hex
    unfold fallbackIo at hw
    simp only at hw
    by_cases hc : (r1.addError (.digestCompute e)).errors ≠ [] ∧ (r1.addError (.digestCompute e)).schemeId ≥ 3 ∧ mn < 28 ∧ (mget st.blocks blockIdSchemeV2).isSome
    · rw [if_pos hc] at hw
      obtain ⟨_, h3s, hmin, hb2⟩ := hc
      obtain ⟨b2, hb2⟩ := Option.isSome_iff_exists.1 hb2
      obtain ⟨h24, hb2'⟩ := hm.some2.1 hb2
      have h24' : ¬ (!supportsSigV2 mx) = true := by rw [hsup]; simp
      obtain ⟨tt, hw⟩ : ∃ tt, pickAndVerify env file (layoutFound head area cd rec) (mdel st.blocks blockIdSchemeV3) mn mx
          ⟨r1.certs, r1.schemeId, r1.lineage, (match mget st.blocks blockIdSchemeV3 with
            | some b => mset r1.extraBlocks blockIdSchemeV3 b
            | none => r1.extraBlocks), r1.warnings ++ (r1.addError (.digestCompute e)).errors.map W.v3Error, []⟩ v3a = .ok (r, v3, dg) := by
        rcases pickIo_cases ho env hval (mdel st.blocks blockIdSchemeV3) mn mx
          ⟨r1.certs, r1.schemeId, r1.lineage, (match mget st.blocks blockIdSchemeV3 with
            | some b => mset r1.extraBlocks blockIdSchemeV3 b
            | none => r1.extraBlocks), r1.warnings ++ (r1.addError (.digestCompute e)).errors.map W.v3Error, []⟩ v3a t' with ⟨t3, hz⟩ | ⟨_, s', b', x', t3, _, _, hz, hu'⟩
        · have := hz.symm.trans hw
          cases hpv : pickAndVerify env file (layoutFound head area cd rec) (mdel st.blocks blockIdSchemeV3) mn mx
            ⟨r1.certs, r1.schemeId, r1.lineage, (match mget st.blocks blockIdSchemeV3 with
              | some b => mset r1.extraBlocks blockIdSchemeV3 b
              | none => r1.extraBlocks), r1.warnings ++ (r1.addError (.digestCompute e)).errors.map W.v3Error, []⟩ v3a with
          | error p => rw [hpv] at this; cases this
          | ok y =>
            rw [hpv] at this
            simp only [Except.map, Except.ok.injEq, Prod.mk.injEq] at this
            exact ⟨t3, by rw [this.1]⟩
        · have := hz.symm.trans hw
          simp only [Except.ok.injEq, Prod.mk.injEq] at this
          obtain ⟨rfl, rfl⟩ := this
          obtain ⟨r9, v39, cd9, fin9, e9, _, _, _, hx9⟩ := hu'
          simp only [Prod.mk.injEq] at hx9
          rw [hx9.1] at hnil
          simp [Core.addError] at hnil
      have hwn : W.v3Error (.digestCompute e) ∈ (r1.addError (.digestCompute e)).errors.map W.v3Error :=
        List.mem_map.2 ⟨_, by simp [Core.addError], rfl⟩
      unfold pickAndVerify at hq' hw
      rw [if_neg h24'] at hq' hw
      cases h31 : mget st.blocks blockIdSchemeV31 with
      | some b31 =>
        obtain ⟨hs31, h31'⟩ := hm.some31.1 h31
        have h31m : mget (mdel st.blocks blockIdSchemeV3) blockIdSchemeV31 = some b31 := by
          rw [mget_mdel, if_neg (by decide)]; exact h31
        rw [pick_v31 h31] at hp
        simp only [Option.some.injEq, Prod.mk.injEq] at hp
        obtain ⟨rfl, rfl⟩ := hp
        rw [pick_v31 h31m] at hw
        simp only at hw
        obtain ⟨b3, vs, vs3, top, top3, hb, hA⟩ := unread_v31 hl rfl rfl hu0 (by rfl) (by rfl) (by
          simp only
          rw [hext.extra]
          have e3 := hm.e3
          rw [if_pos (.inr hs31)] at e3
          have b3 := hm.b3
          rw [if_pos (by omega)] at b3
          rw [b3]
          cases hlv : lastVal ps idV3 with
          | none => rfl
          | some b => simp only; rw [mget_mset_self, e3, hlv]) hw hnil
        simp only [hm.e3] at hb
        rw [if_pos (.inr hs31)] at hb
        have g := verifyScheme_grow hw
        refine ⟨(verdict_complete hl ha h' (.v31 hs31 h31' hb hA)).1, .inr ⟨hmin, by omega, _, hres, .inr ?_, e, ?_⟩⟩
        · rw [g.schemeId]; rfl
        · obtain ⟨ws, hws⟩ := g.warnings
          rw [hws]; simp [hwn]
      | none =>
        have h31m : mget (mdel st.blocks blockIdSchemeV3) blockIdSchemeV31 = none := by
          rw [mget_mdel, if_neg (by decide)]; exact h31
        have h3m : mget (mdel st.blocks blockIdSchemeV3) blockIdSchemeV3 = none := by
          rw [mget_mdel, if_pos rfl]
        have h2m : mget (mdel st.blocks blockIdSchemeV3) blockIdSchemeV2 = some b2 := by
          rw [mget_mdel, if_neg (by decide)]; exact hb2
        rw [pick_v2 h31m h3m h2m] at hw
        simp only at hw
        have g := verifyScheme_grow hw
        have hright : ∃ res, out.res = some res ∧ (res.core.schemeId = 2 ∨ res.core.schemeId = 31) ∧
            ∃ e, W.v3Error (.digestCompute e) ∈ res.core.warnings := by
          refine ⟨_, hres, .inl ?_, e, ?_⟩
          · rw [g.schemeId]; rfl
          · obtain ⟨ws, hws⟩ := g.warnings
            rw [hws]; simp [hwn]
        cases h3 : mget st.blocks blockIdSchemeV3 with
        | none =>
          exfalso
          rw [pick_v2 h31 h3 hb2] at hp
          simp only [Option.some.injEq, Prod.mk.injEq] at hp
          obtain ⟨rfl, rfl⟩ := hp
          have h2 : (r1.addError (.digestCompute e)).schemeId = 2 := hext.schemeId
          omega
        | some b3 =>
          obtain ⟨h28, h3'⟩ := hm.some3.1 h3
          refine ⟨?_, .inr ⟨hmin, h28, hright⟩⟩
          rw [pick_v3 h31 h3] at hp
          simp only [Option.some.injEq, Prod.mk.injEq] at hp
          obtain ⟨rfl, rfl⟩ := hp
          by_cases hV : ∃ vs top, V3Accepts env (signedSections head cd rec) mn mx b3 vs top
          · obtain ⟨vs, top, hA⟩ := hV
            exact (verdict_complete hl ha h' (.v3 h28 (hm.noV31.1 h31) h3' hA)).1
          · rw [pick_v3 h31 h3] at hq'
            obtain ⟨rp, v3p, dgp⟩ := q'
            simp only at hq'
            obtain ⟨gp, es, hes, hee⟩ := verifyScheme_v3_fail hl (by rfl) hV hq'
            have hcerts := verifyScheme_keeps hq' hex
            have hrp : rp.errors ≠ [] := by rw [hee]; simpa using hes
            unfold withFallback at hw'
            simp only at hw'
            rw [if_pos ⟨hrp, by rw [gp.schemeId]; exact Nat.le_refl 3, hmin, by rw [hb2]; rfl⟩] at hw'
            unfold pickAndVerify at hw'
            rw [if_neg h24', pick_v2 h31m h3m h2m] at hw'
            simp only at hw'
            rw [h3] at hw hw'
            simp only [gp.extra] at hw'
            simp only [hext.extra] at hw
            have hpres := hm.present_fallback (b3 := b3) (r := ⟨r1.certs, Scheme.v2.id, r1.lineage, mset st.extra blockIdSchemeV3 b3, r1.warnings ++ (r1.addError (.digestCompute e)).errors.map W.v3Error, []⟩) rfl
            have hpres' := hm.present_fallback (b3 := b3) (r := ⟨rp.certs, Scheme.v2.id, rp.lineage, mset st.extra blockIdSchemeV3 b3, rp.warnings ++ rp.errors.map W.v3Error, []⟩) rfl
            have hA : ∃ vs, V2Accepts env (signedSections head cd rec) mx (Present ⟨r1.certs, Scheme.v2.id, r1.lineage, mset st.extra blockIdSchemeV3 b3, r1.warnings ++ (r1.addError (.digestCompute e)).errors.map W.v3Error, []⟩) b2 vs ∧ r1.certs.length + vs.length ≤ 10 := by
              refine Classical.byContradiction (fun hA => ?_)
              obtain ⟨_, es, hes, hee⟩ := verifyScheme_v2_fail hl hA hw
              rw [hnil] at hee
              simp only [List.nil_append] at hee
              exact hes hee.symm
            obtain ⟨vs, hA, h10⟩ := hA
            obtain ⟨ws', hv⟩ := verifyScheme_v2_ok hl (minSdk := mn) (v3 := v3p)
              (r := ⟨rp.certs, Scheme.v2.id, rp.lineage, mset st.extra blockIdSchemeV3 b3, rp.warnings ++ rp.errors.map W.v3Error, []⟩) (by rw [hpres'] ; rw [hpres] at hA; exact hA) (by rw [hcerts]; exact h10)
            rw [hv] at hw'
            simp only [Except.ok.injEq, Prod.mk.injEq] at hw'
            obtain ⟨rfl, -, -⟩ := hw'
            rw [herr']; rfl
    · rw [if_neg hc] at hw
      simp only [Except.ok.injEq, Prod.mk.injEq] at hw
      obtain ⟨⟨rfl, -, -⟩, -⟩ := hw
      simp [Core.addError] at hnil

/-- The frosting part of a run, if the signing block was found. -/
theorem verifyBlockIo_frosting {d : Disk} {file : Bytes} (ho : d.Over file) (hz : ¬ Zip64 file) {env : Env} {zip : Zip} {mn mx : Int}
    {out : Outcome} (h : verifyBlockIo env zip d mn mx = .ok out) {r : VRes} (hr : out.res = some r) {x : FrostRes} (hx : r.frosting = some x) :
    ∃ f st e t, findSignatureBlocks env file mx = .ok (some f, st, e) ∧ (frostingIo env d f st t).1 = some x := by
  unfold verifyBlockIo at h
  cases hs : d.size with
  | none => rw [hs] at h; cases h; cases hr
  | some n =>
    rw [hs] at h
    have := ho.size n hs
    subst this
    simp only at h
    by_cases h4 : file.length < 4
    · rw [if_pos h4] at h; cases h; cases hr
    · rw [if_neg h4] at h
      cases hm : d.read 0 0 4 with
      | none => rw [hm] at h; cases h; cases hr
      | some m =>
        rw [hm] at h
        simp only at h
        have hfb : ∃ t', findBlocksIo env d file.length mx 1 = (findSignatureBlocks env file mx).map (·, t') := by
          rcases findBlocksIo_cases ho env mx 1 with hx' | ⟨_, t', hx'⟩ | ⟨_, l, hl, hzz⟩
          · exact hx'
          · rw [hx'] at h; cases h; cases hr; cases hx
          · exact absurd ((zip64_iff hl).1 hzz) hz
        obtain ⟨t', hfb⟩ := hfb
        rw [hfb] at h
        cases hfind : findSignatureBlocks env file mx with
        | error p => rw [hfind] at h; cases h
        | ok z =>
          obtain ⟨fo, st, e⟩ := z
          rw [hfind] at h
          cases fo with
          | none => cases h; cases hr; cases hx
          | some f =>
            cases e with
            | some e => cases h; cases hr; exact ⟨f, st, some e, t', rfl, hx⟩
            | none =>
              simp only [Except.map] at h
              refine ⟨f, st, none, t', rfl, ?_⟩
              cases hfx : frostingIo env d f st t' with
              | mk fr t1 =>
                rw [hfx] at h
                simp only at h
                cases hq : pickIo env d f st.blocks mn mx { extraBlocks := st.extra, warnings := st.warnings } none t1 with
                | error p => rw [hq] at h; cases h
                | ok qq =>
                  obtain ⟨q, t2⟩ := qq
                  rw [hq] at h
                  simp only at h
                  cases hw : fallbackIo env d f st.blocks mn mx q t2 with
                  | error p => rw [hw] at h; cases h
                  | ok ww =>
                    obtain ⟨⟨c, v3, dg⟩, t3⟩ := ww
                    rw [hw] at h
                    simp only at h
                    cases hst : verifyStamp env zip c.schemeId mn mx (mget st.blocks blockIdSourceStampV2) dg with
                    | error p => rw [hst] at h; cases h
                    | ok stamp =>
                      rw [hst] at h
                      have h := Except.ok.inj h
                      subst h
                      cases hr
                      exact hx

theorem verifySigningBlock_frosting {file : Bytes} {env : Env} {zip : Zip} {mn mx : Int} {out : Outcome}
    (h : verifySigningBlock env zip file mn mx = .ok out) {f : Found} {st : PairState} {e : Option E}
    (hf : findSignatureBlocks env file mx = .ok (some f, st, e)) :
    ∃ r, out.res = some r ∧ r.frosting = frostingResult env file f st := by
  obtain ⟨head, area, cd, rec, hl, rfl, hp⟩ := find_layout hf
  have h4 : ¬ file.length < 4 := by
    have := congrArg List.length hl.split
    simp [sigBlock, sigBlockMagic] at this; omega
  unfold verifySigningBlock at h
  rw [if_neg h4, hf] at h
  simp only at h
  cases e with
  | some e => cases h; exact ⟨_, rfl, rfl⟩
  | none =>
    simp only [bind, Except.bind] at h
    split at h
    · cases h
    · split at h
      · cases h
      · split at h
        · cases h
        · cases h; exact ⟨_, rfl, rfl⟩

/-- Frosting verified in spite of failures is verified without them. -/
theorem frosting_despite {d : Disk} {file : Bytes} (ho : d.Over file) (hz : ¬ Zip64 file) {env : Env} {zip : Zip} {mn mx : Int}
    {out out' : Outcome} (h : verifyBlockIo env zip d mn mx = .ok out) (h' : verifySigningBlock env zip file mn mx = .ok out')
    {r : VRes} (hr : out.res = some r) {x : FrostRes} (hx : r.frosting = some x) (hx0 : x.error = none) :
    ∃ r', out'.res = some r' ∧ r'.frosting = some x := by
  obtain ⟨f, st, e, t, hf, hfx⟩ := verifyBlockIo_frosting ho hz h hr hx
  obtain ⟨r', hr', hfr⟩ := verifySigningBlock_frosting h' hf
  obtain ⟨head, area, cd, rec, hl, rfl, hp⟩ := find_layout hf
  rcases frostingIo_cases ho env (layout_cdOff hl) st t with hc | ⟨⟨y, hy, hne⟩, _⟩
  · exact ⟨r', hr', by rw [hfr, ← hc]; exact hfx⟩
  · rw [hfx] at hy
    cases hy
    exact absurd hx0 hne

end Apk
