import Verif.Proofs.Pairs
namespace Apk

theorem findEocd_iff {file : Bytes} {l : Loc} :
    findEocd file = .ok l ↔ ∃ pre rec c, ShortestEocd file pre rec c ∧ CdBefore pre rec l.cdOff l.cdSize ∧
      l.eocdOff = pre.length ∧ l.eocd = rec := by
  rw [findEocd_ok]
  constructor
  · rintro ⟨h22, c, hc, hlen, hcand, hmin, hk⟩
    obtain ⟨e1, e2, a⟩ := (eocdCandidate_ok hlen).1 hk
    refine ⟨_, _, c, ⟨(cand_iff hlen hc).1 hcand, ?_⟩, a, ?_, e2⟩
    · intro c' hc' pre' rec' hr
      obtain ⟨hl, rfl, rfl⟩ := eocdRecord_pos hr
      exact hmin c' hc' ((cand_iff hl hr.small).2 hr)
    · rw [e1, List.length_take]; omega
  · rintro ⟨pre, rec, c, ⟨hr, hmin⟩, hcd, e1, e2⟩
    obtain ⟨hl, rfl, rfl⟩ := eocdRecord_pos hr
    refine ⟨by omega, c, hr.small, hl, (cand_iff hl hr.small).2 hr, ?_, (eocdCandidate_ok hl).2 ⟨?_, e2, hcd⟩⟩
    · intro c' hc' hcand
      exact hmin c' hc' _ _ ((cand_iff (by omega) (by have := hr.small; omega)).1 hcand)
    · rw [e1, List.length_take]; omega

theorem isZip64_iff {file : Bytes} {l : Loc} {pre rec : Bytes} (hs : file = pre ++ rec) (hl : l.eocdOff = pre.length) :
    isZip64 file l = true ↔ Zip64Before pre := by
  unfold isZip64 Zip64Before
  rw [hl]
  split
  · rename_i h
    constructor
    · intro h; cases h
    · rintro ⟨h, _⟩; omega
  · rename_i h
    have e : readFull file (pre.length - 20) 4 = some ((pre.drop (pre.length - 20)).take 4) := by
      unfold readFull slice
      rw [if_pos (by rw [hs, List.length_append]; omega)]
      rw [hs, List.drop_append_of_le_length (by omega), List.take_append_of_le_length (by rw [List.length_drop]; omega)]
    rw [e]
    simp only [decide_eq_true_eq]
    have h4 : ((pre.drop (pre.length - 20)).take 4).length = 4 := by
      rw [List.length_take, List.length_drop]; omega
    rw [leNat_eq_iff h4 (by decide)]
    constructor
    · intro h'; exact ⟨by omega, h'⟩
    · rintro ⟨_, h'⟩; exact h'

/-- The locations the code derives from a layout. -/
def layoutFound (head area cd rec : Bytes) : Found :=
  ⟨⟨(head ++ sigBlock area ++ cd).length, (head ++ sigBlock area).length, cd.length, rec⟩, head.length⟩

theorem layout_findEocd {file head area cd rec : Bytes} (h : ApkLayout file head area cd rec) :
    findEocd file = .ok (layoutFound head area cd rec).loc := by
  obtain ⟨c, hc⟩ := h.eocd
  exact findEocd_iff.2 ⟨_, _, c, hc, h.cdRef, rfl, rfl⟩

theorem layout_findBlock {file head area cd rec : Bytes} (h : ApkLayout file head area cd rec) :
    findApkSigningBlock file (layoutFound head area cd rec).loc = .ok (sigBlock area, head.length) := by
  have hle : (layoutFound head area cd rec).loc.cdOff ≤ file.length := by
    rw [h.split]; simp [layoutFound]
  refine (findApkSigningBlock_ok hle).2 ⟨head, area, cd ++ rec, ?_, rfl, rfl, ?_, h.areaSize⟩
  · rw [h.split, List.append_assoc (head ++ sigBlock area)]
  · simp [layoutFound]

theorem layout_find (env : Env) (maxSdk : Int) {file head area cd rec : Bytes} (h : ApkLayout file head area cd rec) :
    findSignatureBlocks env file maxSdk =
      match parsePairs env maxSdk area with
      | .error p => .error p
      | .ok (st, e) => .ok (some (layoutFound head area cd rec), st, e) := by
  unfold findSignatureBlocks
  rw [layout_findEocd h]
  simp only
  have hz : isZip64 file (layoutFound head area cd rec).loc = false := by
    rw [← Bool.not_eq_true, isZip64_iff h.split rfl]; exact h.noZip64
  rw [hz]
  simp only [Bool.false_eq_true, if_false]
  rw [layout_findBlock h]
  simp only
  rw [sigBlock_area]
  rfl

theorem no_layout_find (env : Env) (maxSdk : Int) {file : Bytes} (h : ∀ head area cd rec, ¬ ApkLayout file head area cd rec) :
    ∃ e, findSignatureBlocks env file maxSdk = .ok (none, {}, some e) := by
  unfold findSignatureBlocks
  cases hE : findEocd file with
  | error e => exact ⟨e, rfl⟩
  | ok l =>
    simp only
    obtain ⟨pre, rec, c, hs, hcd, e1, e2⟩ := findEocd_iff.1 hE
    cases hz : isZip64 file l with
    | true => exact ⟨.zip64, by simp⟩
    | false =>
      simp only [Bool.false_eq_true, if_false]
      cases hB : findApkSigningBlock file l with
      | error e => exact ⟨e, rfl⟩
      | ok bo =>
        exfalso
        obtain ⟨block, off⟩ := bo
        have hsp := hs.1.split
        have hle : l.cdOff ≤ file.length := by
          rw [hsp, List.length_append]; have := hcd.nonEmptyGap; omega
        obtain ⟨head, area, post, hf, rfl, hoff, hcdo, hsz⟩ := (findApkSigningBlock_ok hle).1 hB
        have hcdo' : (head ++ sigBlock area).length = l.cdOff := by rw [List.length_append]; omega
        have hge := hcd.nonEmptyGap
        have hadj := hcd.adjacent
        -- pre = head ++ block ++ cd
        have hpre : pre = head ++ sigBlock area ++ pre.drop l.cdOff := by
          have h1 : pre.take l.cdOff = head ++ sigBlock area := by
            have : file.take l.cdOff = head ++ sigBlock area := by rw [hf]; exact take_append_len hcdo'
            rw [hsp, List.take_append_of_le_length (by omega)] at this
            exact this
          rw [← h1, List.take_append_drop]
        have hcdlen : (pre.drop l.cdOff).length = l.cdSize := by rw [List.length_drop]; omega
        have hz' : ¬ Zip64Before pre := by
          rw [← isZip64_iff hsp e1, hz]; simp
        refine h head area (pre.drop l.cdOff) rec ⟨?_, ⟨c, ?_⟩, ?_, ?_, hsz⟩
        · rw [← hpre]; exact hsp
        · rw [← hpre]; exact hs
        · rw [← hpre, hcdo', hcdlen]; exact hcd
        · rw [← hpre]; exact hz'

theorem layout_unique {file head area cd rec head' area' cd' rec' : Bytes} (h : ApkLayout file head area cd rec)
    (h' : ApkLayout file head' area' cd' rec') : head = head' ∧ area = area' ∧ cd = cd' ∧ rec = rec' := by
  have e1 := layout_findEocd h
  have e2 := layout_findEocd h'
  rw [e1] at e2
  have hloc := Except.ok.inj e2
  have b1 := layout_findBlock h
  have b2 := layout_findBlock h'
  rw [hloc, b2] at b1
  simp only [Except.ok.injEq, Prod.mk.injEq] at b1
  have harea : area' = area := by rw [← sigBlock_area area', ← sigBlock_area area, b1.1]
  subst harea
  simp only [layoutFound, Loc.mk.injEq] at hloc
  have hs := h.split.symm.trans h'.split
  have hrec := hloc.2.2.2
  subst hrec
  have hs1 := List.append_cancel_right hs
  have h3 := List.append_inj hs1 hloc.2.1
  have h4 := List.append_cancel_right h3.1
  exact ⟨h4, rfl, h3.2, rfl⟩

end Apk
