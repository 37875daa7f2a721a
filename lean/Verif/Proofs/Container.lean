import Verif.Model.Container
import Verif.Spec.Container
import Verif.Proofs.Base
namespace Apk

theorem readFull_some {file b : Bytes} {off n : Nat} (h : readFull file off n = some b) :
    off + n ≤ file.length ∧ b = slice file off n := by
  unfold readFull at h
  split at h
  · rename_i h1; exact ⟨h1, (Option.some.inj h).symm⟩
  · cases h

theorem slice_length {b : Bytes} {lo n : Nat} (h : lo + n ≤ b.length) : (slice b lo n).length = n := by
  unfold slice; rw [List.length_take, List.length_drop]; omega

/-- A candidate record with a comment of `c` bytes, as the scanning loop recognises it. -/
def Cand (file : Bytes) (c : Nat) : Prop :=
  u32At file (file.length - 22 - c) = eocdRecMagic ∧ u16At file (file.length - 22 - c + 20) = c

instance (file : Bytes) (c : Nat) : Decidable (Cand file c) := by unfold Cand; infer_instance

theorem eocdScan_eq (file : Bytes) (m : Nat) (hm : 22 + m ≤ file.length) (fuel c : Nat) (hc : c + fuel ≤ m + 1) :
    eocdScan (file.drop (file.length - (22 + m))) (file.length - (22 + m)) fuel c =
      eocdScan file 0 fuel c := by
  induction fuel generalizing c with
  | zero => rfl
  | succ fuel ih =>
    unfold eocdScan
    have hl : (file.drop (file.length - (22 + m))).length = 22 + m := by rw [List.length_drop]; omega
    simp only [hl, u32At, u16At, List.drop_drop]
    have e1 : file.length - (22 + m) + (22 + m - 22 - c) = file.length - 22 - c := by omega
    have e2 : file.length - (22 + m) + (22 + m - 22 - c + 20) = file.length - 22 - c + 20 := by omega
    rw [e1, e2]
    rw [ih (c + 1) (by omega)]
    simp only [eocdCandidate, u32At, List.drop_drop]
    have e3 : file.length - (22 + m) + (22 + m - 22 - c + 16) = file.length - 22 - c + 16 := by omega
    have e4 : file.length - (22 + m) + (22 + m - 22 - c + 12) = file.length - 22 - c + 12 := by omega
    simp only [e3, e4, e1, Nat.zero_add]

theorem eocdScan_ok {file : Bytes} {fuel c : Nat} {l : Loc} :
    eocdScan file 0 fuel c = .ok l ↔
      ∃ c0, c ≤ c0 ∧ c0 < c + fuel ∧ Cand file c0 ∧ (∀ c', c ≤ c' → c' < c0 → ¬ Cand file c') ∧
        eocdCandidate file 0 (file.length - 22 - c0) = .ok l := by
  induction fuel generalizing c with
  | zero =>
    unfold eocdScan
    constructor
    · intro h; cases h
    · rintro ⟨c0, h1, h2, _⟩; omega
  | succ fuel ih =>
    unfold eocdScan
    dsimp only
    split
    · rename_i hc
      change Cand file c at hc
      constructor
      · intro h; exact ⟨c, by omega, by omega, hc, by intros; omega, h⟩
      · rintro ⟨c0, h1, h2, h3, h4, h5⟩
        by_cases he : c0 = c
        · rw [he] at h5; exact h5
        · exact absurd hc (h4 c (by omega) (by omega))
    · rename_i hc
      change ¬ Cand file c at hc
      rw [ih]
      constructor
      · rintro ⟨c0, h1, h2, h3, h4, h5⟩
        refine ⟨c0, by omega, by omega, h3, ?_, h5⟩
        intro c' h6 h7
        by_cases he : c' = c
        · rw [he]; exact hc
        · exact h4 c' (by omega) h7
      · rintro ⟨c0, h1, h2, h3, h4, h5⟩
        have : c0 ≠ c := by rintro rfl; exact hc h3
        exact ⟨c0, by omega, by omega, h3, fun c' h6 h7 => h4 c' (by omega) h7, h5⟩

theorem findEocdMax_eq (file : Bytes) (M : Nat) (hM : M ≤ 65535) (h : 22 ≤ file.length) :
    findEocdMax file M = eocdScan file 0 (min M (file.length - 22) + 1) 0 := by
  unfold findEocdMax
  have hm : (if M > file.length - 22 then file.length - 22 else M) = min M (file.length - 22) := by
    split <;> omega
  simp only [hm]
  have hr : readFull file (file.length - (22 + min M (file.length - 22))) (22 + min M (file.length - 22)) =
      some (file.drop (file.length - (22 + min M (file.length - 22)))) := by
    unfold readFull
    rw [if_pos (by omega)]
    unfold slice
    rw [List.take_of_length_le (by rw [List.length_drop]; omega)]
  rw [hr]
  simp only
  have hl : (file.drop (file.length - (22 + min M (file.length - 22)))).length = 22 + min M (file.length - 22) := by
    rw [List.length_drop]; omega
  rw [hl, if_neg (by omega)]
  rw [show 22 + min M (file.length - 22) - 22 = min M (file.length - 22) by omega]
  exact eocdScan_eq file _ (by omega) _ 0 (by omega)

theorem findEocd_ok {file : Bytes} {l : Loc} :
    findEocd file = .ok l ↔
      22 ≤ file.length ∧ ∃ c, c ≤ 65535 ∧ 22 + c ≤ file.length ∧ Cand file c ∧ (∀ c' < c, ¬ Cand file c') ∧
        eocdCandidate file 0 (file.length - 22 - c) = .ok l := by
  unfold findEocd
  by_cases hl : file.length < 22
  · rw [if_pos hl]
    constructor
    · intro h; cases h
    · rintro ⟨h, _⟩; omega
  · rw [if_neg hl, findEocdMax_eq file 0 (by omega) (by omega), findEocdMax_eq file 65535 (by omega) (by omega)]
    have key : eocdScan file 0 (min 65535 (file.length - 22) + 1) 0 = .ok l ↔
        22 ≤ file.length ∧ ∃ c, c ≤ 65535 ∧ 22 + c ≤ file.length ∧ Cand file c ∧ (∀ c' < c, ¬ Cand file c') ∧
        eocdCandidate file 0 (file.length - 22 - c) = .ok l := by
      rw [eocdScan_ok]
      constructor
      · rintro ⟨c0, h1, h2, h3, h4, h5⟩
        exact ⟨by omega, c0, by omega, by omega, h3, fun c' h => h4 c' (by omega) h, h5⟩
      · rintro ⟨_, c0, h1, h2, h3, h4, h5⟩
        exact ⟨c0, by omega, by omega, h3, fun c' _ h => h4 c' h, h5⟩
    cases h0 : eocdScan file 0 (min 0 (file.length - 22) + 1) 0 with
    | error e => simp only; exact key
    | ok l' =>
      simp only
      rw [← key]
      obtain ⟨c0, h1, h2, h3, h4, h5⟩ := eocdScan_ok.1 h0
      have hfull : eocdScan file 0 (min 65535 (file.length - 22) + 1) 0 = .ok l' :=
        eocdScan_ok.2 ⟨c0, h1, by omega, h3, h4, h5⟩
      rw [hfull]

theorem findEocd_total {file : Bytes} (h : 22 ≤ file.length) :
    findEocd file = eocdScan file 0 (min 65535 (file.length - 22) + 1) 0 ∨ ∃ l, findEocd file = .ok l := by
  unfold findEocd
  rw [if_neg (by omega), findEocdMax_eq file 0 (by omega) h, findEocdMax_eq file 65535 (by omega) h]
  cases eocdScan file 0 (min 0 (file.length - 22) + 1) 0 with
  | error e => left; rfl
  | ok l => right; exact ⟨l, rfl⟩

theorem leNat_eq_iff {b : Bytes} {n v : Nat} (hb : b.length = n) (hv : v < 256 ^ n) : leNat b = v ↔ b = leBytes n v := by
  constructor
  · rintro rfl; rw [← hb, leBytes_leNat]
  · rintro rfl; rw [leNat_leBytes, Nat.mod_eq_of_lt hv]

theorem cand_iff {file : Bytes} {c : Nat} (hc : 22 + c ≤ file.length) (h2 : c ≤ 65535) :
    Cand file c ↔ EocdRecord file (file.take (file.length - 22 - c)) (file.drop (file.length - 22 - c)) c := by
  unfold Cand u32At u16At
  have h4 : ((file.drop (file.length - 22 - c)).take 4).length = 4 := by
    rw [List.length_take, List.length_drop]; omega
  have h5 : ((file.drop (file.length - 22 - c + 20)).take 2).length = 2 := by
    rw [List.length_take, List.length_drop]; omega
  rw [leNat_eq_iff h4 (by decide), leNat_eq_iff h5 (by omega)]
  constructor
  · rintro ⟨h, h'⟩
    exact ⟨(List.take_append_drop _ _).symm, by rw [List.length_drop]; omega, h2, h, by rw [List.drop_drop]; exact h'⟩
  · rintro ⟨_, _, _, h, h'⟩
    rw [List.drop_drop] at h'
    exact ⟨h, h'⟩

theorem eocdRecord_pos {file pre rec : Bytes} {c : Nat} (h : EocdRecord file pre rec c) :
    22 + c ≤ file.length ∧ pre = file.take (file.length - 22 - c) ∧ rec = file.drop (file.length - 22 - c) := by
  obtain ⟨rfl, hl, _, _, _⟩ := h
  have : (pre ++ rec).length - 22 - c = pre.length := by rw [List.length_append]; omega
  refine ⟨by rw [List.length_append]; omega, ?_, ?_⟩
  · rw [this]; simp
  · rw [this]; simp

theorem eocdCandidate_ok {file : Bytes} {c : Nat} (hc : 22 + c ≤ file.length) {l : Loc} :
    eocdCandidate file 0 (file.length - 22 - c) = .ok l ↔
      l.eocdOff = file.length - 22 - c ∧ l.eocd = file.drop (file.length - 22 - c) ∧
      CdBefore (file.take (file.length - 22 - c)) (file.drop (file.length - 22 - c)) l.cdOff l.cdSize := by
  have hp : (file.take (file.length - 22 - c)).length = file.length - 22 - c := by
    rw [List.length_take]; omega
  have h4 : ((file.drop (file.length - 22 - c + 16)).take 4).length = 4 := by
    rw [List.length_take, List.length_drop]; omega
  have h5 : ((file.drop (file.length - 22 - c + 12)).take 4).length = 4 := by
    rw [List.length_take, List.length_drop]; omega
  have lt4 := leNat_lt ((file.drop (file.length - 22 - c + 16)).take 4)
  have lt5 := leNat_lt ((file.drop (file.length - 22 - c + 12)).take 4)
  rw [h4] at lt4
  rw [h5] at lt5
  unfold eocdCandidate u32At
  simp only [Nat.zero_add]
  constructor
  · intro h
    split at h
    · cases h
    · rename_i hlt
      split at h
      · cases h
      · rename_i hadj
        cases h
        refine ⟨rfl, rfl, ?_⟩
        constructor
        · rw [List.drop_drop]; exact (leNat_eq_iff h4 lt4).1 rfl
        · exact lt4
        · rw [List.drop_drop]; exact (leNat_eq_iff h5 lt5).1 rfl
        · exact lt5
        · rw [hp]; simp only; omega
        · rw [hp]; simp only; omega
  · rintro ⟨h1, h2, h⟩
    obtain ⟨a1, a2, a3, a4, a5, a6⟩ := h
    rw [List.drop_drop] at a1 a3
    rw [hp] at a5 a6
    rw [(leNat_eq_iff h4 a2).2 a1, (leNat_eq_iff h5 a4).2 a3]
    rw [if_neg (by omega), if_neg (by omega)]
    cases l
    simp only at h1 h2
    rw [h1, h2]

/-- Facts about a located container used everywhere. -/
theorem findEocd_facts {file : Bytes} {l : Loc} (h : findEocd file = .ok l) :
    l.cdOff < l.eocdOff ∧ l.cdOff + l.cdSize = l.eocdOff ∧ l.eocdOff + 22 ≤ file.length ∧
    l.eocd = file.drop l.eocdOff ∧ 22 ≤ l.eocd.length ∧ l.cdOff < 2 ^ 32 ∧ l.cdSize < 2 ^ 32 ∧
    l.eocd.length ≤ 22 + 65535 := by
  obtain ⟨h22, c, hc, hlen, hcand, _, hk⟩ := findEocd_ok.1 h
  obtain ⟨e1, e2, a⟩ := (eocdCandidate_ok hlen).1 hk
  have hp : (file.take (file.length - 22 - c)).length = file.length - 22 - c := by
    rw [List.length_take]; omega
  have := a.nonEmptyGap
  have := a.adjacent
  refine ⟨by omega, by omega, by omega, by rw [e2, e1], ?_, a.offLt, a.sizeLt, ?_⟩
  · rw [e2, List.length_drop]; omega
  · rw [e2, List.length_drop]; omega

/-! ## Signing block -/

theorem findApkSigningBlock_ok {file : Bytes} {l : Loc} (hcd : l.cdOff ≤ file.length) {block : Bytes} {off : Nat} :
    findApkSigningBlock file l = .ok (block, off) ↔
      ∃ pre area post, file = pre ++ sigBlock area ++ post ∧ block = sigBlock area ∧ off = pre.length ∧
        off + block.length = l.cdOff ∧ area.length + 24 ≤ 2147483647 - 8 := by
  have hmagicLo : leBytes 8 apkSigBlockMagicLo ++ leBytes 8 apkSigBlockMagicHi = sigBlockMagic := by decide
  constructor
  · intro h
    unfold findApkSigningBlock at h
    split at h
    · cases h
    rename_i h32
    split at h
    · cases h
    rename_i footer hf
    obtain ⟨hfl, rfl⟩ := readFull_some hf
    split at h
    · cases h
    rename_i hmag
    simp only at h
    split at h
    · cases h
    rename_i hsz
    split at h
    · cases h
    split at h
    · cases h
    rename_i hoff
    split at h
    · cases h
    rename_i blk hb
    obtain ⟨hbl, rfl⟩ := readFull_some hb
    split at h
    · cases h
    rename_i hhdr
    simp only [Except.ok.injEq, Prod.mk.injEq] at h
    obtain ⟨rfl, rfl⟩ := h
    have hfoot : (slice file (l.cdOff - 24) 24).length = 24 := slice_length hfl
    generalize hS : u64At (slice file (l.cdOff - 24) 24) 0 = S at *
    have hblen : (slice file (l.cdOff - (S + 8)) (S + 8)).length = S + 8 := slice_length hbl
    generalize hB : slice file (l.cdOff - (S + 8)) (S + 8) = B at *
    -- footer is the tail of B
    have hfB : slice file (l.cdOff - 24) 24 = B.drop (S + 8 - 24) := by
      rw [← hB]; unfold slice
      rw [List.drop_take, List.drop_drop, show S + 8 - (S + 8 - 24) = 24 by omega,
        show l.cdOff - (S + 8) + (S + 8 - 24) = l.cdOff - 24 by omega]
    have hB1 : B.take 8 = leBytes 8 S := by
      refine (leNat_eq_iff (by rw [List.length_take]; omega) ?_).1 ?_
      · omega
      · have := Classical.not_not.1 hhdr
        simpa [u64At] using this
    have hF1 : (B.drop (S + 8 - 24)).take 8 = leBytes 8 S := by
      rw [← hfB]
      refine (leNat_eq_iff (by rw [List.length_take]; omega) (by omega)).1 ?_
      simpa [u64At] using hS
    have hmag' := not_or.1 hmag
    have hF2 : ((B.drop (S + 8 - 24)).drop 8).take 8 = leBytes 8 apkSigBlockMagicLo := by
      rw [← hfB]
      refine (leNat_eq_iff (by rw [List.length_take, List.length_drop]; omega) (by decide)).1 ?_
      exact Classical.not_not.1 hmag'.1
    have hF3 : ((B.drop (S + 8 - 24)).drop 16).take 8 = leBytes 8 apkSigBlockMagicHi := by
      rw [← hfB]
      refine (leNat_eq_iff (by rw [List.length_take, List.length_drop]; omega) (by decide)).1 ?_
      exact Classical.not_not.1 hmag'.2
    have hF : B.drop (S + 8 - 24) = leBytes 8 S ++ sigBlockMagic := by
      have e1 := (List.take_append_drop 8 (B.drop (S + 8 - 24))).symm
      have e2 := (List.take_append_drop 8 ((B.drop (S + 8 - 24)).drop 8)).symm
      have e3 : (((B.drop (S + 8 - 24)).drop 8).drop 8) = leBytes 8 apkSigBlockMagicHi := by
        rw [← hF3, List.drop_drop]
        rw [List.take_of_length_le]
        simp only [List.length_drop]; omega
      rw [hF2, e3, hmagicLo] at e2
      rw [hF1, e2] at e1
      exact e1
    refine ⟨file.take (l.cdOff - (S + 8)), slice B 8 (S - 24), file.drop l.cdOff, ?_, ?_, ?_, ?_, ?_⟩
    rotate_left
    · unfold sigBlock
      have hal : (slice B 8 (S - 24)).length = S - 24 := slice_length (by omega)
      rw [hal, show S - 24 + 24 = S by omega, List.append_assoc, ← hF, ← hB1]
      unfold slice
      rw [List.append_assoc, show S + 8 - 24 = 8 + (S - 24) by omega, ← List.drop_drop, List.take_append_drop,
        List.take_append_drop]
    · rw [List.length_take]; omega
    · omega
    · have hal : (slice B 8 (S - 24)).length = S - 24 := slice_length (by omega)
      omega
    · have hBeq : B = sigBlock (slice B 8 (S - 24)) := by
        unfold sigBlock
        have hal : (slice B 8 (S - 24)).length = S - 24 := slice_length (by omega)
        rw [hal, show S - 24 + 24 = S by omega, List.append_assoc, ← hF, ← hB1]
        unfold slice
        rw [List.append_assoc, show S + 8 - 24 = 8 + (S - 24) by omega, ← List.drop_drop, List.take_append_drop,
          List.take_append_drop]
      rw [← hBeq, ← hB]
      unfold slice
      rw [List.append_assoc]
      have : file.drop l.cdOff = (file.drop (l.cdOff - (S + 8))).drop (S + 8) := by
        rw [List.drop_drop]; congr 1; omega
      rw [this, List.take_append_drop, List.take_append_drop]
  · rintro ⟨pre, area, post, rfl, rfl, rfl, hoff, hsz⟩
    have hbl : (sigBlock area).length = area.length + 32 := by
      simp [sigBlock, sigBlockMagic]; omega
    have hpre : pre.length + (sigBlock area).length ≤ (pre ++ sigBlock area ++ post).length := by
      simp only [List.length_append]; omega
    unfold findApkSigningBlock
    rw [if_neg (by omega)]
    have hblock : slice (pre ++ sigBlock area ++ post) pre.length (sigBlock area).length = sigBlock area := by
      unfold slice
      rw [List.append_assoc, drop_append_len rfl, take_append_len rfl]
    have hfooter : slice (pre ++ sigBlock area ++ post) (l.cdOff - 24) 24
        = leBytes 8 (area.length + 24) ++ sigBlockMagic := by
      unfold slice
      have e : l.cdOff - 24 = (pre ++ (leBytes 8 (area.length + 24) ++ area)).length := by
        simp; omega
      rw [show pre ++ sigBlock area ++ post = (pre ++ (leBytes 8 (area.length + 24) ++ area)) ++
        ((leBytes 8 (area.length + 24) ++ sigBlockMagic) ++ post) by simp [sigBlock]]
      rw [e, drop_append_len rfl, take_append_len (by simp [sigBlockMagic])]
    rw [show readFull (pre ++ sigBlock area ++ post) (l.cdOff - 24) 24 =
      some (leBytes 8 (area.length + 24) ++ sigBlockMagic) by
        unfold readFull; rw [if_pos (by omega), hfooter]]
    simp only
    have m1 : u64At (leBytes 8 (area.length + 24) ++ sigBlockMagic) 8 = apkSigBlockMagicLo := by
      unfold u64At; rw [drop_append_len (by simp)]; decide
    have m2 : u64At (leBytes 8 (area.length + 24) ++ sigBlockMagic) 16 = apkSigBlockMagicHi := by
      unfold u64At
      rw [show 16 = (leBytes 8 (area.length + 24)).length + 8 by simp, List.drop_append]
      rw [List.drop_of_length_le (by omega)]
      simp only [leBytes_length, List.nil_append]
      decide
    have m0 : u64At (leBytes 8 (area.length + 24) ++ sigBlockMagic) 0 = area.length + 24 := by
      unfold u64At
      rw [List.drop_zero, take_append_len (by simp), leNat_leBytes, Nat.mod_eq_of_lt (by omega)]
    rw [m1, m2, m0]
    rw [if_neg (by simp)]
    rw [if_neg (by omega), if_neg (by omega), if_neg (by omega)]
    have hofs : l.cdOff - (area.length + 24 + 8) = pre.length := by omega
    rw [hofs]
    rw [show readFull (pre ++ sigBlock area ++ post) pre.length (area.length + 24 + 8) = some (sigBlock area) by
      unfold readFull
      rw [show area.length + 24 + 8 = (sigBlock area).length by omega]
      rw [if_pos (by omega), hblock]]
    simp only
    have hh : u64At (sigBlock area) 0 = area.length + 24 := by
      unfold u64At sigBlock
      rw [List.drop_zero, List.append_assoc, List.append_assoc, take_append_len (by simp), leNat_leBytes,
        Nat.mod_eq_of_lt (by omega)]
    rw [if_neg (by rw [hh]; simp)]

theorem sigBlock_area (area : Bytes) : slice (sigBlock area) 8 ((sigBlock area).length - 32) = area := by
  have hbl : (sigBlock area).length = area.length + 32 := by
    simp [sigBlock, sigBlockMagic]; omega
  rw [hbl]
  unfold slice sigBlock
  rw [List.append_assoc, List.append_assoc, drop_append_len (by simp), take_append_len (by omega)]

end Apk
