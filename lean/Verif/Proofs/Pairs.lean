import Verif.Proofs.Container
namespace Apk

theorem lastVal_nil (id : Nat) : lastVal [] id = none := rfl

theorem lastVal_cons (p : Nat × Bytes) (ps : List (Nat × Bytes)) (id : Nat) :
    lastVal (p :: ps) id = (lastVal ps id).or (if p.1 = id then some p.2 else none) := by
  unfold lastVal
  rw [List.reverse_cons, List.find?_append]
  cases h : ps.reverse.find? (fun p => decide (p.1 = id)) with
  | some q => simp
  | none =>
    by_cases hp : p.1 = id <;> simp [hp]

theorem lastVal_mem {ps : List (Nat × Bytes)} {id : Nat} {v : Bytes} (h : lastVal ps id = some v) : (id, v) ∈ ps := by
  unfold lastVal at h
  rw [Option.map_eq_some_iff] at h
  obtain ⟨q, hq, rfl⟩ := h
  have h1 := List.mem_of_find?_eq_some hq
  have h2 := List.find?_some hq
  simp only [decide_eq_true_eq] at h2
  rw [← h2]
  exact List.mem_reverse.1 h1

@[simp] theorem encPair_length (p : Nat × Bytes) : (encPair p).length = 12 + p.2.length := by
  simp [encPair]; omega

theorem encPairs_cons (p : Nat × Bytes) (ps : List (Nat × Bytes)) : encPairs (p :: ps) = encPair p ++ encPairs ps := rfl

theorem encPairs_nil_iff {ps : List (Nat × Bytes)} : encPairs ps = [] ↔ ps = [] := by
  cases ps with
  | nil => simp [encPairs]
  | cons p ps =>
    rw [encPairs_cons]
    constructor
    · intro h
      have := congrArg List.length h
      simp at this
    · intro h; cases h

/-- Everything one iteration of the pair loop reads from a well-formed pair. -/
theorem pair_parts (p : Nat × Bytes) (rest : Bytes) (h : PairOK p) :
    let b := encPair p ++ rest
    ¬ b = [] ∧ ¬ b.length < 8 ∧ toI64 (leNat (b.take 8)) = ((4 + p.2.length : Nat) : Int) ∧
    (b.drop 8).length = 4 + p.2.length + rest.length ∧
    leNat ((b.drop 8).take 4) = p.1 ∧ slice (b.drop 8) 4 (4 + p.2.length - 4) = p.2 ∧
    (b.drop 8).drop (4 + p.2.length) = rest := by
  obtain ⟨h1, h2⟩ := h
  have e8 : (encPair p ++ rest).take 8 = leBytes 8 (4 + p.2.length) := by
    rw [encPair, List.append_assoc, List.append_assoc]; exact take_append_len (by simp)
  have d8 : (encPair p ++ rest).drop 8 = leBytes 4 p.1 ++ (p.2 ++ rest) := by
    rw [encPair, List.append_assoc, List.append_assoc]; exact drop_append_len (by simp)
  simp only
  refine ⟨?_, ?_, ?_, ?_, ?_, ?_, ?_⟩
  · intro h
    have := congrArg List.length h
    simp at this
  · simp; omega
  · rw [e8, leNat_leBytes, Nat.mod_eq_of_lt (by omega), toI64_of_lt (by omega)]
  · rw [d8]; simp; omega
  · rw [d8, take_append_len (by simp), leNat_leBytes, Nat.mod_eq_of_lt h1]
  · rw [d8]; unfold slice
    rw [drop_append_len (by simp), take_append_len (by omega)]
  · rw [d8, ← List.append_assoc, drop_append_len (by simp)]

/-- Unfolding the pair loop on a well-formed first pair. -/
theorem parsePairsAux_cons (env : Env) (maxSdk : Int) (fuel : Nat) (p : Nat × Bytes) (rest : Bytes) (st : PairState)
    (h : PairOK p) :
    parsePairsAux env maxSdk (fuel + 1) (encPair p ++ rest) st =
      match pairStep env maxSdk st p.1 p.2 (decide (p.2 = [] ∧ rest = [])) with
      | .error q => .error q
      | .ok (.error e) => .ok (st, some e)
      | .ok (.ok st') => parsePairsAux env maxSdk fuel rest st' := by
  obtain ⟨a1, a2, a3, a4, a5, a6, a7⟩ := pair_parts p rest h
  obtain ⟨h1, h2⟩ := h
  conv => lhs; unfold parsePairsAux
  rw [if_neg a1, if_neg a2]
  simp only [a3]
  rw [if_neg (by omega), if_neg (by rw [a4]; omega)]
  simp only [Int.toNat_natCast, a5, a6, a7, a4]
  have : decide (4 + p.2.length + rest.length = 4) = decide (p.2 = [] ∧ rest = []) := by
    apply decide_eq_decide.2
    rw [← List.length_eq_zero_iff, ← List.length_eq_zero_iff]
    omega
  rw [this]
  rfl

/-- The converse: when an iteration neither stops nor fails, the buffer starts with a well-formed pair. -/
theorem parsePairsAux_step {env : Env} {maxSdk : Int} {fuel : Nat} {b : Bytes} {st st' : PairState}
    (h : parsePairsAux env maxSdk (fuel + 1) b st = .ok (st', none)) (hb : b ≠ []) :
    ∃ p rest st1, PairOK p ∧ b = encPair p ++ rest ∧
      pairStep env maxSdk st p.1 p.2 (decide (p.2 = [] ∧ rest = [])) = .ok (.ok st1) ∧
      parsePairsAux env maxSdk fuel rest st1 = .ok (st', none) := by
  have h0 := h
  unfold parsePairsAux at h
  rw [if_neg hb] at h
  split at h
  · simp at h
  rename_i h8
  simp only at h
  split at h
  · simp at h
  rename_i hr
  split at h
  · simp at h
  rename_i hav
  generalize hE : toI64 (leNat (b.take 8)) = L at *
  have hlen8 : (b.take 8).length = 8 := by rw [List.length_take]; omega
  have hlt := leNat_lt (b.take 8)
  rw [hlen8] at hlt
  have hN : leNat (b.take 8) = L.toNat := by
    unfold toI64 at hE
    simp only at hE
    split at hE <;> omega
  have hd8 : (b.drop 8).length = b.length - 8 := List.length_drop
  have h4 : ((b.drop 8).take 4).length = 4 := by rw [List.length_take]; omega
  have hlt4 := leNat_lt ((b.drop 8).take 4)
  rw [h4] at hlt4
  have hval : (slice (b.drop 8) 4 (L.toNat - 4)).length = L.toNat - 4 := slice_length (by omega)
  have hsplit : b = encPair (leNat ((b.drop 8).take 4), slice (b.drop 8) 4 (L.toNat - 4)) ++ (b.drop 8).drop L.toNat := by
    unfold encPair
    simp only [hval]
    rw [show 4 + (L.toNat - 4) = L.toNat by omega, ← hN]
    have e1 := leBytes_leNat (b.take 8); rw [hlen8] at e1
    have e2 := leBytes_leNat ((b.drop 8).take 4); rw [h4] at e2
    rw [e1, e2, hN]
    have e3 : slice (b.drop 8) 4 (L.toNat - 4) ++ (b.drop 8).drop L.toNat = (b.drop 8).drop 4 := by
      unfold slice
      have : (b.drop 8).drop L.toNat = ((b.drop 8).drop 4).drop (L.toNat - 4) := by
        rw [List.drop_drop, List.drop_drop, List.drop_drop, show 8 + (4 + (L.toNat - 4)) = 8 + L.toNat by omega]
      rw [this, List.take_append_drop]
    rw [List.append_assoc, List.append_assoc, e3, List.take_append_drop, List.take_append_drop]
  have hok : PairOK (leNat ((b.drop 8).take 4), slice (b.drop 8) 4 (L.toNat - 4)) := by
    refine ⟨hlt4, ?_⟩
    simp only [hval]; omega
  refine ⟨(leNat ((b.drop 8).take 4), slice (b.drop 8) 4 (L.toNat - 4)), (b.drop 8).drop L.toNat, ?_⟩
  · rw [hsplit, parsePairsAux_cons env maxSdk fuel _ _ st hok] at h0
    split at h0
    · cases h0
    · simp at h0
    · rename_i st1 hst
      exact ⟨st1, hok, hsplit, hst, h0⟩

/-- What a single pair does to the state, when its frosting value (if any) does not panic. -/
structure StepSpec (env : Env) (maxSdk : Int) (st st1 : PairState) (p : Nat × Bytes) : Prop where
  blocks : ∀ id, mget st1.blocks id = if usedId id maxSdk ∧ p.1 = id then some p.2 else mget st.blocks id
  extra : ∀ id, mget st1.extra id = if extraId id maxSdk ∧ p.1 = id then some p.2 else mget st.extra id
  frosting : p.1 ≠ 0x2146444e → st1.frosting = st.frosting ∧ st1.frostingRes = st.frostingRes ∧ st1.warnings = st.warnings
  frosting' : p.1 = 0x2146444e → ∃ fr, frParse env p.2 = .ok fr ∧ st1.frosting = some fr ∧
    (match fr.info with
      | .error _ => st1.frostingRes = st.frostingRes ∧ st1.warnings = st.warnings ++ [.frosting]
      | .ok i => st1.frostingRes = some i ∧ st1.warnings = st.warnings)

theorem supported_iff {id : Nat} {m : Int} (h : id = 0x7109871a ∨ id = 0xf05368c0 ∨ id = 0x1b93ad61) :
    isSupportedScheme id m = true ↔ usedId id m := by
  rcases h with rfl | rfl | rfl <;>
    simp [isSupportedScheme, usedId, blockIdSchemeV2, blockIdSchemeV3, blockIdSchemeV31, supportsSigV2, supportsSigV3,
      supportsSigV31]

theorem extra_iff {id : Nat} {m : Int} (h : id = 0x7109871a ∨ id = 0xf05368c0 ∨ id = 0x1b93ad61) :
    (!isSupportedScheme id m || (decide (id = blockIdSchemeV3) && supportsSigV31 m)) = true ↔ extraId id m := by
  rcases h with rfl | rfl | rfl <;>
    simp [isSupportedScheme, extraId, blockIdSchemeV2, blockIdSchemeV3, blockIdSchemeV31, supportsSigV2, supportsSigV3,
      supportsSigV31]

theorem pairStep_spec {env : Env} {maxSdk : Int} {st st1 : PairState} {p : Nat × Bytes} {e : Bool}
    (h : pairStep env maxSdk st p.1 p.2 e = .ok (.ok st1)) :
    StepSpec env maxSdk st st1 p ∧ (e = true → p.1 = 0x42726577) := by
  unfold pairStep at h
  split at h
  · rename_i hs
    simp only [blockIdSchemeV2, blockIdSchemeV3, blockIdSchemeV31] at hs
    split at h
    · simp at h
    rename_i he
    simp only [Except.ok.injEq] at h
    subst h
    refine ⟨⟨?_, ?_, fun _ => ⟨rfl, rfl, rfl⟩, fun h => by omega⟩, fun h => absurd h he⟩
    · intro id
      simp only
      split
      · rename_i hsup
        rw [mget_mset]
        by_cases hid : p.1 = id
        · subst hid
          rw [if_pos rfl, if_pos]
          exact ⟨(supported_iff hs).1 hsup, rfl⟩
        · rw [if_neg hid, if_neg (by rintro ⟨_, h⟩; exact hid h)]
      · rename_i hsup
        rw [if_neg]
        rintro ⟨hu, rfl⟩
        exact hsup ((supported_iff hs).2 hu)
    · intro id
      simp only
      split
      · rename_i hsup
        rw [mget_mset]
        by_cases hid : p.1 = id
        · subst hid
          rw [if_pos rfl, if_pos]
          exact ⟨(extra_iff hs).1 hsup, rfl⟩
        · rw [if_neg hid, if_neg (by rintro ⟨_, h⟩; exact hid h)]
      · rename_i hsup
        rw [if_neg]
        rintro ⟨hu, rfl⟩
        exact hsup ((extra_iff hs).2 hu)
  · rename_i hs
    simp only [blockIdSchemeV2, blockIdSchemeV3, blockIdSchemeV31] at hs
    split at h
    · rename_i hpad
      simp only [blockIdVerityPadding] at hpad
      simp only [Except.ok.injEq] at h
      subst h
      refine ⟨⟨?_, ?_, fun _ => ⟨rfl, rfl, rfl⟩, fun h => by omega⟩, fun _ => hpad⟩
      · intro id; rw [if_neg]; rintro ⟨hu, rfl⟩; unfold usedId at hu; omega
      · intro id; rw [if_neg]; rintro ⟨hu, rfl⟩; unfold extraId at hu; omega
    · rename_i hpad
      simp only [blockIdVerityPadding] at hpad
      split at h
      · rename_i hfr
        simp only [blockIdFrosting] at hfr
        split at h
        · simp at h
        rename_i he
        cases hp : frParse env p.2 with
        | error q => rw [hp] at h; cases h
        | ok fr =>
          rw [hp] at h
          simp only [bind, Except.bind] at h
          have hb : ∀ id, ¬ (usedId id maxSdk ∧ p.1 = id) := by
            rintro id ⟨hu, rfl⟩; unfold usedId at hu; omega
          have hx : ∀ id, ¬ (extraId id maxSdk ∧ p.1 = id) := by
            rintro id ⟨hu, rfl⟩; unfold extraId at hu; omega
          split at h
          · rename_i e' hi
            simp only [Except.ok.injEq] at h
            subst h
            refine ⟨⟨fun id => by rw [if_neg (hb id)], fun id => by rw [if_neg (hx id)], fun h => absurd hfr h,
              fun _ => ⟨fr, hp, rfl, ?_⟩⟩, fun h => absurd h he⟩
            rw [hi]; exact ⟨rfl, rfl⟩
          · rename_i i hi
            simp only [Except.ok.injEq] at h
            subst h
            refine ⟨⟨fun id => by rw [if_neg (hb id)], fun id => by rw [if_neg (hx id)], fun h => absurd hfr h,
              fun _ => ⟨fr, hp, rfl, ?_⟩⟩, fun h => absurd h he⟩
            rw [hi]; exact ⟨rfl, rfl⟩
      · rename_i hfr
        simp only [blockIdFrosting] at hfr
        split at h
        · rename_i hst
          simp only [blockIdSourceStampV2] at hst
          split at h
          · simp at h
          rename_i he
          simp only [Except.ok.injEq] at h
          subst h
          refine ⟨⟨?_, ?_, fun _ => ⟨rfl, rfl, rfl⟩, fun h => absurd h hfr⟩, fun h => absurd h he⟩
          · intro id
            simp only
            rw [mget_mset]
            by_cases hid : p.1 = id
            · subst hid; rw [if_pos rfl, if_pos]; refine ⟨?_, rfl⟩; unfold usedId; omega
            · rw [if_neg hid, if_neg (by rintro ⟨_, h⟩; exact hid h)]
          · intro id; rw [if_neg]; rintro ⟨hu, rfl⟩; unfold extraId at hu; omega
        · rename_i hst
          simp only [blockIdSourceStampV2] at hst
          split at h
          · simp at h
          rename_i he
          simp only [Except.ok.injEq] at h
          subst h
          refine ⟨⟨?_, ?_, fun _ => ⟨rfl, rfl, rfl⟩, fun h => absurd h hfr⟩, fun h => absurd h he⟩
          · intro id; rw [if_neg]; rintro ⟨hu, rfl⟩; unfold usedId at hu; omega
          · intro id
            simp only
            rw [mget_mset]
            by_cases hid : p.1 = id
            · subst hid; rw [if_pos rfl, if_pos]; refine ⟨?_, rfl⟩; unfold extraId; omega
            · rw [if_neg hid, if_neg (by rintro ⟨_, h⟩; exact hid h)]

/-- A pair is processed without error unless it is an empty trailing one, and panics only through frosting. -/
theorem pairStep_total (env : Env) (maxSdk : Int) (st : PairState) (p : Nat × Bytes) (e : Bool) :
    (∃ st1, pairStep env maxSdk st p.1 p.2 e = .ok (.ok st1)) ∨
    (e = true ∧ p.1 ≠ 0x42726577 ∧ pairStep env maxSdk st p.1 p.2 e = .ok (.error .pairRead)) ∨
    (∃ q, e = false ∧ p.1 = 0x2146444e ∧ frParse env p.2 = .error q ∧ pairStep env maxSdk st p.1 p.2 e = .error q) := by
  unfold pairStep
  split
  · rename_i hs
    simp only [blockIdSchemeV2, blockIdSchemeV3, blockIdSchemeV31] at hs
    cases e with
    | true => right; left; exact ⟨rfl, by omega, by simp⟩
    | false => left; simp
  · rename_i hs
    simp only [blockIdSchemeV2, blockIdSchemeV3, blockIdSchemeV31] at hs
    split
    · left; exact ⟨_, rfl⟩
    · rename_i hpad
      simp only [blockIdVerityPadding] at hpad
      split
      · rename_i hfr
        simp only [blockIdFrosting] at hfr
        cases e with
        | true => right; left; exact ⟨rfl, by omega, by simp⟩
        | false =>
          cases hp : frParse env p.2 with
          | error q => right; right; exact ⟨q, rfl, hfr, rfl, by simp [bind, Except.bind]⟩
          | ok fr =>
            left
            simp only [Bool.false_eq_true, if_false, bind, Except.bind]
            cases fr.info <;> simp
      · split
        · cases e with
          | true => right; left; exact ⟨rfl, by omega, by simp⟩
          | false => left; simp
        · cases e with
          | true => right; left; exact ⟨rfl, by omega, by simp⟩
          | false => left; simp

/-- What the pair loop computes, relative to the starting state. -/
structure RunSpec (env : Env) (maxSdk : Int) (st st' : PairState) (ps : List (Nat × Bytes)) : Prop where
  blocks : ∀ id, mget st'.blocks id = if usedId id maxSdk then (lastVal ps id).or (mget st.blocks id) else mget st.blocks id
  extra : ∀ id, mget st'.extra id = if extraId id maxSdk then (lastVal ps id).or (mget st.extra id) else mget st.extra id
  frosting : ∃ frs : List FrostParse, (frostingValues ps).map (frParse env) = frs.map .ok ∧
    st'.frosting = frs.getLast?.or st.frosting ∧
    st'.frostingRes = (frs.filterMap (fun fr => fr.info.toOption)).getLast?.or st.frostingRes ∧
    st'.warnings = st.warnings ++ (frs.filter (fun fr => fr.info.toOption.isNone)).map (fun _ => W.frosting)

theorem RunSpec.nil (env : Env) (maxSdk : Int) (st : PairState) : RunSpec env maxSdk st st [] := by
  refine ⟨?_, ?_, [], rfl, ?_, ?_, ?_⟩
  · intro id; split <;> simp [lastVal_nil]
  · intro id; split <;> simp [lastVal_nil]
  all_goals simp

theorem getLast?_cons_or {α : Type} (a : α) (l : List α) (o : Option α) :
    ((a :: l).getLast?).or o = (l.getLast?).or (some a) := by
  cases l with
  | nil => simp
  | cons b l => rw [List.getLast?_cons_cons]; cases h : (b :: l).getLast? with
    | none => simp at h
    | some x => simp

theorem RunSpec.cons {env : Env} {maxSdk : Int} {st st1 st' : PairState} {p : Nat × Bytes} {ps : List (Nat × Bytes)}
    (h1 : StepSpec env maxSdk st st1 p) (h2 : RunSpec env maxSdk st1 st' ps) : RunSpec env maxSdk st st' (p :: ps) := by
  refine ⟨?_, ?_, ?_⟩
  · intro id
    rw [h2.blocks id, h1.blocks id, lastVal_cons]
    by_cases hu : usedId id maxSdk
    · by_cases hp : p.1 = id <;> simp [hu, hp]
    · simp [hu]
  · intro id
    rw [h2.extra id, h1.extra id, lastVal_cons]
    by_cases hu : extraId id maxSdk
    · by_cases hp : p.1 = id <;> simp [hu, hp]
    · simp [hu]
  · obtain ⟨frs, f1, f2, f3, f4⟩ := h2.frosting
    by_cases hf : p.1 = 0x2146444e
    · obtain ⟨fr, g1, g2, g3⟩ := h1.frosting' hf
      refine ⟨fr :: frs, ?_, ?_, ?_, ?_⟩
      · unfold frostingValues at *
        simp only [List.filter_cons, hf, decide_true, if_true, List.map_cons]
        rw [g1, f1]
      · rw [getLast?_cons_or, f2, g2]
      · rw [f3]
        cases hi : fr.info with
        | error e => rw [hi] at g3; simp [hi, Except.toOption, g3.1]
        | ok i =>
          rw [hi] at g3
          simp only [List.filterMap_cons, hi, Except.toOption, g3.1]
          rw [getLast?_cons_or]
      · rw [f4]
        cases hi : fr.info with
        | error e => rw [hi] at g3; simp [hi, Except.toOption, g3.2]
        | ok i => rw [hi] at g3; simp [hi, Except.toOption, g3.2]
    · obtain ⟨g1, g2, g3⟩ := h1.frosting hf
      refine ⟨frs, ?_, ?_, ?_, ?_⟩
      · unfold frostingValues at *
        simp only [List.filter_cons, hf, decide_false, Bool.false_eq_true, if_false]
        exact f1
      · rw [f2, g1]
      · rw [f3, g2]
      · rw [f4, g3]

theorem pairArea_cons {p : Nat × Bytes} {ps : List (Nat × Bytes)} {rest : Bytes}
    (hp : PairOK p) (hr : PairArea rest ps) (he : p.2 = [] ∧ rest = [] → p.1 = 0x42726577) :
    PairArea (encPair p ++ rest) (p :: ps) := by
  obtain ⟨h1, h2, h3⟩ := hr
  refine ⟨by rw [encPairs_cons, h1], fun q hq => (List.mem_cons.1 hq).elim (fun h => h ▸ hp) (h2 q), ?_⟩
  intro q hq hq2
  cases ps with
  | nil =>
    simp at hq
    subst hq
    exact he ⟨hq2, by rw [h1]; rfl⟩
  | cons a as => rw [List.getLast?_cons_cons] at hq; exact h3 q hq hq2

theorem parsePairsAux_sound {env : Env} {maxSdk : Int} (fuel : Nat) {b : Bytes} {st st' : PairState}
    (hf : b.length < fuel) (h : parsePairsAux env maxSdk fuel b st = .ok (st', none)) :
    ∃ ps, PairArea b ps ∧ RunSpec env maxSdk st st' ps := by
  induction fuel generalizing b st with
  | zero => omega
  | succ fuel ih =>
    by_cases hb : b = []
    · subst hb
      unfold parsePairsAux at h
      simp only [if_true, Except.ok.injEq, Prod.mk.injEq, and_true] at h
      subst h
      exact ⟨[], ⟨rfl, by simp, by simp⟩, RunSpec.nil _ _ _⟩
    · obtain ⟨p, rest, st1, hok, hsplit, hst, hrest⟩ := parsePairsAux_step h hb
      obtain ⟨hs, he⟩ := pairStep_spec hst
      have hl : rest.length < fuel := by
        have := congrArg List.length hsplit
        simp at this; omega
      obtain ⟨ps, a1, a2⟩ := ih hl hrest
      exact ⟨p :: ps, hsplit ▸ pairArea_cons hok a1 (fun h => he (by simpa using h)), RunSpec.cons hs a2⟩

theorem parsePairsAux_complete {env : Env} {maxSdk : Int} (ps : List (Nat × Bytes)) (fuel : Nat) (b : Bytes) (st : PairState)
    (hf : b.length < fuel) (ha : PairArea b ps) (hfr : ∀ v ∈ frostingValues ps, ∃ fr, frParse env v = .ok fr) :
    ∃ st', parsePairsAux env maxSdk fuel b st = .ok (st', none) ∧ RunSpec env maxSdk st st' ps := by
  induction ps generalizing fuel b st with
  | nil =>
    obtain ⟨f, rfl⟩ : ∃ f, fuel = f + 1 := ⟨fuel - 1, by omega⟩
    have : b = [] := ha.1
    subst this
    refine ⟨st, ?_, RunSpec.nil _ _ _⟩
    unfold parsePairsAux; simp
  | cons p ps ih =>
    obtain ⟨f, rfl⟩ : ∃ f, fuel = f + 1 := ⟨fuel - 1, by omega⟩
    obtain ⟨h1, h2, h3⟩ := ha
    rw [encPairs_cons] at h1
    subst h1
    simp only [List.mem_cons, forall_eq_or_imp] at h2
    rw [parsePairsAux_cons _ _ _ _ _ _ h2.1]
    have hl : (encPairs ps).length < f := by simp at hf; omega
    have hrest : PairArea (encPairs ps) ps := by
      refine ⟨rfl, h2.2, ?_⟩
      intro q hq hq2
      cases ps with
      | nil => simp at hq
      | cons a as => exact h3 q (by rw [List.getLast?_cons_cons]; exact hq) hq2
    have hfr' : ∀ v ∈ frostingValues ps, ∃ fr, frParse env v = .ok fr := by
      intro v hv
      apply hfr
      unfold frostingValues at *
      simp only [List.filter_cons]
      split
      · simp only [List.map_cons, List.mem_cons]; exact Or.inr hv
      · exact hv
    rcases pairStep_total env maxSdk st p (decide (p.2 = [] ∧ encPairs ps = [])) with ⟨st1, hst⟩ | ⟨he, hne, _⟩ | ⟨q, _, hid, hq, _⟩
    · rw [hst]
      simp only
      obtain ⟨st', g1, g2⟩ := ih f (encPairs ps) st1 hl hrest hfr'
      exact ⟨st', g1, RunSpec.cons (pairStep_spec hst).1 g2⟩
    · simp only [decide_eq_true_eq] at he
      have hnil := encPairs_nil_iff.1 he.2
      subst hnil
      exact absurd (h3 p rfl he.1) hne
    · obtain ⟨fr, hfr0⟩ := hfr p.2 (by unfold frostingValues; simp [hid])
      rw [hfr0] at hq; cases hq

/-- A well-formed area is never reported as malformed. -/
theorem parsePairsAux_noerr {env : Env} {maxSdk : Int} (ps : List (Nat × Bytes)) (fuel : Nat) (b : Bytes) (st : PairState)
    (hf : b.length < fuel) (ha : PairArea b ps) {st' : PairState} {e : E} : parsePairsAux env maxSdk fuel b st ≠ .ok (st', some e) := by
  induction ps generalizing fuel b st with
  | nil =>
    obtain ⟨f, rfl⟩ : ∃ f, fuel = f + 1 := ⟨fuel - 1, by omega⟩
    have : b = [] := ha.1
    subst this
    unfold parsePairsAux; simp
  | cons p ps ih =>
    obtain ⟨f, rfl⟩ : ∃ f, fuel = f + 1 := ⟨fuel - 1, by omega⟩
    obtain ⟨h1, h2, h3⟩ := ha
    rw [encPairs_cons] at h1
    subst h1
    simp only [List.mem_cons, forall_eq_or_imp] at h2
    rw [parsePairsAux_cons _ _ _ _ _ _ h2.1]
    have hl : (encPairs ps).length < f := by simp at hf; omega
    have hrest : PairArea (encPairs ps) ps := by
      refine ⟨rfl, h2.2, ?_⟩
      intro q hq hq2
      cases ps with
      | nil => simp at hq
      | cons a as => exact h3 q (by rw [List.getLast?_cons_cons]; exact hq) hq2
    rcases pairStep_total env maxSdk st p (decide (p.2 = [] ∧ encPairs ps = [])) with ⟨st1, hst⟩ | ⟨he, hne, _⟩ | ⟨q, _, hid, hq, hst⟩
    · rw [hst]
      exact ih f (encPairs ps) st1 hl hrest
    · simp only [decide_eq_true_eq] at he
      have hnil := encPairs_nil_iff.1 he.2
      subst hnil
      exact absurd (h3 p rfl he.1) hne
    · rw [hst]; simp

/-- The pair loop panics only through the frosting parser on a value contained in the area. -/
theorem parsePairsAux_panic {env : Env} {maxSdk : Int} (fuel : Nat) {b : Bytes} {st : PairState} {q : Panic}
    (h : parsePairsAux env maxSdk fuel b st = .error q) : ∃ v, v <:+: b ∧ frParse env v = .error q := by
  induction fuel generalizing b st with
  | zero => unfold parsePairsAux at h; cases h
  | succ fuel ih =>
    unfold parsePairsAux at h
    split at h
    · cases h
    split at h
    · cases h
    simp only at h
    split at h
    · cases h
    split at h
    · cases h
    split at h
    · rename_i p hp
      cases h
      rcases pairStep_total env maxSdk st (leNat ((b.drop 8).take 4),
        slice (b.drop 8) 4 ((toI64 (leNat (b.take 8))).toNat - 4)) (decide ((b.drop 8).length = 4)) with ⟨_, h⟩ | ⟨_, _, h⟩ | ⟨q, _, _, h2, h3⟩
      · simp only at h; rw [h] at hp; cases hp
      · simp only at h; rw [h] at hp; cases hp
      · simp only at h3 h2; rw [h3] at hp; cases hp
        refine ⟨_, ?_, h2⟩
        unfold slice
        exact (List.take_prefix _ _).isInfix.trans ((List.drop_suffix _ _).isInfix.trans (List.drop_suffix _ _).isInfix)
    · cases h
    · obtain ⟨v, hv, he⟩ := ih h
      exact ⟨v, hv.trans ((List.drop_suffix _ _).isInfix.trans (List.drop_suffix _ _).isInfix), he⟩

end Apk
