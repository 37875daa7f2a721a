import Verif.Proofs.ChainUp
import Verif.Proofs.V1ExactTop
/-! # Host names and purposes -/
namespace Apk
open Spec

/-! ## Labels -/

theorem labelled_iff (name : Bytes) (labels : List Bytes) : Labelled name labels ↔ trimDot name ≠ [] ∧ labels = splitByte 46 (trimDot name) := by
  constructor
  · rintro ⟨h1, h2, h3, h4⟩
    have e : trimDot name = (b!".").intercalate labels := by
      unfold trimDot
      rcases h4 with rfl | ⟨rfl, h4⟩
      · rw [if_pos (by simp [List.getLast?_append])]
        exact List.dropLast_concat
      · rw [if_neg h4]
    exact ⟨by rw [e]; exact h3, (splitByte_of_pieces h1 h2 e.symm).symm⟩
  · rintro ⟨h1, rfl⟩
    have e : (b!".").intercalate (splitByte 46 (trimDot name)) = trimDot name := splitByte_join ..
    refine ⟨splitByte_ne_nil _ _, fun l hl => splitByte_no_sep hl, by rw [e]; exact h1, ?_⟩
    rw [e]
    unfold trimDot
    split
    · rename_i h
      left
      obtain ⟨ys, rfl⟩ := List.getLast?_eq_some_iff.1 h
      rw [List.dropLast_concat]
    · rename_i h
      exact .inr ⟨rfl, h⟩

/-! ## Case -/

/-- The lower case of an ASCII letter. -/
def lowByte (c : UInt8) : UInt8 := if 65 ≤ c.toNat ∧ c.toNat ≤ 90 then c + 32 else c

theorem lowByte_toNat (c : UInt8) : (lowByte c).toNat = if 65 ≤ c.toNat ∧ c.toNat ≤ 90 then c.toNat + 32 else c.toNat := by
  unfold lowByte
  split
  · rw [UInt8.toNat_add]; have : (32 : UInt8).toNat = 32 := rfl; omega
  · rfl

theorem lowByte_eq (a b : UInt8) : lowByte a = lowByte b ↔ CaseEq a b := by
  rw [← UInt8.toNat_inj, lowByte_toNat, lowByte_toNat]
  unfold CaseEq
  rw [← UInt8.toNat_inj]
  split <;> split <;> omega

theorem lowByte_const {k : UInt8} (h1 : k.toNat < 65) (c : UInt8) : lowByte c = k ↔ c = k := by
  rw [← UInt8.toNat_inj, lowByte_toNat, ← UInt8.toNat_inj]
  split <;> omega

theorem lower_eq_map (b : Bytes) : toLowerCaseASCII b = b.map lowByte := rfl

theorem low_listRel (a b : Bytes) : toLowerCaseASCII a = toLowerCaseASCII b ↔ ListRel CaseEq a b := by
  rw [lower_eq_map, lower_eq_map]
  induction a generalizing b with
  | nil =>
    cases b with
    | nil => exact ⟨fun _ => .nil, fun _ => rfl⟩
    | cons y b => exact ⟨(fun h => by cases h), (fun h => by cases h)⟩
  | cons x a ih =>
    cases b with
    | nil => exact ⟨(fun h => by cases h), (fun h => by cases h)⟩
    | cons y b =>
      rw [List.map_cons, List.map_cons, List.cons.injEq, lowByte_eq, ih]
      constructor
      · rintro ⟨h1, h2⟩; exact .cons h1 h2
      · intro h; cases h with | cons h1 h2 => exact ⟨h1, h2⟩

theorem lows_listRel (a b : List Bytes) : a.map toLowerCaseASCII = b.map toLowerCaseASCII ↔ ListRel (ListRel CaseEq) a b := by
  induction a generalizing b with
  | nil =>
    cases b with
    | nil => exact ⟨fun _ => .nil, fun _ => rfl⟩
    | cons y b => exact ⟨(fun h => by cases h), (fun h => by cases h)⟩
  | cons x a ih =>
    cases b with
    | nil => exact ⟨(fun h => by cases h), (fun h => by cases h)⟩
    | cons y b =>
      rw [List.map_cons, List.map_cons, List.cons.injEq, low_listRel, ih]
      constructor
      · rintro ⟨h1, h2⟩; exact .cons h1 h2
      · intro h; cases h with | cons h1 h2 => exact ⟨h1, h2⟩

theorem lower_star (p : Bytes) : toLowerCaseASCII p = b!"*" ↔ p = b!"*" := by
  rw [lower_eq_map]
  cases p with
  | nil => exact ⟨(fun h => by cases h), (fun h => by cases h)⟩
  | cons x p =>
    cases p with
    | nil =>
      show [lowByte x] = [(42 : UInt8)] ↔ [x] = [(42 : UInt8)]
      rw [List.cons.injEq, List.cons.injEq, lowByte_const (by decide)]
    | cons y p =>
      constructor
      · intro h
        injection h with _ h
        cases h
      · intro h
        injection h with _ h
        cases h

theorem lower_trim (b : Bytes) : trimDot (toLowerCaseASCII b) = toLowerCaseASCII (trimDot b) := by
  rw [lower_eq_map, lower_eq_map]
  unfold trimDot
  rw [List.getLast?_map]
  cases h : b.getLast? with
  | none => rw [Option.map_none, if_neg (by simp), if_neg (by simp)]
  | some x =>
    rw [Option.map_some]
    by_cases hx : x = 46
    · rw [if_pos (congrArg some ((lowByte_const (by decide) x).2 hx)), if_pos (congrArg some hx), List.map_dropLast]
    · rw [if_neg (fun h => hx ((lowByte_const (by decide) x).1 (Option.some.inj h))), if_neg (fun h => hx (Option.some.inj h))]

theorem lower_split (b : Bytes) : splitByte 46 (toLowerCaseASCII b) = (splitByte 46 b).map toLowerCaseASCII := by
  rw [lower_eq_map]
  induction b with
  | nil => rfl
  | cons c b ih =>
    rw [List.map_cons, splitByte, splitByte]
    by_cases hc : c = 46
    · rw [if_pos hc, if_pos ((lowByte_const (by decide) c).2 hc), ih]; rfl
    · rw [if_neg hc, if_neg (fun h => hc ((lowByte_const (by decide) c).1 h)), ih]
      cases splitByte 46 b with
      | nil => rfl
      | cons w ws => rfl

/-! ## Names -/

theorem partsMatch_tail (i : Nat) : ∀ (ps hs : List Bytes), ps.length = hs.length → (partsMatch (i + 1) ps hs = true ↔ ps = hs) := by
  intro ps
  induction ps generalizing i with
  | nil =>
    intro hs h
    cases hs with
    | nil => exact ⟨fun _ => rfl, fun _ => by rw [partsMatch]⟩
    | cons _ _ => simp at h
  | cons p ps ih =>
    intro hs h
    cases hs with
    | nil => simp at h
    | cons x hs =>
      simp only [List.length_cons, Nat.add_right_cancel_iff] at h
      rw [partsMatch, if_neg (by omega), List.drop_one, List.tail_cons]
      have : List.getD (x :: hs) 0 [] = x := rfl
      rw [this, List.cons.injEq]
      by_cases hp : p = x
      · rw [if_neg (fun hn => hn hp), ih _ _ h]; exact ⟨fun h => ⟨hp, h⟩, fun h => h.2⟩
      · rw [if_pos hp]; exact ⟨(fun h => by cases h), fun h => absurd h.1 hp⟩

theorem listRel_length {α β : Type} {R : α → β → Prop} {a : List α} {b : List β} (h : ListRel R a b) : a.length = b.length := by
  induction h with
  | nil => rfl
  | cons _ _ ih => simp [ih]

theorem matchHostnames_iff (pattern host : Bytes) :
    matchHostnames (toLowerCaseASCII pattern) (toLowerCaseASCII host) = true ↔ HostMatches pattern host := by
  unfold matchHostnames HostMatches
  simp only
  rw [lower_trim, lower_trim, lower_split, lower_split]
  have hlen : ∀ b : Bytes, (toLowerCaseASCII b).length = b.length := fun b => List.length_map ..
  rw [hlen, hlen, List.length_map, List.length_map]
  simp only [labelled_iff]
  cases hp : splitByte 46 (trimDot pattern) with
  | nil => exact absurd hp (splitByte_ne_nil _ _)
  | cons p ps =>
  cases hh : splitByte 46 (trimDot host) with
  | nil => exact absurd hh (splitByte_ne_nil _ _)
  | cons h hs =>
  by_cases h0 : (trimDot pattern).length = 0 ∨ (trimDot host).length = 0
  · rw [if_pos h0]
    constructor
    · intro h; cases h
    · rintro ⟨_, _, _, _, ⟨a, _⟩, ⟨b, _⟩, _⟩
      rcases h0 with h0 | h0
      · exact absurd (List.length_eq_zero_iff.1 h0) a
      · exact absurd (List.length_eq_zero_iff.1 h0) b
  rw [if_neg h0]
  have n1 : trimDot pattern ≠ [] := fun h => h0 (.inl (by rw [h]; rfl))
  have n2 : trimDot host ≠ [] := fun h => h0 (.inr (by rw [h]; rfl))
  have rhs : (∃ p' h' ps' hs', (trimDot pattern ≠ [] ∧ p' :: ps' = p :: ps) ∧ (trimDot host ≠ [] ∧ h' :: hs' = h :: hs) ∧
      (ListRel CaseEq p' h' ∨ p' = b!"*") ∧ ListRel (ListRel CaseEq) ps' hs') ↔ (ListRel CaseEq p h ∨ p = b!"*") ∧ ListRel (ListRel CaseEq) ps hs := by
    constructor
    · rintro ⟨p', h', ps', hs', ⟨_, e1⟩, ⟨_, e2⟩, e3, e4⟩
      obtain ⟨rfl, rfl⟩ := List.cons.inj e1
      obtain ⟨rfl, rfl⟩ := List.cons.inj e2
      exact ⟨e3, e4⟩
    · rintro ⟨e3, e4⟩
      exact ⟨p, h, ps, hs, ⟨n1, rfl⟩, ⟨n2, rfl⟩, e3, e4⟩
  rw [rhs]
  by_cases hl : (p :: ps).length = (h :: hs).length
  · rw [if_neg (fun hn => hn hl), List.map_cons, List.map_cons, partsMatch, List.drop_one, List.tail_cons]
    have hl' : (ps.map toLowerCaseASCII).length = (hs.map toLowerCaseASCII).length := by
      rw [List.length_map, List.length_map]
      simpa using hl
    have e : List.getD (toLowerCaseASCII h :: hs.map toLowerCaseASCII) 0 [] = toLowerCaseASCII h := rfl
    rw [e]
    by_cases hst : p = b!"*"
    · rw [if_pos ⟨rfl, (lower_star p).2 hst⟩, partsMatch_tail 0 _ _ hl', lows_listRel]
      exact ⟨fun h => ⟨.inr hst, h⟩, fun h => h.2⟩
    · rw [if_neg (fun hn => hst ((lower_star p).1 hn.2))]
      by_cases hph : toLowerCaseASCII p = toLowerCaseASCII h
      · rw [if_neg (fun hn => hn hph), partsMatch_tail 0 _ _ hl', lows_listRel]
        exact ⟨fun h => ⟨.inl ((low_listRel ..).1 hph), h⟩, fun h => h.2⟩
      · rw [if_pos hph]
        refine ⟨(fun h => by cases h), fun h => ?_⟩
        rcases h.1 with h | h
        · exact absurd ((low_listRel ..).2 h) hph
        · exact absurd h hst
  · rw [if_pos hl]
    refine ⟨(fun h => by cases h), fun h => absurd ?_ hl⟩
    have := listRel_length h.2
    simp [this]

/-! ## Hosts -/

theorem ipEqual_iff (a b : Bytes) : ipEqual a b = true ↔ SameIp a b := by
  unfold ipEqual SameIp
  have h12 : ([0,0,0,0,0,0,0,0,0,0,0xff,0xff] : Bytes).length = 12 := rfl
  by_cases h : a.length = b.length
  · rw [if_pos h, decide_eq_true_eq]
    refine ⟨.inl, ?_⟩
    rintro (h' | ⟨h1, rfl⟩)
    · exact h'
    · rw [List.length_append] at h; omega
  · rw [if_neg h]
    by_cases h4 : b.length = 4
    · rw [if_pos h4, decide_eq_true_eq]
      constructor
      · rintro ⟨_, h2, h3⟩
        refine .inr ⟨h4, ?_⟩
        rw [← h2, ← h3]
        exact (List.take_append_drop 12 a).symm
      · rintro (rfl | ⟨_, rfl⟩)
        · exact absurd rfl h
        · refine ⟨by rw [List.length_append]; omega, List.take_left' h12, List.drop_left' h12⟩
    · rw [if_neg h4]
      refine ⟨(fun h => by cases h), ?_⟩
      rintro (rfl | ⟨h1, _⟩)
      · exact absurd rfl h
      · exact absurd h1 h4

theorem bare_iff (h x : Bytes) : Bare h x ↔
    x = if h.length ≥ 3 ∧ h.getD 0 0 = 91 ∧ h.getD (h.length - 1) 0 = 93 then (h.drop 1).take (h.length - 2) else h := by
  have key : ∀ y : Bytes, h = b!"[" ++ y ++ b!"]" → y ≠ [] →
      (h.length ≥ 3 ∧ h.getD 0 0 = 91 ∧ h.getD (h.length - 1) 0 = 93) ∧ (h.drop 1).take (h.length - 2) = y := by
    rintro y rfl hy
    have hl : (b!"[" ++ y ++ b!"]").length = y.length + 2 := by
      rw [List.length_append, List.length_append]
      have a : (b!"[").length = 1 := rfl
      have b : (b!"]").length = 1 := rfl
      omega
    have hpos : 0 < y.length := Nat.pos_of_ne_zero (fun h => hy (List.length_eq_zero_iff.1 h))
    rw [hl]
    refine ⟨⟨by omega, rfl, ?_⟩, ?_⟩
    · rw [List.getD_eq_getElem?_getD, List.getElem?_append_right (by rw [List.length_append]; have a : (b!"[").length = 1 := rfl; omega)]
      have : y.length + 2 - 1 - (b!"[" ++ y).length = 0 := by rw [List.length_append]; have a : (b!"[").length = 1 := rfl; omega
      rw [this]; rfl
    · show List.take _ (y ++ b!"]") = y
      exact List.take_left' (by omega)
  have key2 : (h.length ≥ 3 ∧ h.getD 0 0 = 91 ∧ h.getD (h.length - 1) 0 = 93) →
      h = b!"[" ++ (h.drop 1).take (h.length - 2) ++ b!"]" ∧ (h.drop 1).take (h.length - 2) ≠ [] := by
    rintro ⟨h1, h2, h3⟩
    cases h with
    | nil => simp at h1
    | cons c t =>
      obtain rfl : c = 91 := h2
      have hn : t ≠ [] := fun hn => by rw [hn] at h1; simp at h1
      have ht : t = t.dropLast ++ [t.getLast hn] := (List.dropLast_concat_getLast hn).symm
      simp only [List.length_cons] at h1
      have hlast : t.getLast hn = 93 := by
        rw [List.getLast_eq_getElem]
        have : (91 :: t : Bytes).length - 1 = t.length - 1 + 1 := by rw [List.length_cons]; omega
        rw [this, List.getD_cons_succ, List.getD_eq_getElem?_getD, List.getElem?_eq_getElem (by omega)] at h3
        exact h3
      have hd : ((91 :: t : Bytes).drop 1).take ((91 :: t : Bytes).length - 2) = t.dropLast := by
        rw [List.drop_one, List.tail_cons, List.length_cons, List.dropLast_eq_take]
        congr 1
      rw [hd]
      refine ⟨?_, fun hz => ?_⟩
      · show 91 :: t = 91 :: (t.dropLast ++ [93])
        rw [← hlast, ← ht]
      · have := congrArg List.length hz
        rw [List.length_dropLast, List.length_nil] at this
        omega
  unfold Bare
  by_cases hc : h.length ≥ 3 ∧ h.getD 0 0 = 91 ∧ h.getD (h.length - 1) 0 = 93
  · rw [if_pos hc]
    obtain ⟨e, hne⟩ := key2 hc
    constructor
    · rintro (⟨h1, h2⟩ | ⟨_, h2⟩)
      · exact (key x h1 h2).2.symm
      · exact absurd (h2 _ e) hne
    · intro hx
      subst hx
      exact .inl ⟨e, hne⟩
  · rw [if_neg hc]
    constructor
    · rintro (⟨h1, h2⟩ | ⟨h1, _⟩)
      · exact absurd (key x h1 h2).1 hc
      · exact h1.symm
    · rintro rfl
      refine .inr ⟨rfl, fun y hy => Classical.byContradiction (fun hn => hc (key y hy hn).1)⟩

theorem verifyHostname_iff (env : ChainEnv) (c : CertFull) (h : Bytes) : verifyHostname env c h = true ↔ ForHost env c h := by
  unfold verifyHostname ForHost
  simp only [bare_iff]
  generalize (if h.length ≥ 3 ∧ h.getD 0 0 = 91 ∧ h.getD (h.length - 1) 0 = 93 then (h.drop 1).take (h.length - 2) else h) = x
  have hsan : hasSan c = true ↔ ∃ e ∈ c.extensions, e.1 = [2,5,29,17] := by
    unfold hasSan
    rw [List.any_eq_true]
    simp
  cases hp : env.parseIP x with
  | some ip =>
    simp only
    rw [List.any_eq_true]
    constructor
    · rintro ⟨a, h1, h2⟩
      exact ⟨x, rfl, .inl ⟨ip, a, hp, h1, (ipEqual_iff ..).1 h2⟩⟩
    · rintro ⟨_, rfl, (⟨ip', a, h1, h2, h3⟩ | ⟨h1, _⟩ | ⟨h1, _⟩)⟩
      · rw [hp] at h1
        obtain rfl := Option.some.inj h1
        exact ⟨a, h2, (ipEqual_iff ..).2 h3⟩
      · rw [hp] at h1; cases h1
      · rw [hp] at h1; cases h1
  | none =>
    simp only
    by_cases hs : hasSan c = true
    · rw [if_pos hs, List.any_eq_true]
      constructor
      · rintro ⟨m, h1, h2⟩
        exact ⟨x, rfl, .inr (.inl ⟨hp, hsan.1 hs, m, h1, (matchHostnames_iff ..).1 h2⟩)⟩
      · rintro ⟨_, rfl, (⟨ip', a, h1, _⟩ | ⟨_, _, m, h1, h2⟩ | ⟨_, h1, _⟩)⟩
        · rw [hp] at h1; cases h1
        · exact ⟨m, h1, (matchHostnames_iff ..).2 h2⟩
        · obtain ⟨e, h2, h3⟩ := hsan.1 hs
          exact absurd h3 (h1 e h2)
    · rw [if_neg hs, matchHostnames_iff]
      constructor
      · intro h1
        exact ⟨x, rfl, .inr (.inr ⟨hp, fun e he hx => hs (hsan.2 ⟨e, he, hx⟩), h1⟩)⟩
      · rintro ⟨_, rfl, (⟨ip', a, h1, _⟩ | ⟨_, h1, _⟩ | ⟨_, _, h1⟩)⟩
        · rw [hp] at h1; cases h1
        · exact absurd (hsan.2 h1) hs
        · exact h1

/-! ## Purposes -/

/-- One step of `crossOut` on a usage. -/
def crossed (cert : CertFull) (u : Int) : Int := if u = -1 ∨ usageKept cert u = true then u else -1

/-- The usages that are left. -/
def alive (us : List Int) : Nat := us.countP (fun u => decide (u ≠ -1))

theorem crossOut_eq (cert : CertFull) : ∀ (us : List Int) (n : Nat), alive us ≤ n →
    crossOut cert us n = if n - alive us + alive (us.map (crossed cert)) = 0 ∧ 0 < n then none
      else some (us.map (crossed cert), n - alive us + alive (us.map (crossed cert))) := by
  intro us
  induction us with
  | nil =>
    intro n _
    rw [crossOut]
    simp only [alive, List.countP_nil, List.map_nil, Nat.sub_zero, Nat.add_zero]
    rw [if_neg (by omega)]
  | cons u us ih =>
    intro n hn
    rw [crossOut]
    have hmap : (u :: us).map (crossed cert) = crossed cert u :: us.map (crossed cert) := rfl
    have hal : ∀ (x : Int) (l : List Int), alive (x :: l) = alive l + if x = -1 then 0 else 1 := by
      intro x l
      unfold alive
      rw [List.countP_cons]
      by_cases h : x = -1 <;> simp [h]
    rw [hmap, hal, hal]
    rw [hal] at hn
    by_cases hk : u = -1 ∨ usageKept cert u = true
    · have hc : crossed cert u = u := by unfold crossed; rw [if_pos hk]
      rw [if_pos hk, hc, ih n (by omega)]
      by_cases hu : u = -1
      · rw [if_pos hu] at hn ⊢
        simp only [Nat.add_zero]
        by_cases hz : n - alive us + alive (us.map (crossed cert)) = 0 ∧ 0 < n
        · rw [if_pos hz, if_pos hz]
        · rw [if_neg hz, if_neg hz]
      · rw [if_neg hu] at hn ⊢
        have e : n - (alive us + 1) + (alive (us.map (crossed cert)) + 1) = n - alive us + alive (us.map (crossed cert)) := by omega
        rw [e]
        by_cases hz : n - alive us + alive (us.map (crossed cert)) = 0 ∧ 0 < n
        · rw [if_pos hz, if_pos hz]
        · rw [if_neg hz, if_neg hz]
    · have hu : u ≠ -1 := fun h => hk (.inl h)
      have hc : crossed cert u = -1 := by unfold crossed; rw [if_neg hk]
      rw [if_neg hk, hc]
      rw [if_neg hu] at hn ⊢
      rw [if_pos rfl, Nat.add_zero]
      have e : n - (alive us + 1) = n - 1 - alive us := by omega
      rw [e]
      by_cases h1 : n - 1 = 0
      · rw [if_pos h1]
        have h0 : alive us = 0 := by omega
        have : alive (us.map (crossed cert)) = 0 := by
          unfold alive at h0 ⊢
          rw [List.countP_eq_zero] at h0 ⊢
          intro a ha
          obtain ⟨b, hb, rfl⟩ := List.mem_map.1 ha
          have hb1 : b = -1 := by simpa using h0 b hb
          subst hb1
          simp [crossed]
        rw [if_pos ⟨by omega, by omega⟩]
      · rw [if_neg h1, ih (n - 1) (by omega)]
        by_cases hz : n - 1 - alive us + alive (us.map (crossed cert)) = 0
        · rw [if_pos ⟨hz, by omega⟩, if_pos ⟨hz, by omega⟩]
        · rw [if_neg (fun h => hz h.1), if_neg (fun h => hz h.1)]
          rfl

theorem usageKept_iff (c : CertFull) (u : Int) : usageKept c u = true ↔
    (∃ k ∈ c.ext.extKeyUsage, (k : Int) = u) ∨ (u = 1 ∧ (10 ∈ c.ext.extKeyUsage ∨ 11 ∈ c.ext.extKeyUsage)) := by
  unfold usageKept
  rw [List.any_eq_true]
  simp only [Bool.or_eq_true, Bool.and_eq_true, decide_eq_true_eq]
  constructor
  · rintro ⟨k, h1, h2 | ⟨h2, h3 | h3⟩⟩
    · exact .inl ⟨k, h1, h2⟩
    · subst h3; exact .inr ⟨h2, .inr h1⟩
    · subst h3; exact .inr ⟨h2, .inl h1⟩
  · rintro (⟨k, h1, h2⟩ | ⟨h1, h2 | h2⟩)
    · exact ⟨k, h1, .inl h2⟩
    · exact ⟨10, h2, .inr ⟨h1, .inr rfl⟩⟩
    · exact ⟨11, h2, .inr ⟨h1, .inl rfl⟩⟩

theorem usageLoop_iff : ∀ (certs : List CertFull) (us : List Int), 0 < alive us →
    (usageLoop certs us (alive us) = true ↔ ∃ u ∈ us, u ≠ -1 ∧ ∀ c ∈ certs, AllowsUse c u) := by
  intro certs
  induction certs with
  | nil =>
    intro us h
    rw [usageLoop]
    refine ⟨fun _ => ?_, fun _ => rfl⟩
    unfold alive at h
    obtain ⟨u, hu, hx⟩ := List.countP_pos_iff.1 h
    exact ⟨u, hu, by simpa using hx, by simp⟩
  | cons c certs ih =>
    intro us h
    rw [usageLoop]
    by_cases h1 : c.ext.extKeyUsage.length = 0 ∧ c.ext.unknownExtKeyUsage.length = 0
    · rw [if_pos h1, ih us h]
      have ha : ∀ u, AllowsUse c u := fun u => .inl ⟨List.length_eq_zero_iff.1 h1.1, List.length_eq_zero_iff.1 h1.2⟩
      constructor
      · rintro ⟨u, a, b, d⟩
        refine ⟨u, a, b, fun x hx => ?_⟩
        rcases List.mem_cons.1 hx with rfl | hx
        · exact ha u
        · exact d x hx
      · rintro ⟨u, a, b, d⟩
        exact ⟨u, a, b, fun x hx => d x (List.mem_cons_of_mem _ hx)⟩
    rw [if_neg h1]
    by_cases h2 : c.ext.extKeyUsage.any (fun k => decide (k = 0)) = true
    · rw [if_pos h2, ih us h]
      have h0 : 0 ∈ c.ext.extKeyUsage := by
        obtain ⟨x, hx, he⟩ := List.any_eq_true.1 h2
        obtain rfl : x = 0 := by simpa using he
        exact hx
      constructor
      · rintro ⟨u, a, b, d⟩
        refine ⟨u, a, b, fun x hx => ?_⟩
        rcases List.mem_cons.1 hx with rfl | hx
        · exact .inr (.inl h0)
        · exact d x hx
      · rintro ⟨u, a, b, d⟩
        exact ⟨u, a, b, fun x hx => d x (List.mem_cons_of_mem _ hx)⟩
    rw [if_neg h2]
    have hallow : ∀ u, AllowsUse c u ↔ usageKept c u = true := by
      intro u
      rw [usageKept_iff]
      constructor
      · rintro (⟨a, b⟩ | a | a | a)
        · exact absurd ⟨by rw [a]; rfl, by rw [b]; rfl⟩ h1
        · exact absurd (List.any_eq_true.2 ⟨0, a, by simp⟩) h2
        · exact .inl a
        · exact .inr a
      · rintro (a | a)
        · exact .inr (.inr (.inl a))
        · exact .inr (.inr (.inr a))
    rw [crossOut_eq c us _ (Nat.le_refl _), Nat.sub_self, Nat.zero_add]
    have hmem : ∀ u, u ≠ -1 → (u ∈ us.map (crossed c) ↔ u ∈ us ∧ usageKept c u = true) := by
      intro u hu
      rw [List.mem_map]
      constructor
      · rintro ⟨v, hv, rfl⟩
        unfold crossed at hu ⊢
        split
        · rename_i hc
          rw [if_pos hc] at hu
          exact ⟨hv, hc.resolve_left hu⟩
        · rename_i hc
          rw [if_neg hc] at hu
          exact absurd rfl hu
      · rintro ⟨hv, hk⟩
        exact ⟨u, hv, by unfold crossed; rw [if_pos (.inr hk)]⟩
    by_cases h3 : alive (us.map (crossed c)) = 0
    · rw [if_pos ⟨h3, h⟩]
      constructor
      · intro h; cases h
      · rintro ⟨u, a, b, d⟩
        have := (hmem u b).2 ⟨a, (hallow u).1 (d c (List.mem_cons_self ..))⟩
        unfold alive at h3
        rw [List.countP_eq_zero] at h3
        exact absurd (h3 u this) (by simpa using b)
    · rw [if_neg (fun hx => h3 hx.1)]
      simp only
      rw [ih _ (by omega)]
      constructor
      · rintro ⟨u, a, b, d⟩
        obtain ⟨a1, a2⟩ := (hmem u b).1 a
        refine ⟨u, a1, b, fun x hx => ?_⟩
        rcases List.mem_cons.1 hx with rfl | hx
        · exact (hallow u).2 a2
        · exact d x hx
      · rintro ⟨u, a, b, d⟩
        exact ⟨u, (hmem u b).2 ⟨a, (hallow u).1 (d c (List.mem_cons_self ..))⟩, b, fun x hx => d x (List.mem_cons_of_mem _ hx)⟩

/-- The chains that are kept are those that are good for a purpose. -/
theorem usageFilter_eq {opts : VerifyOptions} (hs : -1 ∉ opts.keyUsages) {cands : List (List CertFull)} (hne : ∀ ch ∈ cands, ch ≠ []) (hc : cands ≠ []) :
    ∃ good : List (List CertFull), good.Sublist cands ∧ (∀ ch ∈ cands, ch ∈ good ↔ GoodFor opts ch) ∧
      usageFilter opts.keyUsages cands = if good = [] then none else some good := by
  have hu : (if opts.keyUsages.length = 0 then [1] else opts.keyUsages) = purposes opts := by
    unfold purposes
    by_cases h : opts.keyUsages = []
    · rw [if_pos h, if_pos (by rw [h]; rfl)]
    · rw [if_neg h, if_neg (fun hn => h (List.length_eq_zero_iff.1 hn))]
  have hm : -1 ∉ purposes opts := by
    unfold purposes
    split
    · decide
    · exact hs
  have hp : purposes opts ≠ [] := by
    unfold purposes
    split
    · decide
    · assumption
  unfold usageFilter
  simp only
  rw [hu]
  by_cases h0 : 0 ∈ purposes opts
  · rw [if_pos (List.any_eq_true.2 ⟨0, h0, by simp⟩)]
    exact ⟨cands, List.Sublist.refl _, fun ch h => ⟨fun _ => .inl h0, fun _ => h⟩, by rw [if_neg hc]⟩
  · rw [if_neg]
    case hnc =>
      intro h
      obtain ⟨x, hx, he⟩ := List.any_eq_true.1 h
      obtain rfl : x = 0 := by simpa using he
      exact h0 hx
    refine ⟨cands.filter (fun c => checkChainForKeyUsage c (purposes opts)), List.filter_sublist, fun ch hch => ?_, ?_⟩
    · rw [List.mem_filter]
      have hal : alive (purposes opts) = (purposes opts).length := by
        unfold alive
        rw [List.countP_eq_length]
        intro a ha
        simp only [decide_eq_true_eq]
        rintro rfl
        exact hm ha
      have hpos : 0 < alive (purposes opts) := by
        rw [hal]; exact Nat.pos_of_ne_zero (fun h => hp (List.length_eq_zero_iff.1 h))
      have hch0 : ¬ ch.length = 0 := fun h => hne ch hch (List.length_eq_zero_iff.1 h)
      unfold checkChainForKeyUsage
      rw [if_neg hch0, ← hal, usageLoop_iff _ _ hpos]
      unfold GoodFor
      constructor
      · rintro ⟨_, u, a, _, d⟩
        exact .inr ⟨u, a, fun c hc => d c (List.mem_reverse.2 hc)⟩
      · rintro (h | ⟨u, a, d⟩)
        · exact absurd h h0
        · exact ⟨hch, u, a, fun h => hm (h ▸ a), fun c hc => d c (List.mem_reverse.1 hc)⟩
    · generalize cands.filter (fun c => checkChainForKeyUsage c (purposes opts)) = good
      cases good with
      | nil => rfl
      | cons x l => rw [if_neg (by simp), if_neg (by simp)]

end Apk
