import Verif.Spec.Time
/-! # Times: the parser reads exactly the texts of Spec/Time -/
namespace Apk
open Spec

theorem isDig_iff (c : UInt8) : isDig c = true ↔ 48 ≤ c.toNat ∧ c.toNat ≤ 57 := by
  unfold isDig; exact decide_eq_true_iff

theorem dig_toNat {n : Nat} (h : n < 10) : (UInt8.ofNat (48 + n)).toNat = 48 + n := by
  rw [UInt8.toNat_ofNat']; omega

theorem isDig_dig {n : Nat} (h : n < 10) : isDig (UInt8.ofNat (48 + n)) = true := by
  rw [isDig_iff, dig_toNat h]; omega

theorem dig_of_isDig {c : UInt8} (h : isDig c = true) : c = UInt8.ofNat (48 + (c.toNat - 48)) := by
  rw [isDig_iff] at h
  have : 48 + (c.toNat - 48) = c.toNat := by omega
  rw [this]; exact UInt8.ofNat_toNat.symm

theorem twoDigits_eq {n : Nat} (h : n < 100) : twoDigits n = dd n := by
  unfold twoDigits dd
  rw [Nat.mod_eq_of_lt (show n / 10 < 10 by omega)]

theorem fourDigits_eq {n : Nat} (h : n < 10000) : fourDigits n = dd (n / 100) ++ dd (n % 100) := by
  unfold fourDigits dd
  show _ = [_, _, _, _]
  have h1 : n / 1000 % 10 = n / 100 / 10 := by omega
  have h2 : n / 100 % 10 = n / 100 % 10 := rfl
  have h3 : n / 10 % 10 = n % 100 / 10 := by omega
  have h4 : n % 10 = n % 100 % 10 := by omega
  rw [h1, h3, ← h4]

theorem getnum_cons2 (fixed : Bool) (a b : UInt8) (r : Bytes) : getnum fixed (a :: b :: r) =
    if isDig a then
      (if isDig b then some ((a.toNat - 48) * 10 + (b.toNat - 48), r)
       else if fixed then none else some (a.toNat - 48, b :: r))
    else none := rfl

theorem timeAtoi_cons (c : UInt8) (r : Bytes) : timeAtoi (c :: r) =
    if c = 45 then (timeDigits r).map (fun n : Nat => -(n : Int))
    else if c = 43 then (timeDigits r).map Int.ofNat
    else (timeDigits (c :: r)).map Int.ofNat := rfl

theorem getnum_dd (fixed : Bool) {n : Nat} (h : n < 100) (r : Bytes) : getnum fixed (dd n ++ r) = some (n, r) := by
  show getnum fixed (UInt8.ofNat (48 + n / 10) :: UInt8.ofNat (48 + n % 10) :: r) = _
  have e1 := isDig_dig (n := n / 10) (by omega)
  have e2 := isDig_dig (n := n % 10) (by omega)
  have t1 := dig_toNat (n := n / 10) (by omega)
  have t2 := dig_toNat (n := n % 10) (by omega)
  rw [getnum_cons2, if_pos e1, if_pos e2, t1, t2]
  have : (48 + n / 10 - 48) * 10 + (48 + n % 10 - 48) = n := by omega
  rw [this]

theorem getnum_lt {fixed : Bool} {s : Bytes} {n : Nat} {r : Bytes} (h : getnum fixed s = some (n, r)) : n < 100 := by
  unfold getnum at h
  split at h
  · cases h
  · rename_i a
    split at h
    · rename_i hc
      simp only [Bool.and_eq_true] at hc
      have := (isDig_iff a).1 hc.1
      cases h; omega
    · cases h
  · rename_i a b r'
    split at h
    · rename_i ha
      have ha' := (isDig_iff a).1 ha
      split at h
      · rename_i hb
        have hb' := (isDig_iff b).1 hb
        cases h; omega
      · split at h
        · cases h
        · cases h; omega
    · cases h

/-- A zone read from a text: UTC or a number of minutes. -/
def ZoneRange : TZone → Prop
  | .utc => True
  | .num o => ∃ k : Nat, k ≤ 1500 ∧ (o = 60 * (k : Int) ∨ o = -(60 * (k : Int)))

theorem parseZone_range {s : Bytes} {z : TZone} {r : Bytes} (h : parseZone s = some (z, r)) : ZoneRange z := by
  unfold parseZone at h
  split at h
  · cases h; trivial
  · split at h
    · rename_i h0 _ m0 _ _ _
      split at h
      · cases h
      · rename_i hr
        split at h
        · cases h; exact ⟨h0 * 60 + m0, by omega, .inl (by push_cast; omega)⟩
        · split at h
          · cases h; exact ⟨h0 * 60 + m0, by omega, .inr (by push_cast; omega)⟩
          · cases h
    · cases h
  · cases h

theorem timeDigits_bound {s : Bytes} {n : Nat} (h : timeDigits s = some n) (hl : s.length ≤ 2) : n < 100 := by
  unfold timeDigits at h
  split at h
  · rename_i ha
    cases h
    match s, hl with
    | [], _ => simp
    | [a], _ =>
      simp only [List.all_cons, List.all_nil, Bool.and_true] at ha
      have := (isDig_iff a).1 ha
      simp only [List.foldl_cons, List.foldl_nil]; omega
    | [a, b], _ =>
      simp only [List.all_cons, List.all_nil, Bool.and_true, Bool.and_eq_true] at ha
      have h1 := (isDig_iff a).1 ha.1
      have h2 := (isDig_iff b).1 ha.2
      simp only [List.foldl_cons, List.foldl_nil]; omega
    | _ :: _ :: _ :: _, hl => simp at hl
  · cases h

theorem timeAtoi_bound {s : Bytes} {y : Int} (h : timeAtoi s = some y) (hl : s.length = 2) : -9 ≤ y ∧ y ≤ 99 := by
  match s, hl with
  | [c, d], _ =>
    rw [timeAtoi_cons] at h
    have one : ∀ n, timeDigits [d] = some n → n ≤ 9 := by
      intro n hn
      unfold timeDigits at hn
      split at hn
      · rename_i ha
        simp only [List.all_cons, List.all_nil, Bool.and_true] at ha
        have := (isDig_iff d).1 ha
        cases hn
        simp only [List.foldl_cons, List.foldl_nil]; omega
      · cases hn
    split at h
    · obtain ⟨n, hn, rfl⟩ := Option.map_eq_some_iff.1 h
      have := one n hn; omega
    · split at h
      · obtain ⟨n, hn, rfl⟩ := Option.map_eq_some_iff.1 h
        have := one n hn
        have e : Int.ofNat n = (n : Int) := rfl
        omega
      · obtain ⟨n, hn, rfl⟩ := Option.map_eq_some_iff.1 h
        have := timeDigits_bound hn (by simp)
        have e : Int.ofNat n = (n : Int) := rfl
        omega

theorem timeAtoi_four {s : Bytes} {y : Int} (h : timeAtoi s = some y) (hl : s.length = 4) (hd : (s.head?.map isDig).getD false = true) :
    0 ≤ y ∧ y < 10000 := by
  match s, hl with
  | [a, b, c, d], _ =>
    have ha' : isDig a = true := hd
    have ha := (isDig_iff a).1 ha'
    rw [timeAtoi_cons] at h
    rw [if_neg (by intro hc; rw [hc] at ha; simp at ha), if_neg (by intro hc; rw [hc] at ha; simp at ha)] at h
    obtain ⟨n, hn, rfl⟩ := Option.map_eq_some_iff.1 h
    unfold timeDigits at hn
    split at hn
    · rename_i hall
      simp only [List.all_cons, List.all_nil, Bool.and_true, Bool.and_eq_true] at hall
      have hb := (isDig_iff b).1 hall.2.1
      have hc := (isDig_iff c).1 hall.2.2.1
      have hdd := (isDig_iff d).1 hall.2.2.2
      cases hn
      simp only [List.foldl_cons, List.foldl_nil]
      constructor
      · exact Int.natCast_nonneg _
      · show ((_ : Nat) : Int) < _
        omega
    · cases hn

/-! ## Field ranges after parsing -/

theorem chunk_year2 {f f' : TFields} {s s' : Bytes} (h : parseChunk f s .year2 = some (f', s')) :
    ∃ y : Nat, 1969 ≤ y ∧ y ≤ 2068 ∧ f' = { f with year := y } := by
  unfold parseChunk at h
  simp only at h
  split at h
  · cases h
  · rename_i hl
    obtain ⟨y, hy, he⟩ := Option.map_eq_some_iff.1 h
    cases he
    have hb := timeAtoi_bound hy (by rw [List.length_take]; omega)
    refine ⟨_, ?_, ?_, rfl⟩ <;> split <;> omega

theorem chunk_year4 {f f' : TFields} {s s' : Bytes} (h : parseChunk f s .year4 = some (f', s')) :
    ∃ y : Nat, y < 10000 ∧ f' = { f with year := y } := by
  unfold parseChunk at h
  simp only at h
  split at h
  · cases h
  · rename_i hl
    obtain ⟨y, hy, he⟩ := Option.map_eq_some_iff.1 h
    cases he
    have hb := timeAtoi_four hy (by rw [List.length_take]; omega) (by
      match s with
      | [] => simp at hl
      | a :: r =>
        have : ¬ (((a :: r).head?.map isDig).getD false = false) := fun hh => hl (.inr hh)
        simpa using this)
    exact ⟨y.toNat, by omega, rfl⟩

theorem chunk_month {f f' : TFields} {s s' : Bytes} (h : parseChunk f s .month = some (f', s')) :
    ∃ m : Nat, 1 ≤ m ∧ m ≤ 12 ∧ f' = { f with month := m } := by
  unfold parseChunk at h
  obtain ⟨p, hp, he⟩ := Option.bind_eq_some_iff.1 h
  split at he
  · cases he
  · cases he; exact ⟨p.1, by omega, by omega, rfl⟩

theorem chunk_day {f f' : TFields} {s s' : Bytes} (h : parseChunk f s .day = some (f', s')) :
    ∃ d : Nat, f' = { f with day := d } := by
  unfold parseChunk at h
  obtain ⟨p, hp, he⟩ := Option.map_eq_some_iff.1 h
  cases he; exact ⟨p.1, rfl⟩

theorem chunk_hour {f f' : TFields} {s s' : Bytes} (h : parseChunk f s .hour = some (f', s')) :
    ∃ m : Nat, m < 24 ∧ f' = { f with hour := m } := by
  unfold parseChunk at h
  obtain ⟨p, hp, he⟩ := Option.bind_eq_some_iff.1 h
  split at he
  · cases he
  · cases he; exact ⟨p.1, by omega, rfl⟩

theorem chunk_minute {f f' : TFields} {s s' : Bytes} (h : parseChunk f s .minute = some (f', s')) :
    ∃ m : Nat, m < 60 ∧ f' = { f with min := m } := by
  unfold parseChunk at h
  obtain ⟨p, hp, he⟩ := Option.bind_eq_some_iff.1 h
  split at he
  · cases he
  · cases he; exact ⟨p.1, by omega, rfl⟩

theorem chunk_second {f f' : TFields} {s s' : Bytes} (h : parseChunk f s .second = some (f', s')) :
    ∃ m : Nat, m < 60 ∧ f' = { f with sec := m } := by
  unfold parseChunk at h
  obtain ⟨p, hp, he⟩ := Option.bind_eq_some_iff.1 h
  split at he
  · cases he
  · cases he; exact ⟨p.1, by omega, rfl⟩

theorem chunk_zone {f f' : TFields} {s s' : Bytes} (h : parseChunk f s .zone = some (f', s')) :
    ∃ z, ZoneRange z ∧ f' = { f with zone := z } := by
  unfold parseChunk at h
  obtain ⟨p, hp, he⟩ := Option.map_eq_some_iff.1 h
  cases he; exact ⟨p.1, parseZone_range hp, rfl⟩

theorem chunks_cons {c : TChunk} {cs : List TChunk} {f : TFields} {s : Bytes} {g : TFields} (h : parseChunks (c :: cs) f s = some g) :
    ∃ f' s', parseChunk f s c = some (f', s') ∧ parseChunks cs f' s' = some g := by
  rw [parseChunks] at h
  match hc : parseChunk f s c, h with
  | some (f', s'), h => exact ⟨f', s', rfl, h⟩

theorem chunks_nil {f g : TFields} {s : Bytes} (h : parseChunks [] f s = some g) : s = [] ∧ g = f := by
  rw [parseChunks] at h
  split at h
  · cases h; exact ⟨‹_›, rfl⟩
  · cases h

theorem leap_iff (y : Nat) : isLeap y = true ↔ Leap y := by
  unfold isLeap Leap
  rw [decide_eq_true_iff]
  constructor
  · rintro ⟨h1, h2⟩
    refine ⟨by omega, fun h => ?_⟩
    rcases h2 with h2 | h2 <;> omega
  · rintro ⟨h1, h2⟩
    refine ⟨by omega, ?_⟩
    by_cases h : y % 100 = 0
    · right
      have := h2 (by omega)
      omega
    · exact .inl h

theorem daysIn_eq {m : Nat} (h1 : 1 ≤ m) (h2 : m ≤ 12) (y : Nat) : daysIn m y = monthLength y m := by
  unfold daysIn monthLength
  have e : (m = 2 ∧ isLeap y = true) ↔ (m = 2 ∧ Leap y) := by rw [leap_iff]
  have : m = 1 ∨ m = 2 ∨ m = 3 ∨ m = 4 ∨ m = 5 ∨ m = 6 ∨ m = 7 ∨ m = 8 ∨ m = 9 ∨ m = 10 ∨ m = 11 ∨ m = 12 := by omega
  rcases this with rfl | rfl | rfl | rfl | rfl | rfl | rfl | rfl | rfl | rfl | rfl | rfl
  case inr.inl =>
    by_cases hl : Leap y
    · rw [if_pos (e.2 ⟨rfl, hl⟩), if_pos rfl, if_pos hl]
    · rw [if_neg (fun hh => hl (e.1 hh).2), if_pos rfl, if_neg hl]; rfl
  all_goals rfl

/-- What `time.Parse` guarantees. -/
structure Parsed (f : TFields) : Prop where
  real : RealCivil f.toCivil
  zone : ZoneRange f.zone

theorem parse_short {s : Bytes} {f : TFields} (h : timeParse layoutUtcShort s = some f) :
    Parsed f ∧ 1969 ≤ f.year ∧ f.year ≤ 2068 ∧ f.sec = 0 := by
  unfold timeParse at h
  match hp : parseChunks layoutUtcShort {} s, h with
  | some g, h =>
    simp only at h
    split at h
    · cases h
    · rename_i hd
      cases h
      obtain ⟨f1, s1, c1, hp⟩ := chunks_cons hp
      obtain ⟨f2, s2, c2, hp⟩ := chunks_cons hp
      obtain ⟨f3, s3, c3, hp⟩ := chunks_cons hp
      obtain ⟨f4, s4, c4, hp⟩ := chunks_cons hp
      obtain ⟨f5, s5, c5, hp⟩ := chunks_cons hp
      obtain ⟨f6, s6, c6, hp⟩ := chunks_cons hp
      obtain ⟨_, rfl⟩ := chunks_nil hp
      obtain ⟨y, y1, y2, rfl⟩ := chunk_year2 c1
      obtain ⟨m, m1, m2, rfl⟩ := chunk_month c2
      obtain ⟨d, rfl⟩ := chunk_day c3
      obtain ⟨hh, h1, rfl⟩ := chunk_hour c4
      obtain ⟨mi, h2, rfl⟩ := chunk_minute c5
      obtain ⟨z, h3, rfl⟩ := chunk_zone c6
      simp only [daysIn_eq m1 m2] at hd
      exact ⟨⟨⟨⟨m1, m2⟩, ⟨by simp only; omega, by simp only; omega⟩, h1, h2, Nat.zero_lt_succ 59⟩, h3⟩, y1, y2, rfl⟩

theorem parse_long {s : Bytes} {f : TFields} (h : timeParse layoutUtcLong s = some f) :
    Parsed f ∧ 1969 ≤ f.year ∧ f.year ≤ 2068 := by
  unfold timeParse at h
  match hp : parseChunks layoutUtcLong {} s, h with
  | some g, h =>
    simp only at h
    split at h
    · cases h
    · rename_i hd
      cases h
      obtain ⟨f1, s1, c1, hp⟩ := chunks_cons hp
      obtain ⟨f2, s2, c2, hp⟩ := chunks_cons hp
      obtain ⟨f3, s3, c3, hp⟩ := chunks_cons hp
      obtain ⟨f4, s4, c4, hp⟩ := chunks_cons hp
      obtain ⟨f5, s5, c5, hp⟩ := chunks_cons hp
      obtain ⟨f6, s6, c6, hp⟩ := chunks_cons hp
      obtain ⟨f7, s7, c7, hp⟩ := chunks_cons hp
      obtain ⟨_, rfl⟩ := chunks_nil hp
      obtain ⟨y, y1, y2, rfl⟩ := chunk_year2 c1
      obtain ⟨m, m1, m2, rfl⟩ := chunk_month c2
      obtain ⟨d, rfl⟩ := chunk_day c3
      obtain ⟨hh, h1, rfl⟩ := chunk_hour c4
      obtain ⟨mi, h2, rfl⟩ := chunk_minute c5
      obtain ⟨se, h4, rfl⟩ := chunk_second c6
      obtain ⟨z, h3, rfl⟩ := chunk_zone c7
      simp only [daysIn_eq m1 m2] at hd
      exact ⟨⟨⟨⟨m1, m2⟩, ⟨by simp only; omega, by simp only; omega⟩, h1, h2, h4⟩, h3⟩, y1, y2⟩

theorem parse_gen {s : Bytes} {f : TFields} (h : timeParse layoutGen s = some f) :
    Parsed f ∧ f.year < 10000 := by
  unfold timeParse at h
  match hp : parseChunks layoutGen {} s, h with
  | some g, h =>
    simp only at h
    split at h
    · cases h
    · rename_i hd
      cases h
      obtain ⟨f1, s1, c1, hp⟩ := chunks_cons hp
      obtain ⟨f2, s2, c2, hp⟩ := chunks_cons hp
      obtain ⟨f3, s3, c3, hp⟩ := chunks_cons hp
      obtain ⟨f4, s4, c4, hp⟩ := chunks_cons hp
      obtain ⟨f5, s5, c5, hp⟩ := chunks_cons hp
      obtain ⟨f6, s6, c6, hp⟩ := chunks_cons hp
      obtain ⟨f7, s7, c7, hp⟩ := chunks_cons hp
      obtain ⟨_, rfl⟩ := chunks_nil hp
      obtain ⟨y, y1, rfl⟩ := chunk_year4 c1
      obtain ⟨m, m1, m2, rfl⟩ := chunk_month c2
      obtain ⟨d, rfl⟩ := chunk_day c3
      obtain ⟨hh, h1, rfl⟩ := chunk_hour c4
      obtain ⟨mi, h2, rfl⟩ := chunk_minute c5
      obtain ⟨se, h4, rfl⟩ := chunk_second c6
      obtain ⟨z, h3, rfl⟩ := chunk_zone c7
      simp only [daysIn_eq m1 m2] at hd
      exact ⟨⟨⟨⟨m1, m2⟩, ⟨by simp only; omega, by simp only; omega⟩, h1, h2, h4⟩, h3⟩, y1⟩

/-! ## Parsing a formatted text -/

theorem timeAtoi_dd {n : Nat} (h : n < 100) : timeAtoi (dd n) = some (n : Int) := by
  have t1 := dig_toNat (n := n / 10) (by omega)
  have t2 := dig_toNat (n := n % 10) (by omega)
  have d1 := isDig_dig (n := n / 10) (by omega)
  have d2 := isDig_dig (n := n % 10) (by omega)
  unfold dd
  rw [timeAtoi_cons, if_neg (by intro hc; rw [hc] at t1; have : (45 : UInt8).toNat = 45 := rfl; omega),
    if_neg (by intro hc; rw [hc] at t1; have : (43 : UInt8).toNat = 43 := rfl; omega)]
  unfold timeDigits
  rw [if_pos (by simp only [List.all_cons, List.all_nil, d1, d2]; rfl)]
  simp only [List.foldl_cons, List.foldl_nil, t1, t2, Option.map_some]
  congr 1
  show ((_ : Nat) : Int) = _
  congr 1; omega

theorem timeAtoi_dddd {n : Nat} (h : n < 10000) : timeAtoi (dd (n / 100) ++ dd (n % 100)) = some (n : Int) := by
  have t1 := dig_toNat (n := n / 100 / 10) (by omega)
  have t2 := dig_toNat (n := n / 100 % 10) (by omega)
  have t3 := dig_toNat (n := n % 100 / 10) (by omega)
  have t4 := dig_toNat (n := n % 100 % 10) (by omega)
  have d1 := isDig_dig (n := n / 100 / 10) (by omega)
  have d2 := isDig_dig (n := n / 100 % 10) (by omega)
  have d3 := isDig_dig (n := n % 100 / 10) (by omega)
  have d4 := isDig_dig (n := n % 100 % 10) (by omega)
  show timeAtoi [_, _, _, _] = _
  rw [timeAtoi_cons, if_neg (by intro hc; rw [hc] at t1; have : (45 : UInt8).toNat = 45 := rfl; omega),
    if_neg (by intro hc; rw [hc] at t1; have : (43 : UInt8).toNat = 43 := rfl; omega)]
  unfold timeDigits
  rw [if_pos (by simp only [List.all_cons, List.all_nil, d1, d2, d3, d4]; rfl)]
  simp only [List.foldl_cons, List.foldl_nil, t1, t2, t3, t4, Option.map_some]
  congr 1
  show ((_ : Nat) : Int) = _
  congr 1; omega

theorem dd_length (n : Nat) : (dd n).length = 2 := rfl

theorem year2_dd {y : Nat} (h1 : 1969 ≤ y) (h2 : y ≤ 2068) (f : TFields) (r : Bytes) :
    parseChunk f (dd (y % 100) ++ r) .year2 = some ({ f with year := y }, r) := by
  unfold parseChunk
  simp only
  rw [if_neg (by rw [List.length_append, dd_length]; omega)]
  have e1 : (dd (y % 100) ++ r).take 2 = dd (y % 100) := List.take_left' (dd_length _)
  have e2 : (dd (y % 100) ++ r).drop 2 = r := List.drop_left' (dd_length _)
  rw [e1, e2, timeAtoi_dd (by omega)]
  simp only [Option.map_some]
  have : (if ((y % 100 : Nat) : Int) ≥ 69 then ((y % 100 : Nat) : Int) + 1900 else ((y % 100 : Nat) : Int) + 2000).toNat = y := by
    split <;> omega
  rw [this]

theorem year4_dd {y : Nat} (h : y < 10000) (f : TFields) (r : Bytes) :
    parseChunk f (dd (y / 100) ++ dd (y % 100) ++ r) .year4 = some ({ f with year := y }, r) := by
  unfold parseChunk
  simp only
  have hl : (dd (y / 100) ++ dd (y % 100)).length = 4 := rfl
  have d1 := isDig_dig (n := y / 100 / 10) (by omega)
  rw [if_neg (by
    rintro (hh | hh)
    · rw [List.length_append, hl] at hh; omega
    · have : ((dd (y / 100) ++ dd (y % 100) ++ r).head?.map isDig).getD false = true := d1
      rw [this] at hh; exact absurd hh (by decide))]
  have e1 : (dd (y / 100) ++ dd (y % 100) ++ r).take 4 = dd (y / 100) ++ dd (y % 100) := List.take_left' hl
  have e2 : (dd (y / 100) ++ dd (y % 100) ++ r).drop 4 = r := List.drop_left' hl
  rw [e1, e2, timeAtoi_dddd h]
  rfl

theorem month_dd {m : Nat} (h1 : 1 ≤ m) (h2 : m ≤ 12) (f : TFields) (r : Bytes) :
    parseChunk f (dd m ++ r) .month = some ({ f with month := m }, r) := by
  unfold parseChunk
  simp only [getnum_dd true (show m < 100 by omega), Option.bind_some]
  rw [if_neg (by omega)]

theorem day_dd {d : Nat} (h : d < 100) (f : TFields) (r : Bytes) :
    parseChunk f (dd d ++ r) .day = some ({ f with day := d }, r) := by
  unfold parseChunk
  simp only [getnum_dd true h, Option.map_some]

theorem hour_dd {d : Nat} (h : d < 24) (f : TFields) (r : Bytes) :
    parseChunk f (dd d ++ r) .hour = some ({ f with hour := d }, r) := by
  unfold parseChunk
  simp only [getnum_dd false (show d < 100 by omega), Option.bind_some]
  rw [if_neg (by omega)]

theorem minute_dd {d : Nat} (h : d < 60) (f : TFields) (r : Bytes) :
    parseChunk f (dd d ++ r) .minute = some ({ f with min := d }, r) := by
  unfold parseChunk
  simp only [getnum_dd true (show d < 100 by omega), Option.bind_some]
  rw [if_neg (by omega)]

theorem second_dd {d : Nat} (h : d < 60) (f : TFields) (r : Bytes) :
    parseChunk f (dd d ++ r) .second = some ({ f with sec := d }, skipFraction r) := by
  unfold parseChunk
  simp only [getnum_dd true (show d < 100 by omega), Option.bind_some]
  rw [if_neg (by omega)]

theorem monthLength_le (y m : Nat) : monthLength y m ≤ 31 := by
  unfold monthLength
  split
  · split <;> omega
  · split <;> omega

/-- Reading everything up to the zone. -/
theorem parse_clock_short {c : Civil} (hc : RealCivil c) (hs : c.sec = 0) (h1 : 1969 ≤ c.year) (h2 : c.year ≤ 2068) (zs : Bytes) :
    timeParse layoutUtcShort (dd (c.year % 100) ++ clockText c false ++ zs) =
      (parseZone zs).bind (fun p => if p.2 = [] then some ⟨c, p.1⟩ else none) := by
  have hd : c.day < 100 := by have := hc.day.2; have := monthLength_le c.year c.month; omega
  unfold timeParse layoutUtcShort clockText
  simp only [List.append_assoc, Bool.false_eq_true, if_false, List.nil_append, parseChunks]
  rw [year2_dd h1 h2]
  simp only
  rw [month_dd hc.month.1 hc.month.2]
  simp only
  rw [day_dd hd]
  simp only
  rw [hour_dd hc.hour]
  simp only
  rw [minute_dd hc.min]
  simp only
  cases hz : parseZone zs with
  | none => simp only [parseChunk, hz, Option.map_none, Option.bind_none]
  | some p =>
    simp only [parseChunk, hz, Option.map_some, Option.bind_some]
    by_cases hp : p.2 = []
    · rw [if_pos hp, if_pos hp]
      simp only
      rw [if_neg (by rw [daysIn_eq hc.month.1 hc.month.2]; have := hc.day; omega)]
      obtain ⟨y, m, d, h, mi, s⟩ := c
      simp only at hs
      subst hs
      rfl
    · rw [if_neg hp, if_neg hp]

theorem skip_zone {zs : Bytes} (h : zs.head? ≠ some 46) (h' : zs.head? ≠ some 44) : skipFraction zs = zs := by
  unfold skipFraction
  split
  · rename_i c d r
    rw [if_neg]
    rintro ⟨hh | hh, _⟩
    · exact h (by rw [hh]; rfl)
    · exact h' (by rw [hh]; rfl)
  · rfl

theorem parse_clock_tail {c : Civil} (hc : RealCivil c) (f : TFields) (zs : Bytes) (cs : List TChunk) :
    parseChunks (.month :: .day :: .hour :: .minute :: .second :: cs) f (clockText c true ++ zs) =
      parseChunks cs { f with month := c.month, day := c.day, hour := c.hour, min := c.min, sec := c.sec } (skipFraction zs) := by
  have hd : c.day < 100 := by have := hc.day.2; have := monthLength_le c.year c.month; omega
  unfold clockText
  simp only [List.append_assoc, if_true, parseChunks]
  rw [month_dd hc.month.1 hc.month.2]
  simp only
  rw [day_dd hd]
  simp only
  rw [hour_dd hc.hour]
  simp only
  rw [minute_dd hc.min]
  simp only
  rw [second_dd hc.sec]

theorem parse_clock_long {c : Civil} (hc : RealCivil c) (h1 : 1969 ≤ c.year) (h2 : c.year ≤ 2068) {zs : Bytes}
    (n1 : zs.head? ≠ some 46) (n2 : zs.head? ≠ some 44) :
    timeParse layoutUtcLong (dd (c.year % 100) ++ clockText c true ++ zs) =
      (parseZone zs).bind (fun p => if p.2 = [] then some ⟨c, p.1⟩ else none) := by
  unfold timeParse layoutUtcLong
  rw [List.append_assoc, parseChunks, year2_dd h1 h2]
  simp only
  rw [parse_clock_tail hc, skip_zone n1 n2]
  cases hz : parseZone zs with
  | none => simp only [parseChunks, parseChunk, hz, Option.map_none, Option.bind_none]
  | some p =>
    simp only [parseChunks, parseChunk, hz, Option.map_some, Option.bind_some]
    by_cases hp : p.2 = []
    · rw [if_pos hp]
      simp only
      rw [if_neg (by rw [daysIn_eq hc.month.1 hc.month.2]; have := hc.day; omega)]
    · rw [if_neg hp]

theorem parse_clock_gen {c : Civil} (hc : RealCivil c) (h : c.year < 10000) {zs : Bytes}
    (n1 : zs.head? ≠ some 46) (n2 : zs.head? ≠ some 44) :
    timeParse layoutGen (dd (c.year / 100) ++ dd (c.year % 100) ++ clockText c true ++ zs) =
      (parseZone zs).bind (fun p => if p.2 = [] then some ⟨c, p.1⟩ else none) := by
  unfold timeParse layoutGen
  rw [List.append_assoc, parseChunks, year4_dd h]
  simp only
  rw [parse_clock_tail hc, skip_zone n1 n2]
  cases hz : parseZone zs with
  | none => simp only [parseChunks, parseChunk, hz, Option.map_none, Option.bind_none]
  | some p =>
    simp only [parseChunks, parseChunk, hz, Option.map_some, Option.bind_some]
    by_cases hp : p.2 = []
    · rw [if_pos hp]
      simp only
      rw [if_neg (by rw [daysIn_eq hc.month.1 hc.month.2]; have := hc.day; omega)]
    · rw [if_neg hp]

/-- A text with seconds is not one without. -/
theorem short_of_long {c : Civil} (hc : RealCivil c) (h1 : 1969 ≤ c.year) (h2 : c.year ≤ 2068) (zs : Bytes) :
    timeParse layoutUtcShort (dd (c.year % 100) ++ clockText c true ++ zs) = none := by
  have e : dd (c.year % 100) ++ clockText c true ++ zs =
      dd (c.year % 100) ++ clockText { c with sec := 0 } false ++ (dd c.sec ++ zs) := by
    unfold clockText
    simp only [if_true, Bool.false_eq_true, if_false, List.append_assoc, List.nil_append]
  have hc' : RealCivil { c with sec := 0 } := ⟨hc.month, hc.day, hc.hour, hc.min, Nat.zero_lt_succ 59⟩
  have hp := parse_clock_short hc' rfl h1 h2 (dd c.sec ++ zs)
  have hz : parseZone (dd c.sec ++ zs) = none := by
    have hs := hc.sec
    have t1 := dig_toNat (n := c.sec / 10) (by omega)
    show parseZone (UInt8.ofNat (48 + c.sec / 10) :: UInt8.ofNat (48 + c.sec % 10) :: zs) = none
    generalize UInt8.ofNat (48 + c.sec / 10) = x at t1 ⊢
    unfold parseZone
    split
    · rename_i heq
      have hx := (List.cons.inj heq).1
      rw [hx] at t1; have : (90 : UInt8).toNat = 90 := rfl; omega
    · rename_i heq
      have hx := (List.cons.inj heq).1
      split
      · split
        · rfl
        · rw [if_neg (by intro hq; rw [← hx] at hq; rw [hq] at t1; have : (43 : UInt8).toNat = 43 := rfl; omega),
            if_neg (by intro hq; rw [← hx] at hq; rw [hq] at t1; have : (45 : UInt8).toNat = 45 := rfl; omega)]
      · rfl
    · rfl
  rw [hz] at hp
  rw [e]
  exact hp

/-! ## Zones -/

theorem parseZone_num {x : UInt8} (hx : x = 43 ∨ x = 45) {h m : Nat} (hh : h < 100) (hm : m < 60) :
    parseZone (x :: (dd h ++ dd m)) =
      if 24 < h then none else some (.num (if x = 43 then ((h * 60 + m) * 60 : Nat) else -((h * 60 + m) * 60 : Nat)), []) := by
  have g1 : getnum true (dd h) = some (h, []) := by have := getnum_dd true hh []; rwa [List.append_nil] at this
  have g2 : getnum true (dd m) = some (m, []) := by have := getnum_dd true (show m < 100 by omega) []; rwa [List.append_nil] at this
  show parseZone (x :: UInt8.ofNat (48 + h / 10) :: UInt8.ofNat (48 + h % 10) :: UInt8.ofNat (48 + m / 10) :: UInt8.ofNat (48 + m % 10) :: []) = _
  unfold parseZone
  split
  · rename_i heq
    have := (List.cons.inj heq).1
    rcases hx with rfl | rfl <;> exact absurd this (by decide)
  · rename_i heq
    injection heq with e0 heq
    injection heq with e1 heq
    injection heq with e2 heq
    injection heq with e3 heq
    injection heq with e4 heq
    subst e0 e1 e2 e3 e4 heq
    have g1' : getnum true [UInt8.ofNat (48 + h / 10), UInt8.ofNat (48 + h % 10)] = some (h, []) := g1
    have g2' : getnum true [UInt8.ofNat (48 + m / 10), UInt8.ofNat (48 + m % 10)] = some (m, []) := g2
    rw [g1', g2']
    simp only
    by_cases h24 : 24 < h
    · rw [if_pos (.inl h24), if_pos h24]
    · rw [if_neg (by omega), if_neg h24]
      rcases hx with rfl | rfl
      · rw [if_pos rfl, if_pos rfl]; simp
      · rw [if_neg (by decide), if_pos rfl, if_neg (by decide)]; simp
  · rename_i hno
    exact absurd rfl (hno _ _ _ _ _ _)

theorem parseZone_text {zs : Bytes} {z : TZone} (h : ZoneText zs z) : parseZone zs = some (z, []) := by
  cases h with
  | z => rfl
  | plus h m h1 h2 h3 =>
    have := parseZone_num (x := 43) (.inl rfl) (show h < 100 by omega) h2
    rw [if_neg (by omega), if_pos rfl] at this
    have e : (43 : UInt8) :: (dd h ++ dd m) = b!"+" ++ dd h ++ dd m := rfl
    rw [← e, this]
    congr 3; push_cast; omega
  | minus h m h1 h2 h3 =>
    have := parseZone_num (x := 45) (.inr rfl) (show h < 100 by omega) h2
    rw [if_neg (by omega), if_neg (by decide)] at this
    have e : (45 : UInt8) :: (dd h ++ dd m) = b!"-" ++ dd h ++ dd m := rfl
    rw [← e, this]
    congr 3; push_cast; omega

theorem formatZone_text {zs : Bytes} {z : TZone} (h : ZoneText zs z) : formatZone z.off = zs := by
  cases h with
  | z => rfl
  | plus h m h1 h2 h3 =>
    unfold formatZone TZone.off
    simp only
    rw [if_neg (by omega), if_neg (by omega)]
    have e : (3600 * (h : Int) + 60 * (m : Int)).natAbs = 3600 * h + 60 * m := by omega
    rw [e, twoDigits_eq (by omega), twoDigits_eq (by omega)]
    have e1 : (3600 * h + 60 * m) / 60 / 60 = h := by omega
    have e2 : (3600 * h + 60 * m) / 60 % 60 = m := by omega
    rw [e1, e2]; rfl
  | minus h m h1 h2 h3 =>
    unfold formatZone TZone.off
    simp only
    rw [if_neg (by omega), if_pos (by omega)]
    have e : (-(3600 * (h : Int) + 60 * (m : Int))).natAbs = 3600 * h + 60 * m := by omega
    rw [e, twoDigits_eq (by omega), twoDigits_eq (by omega)]
    have e1 : (3600 * h + 60 * m) / 60 / 60 = h := by omega
    have e2 : (3600 * h + 60 * m) / 60 % 60 = m := by omega
    rw [e1, e2]; rfl

theorem zoneText_head {zs : Bytes} {z : TZone} (h : ZoneText zs z) : zs.head? ≠ some 46 ∧ zs.head? ≠ some 44 := by
  cases h <;> constructor <;> · simp

/-- A zone whose formatted text can be read again is written as in the specification. -/
theorem zone_roundtrip {z : TZone} (hz : ZoneRange z) {z' : TZone} (h : parseZone (formatZone z.off) = some (z', [])) :
    ZoneText (formatZone z.off) z' := by
  match z, hz with
  | .utc, _ =>
    have e : formatZone (TZone.utc).off = b!"Z" := rfl
    rw [e] at h ⊢
    cases h; exact .z
  | .num o, ⟨k, hk, ho⟩ =>
    by_cases h0 : o = 0
    · subst h0
      have e : formatZone (TZone.num 0).off = b!"Z" := rfl
      rw [e] at h ⊢
      cases h; exact .z
    · have hn : o.natAbs = 60 * k := by omega
      have hfm : formatZone (TZone.num o).off = (if o < 0 then 45 else 43) :: (dd (k / 60) ++ dd (k % 60)) := by
        unfold formatZone TZone.off
        simp only
        rw [if_neg h0, hn]
        have e1 : 60 * k / 60 / 60 = k / 60 := by omega
        have e2 : 60 * k / 60 % 60 = k % 60 := by omega
        rw [e1, e2, twoDigits_eq (by omega), twoDigits_eq (by omega)]
      rw [hfm] at h ⊢
      rw [parseZone_num (by split <;> simp) (by omega) (by omega)] at h
      split at h
      · cases h
      · rename_i h24
        cases h
        by_cases hneg : o < 0
        · rw [if_pos hneg, if_neg (by decide)]
          have := ZoneText.minus (k / 60) (k % 60) (by omega) (by omega) (by omega)
          have e : -(((k / 60 * 60 + k % 60) * 60 : Nat) : Int) = -(3600 * ((k / 60 : Nat) : Int) + 60 * ((k % 60 : Nat) : Int)) := by omega
          rw [e]; exact this
        · rw [if_neg hneg, if_pos rfl]
          have := ZoneText.plus (k / 60) (k % 60) (by omega) (by omega) (by omega)
          have e : (((k / 60 * 60 + k % 60) * 60 : Nat) : Int) = (3600 * ((k / 60 : Nat) : Int) + 60 * ((k % 60 : Nat) : Int)) := by omega
          rw [e]; exact this

theorem formatZone_head (off : Int) : (formatZone off).head? ≠ some 46 ∧ (formatZone off).head? ≠ some 44 := by
  unfold formatZone
  split
  · constructor <;> decide
  · split <;> constructor <;> simp

/-! ## Formatting -/

theorem format_clock {f : TFields} (hf : RealCivil f.toCivil) :
    formatChunk f .month ++ formatChunk f .day ++ formatChunk f .hour ++ formatChunk f .minute = clockText f.toCivil false := by
  have hd : f.day < 100 := by have := hf.day.2; have := monthLength_le f.year f.month; omega
  have := hf.month; have := hf.hour; have := hf.min
  unfold formatChunk clockText
  simp only
  rw [twoDigits_eq (by omega), twoDigits_eq hd, twoDigits_eq (by omega), twoDigits_eq (by omega)]
  simp

theorem clockText_true (c : Civil) : clockText c true = clockText c false ++ dd c.sec := by
  unfold clockText; simp

theorem format_short {f : TFields} (hf : RealCivil f.toCivil) :
    timeFormat layoutUtcShort f = dd (f.year % 100) ++ clockText f.toCivil false ++ formatZone f.zone.off := by
  rw [← format_clock hf, ← twoDigits_eq (Nat.mod_lt _ (by decide))]
  simp [timeFormat, layoutUtcShort, formatChunk, List.flatten]

theorem format_long {f : TFields} (hf : RealCivil f.toCivil) :
    timeFormat layoutUtcLong f = dd (f.year % 100) ++ clockText f.toCivil true ++ formatZone f.zone.off := by
  have := hf.sec
  rw [clockText_true, ← format_clock hf, ← twoDigits_eq (Nat.mod_lt _ (by decide)), ← twoDigits_eq (show f.toCivil.sec < 100 by omega)]
  simp [timeFormat, layoutUtcLong, formatChunk, List.flatten]

theorem format_gen {f : TFields} (hf : RealCivil f.toCivil) (h : f.year < 10000) :
    timeFormat layoutGen f = dd (f.year / 100) ++ dd (f.year % 100) ++ clockText f.toCivil true ++ formatZone f.zone.off := by
  have := hf.sec
  rw [clockText_true, ← format_clock hf, ← fourDigits_eq h, ← twoDigits_eq (show f.toCivil.sec < 100 by omega)]
  simp [timeFormat, layoutGen, formatChunk, List.flatten]

/-! ## Day numbers -/

theorem daysToYear_eq (y : Nat) : daysToYear y + (y + 99) / 100 = 365 * y + (y + 3) / 4 + (y + 399) / 400 := by
  induction y with
  | zero => decide
  | succ y ih =>
    rw [daysToYear, yearLength]
    split
    · rename_i hl
      obtain ⟨h4, h1⟩ := hl
      by_cases h100 : 100 ∣ y
      · have := h1 h100; omega
      · omega
    · rename_i hl
      by_cases h4 : 4 ∣ y
      · have hn : ¬ (100 ∣ y → 400 ∣ y) := fun hh => hl ⟨h4, hh⟩
        by_cases h100 : 100 ∣ y
        · have : ¬ 400 ∣ y := fun h => hn (fun _ => h)
          omega
        · exact absurd (fun h => absurd h h100) hn
      · omega

theorem daysToMonth_eq {m : Nat} (h1 : 1 ≤ m) (h2 : m ≤ 12) (y : Nat) :
    daysToMonth y m = daysBefore.getD (m - 1) 0 + (if isLeap y = true ∧ 3 ≤ m then 1 else 0) := by
  have : m = 1 ∨ m = 2 ∨ m = 3 ∨ m = 4 ∨ m = 5 ∨ m = 6 ∨ m = 7 ∨ m = 8 ∨ m = 9 ∨ m = 10 ∨ m = 11 ∨ m = 12 := by omega
  by_cases hl : Leap y
  · have hl' := (leap_iff y).2 hl
    rcases this with rfl | rfl | rfl | rfl | rfl | rfl | rfl | rfl | rfl | rfl | rfl | rfl <;>
      simp [daysToMonth, monthLength, hl, hl', daysBefore]
  · have hl' : isLeap y = false := by
      cases h : isLeap y with
      | false => rfl
      | true => exact absurd ((leap_iff y).1 h) hl
    rcases this with rfl | rfl | rfl | rfl | rfl | rfl | rfl | rfl | rfl | rfl | rfl | rfl <;>
      simp [daysToMonth, monthLength, hl, hl', daysBefore]

theorem dayNumber_eq {y m d : Nat} (h1 : 1 ≤ m) (h2 : m ≤ 12) :
    dayNumber y m d = daysToYear y + daysToMonth y m + (d - 1) := by
  have e1 := daysToYear_eq y
  rw [daysToMonth_eq h1 h2]
  unfold dayNumber
  have : (y + 99) / 100 ≤ 365 * y + (y + 3) / 4 := by omega
  omega

theorem jan1_seconds (y : Nat) : secondsOf ⟨y, 1, 1, 0, 0, 0⟩ = daysToYear y * 86400 := by
  simp only [secondsOf, daysToMonth]; omega

theorem daysToYear_of {y k : Nat} (h : k + (y + 99) / 100 = 365 * y + (y + 3) / 4 + (y + 399) / 400) : daysToYear y = k := by
  have := daysToYear_eq y; omega

/-- Days from January 1, year 0 to the Unix epoch. -/
def epochDays : Nat := 719528

theorem epoch_seconds : secondsOf ⟨1970, 1, 1, 0, 0, 0⟩ = epochDays * 86400 :=
  (jan1_seconds 1970).trans (congrArg (· * 86400) (daysToYear_of (k := epochDays) (by decide)))

/-- The closed formula counts the seconds since 1970. -/
theorem civilUnix_eq {c : Civil} (hc : RealCivil c) : civilUnix c = unixUtc c := by
  unfold civilUnix unixUtc
  rw [epoch_seconds, dayNumber_eq hc.month.1 hc.month.2]
  unfold secondsOf epochDays
  generalize daysToYear c.year = a, daysToMonth c.year c.month = b
  omega

/-! ## The two kinds of times -/

theorem leap_century {y : Nat} (h1 : 1950 ≤ y) (h2 : y ≤ 1968) : Leap (y + 100) ↔ Leap y := by
  unfold Leap
  have a1 : ¬ 100 ∣ y := by omega
  have a2 : ¬ 100 ∣ (y + 100) := by omega
  constructor
  · rintro ⟨h, _⟩; exact ⟨by omega, fun h => absurd h a1⟩
  · rintro ⟨h, _⟩; exact ⟨by omega, fun h => absurd h a2⟩

theorem monthLength_congr {y y' m : Nat} (h : Leap y ↔ Leap y') : monthLength y m = monthLength y' m := by
  unfold monthLength
  by_cases hl : Leap y
  · rw [if_pos hl, if_pos (h.1 hl)]
  · rw [if_neg hl, if_neg (fun hh => hl (h.2 hh))]

theorem real_plus {c : Civil} (h1 : 1950 ≤ c.year) (h2 : c.year ≤ 1968) (hc : RealCivil c) : RealCivil { c with year := c.year + 100 } :=
  ⟨hc.month, ⟨hc.day.1, by show c.day ≤ monthLength (c.year + 100) c.month; rw [monthLength_congr (leap_century h1 h2)]; exact hc.day.2⟩,
    hc.hour, hc.min, hc.sec⟩

theorem real_minus {c : Civil} (h1 : 2050 ≤ c.year) (h2 : c.year ≤ 2068) (hc : RealCivil c) : RealCivil { c with year := c.year - 100 } := by
  have e : c.year - 100 + 100 = c.year := by omega
  have hl := leap_century (y := c.year - 100) (by omega) (by omega)
  rw [e] at hl
  exact ⟨hc.month, ⟨hc.day.1, by show c.day ≤ monthLength (c.year - 100) c.month; rw [← monthLength_congr hl]; exact hc.day.2⟩,
    hc.hour, hc.min, hc.sec⟩

/-- The value of a parsed UTCTime. -/
theorem finish_value {te : TimeEnv} {layout : List TChunk} {s : Bytes} {f : TFields} {t : Int} (hf : RealCivil f.toCivil)
    (h1 : 1969 ≤ f.year) (h2 : f.year ≤ 2068) {c : Civil}
    (hc : c = if f.year ≥ 2050 then { f.toCivil with year := f.year - 100 } else f.toCivil) :
    finishUtc te layout s f = some t ↔ timeFormat layout f = s ∧ t = utcInstant te c f.zone := by
  unfold finishUtc
  by_cases hs : timeFormat layout f = s
  · rw [if_neg (by simpa using hs)]
    by_cases hy : f.year ≥ 2050
    · rw [if_pos hy] at hc ⊢
      subst hc
      have hm := real_minus hy h2 hf
      have e : minusCentury te f = utcInstant te { f.toCivil with year := f.year - 100 } f.zone := by
        unfold minusCentury utcInstant
        have e2 : ({ f.toCivil with year := f.year - 100 + 100 } : Civil) = f.toCivil := by
          have : f.year - 100 + 100 = f.year := by omega
          rw [this]
        cases hz : f.zone with
        | utc => simp only; exact civilUnix_eq hm
        | num o =>
          simp only
          rw [civilUnix_eq hm, e2, civilUnix_eq hf]
          by_cases hl : te.localOffset (unixUtc f.toCivil - o) = o
          · rw [if_pos hl, if_pos ⟨by omega, hl⟩]
          · rw [if_neg hl, if_neg (fun hh => hl hh.2)]
      rw [e]
      exact ⟨fun h => ⟨hs, (Option.some.inj h).symm⟩, fun h => congrArg some h.2.symm⟩
    · rw [if_neg hy] at hc ⊢
      subst hc
      have e : civilUnix f.toCivil - f.zone.off = utcInstant te f.toCivil f.zone := by
        unfold utcInstant TZone.off
        rw [civilUnix_eq hf]
        cases hz : f.zone with
        | utc => simp
        | num o => simp only; rw [if_neg (by omega)]
      rw [e]
      exact ⟨fun h => ⟨hs, (Option.some.inj h).symm⟩, fun h => congrArg some h.2.symm⟩
  · rw [if_pos hs]
    exact ⟨fun h => (by cases h), fun h => absurd h.1 hs⟩

theorem parsed_zone {f : TFields} {zs : Bytes}
    (h : (parseZone zs).bind (fun p => if p.2 = [] then some (⟨f.toCivil, p.1⟩ : TFields) else none) = some f) :
    parseZone zs = some (f.zone, []) := by
  obtain ⟨p, hp, he⟩ := Option.bind_eq_some_iff.1 h
  split at he
  · rename_i hn
    have := Option.some.inj he
    rw [hp, ← this, ← hn]
  · cases he

theorem goUtcTime_iff (te : TimeEnv) (s : Bytes) (t : Int) :
    goUtcTime te s = some t ↔ ∃ c z, UtcText s c z ∧ t = utcInstant te c z := by
  constructor
  · intro h
    unfold goUtcTime at h
    cases hsh : timeParse layoutUtcShort s with
    | some f =>
      rw [hsh] at h
      obtain ⟨hp, y1, y2, hs0⟩ := parse_short hsh
      obtain ⟨hfm, ht⟩ := (finish_value hp.real y1 y2 rfl).1 h
      rw [format_short hp.real] at hfm
      have hpz := hsh
      rw [← hfm, parse_clock_short hp.real hs0 y1 y2] at hpz
      have hz := zone_roundtrip hp.zone (parsed_zone hpz)
      refine ⟨_, f.zone, ⟨_, false, ?_, ?_, ?_, hz, ?_, ?_⟩, ht⟩
      · split
        · exact real_minus ‹_› y2 hp.real
        · exact hp.real
      · split
        · show _ ≤ f.year - 100; omega
        · omega
      · split
        · show f.year - 100 < _; omega
        · omega
      · intro _; split <;> exact hs0
      · rw [← hfm]
        split
        · have e : (f.year - 100) % 100 = f.year % 100 := by omega
          show _ = dd ((f.year - 100) % 100) ++ _ ++ _
          rw [e]; rfl
        · rfl
    | none =>
      rw [hsh] at h
      cases hlo : timeParse layoutUtcLong s with
      | none => rw [hlo] at h; cases h
      | some f =>
        rw [hlo] at h
        obtain ⟨hp, y1, y2⟩ := parse_long hlo
        obtain ⟨hfm, ht⟩ := (finish_value hp.real y1 y2 rfl).1 h
        rw [format_long hp.real] at hfm
        have hpz := hlo
        rw [← hfm, parse_clock_long hp.real y1 y2 (formatZone_head _).1 (formatZone_head _).2] at hpz
        have hz := zone_roundtrip hp.zone (parsed_zone hpz)
        refine ⟨_, f.zone, ⟨_, true, ?_, ?_, ?_, hz, ?_, ?_⟩, ht⟩
        · split
          · exact real_minus ‹_› y2 hp.real
          · exact hp.real
        · split
          · show _ ≤ f.year - 100; omega
          · omega
        · split
          · show f.year - 100 < _; omega
          · omega
        · intro hh; cases hh
        · rw [← hfm]
          split
          · have e : (f.year - 100) % 100 = f.year % 100 := by omega
            show _ = dd ((f.year - 100) % 100) ++ _ ++ _
            rw [e]; rfl
          · rfl
  · rintro ⟨c, z, ⟨zs, secs, hc, y1, y2, hz, hsec, rfl⟩, ht⟩
    -- the fields as first parsed
    have key : ∃ c' : Civil, RealCivil c' ∧ 1969 ≤ c'.year ∧ c'.year ≤ 2068 ∧ c'.year % 100 = c.year % 100 ∧ c'.sec = c.sec ∧
        clockText c' secs = clockText c secs ∧ c = if c'.year ≥ 2050 then { c' with year := c'.year - 100 } else c' := by
      by_cases hy : c.year < 1969
      · refine ⟨{ c with year := c.year + 100 }, real_plus y1 (by omega) hc, ?_, ?_, ?_, rfl, rfl, ?_⟩
        · show _ ≤ c.year + 100; omega
        · show c.year + 100 ≤ _; omega
        · show (c.year + 100) % 100 = _; omega
        · rw [if_pos (by show c.year + 100 ≥ 2050; omega)]
          have e : c.year + 100 - 100 = c.year := by omega
          simp only [e]
      · exact ⟨c, hc, by omega, by omega, rfl, rfl, rfl, by rw [if_neg (by omega)]⟩
    obtain ⟨c', r', b1, b2, e1, e2, e3, e4⟩ := key
    rw [← e1, ← e3]
    have hfz := formatZone_text hz
    have hpz := parseZone_text hz
    unfold goUtcTime
    cases secs with
    | false =>
      have hp := parse_clock_short r' (e2.trans (hsec rfl)) b1 b2 zs
      rw [hpz] at hp
      simp only [Option.bind_some, if_true] at hp
      rw [hp]
      simp only
      refine (finish_value (f := ⟨c', z⟩) r' b1 b2 e4).2 ⟨?_, ht⟩
      rw [format_short (f := ⟨c', z⟩) r', hfz]
    | true =>
      have hp := parse_clock_long r' b1 b2 (zoneText_head hz).1 (zoneText_head hz).2
      rw [hpz] at hp
      simp only [Option.bind_some, if_true] at hp
      rw [short_of_long r' b1 b2, hp]
      simp only
      refine (finish_value (f := ⟨c', z⟩) r' b1 b2 e4).2 ⟨?_, ht⟩
      rw [format_long (f := ⟨c', z⟩) r', hfz]

theorem zone_off (z : TZone) : z.off = zoneSeconds z := by cases z <;> rfl

theorem goGenTime_iff (s : Bytes) (t : Int) : goGenTime s = some t ↔ ∃ c z, GenText s c z ∧ t = instant c z := by
  constructor
  · intro h
    unfold goGenTime at h
    cases hlo : timeParse layoutGen s with
    | none => rw [hlo] at h; cases h
    | some f =>
      rw [hlo] at h
      simp only at h
      obtain ⟨hp, y1⟩ := parse_gen hlo
      split at h
      · cases h
      · rename_i hfm
        have hfm := Classical.not_not.1 hfm
        rw [format_gen hp.real y1] at hfm
        have hpz := hlo
        rw [← hfm, parse_clock_gen hp.real y1 (formatZone_head _).1 (formatZone_head _).2] at hpz
        have hz := zone_roundtrip hp.zone (parsed_zone hpz)
        refine ⟨f.toCivil, f.zone, ⟨_, hp.real, y1, hz, hfm.symm⟩, ?_⟩
        rw [← Option.some.inj h, civilUnix_eq hp.real, zone_off]; rfl
  · rintro ⟨c, z, ⟨zs, hc, y1, hz, rfl⟩, ht⟩
    have hp := parse_clock_gen hc y1 (zoneText_head hz).1 (zoneText_head hz).2
    rw [parseZone_text hz] at hp
    simp only [Option.bind_some, if_true] at hp
    unfold goGenTime
    rw [hp]
    simp only
    rw [format_gen (f := ⟨c, z⟩) hc y1, formatZone_text hz, if_neg (by simp), ht, civilUnix_eq hc, zone_off]
    rfl

end Apk
