import Verif.Proofs.Time
/-! # C67: times in certificates -/
namespace Apk
open Spec

/-! ## Reading -/

/-- C67: which UTCTimes are accepted does not depend on the machine: exactly the texts `YYMMDDhhmm[ss]` followed by `Z` or a sign, hours
    and minutes of a date and time of day that exist, with a year from 1950 to 2049. -/
theorem C67_utc_accepted_iff (te : TimeEnv) (s : Bytes) : (∃ t, goUtcTime te s = some t) ↔ ∃ c z, UtcText s c z := by
  constructor
  · rintro ⟨t, h⟩
    obtain ⟨c, z, h, _⟩ := (goUtcTime_iff te s t).1 h
    exact ⟨c, z, h⟩
  · rintro ⟨c, z, h⟩
    exact ⟨_, (goUtcTime_iff te s _).2 ⟨c, z, h, rfl⟩⟩

/-- C67: GeneralizedTimes are accepted exactly if they are `YYYYMMDDhhmmss` and a zone of a date and time of day that exist; the instant
    is the date and time minus the offset, counted in days of 24 hours from January 1, 1970. -/
theorem C67_generalized_iff (s : Bytes) (t : Int) : goGenTime s = some t ↔ ∃ c z, GenText s c z ∧ t = instant c z := goGenTime_iff s t

/-- C67: the instant reported for a UTCTime: as long as the zone is `Z` or the year is 1969 or later, date and time minus the offset.
    Partial: see `C67_utc_depends_on_local_zone`. -/
theorem C67_utc_instant_partial (te : TimeEnv) {s : Bytes} {c : Civil} {z : TZone} (h : UtcText s c z) (hz : z = .utc ∨ 1969 ≤ c.year) :
    goUtcTime te s = some (instant c z) := by
  refine (goUtcTime_iff te s _).2 ⟨c, z, h, ?_⟩
  unfold instant utcInstant
  cases z with
  | utc => exact Int.sub_zero _
  | num off =>
    rcases hz with h | h
    · cases h
    · simp only [zoneSeconds]
      rw [if_neg (by omega)]

/-- C67: the other UTCTimes, with a numeric zone and a year from 1950 to 1968: the time in the local zone of the machine, if the given
    offset is in force there a century later; else again date and time minus the offset. -/
theorem C67_utc_early_numeric (te : TimeEnv) {s : Bytes} {c : Civil} {off : Int} (h : UtcText s c (.num off)) (hy : c.year < 1969) :
    (te.localOffset (unixUtc { c with year := c.year + 100 } - off) ≠ off → goUtcTime te s = some (unixUtc c - off)) ∧
    (te.localOffset (unixUtc { c with year := c.year + 100 } - off) = off → goUtcTime te s = some (te.localUnix (unixUtc c))) := by
  have key := (goUtcTime_iff te s _).2 ⟨c, _, h, rfl⟩
  unfold utcInstant at key
  simp only at key
  constructor
  · intro hn; rw [key, if_neg (by exact fun h => hn h.2)]
  · intro hp; rw [key, if_pos ⟨hy, hp⟩]

/-- A machine in a zone that is two hours ahead of UTC in the 1960s and three hours ahead in the 2060s (such as Istanbul). -/
def lateZone : TimeEnv where
  localOffset t := if t < 0 then 7200 else 10800
  localUnix t := t - (if t < 7200 then 7200 else 10800)

/-- A machine that runs in UTC. -/
def utcZone : TimeEnv where
  localOffset _ := 0
  localUnix t := t

/-- C67, violation: what a UTCTime with a numeric zone and one of the years 1950 to 1968 means depends on the time zone of the machine;
    here the correct instant (21:00 UTC of the day before) is reported on one machine, and an hour later on another. -/
theorem C67_utc_depends_on_local_zone :
    UtcText (b!"600101000000+0300") ⟨1960, 1, 1, 0, 0, 0⟩ (.num 10800) ∧
    goUtcTime utcZone (b!"600101000000+0300") = some (-315630000) ∧
    goUtcTime lateZone (b!"600101000000+0300") = some (-315626400) := by
  refine ⟨⟨b!"+0300", true, ⟨by decide, by decide, by decide, by decide, by decide⟩, by decide, by decide, .plus 3 0 (by decide) (by decide) (by decide),
    by simp, by decide⟩, by decide +kernel, by decide +kernel⟩

/-! ## A text has one reading -/

theorem dd_inj {n m : Nat} {r r' : Bytes} (hn : n < 100) (hm : m < 100) (h : dd n ++ r = dd m ++ r') : n = m ∧ r = r' := by
  have h1 := getnum_dd true hn r
  have h2 := getnum_dd true hm r'
  rw [h, h2] at h1
  cases h1; exact ⟨rfl, rfl⟩

theorem zoneText_unique {zs : Bytes} {z z' : TZone} (h : ZoneText zs z) (h' : ZoneText zs z') : z = z' := by
  have := (parseZone_text h).symm.trans (parseZone_text h')
  simpa using this

theorem zoneText_length {zs : Bytes} {z : TZone} (h : ZoneText zs z) : zs.length = 1 ∨ zs.length = 5 := by
  cases h
  · exact .inl rfl
  · exact .inr rfl
  · exact .inr rfl

theorem clockText_length (c : Civil) (b : Bool) : (clockText c b).length = if b then 10 else 8 := by
  cases b <;> rfl

theorem clockText_inj {c c' : Civil} (hc : RealCivil c) (hc' : RealCivil c') {b : Bool} {r r' : Bytes}
    (h : clockText c b ++ r = clockText c' b ++ r') :
    c.month = c'.month ∧ c.day = c'.day ∧ c.hour = c'.hour ∧ c.min = c'.min ∧ (b = true → c.sec = c'.sec) ∧ r = r' := by
  have d1 : c.day < 100 := by have := hc.day.2; have := monthLength_le c.year c.month; omega
  have d2 : c'.day < 100 := by have := hc'.day.2; have := monthLength_le c'.year c'.month; omega
  have := hc.month; have := hc.hour; have := hc.min; have := hc.sec
  have := hc'.month; have := hc'.hour; have := hc'.min; have := hc'.sec
  unfold clockText at h
  simp only [List.append_assoc] at h
  obtain ⟨e1, h⟩ := dd_inj (by omega) (by omega) h
  obtain ⟨e2, h⟩ := dd_inj d1 d2 h
  obtain ⟨e3, h⟩ := dd_inj (by omega) (by omega) h
  obtain ⟨e4, h⟩ := dd_inj (by omega) (by omega) h
  cases b with
  | false => exact ⟨e1, e2, e3, e4, (fun h => by cases h), by simpa using h⟩
  | true =>
    simp only [if_true] at h
    obtain ⟨e5, h⟩ := dd_inj (by omega) (by omega) h
    exact ⟨e1, e2, e3, e4, fun _ => e5, h⟩

/-- C67: the date, time and zone of an accepted text are determined by it. -/
theorem C67_one_reading {s : Bytes} {c c' : Civil} {z z' : TZone} :
    (UtcText s c z → UtcText s c' z' → c = c' ∧ z = z') ∧ (GenText s c z → GenText s c' z' → c = c' ∧ z = z') := by
  constructor
  · rintro ⟨zs, b, hc, y1, y2, hz, hs, rfl⟩ ⟨zs', b', hc', y1', y2', hz', hs', h⟩
    have hb : b = b' := by
      have hl := congrArg List.length h
      simp only [List.length_append, dd_length, clockText_length] at hl
      have l1 := zoneText_length hz
      have l2 := zoneText_length hz'
      cases b <;> cases b' <;> first | rfl | (simp at hl; omega)
    subst hb
    rw [List.append_assoc, List.append_assoc] at h
    obtain ⟨e0, h⟩ := dd_inj (by omega) (by omega) h
    obtain ⟨e1, e2, e3, e4, e5, rfl⟩ := clockText_inj hc hc' h
    have e6 : c.sec = c'.sec := by
      cases b with
      | true => exact e5 rfl
      | false => rw [hs rfl, hs' rfl]
    refine ⟨?_, zoneText_unique hz hz'⟩
    have ey : c.year = c'.year := by omega
    cases c; cases c'; simp_all
  · rintro ⟨zs, hc, y, hz, rfl⟩ ⟨zs', hc', y', hz', h⟩
    simp only [List.append_assoc] at h
    obtain ⟨e0, h⟩ := dd_inj (by omega) (by omega) h
    obtain ⟨e0', h⟩ := dd_inj (by omega) (by omega) h
    obtain ⟨e1, e2, e3, e4, e5, rfl⟩ := clockText_inj hc hc' h
    refine ⟨?_, zoneText_unique hz hz'⟩
    have ey : c.year = c'.year := by omega
    have e5 := e5 rfl
    cases c; cases c'; simp_all

/-! ## Writing -/

theorem daysToMonth_mono (y : Nat) {m n : Nat} (h1 : 1 ≤ m) (h : m < n) : daysToMonth y m + monthLength y m ≤ daysToMonth y n := by
  induction n with
  | zero => omega
  | succ n ih =>
    cases n with
    | zero => omega
    | succ k =>
      show _ ≤ daysToMonth y (k + 1) + monthLength y (k + 1)
      by_cases e : m = k + 1
      · rw [e]; exact Nat.le_refl _
      · have := ih (by omega); omega

theorem daysToYear_mono {y z : Nat} (h : y < z) : daysToYear y + yearLength y ≤ daysToYear z := by
  induction z with
  | zero => omega
  | succ z ih =>
    show _ ≤ daysToYear z + yearLength z
    by_cases e : y = z
    · rw [e]; exact Nat.le_refl _
    · have := ih (by omega); omega

theorem yearLength_months (y : Nat) : daysToMonth y 12 + monthLength y 12 = yearLength y := by
  rw [daysToMonth_eq (by decide) (by decide)]
  unfold yearLength monthLength
  by_cases h : Leap y
  · simp [h, (leap_iff y).2 h, daysBefore]
  · have : isLeap y ≠ true := fun hx => h ((leap_iff y).1 hx)
    simp [h, this, daysBefore]

/-- Days are numbered without gaps and repetitions: the number of a day determines the date. -/
theorem date_unique {c c' : Civil} (hc : RealCivil c) (hc' : RealCivil c')
    (h : daysToYear c.year + daysToMonth c.year c.month + (c.day - 1) = daysToYear c'.year + daysToMonth c'.year c'.month + (c'.day - 1)) :
    c.year = c'.year ∧ c.month = c'.month ∧ c.day = c'.day := by
  have inyear : ∀ {d : Civil}, RealCivil d → daysToMonth d.year d.month + (d.day - 1) < yearLength d.year := by
    intro d hd
    have h1 := hd.day; have h2 := hd.month
    rw [← yearLength_months]
    by_cases e : d.month = 12
    · rw [e] at h1 ⊢; omega
    · have := daysToMonth_mono d.year h2.1 (show d.month < 12 by omega); omega
  have hy : c.year = c'.year := by
    have a := inyear hc; have b := inyear hc'
    rcases Nat.lt_trichotomy c.year c'.year with hl | hl | hl
    · have := daysToYear_mono hl; omega
    · exact hl
    · have := daysToYear_mono hl; omega
  rw [hy] at h
  have hm : c.month = c'.month := by
    have h1 := hc.day; have h2 := hc.month; have h3 := hc'.day; have h4 := hc'.month
    rw [hy] at h1
    rcases Nat.lt_trichotomy c.month c'.month with hl | hl | hl
    · have := daysToMonth_mono c'.year h2.1 hl; omega
    · exact hl
    · have := daysToMonth_mono c'.year h4.1 hl; omega
  rw [hm] at h
  have := hc.day; have := hc'.day
  exact ⟨hy, hm, by omega⟩

/-- C67: different dates or times of day in UTC are different instants. -/
theorem C67_instants_told_apart {c c' : Civil} (hc : RealCivil c) (hc' : RealCivil c') (h : instant c .utc = instant c' .utc) : c = c' := by
  have e : secondsOf c = secondsOf c' := by
    unfold instant unixUtc at h
    generalize secondsOf ⟨1970, 1, 1, 0, 0, 0⟩ = k at h
    omega
  have a1 := hc.hour; have a2 := hc.min; have a3 := hc.sec
  have b1 := hc'.hour; have b2 := hc'.min; have b3 := hc'.sec
  unfold secondsOf at e
  have ed : daysToYear c.year + daysToMonth c.year c.month + (c.day - 1) = daysToYear c'.year + daysToMonth c'.year c'.month + (c'.day - 1) := by omega
  obtain ⟨e1, e2, e3⟩ := date_unique hc hc' ed
  have e4 : c.hour = c'.hour := by omega
  have e5 : c.min = c'.min := by omega
  have e6 : c.sec = c'.sec := by omega
  cases c; cases c'; simp_all

theorem common_text {t : ZTime} (hc : RealCivil t.toCivil) (ho : t.off.natAbs < 90000) :
    ∃ zs z, ZoneText zs z ∧ zoneSeconds z = 60 * t.off.tdiv 60 ∧ appendTimeCommon t = clockText t.toCivil true ++ zs := by
  have hd : t.day < 100 := by have := hc.day.2; have := monthLength_le t.year t.month; omega
  have := hc.month; have := hc.hour; have := hc.min; have := hc.sec
  have main : ∀ zs : Bytes, twoDigits t.month ++ twoDigits t.day ++ twoDigits t.hour ++ twoDigits t.min ++ twoDigits t.sec ++ zs =
      clockText t.toCivil true ++ zs := by
    intro zs
    rw [twoDigits_eq (by omega), twoDigits_eq hd, twoDigits_eq (by omega), twoDigits_eq (by omega), twoDigits_eq (by omega)]
    simp [clockText]
  have hq : ((t.off.tdiv 60).natAbs) = t.off.natAbs / 60 := by rw [Int.natAbs_tdiv]; rfl
  unfold appendTimeCommon
  by_cases h0 : t.off.natAbs / 60 = 0
  · rw [if_pos h0]
    refine ⟨b!"Z", .utc, .z, ?_, main _⟩
    show (0 : Int) = _
    omega
  · rw [if_neg h0]
    have hx : (t.off.natAbs / 60) = 60 * (t.off.natAbs / 60 / 60) + t.off.natAbs / 60 % 60 := by omega
    rw [twoDigits_eq (n := t.off.natAbs / 60 / 60) (by omega), twoDigits_eq (n := t.off.natAbs / 60 % 60) (by omega)]
    generalize t.off.natAbs / 60 / 60 = h at hx
    have hm : t.off.natAbs / 60 % 60 < 60 := by omega
    generalize t.off.natAbs / 60 % 60 = m at hx hm
    by_cases hp : 0 < t.off
    · rw [if_pos hp]
      refine ⟨_, _, .plus h m (by omega) (by omega) (by omega), ?_, main _⟩
      show (3600 * h + 60 * m : Int) = _
      have : 0 ≤ t.off.tdiv 60 := Int.tdiv_nonneg (by omega) (by omega)
      omega
    · rw [if_neg hp]
      refine ⟨_, _, .minus h m (by omega) (by omega) (by omega), ?_, main _⟩
      show -(3600 * h + 60 * m : Int) = _
      have : t.off.tdiv 60 ≤ 0 := by
        have h1 := Int.tdiv_nonneg (a := -t.off) (b := 60) (by omega) (by omega)
        rw [Int.neg_tdiv] at h1; omega
      omega

/-- C67: a time is written exactly if its year has at most four digits; as a UTCTime if the year is 1950 to 2049 and nothing else is asked
    for, else as a GeneralizedTime. -/
theorem C67_written_as (generalized : Bool) (t : ZTime) :
    ((∃ b, encodeTime generalized t = some (23, b)) ↔ generalized = false ∧ 1950 ≤ t.year ∧ t.year < 2050) ∧
    ((∃ b, encodeTime generalized t = some (24, b)) ↔ (generalized = true ∨ t.year < 1950 ∨ 2050 ≤ t.year) ∧ t.year < 10000) ∧
    (∀ tag b, encodeTime generalized t = some (tag, b) → tag = 23 ∨ tag = 24) := by
  unfold encodeTime outsideUTCRange
  by_cases hg : (generalized || decide (t.year < 1950 ∨ 2050 ≤ t.year)) = true
  · rw [if_pos hg]
    have hg' : generalized = true ∨ t.year < 1950 ∨ 2050 ≤ t.year := by simpa using hg
    unfold appendGeneralizedTime
    by_cases hy : 9999 < t.year
    · rw [if_pos hy]
      refine ⟨⟨by simp, ?_⟩, ⟨by simp, by omega⟩, by simp⟩
      rintro ⟨rfl, h⟩
      rcases hg' with h | h
      · cases h
      · omega
    · rw [if_neg hy]
      refine ⟨⟨by simp, ?_⟩, ⟨fun _ => ⟨hg', by omega⟩, fun _ => ⟨_, rfl⟩⟩, ?_⟩
      · rintro ⟨rfl, h⟩
        rcases hg' with h | h
        · cases h
        · omega
      · intro tag b h
        cases h; exact .inr rfl
  · rw [if_neg hg]
    have hg' : generalized = false ∧ 1950 ≤ t.year ∧ t.year < 2050 := by
      simp only [Bool.or_eq_true, decide_eq_true_eq] at hg
      refine ⟨?_, by omega, by omega⟩
      cases generalized
      · rfl
      · exact absurd (.inl rfl) hg
    obtain ⟨rfl, y1, y2⟩ := hg'
    have : ∃ b, appendUTCTime t = some b := by
      unfold appendUTCTime
      by_cases h : t.year < 2000
      · exact ⟨_, if_pos ⟨y1, h⟩⟩
      · exact ⟨_, (if_neg (by omega)).trans (if_pos ⟨by omega, y2⟩)⟩
    obtain ⟨b, hb⟩ := this
    rw [hb]
    refine ⟨⟨fun _ => ⟨rfl, y1, y2⟩, fun _ => ⟨b, rfl⟩⟩, ⟨by simp, ?_⟩, ?_⟩
    · rintro ⟨h | h, _⟩
      · cases h
      · omega
    · intro tag b h
      cases h; exact .inl rfl

/-- C67: what is written is the date and time of day in the zone of the time, and the offset of the zone without its seconds. -/
theorem C67_written_text {generalized : Bool} {t : ZTime} {tag : Nat} {b : Bytes} (hc : RealCivil t.toCivil) (ho : t.off.natAbs < 90000)
    (h : encodeTime generalized t = some (tag, b)) :
    ∃ z, zoneSeconds z = 60 * t.off.tdiv 60 ∧ (tag = 23 → UtcText b t.toCivil z) ∧ (tag = 24 → GenText b t.toCivil z) := by
  obtain ⟨zs, z, hz, hs, ht⟩ := common_text hc ho
  refine ⟨z, hs, ?_, ?_⟩
  · rintro rfl
    obtain ⟨rfl, y1, y2⟩ := (C67_written_as generalized t).1.1 ⟨b, h⟩
    refine ⟨zs, true, hc, y1, y2, hz, by simp, ?_⟩
    unfold encodeTime at h
    rw [if_neg (by simp [outsideUTCRange]; omega)] at h
    unfold appendUTCTime at h
    by_cases hy : t.year < 2000
    · rw [if_pos ⟨y1, hy⟩] at h
      cases h
      rw [ht, twoDigits_eq (by omega)]
      have : t.year - 1900 = t.toCivil.year % 100 := by omega
      rw [this, List.append_assoc]
    · rw [if_neg (by omega), if_pos ⟨by omega, y2⟩] at h
      cases h
      rw [ht, twoDigits_eq (by omega)]
      have : t.year - 2000 = t.toCivil.year % 100 := by omega
      rw [this, List.append_assoc]
  · rintro rfl
    obtain ⟨hg, y⟩ := (C67_written_as generalized t).2.1.1 ⟨b, h⟩
    refine ⟨zs, hc, y, hz, ?_⟩
    unfold encodeTime at h
    rw [if_pos (by simp [outsideUTCRange]; exact hg)] at h
    unfold appendGeneralizedTime at h
    rw [if_neg (by omega)] at h
    cases h
    rw [ht, fourDigits_eq y]
    simp

/-- C67: a time that is written (with an offset of whole minutes) is read back as the same instant on every machine, unless its year is
    before 1969 and its zone is not UTC. Partial: see `C67_utc_depends_on_local_zone`. -/
theorem C67_read_back_partial {generalized : Bool} {t : ZTime} {tag : Nat} {b : Bytes} (hc : RealCivil t.toCivil) (ho : t.off.natAbs < 90000)
    (hm : (60 : Int) ∣ t.off) (h : encodeTime generalized t = some (tag, b)) :
    (tag = 24 → goGenTime b = some (unixUtc t.toCivil - t.off)) ∧
    (tag = 23 → (t.off = 0 ∨ 1969 ≤ t.year) → ∀ te, goUtcTime te b = some (unixUtc t.toCivil - t.off)) := by
  obtain ⟨z, hz, h23, h24⟩ := C67_written_text hc ho h
  have e : zoneSeconds z = t.off := by rw [hz]; exact Int.mul_tdiv_cancel' hm
  refine ⟨fun ht => (goGenTime_iff b _).2 ⟨_, z, h24 ht, by rw [instant, e]⟩, fun ht hy te => ?_⟩
  have := C67_utc_instant_partial te (h23 ht) (by
    rcases hy with h0 | h
    · left
      cases z with
      | utc => rfl
      | num off =>
        have e : off = t.off := e
        obtain ⟨zs, _, _, _, _, hzt, _⟩ := h23 ht
        cases hzt <;> omega
    · exact .inr h)
  rw [this, instant, e]

/-! ## Examples -/

example : goUtcTime utcZone (b!"240229235959Z") = some 1709251199 := by decide +kernel
example : goUtcTime utcZone (b!"230229235959Z") = none := by decide +kernel
example : goUtcTime utcZone (b!"491231235959Z") = some 2524607999 ∧ goUtcTime utcZone (b!"500101000000Z") = some (-631152000) := by decide +kernel
example : goUtcTime utcZone (b!"2402292359-0130") = some 1709256540 := by decide +kernel
example : goUtcTime utcZone (b!"240229235959.5Z") = none ∧ goUtcTime utcZone (b!"240229235959+0000") = none := by decide +kernel
example : goGenTime (b!"20500101000000Z") = some 2524608000 ∧ goGenTime (b!"2050010100Z") = none := by decide +kernel
example : encodeTime false ⟨⟨2024, 2, 29, 23, 59, 59⟩, -5400⟩ = some (23, b!"240229235959-0130") := by decide +kernel
example : encodeTime false ⟨⟨2050, 1, 1, 0, 0, 0⟩, 0⟩ = some (24, b!"20500101000000Z") := by decide +kernel
example : RealCivil ⟨2024, 2, 29, 23, 59, 59⟩ := ⟨by decide, by decide, by decide, by decide, by decide⟩
/-- An instant computed from the specification alone. -/
example : instant ⟨2000, 3, 1, 0, 0, 0⟩ .utc = 951868800 := by
  rw [instant, ← civilUnix_eq ⟨by decide, by decide, by decide, by decide, by decide⟩]; decide +kernel

end Apk
