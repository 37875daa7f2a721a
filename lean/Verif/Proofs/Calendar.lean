import Verif.Model.Calendar
import Verif.Props.Time
/-! # The date of an instant -/
namespace Apk
open Spec

/-- The days of a year that starts in March: month and day, for the months of this year and those of the next one. -/
theorem yday_table : ∀ k : Fin 366,
    (k.1 < 306 → 3 ≤ (5 * k.1 + 461) / 153 ∧ (5 * k.1 + 461) / 153 ≤ 12 ∧
      k.1 + 59 = daysBefore.getD ((5 * k.1 + 461) / 153 - 1) 0 + (5 * k.1 + 461) % 153 / 5 ∧
      1 + (5 * k.1 + 461) % 153 / 5 ≤ monthLength 1 ((5 * k.1 + 461) / 153)) ∧
    (306 ≤ k.1 → 13 ≤ (5 * k.1 + 461) / 153 ∧ (5 * k.1 + 461) / 153 ≤ 14 ∧
      k.1 = 306 + daysBefore.getD ((5 * k.1 + 461) / 153 - 12 - 1) 0 + (5 * k.1 + 461) % 153 / 5 ∧
      (k.1 ≤ 364 → 1 + (5 * k.1 + 461) % 153 / 5 ≤ monthLength 1 ((5 * k.1 + 461) / 153 - 12)) ∧
      1 + (5 * k.1 + 461) % 153 / 5 ≤ monthLength 4 ((5 * k.1 + 461) / 153 - 12)) := by decide +kernel

theorem monthLength_of_leap {y m : Nat} (h : Leap y) : monthLength y m = monthLength 4 m := monthLength_congr ⟨fun _ => by decide, fun _ => h⟩

theorem monthLength_ge (y m : Nat) : monthLength 1 m ≤ monthLength y m := by
  unfold monthLength
  split <;> rename_i h
  · show 28 ≤ _
    by_cases hy : Leap y <;> simp [hy]
  · exact Nat.le_refl _

/-- The date of a day is a date, and its number is the day's. -/
theorem dateOfDay_spec (n : Int) : ∀ y m d, dateOfDay n = (y, m, d) → 0 ≤ y →
    1 ≤ m ∧ m ≤ 12 ∧ 1 ≤ d ∧ d ≤ monthLength y.toNat m ∧ (dayNumber y.toNat m d : Int) = n + 60 := by
  intro y m d h hy
  unfold dateOfDay at h
  simp only [Prod.mk.injEq] at h
  obtain ⟨e1, e2, e3⟩ := h
  generalize hC : (4 * n + 3) / 146097 = C at e1
  generalize hr : (4 * n + 3) % 146097 = r at e1 e2 e3
  generalize hq : r / 4 = q at e1 e2 e3
  generalize hcy : (4 * q + 3) / 1461 = cy at e1
  generalize hyd : (4 * q + 3) % 1461 / 4 = yd at e1 e2 e3
  have hn : n = 36524 * C + C / 4 + q := by omega
  have hq2 : q = 365 * cy + cy / 4 + yd := by omega
  have hq0 : 0 ≤ q ∧ q ≤ 36524 := by omega
  have hyd0 : 0 ≤ yd ∧ yd ≤ 365 := by omega
  have hcy0 : 0 ≤ cy ∧ cy ≤ 99 := by omega
  have hlast : yd = 365 → cy % 4 = 3 ∧ (cy = 99 → C % 4 = 3) := by
    intro h
    constructor
    · omega
    · intro h9
      have : q = 36524 := by omega
      omega
  obtain ⟨k, hk⟩ : ∃ k : Fin 366, (k.1 : Int) = yd := ⟨⟨yd.toNat, by omega⟩, by show ((yd.toNat : Nat) : Int) = yd; omega⟩
  have hk2 : yd.toNat = k.1 := by omega
  rw [hk2] at e1 e2 e3
  have T := yday_table k
  clear hC hr hq hcy hyd
  have hY : n = 365 * (100 * C + cy) + (100 * C + cy) / 4 - (100 * C + cy) / 100 + (100 * C + cy) / 400 + k.1 := by
    have a1 : (100 * C + cy) / 4 = 25 * C + cy / 4 := by omega
    have a2 : (100 * C + cy) / 100 = C := by omega
    have a3 : (100 * C + cy) / 400 = C / 4 := by omega
    omega
  by_cases hj : 306 ≤ k.1
  · simp only [if_pos hj] at e1 e2
    obtain ⟨t1, t2, t3, t4, t5⟩ := T.2 hj
    generalize (5 * k.1 + 461) / 153 = z at *
    generalize (5 * k.1 + 461) % 153 / 5 = w at *
    have hm : m = 1 ∨ m = 2 := by omega
    refine ⟨by omega, by omega, by omega, ?_, ?_⟩
    · rw [← e3, ← e2]
      by_cases hl : k.1 ≤ 364
      · exact Nat.le_trans (t4 hl) (monthLength_ge _ _)
      · have hL : Leap y.toNat := by
          obtain ⟨g1, g2⟩ := hlast (by omega)
          unfold Leap
          constructor
          · omega
          · intro h100
            omega
        rw [monthLength_of_leap hL]
        exact t5
    · unfold dayNumber
      have hl : ¬ (isLeap y.toNat = true ∧ 3 ≤ m) := by omega
      rw [if_neg hl]
      have e2' : z - 12 - 1 = m - 1 := by omega
      rw [e2'] at t3
      generalize daysBefore.getD (m - 1) 0 = db at *
      obtain ⟨Y, hYe⟩ : ∃ Y : Nat, y = (Y : Int) := ⟨y.toNat, by omega⟩
      subst hYe
      have hYn : ((Y : Int)).toNat = Y := by omega
      rw [hYn]
      have hCY : 100 * C + cy = (Y : Int) - 1 := by omega
      rw [hCY] at hY
      have b1 : (((Y : Int) - 1) / 4) + 1 = (((Y + 3) / 4 : Nat) : Int) := by omega
      have b2 : (((Y : Int) - 1) / 100) + 1 = (((Y + 99) / 100 : Nat) : Int) := by omega
      have b3 : (((Y : Int) - 1) / 400) + 1 = (((Y + 399) / 400 : Nat) : Int) := by omega
      have b4 : (Y + 99) / 100 ≤ 365 * Y + (Y + 3) / 4 := by omega
      clear hCY hlast hn hq2 hq0 hcy0 hyd0 t4 t5
      generalize (Y + 3) / 4 = p1 at *
      generalize (Y + 99) / 100 = p2 at *
      generalize (Y + 399) / 400 = p3 at *
      generalize ((Y : Int) - 1) / 4 = i1 at *
      generalize ((Y : Int) - 1) / 100 = i2 at *
      generalize ((Y : Int) - 1) / 400 = i3 at *
      omega
  · simp only [if_neg hj] at e1 e2
    obtain ⟨t1, t2, t3, t4⟩ := T.1 (by omega)
    generalize (5 * k.1 + 461) / 153 = z at *
    generalize (5 * k.1 + 461) % 153 / 5 = w at *
    subst e2
    refine ⟨by omega, by omega, by omega, ?_, ?_⟩
    · rw [← e3]; exact Nat.le_trans t4 (monthLength_ge _ _)
    · unfold dayNumber
      generalize daysBefore.getD (z - 1) 0 = db at *
      obtain ⟨Y, hYe⟩ : ∃ Y : Nat, y = (Y : Int) := ⟨y.toNat, by omega⟩
      subst hYe
      have hYn : ((Y : Int)).toNat = Y := by omega
      rw [hYn]
      have hCY : 100 * C + cy = (Y : Int) := by omega
      rw [hCY] at hY
      have b4 : (Y + 99) / 100 ≤ 365 * Y + (Y + 3) / 4 := by omega
      have b1 : ((Y : Int) / 4) + (if 4 ∣ Y then 0 else 1) = (((Y + 3) / 4 : Nat) : Int) := by split <;> omega
      have b2 : ((Y : Int) / 100) + (if 100 ∣ Y then 0 else 1) = (((Y + 99) / 100 : Nat) : Int) := by split <;> omega
      have b3 : ((Y : Int) / 400) + (if 400 ∣ Y then 0 else 1) = (((Y + 399) / 400 : Nat) : Int) := by split <;> omega
      have k1 : 100 ∣ Y → 4 ∣ Y := fun h => by omega
      have k2 : 400 ∣ Y → 100 ∣ Y := fun h => by omega
      have hz3 : 3 ≤ z := t1
      have hL := leap_iff Y
      unfold Leap at hL
      clear hCY hlast hn hq2 hq0 hcy0 hyd0 t4
      generalize (Y + 3) / 4 = p1 at *
      generalize (Y + 99) / 100 = p2 at *
      generalize (Y + 399) / 400 = p3 at *
      generalize (Y : Int) / 4 = i1 at *
      generalize (Y : Int) / 100 = i2 at *
      generalize (Y : Int) / 400 = i3 at *
      by_cases h4 : 4 ∣ Y
      · by_cases h100 : 100 ∣ Y
        · by_cases h400 : 400 ∣ Y
          · rw [if_pos ⟨hL.2 ⟨h4, fun _ => h400⟩, hz3⟩]
            simp only [if_pos h4, if_pos h100, if_pos h400] at b1 b2 b3
            omega
          · rw [if_neg (fun h => h400 ((hL.1 h.1).2 h100))]
            simp only [if_pos h4, if_pos h100, if_neg h400] at b1 b2 b3
            omega
        · rw [if_pos ⟨hL.2 ⟨h4, fun h => absurd h h100⟩, hz3⟩]
          simp only [if_pos h4, if_neg h100, if_neg (fun h => h100 (k2 h))] at b1 b2 b3
          omega
      · rw [if_neg (fun h => h4 (hL.1 h.1).1)]
        have h100 : ¬ 100 ∣ Y := fun h => h4 (k1 h)
        simp only [if_neg h4, if_neg h100, if_neg (fun h => h100 (k2 h))] at b1 b2 b3
        omega

/-- The fields of an instant are a date and time of day, of this instant. -/
theorem civilAt_spec {t off : Int} {c : Civil} (h : civilAt t off = some c) : RealCivil c ∧ unixUtc c = t + off := by
  unfold civilAt fieldsAt at h
  rcases hd : dateOfDay ((t + off) / 86400 + 719468) with ⟨y, m, d⟩
  simp only [hd] at h
  split at h
  · cases h
  rename_i hy
  have h := Option.some.inj h
  obtain ⟨a1, a2, a3, a4, a5⟩ := dateOfDay_spec _ _ _ _ hd (by omega)
  have hr : RealCivil c := by
    subst h
    exact ⟨⟨a1, a2⟩, ⟨a3, a4⟩, by simp only; omega, by simp only; omega, by simp only; omega⟩
  refine ⟨hr, ?_⟩
  rw [← civilUnix_eq hr]
  subst h
  unfold civilUnix
  simp only
  rw [a5]
  omega

/-- From January 1, year 0 on, the year is not negative. -/
theorem dateOfDay_year {n : Int} (h : -60 ≤ n) : 0 ≤ (dateOfDay n).1 := by
  unfold dateOfDay
  simp only
  generalize hC : (4 * n + 3) / 146097 = C
  generalize hr : (4 * n + 3) % 146097 = r
  generalize hq : r / 4 = q
  generalize hcy : (4 * q + 3) / 1461 = cy
  generalize hyd : (4 * q + 3) % 1461 / 4 = yd
  have hn : n = 36524 * C + C / 4 + q := by omega
  have hq2 : q = 365 * cy + cy / 4 + yd := by omega
  have hyd0 : 0 ≤ yd ∧ yd ≤ 365 := by omega
  have hcy0 : 0 ≤ cy ∧ cy ≤ 99 := by omega
  clear hC hr hq hcy hyd
  split <;> omega

theorem dayNumber_epoch : dayNumber 1970 1 1 = 719528 := by decide

/-- Every date and time of day is the one of its instant. -/
theorem civilAt_of {c : Civil} (hc : RealCivil c) (off : Int) : civilAt (unixUtc c - off) off = some c := by
  have h0 : -719528 * 86400 ≤ unixUtc c := by
    rw [← civilUnix_eq hc]; unfold civilUnix; omega
  rcases hd : dateOfDay ((unixUtc c - off + off) / 86400 + 719468) with ⟨y, m, d⟩
  have hy : 0 ≤ y := by
    have := dateOfDay_year (n := (unixUtc c - off + off) / 86400 + 719468) (by omega)
    rw [hd] at this; exact this
  cases h : civilAt (unixUtc c - off) off with
  | none =>
    unfold civilAt fieldsAt at h
    simp only [hd] at h
    rw [if_neg (by omega)] at h
    cases h
  | some c' =>
    obtain ⟨h1, h2⟩ := civilAt_spec h
    exact congrArg some (C67_instants_told_apart h1 hc (by unfold instant; show unixUtc c' - 0 = unixUtc c - 0; omega))

end Apk
