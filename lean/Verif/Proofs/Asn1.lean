import Verif.Spec.Asn1
import Verif.Proofs.Ber
import Verif.Proofs.Base
/-! # Lemmas about DER primitives -/
namespace Apk

theorem u8_toNat_ofNat (n : Nat) : (UInt8.ofNat n).toNat = n % 256 := by simp [UInt8.toNat_ofNat']

/-! ## Integers -/

theorem checkInteger_ok (b : Bytes) : checkInteger b = .ok () ↔ MinimalInt b := by
  match b with
  | [] => simp [checkInteger, MinimalInt]
  | [x] => simp [checkInteger, MinimalInt]
  | x :: y :: r =>
    simp only [checkInteger, MinimalInt]
    constructor
    · intro h
      split at h
      · simp at h
      · rename_i hc
        refine ⟨by simp, fun x' y' r' he => ?_⟩
        simp only [List.cons.injEq] at he
        obtain ⟨rfl, rfl, rfl⟩ := he
        exact ⟨fun hh => hc (.inl hh), fun hh => hc (.inr hh)⟩
    · intro ⟨_, h⟩
      have := h x y r rfl
      rw [if_neg]
      rintro (hh | hh)
      · exact this.1 hh
      · exact this.2 hh

theorem setBytes_aux (b : Bytes) (acc : Nat) :
    b.foldl (fun acc x => acc * 256 + x.toNat) acc = acc * 256 ^ b.length + beNat b := by
  induction b generalizing acc with
  | nil => simp [beNat]
  | cons x xs ih =>
    rw [List.foldl_cons, ih, beNat, List.length_cons, Nat.pow_succ, Nat.add_mul, Nat.mul_assoc, Nat.mul_comm 256]
    omega

theorem setBytes_eq (b : Bytes) : setBytes b = beNat b := by
  unfold setBytes
  rw [setBytes_aux]; omega

theorem accum_eq (b : Bytes) (acc k : Nat) (h : b.length + k ≤ 8) (ha : acc < 256 ^ k) :
    accum acc b = acc * 256 ^ b.length + beNat b := by
  induction b generalizing acc k with
  | nil => simp [accum, beNat]
  | cons x xs ih =>
    have hx := x.toNat_lt
    simp only [List.length_cons] at h
    have hlt : acc * 256 + x.toNat < 256 ^ (k + 1) := by rw [Nat.pow_succ]; omega
    have h64 : (256 : Nat) ^ (k + 1) ≤ 256 ^ 8 := Nat.pow_le_pow_right (by omega) (by omega)
    have hm : (acc * 256 + x.toNat) % 2 ^ 64 = acc * 256 + x.toNat := Nat.mod_eq_of_lt (by omega)
    rw [accum, hm, ih _ (k + 1) (by omega) hlt, beNat, List.length_cons, Nat.pow_succ, Nat.add_mul, Nat.mul_assoc,
      Nat.mul_comm 256]
    omega

theorem beNat_top {x : UInt8} {xs : Bytes} :
    (x.toNat < 128 → beNat (x :: xs) < 128 * 256 ^ xs.length) ∧
    (128 ≤ x.toNat → 128 * 256 ^ xs.length ≤ beNat (x :: xs)) := by
  have h1 := beNat_lt xs
  simp only [beNat]
  constructor
  · intro hx
    have : x.toNat * 256 ^ xs.length ≤ 127 * 256 ^ xs.length := Nat.mul_le_mul_right _ (by omega)
    omega
  · intro hx
    have : 128 * 256 ^ xs.length ≤ x.toNat * 256 ^ xs.length := Nat.mul_le_mul_right _ hx
    omega

/-- The shift-up-shift-down trick computes the two's complement value. -/
theorem signExtend {n v : Nat} (h1 : 1 ≤ n) (h8 : n ≤ 8) (hv : v < 256 ^ n) :
    toI64 (v * 2 ^ (64 - n * 8)) / 2 ^ (64 - n * 8) =
      if v < 128 * 256 ^ (n - 1) then (v : Int) else v - 256 ^ n := by
  have hn : n = 1 ∨ n = 2 ∨ n = 3 ∨ n = 4 ∨ n = 5 ∨ n = 6 ∨ n = 7 ∨ n = 8 := by omega
  unfold toI64
  rcases hn with rfl | rfl | rfl | rfl | rfl | rfl | rfl | rfl <;>
    (simp only [Nat.reduceMul, Nat.reduceSub, Nat.reducePow, Int.reducePow] at *; split <;> split <;> omega)

theorem twos_cons (x : UInt8) (xs : Bytes) :
    twos (x :: xs) = if beNat (x :: xs) < 128 * 256 ^ xs.length then (beNat (x :: xs) : Int)
      else beNat (x :: xs) - 256 ^ (xs.length + 1) := by
  have ht := @beNat_top x xs
  simp only [twos]
  by_cases hx : x.toNat < 128
  · rw [if_pos hx, if_pos (ht.1 hx)]
  · rw [if_neg hx, if_neg (by have := ht.2 (by omega); omega)]

theorem parseInt64_iff (b : Bytes) (i : Int) : parseInt64 b = .ok i ↔ MinimalInt b ∧ b.length ≤ 8 ∧ twos b = i := by
  unfold parseInt64
  cases hc : checkInteger b with
  | error e =>
    have : ¬ MinimalInt b := fun hm => by rw [(checkInteger_ok b).2 hm] at hc; simp at hc
    simp [this]
  | ok u =>
    have hm : MinimalInt b := (checkInteger_ok b).1 (by cases u; exact hc)
    simp only [hm, true_and]
    by_cases hl : 8 < b.length
    · rw [if_pos hl]; simp; omega
    · rw [if_neg hl]
      have : b.length ≤ 8 := by omega
      simp only [this, true_and, Except.ok.injEq]
      cases b with
      | nil => exact absurd rfl hm.1
      | cons x xs =>
        rw [accum_eq (x :: xs) 0 0 (by omega) (by simp), Nat.zero_mul, Nat.zero_add,
          signExtend (by simp) this (beNat_lt _), twos_cons]
        simp only [List.length_cons, Nat.add_sub_cancel]

theorem beNat_not (b : Bytes) : beNat (b.map (fun y => 255 - y)) + beNat b + 1 = 256 ^ b.length := by
  induction b with
  | nil => simp [beNat]
  | cons x xs ih =>
    have hx := x.toNat_lt
    have e : (255 - x : UInt8).toNat = 255 - x.toNat := by
      rw [UInt8.toNat_sub_of_le]
      · rfl
      · exact UInt8.le_iff_toNat_le.2 (by show x.toNat ≤ 255; omega)
    simp only [List.map_cons, beNat, List.length_map, List.length_cons, e, Nat.pow_succ]
    rw [Nat.sub_mul]
    have : x.toNat * 256 ^ xs.length ≤ 255 * 256 ^ xs.length := Nat.mul_le_mul_right _ (by omega)
    omega

theorem not_toNat (x : UInt8) : (255 - x : UInt8).toNat = 255 - x.toNat := by
  have hx := x.toNat_lt
  rw [UInt8.toNat_sub_of_le]
  · rfl
  · exact UInt8.le_iff_toNat_le.2 (by show x.toNat ≤ 255; omega)

theorem natCast_pow256 (n : Nat) : ((256 ^ n : Nat) : Int) = 256 ^ n := by rw [Int.natCast_pow]; rfl

theorem parseBigInt_iff (b : Bytes) (i : Int) : parseBigInt b = .ok i ↔ MinimalInt b ∧ twos b = i := by
  unfold parseBigInt
  cases hc : checkInteger b with
  | error e =>
    have : ¬ MinimalInt b := fun hm => by rw [(checkInteger_ok b).2 hm] at hc; simp at hc
    simp [this]
  | ok u =>
    have hm : MinimalInt b := (checkInteger_ok b).1 (by cases u; exact hc)
    simp only [hm, true_and]
    cases b with
    | nil => exact absurd rfl hm.1
    | cons x xs =>
      simp only [setBytes_eq]
      by_cases hx : 128 ≤ x.toNat
      · rw [if_pos hx, twos, if_neg (by omega)]
        have := beNat_not (x :: xs)
        simp only [List.length_cons] at this
        have e := natCast_pow256 (xs.length + 1)
        simp only [Except.ok.injEq]
        rw [← e]
        omega
      · rw [if_neg hx, twos, if_pos (by omega)]
        simp

/-- Bounds of a minimally encoded integer. -/
theorem minimal_bounds {b : Bytes} (hm : MinimalInt b) :
    -(128 * 256 ^ (b.length - 1) : Int) ≤ twos b ∧ twos b < 128 * 256 ^ (b.length - 1) ∧
    (2 ≤ b.length → 128 * 256 ^ (b.length - 2) ≤ twos b ∨ twos b < -(128 * 256 ^ (b.length - 2) : Int)) := by
  cases b with
  | nil => exact absurd rfl hm.1
  | cons x xs =>
    have e := natCast_pow256 xs.length
    have ht := @beNat_top x xs
    have hl := beNat_lt (x :: xs)
    simp only [List.length_cons, Nat.pow_succ] at hl
    simp only [List.length_cons, Nat.add_sub_cancel, twos, Int.pow_succ]
    rw [← e]
    refine ⟨?_, ?_, ?_⟩
    · split
      · omega
      · have := ht.2 (by omega); omega
    · split
      · have := ht.1 (by omega); omega
      · omega
    · intro h2
      cases xs with
      | nil => simp at h2
      | cons y ys =>
        have hmin := hm.2 x y ys rfl
        have hy := y.toNat_lt
        have hx := x.toNat_lt
        have hlt := beNat_lt ys
        have e2 := natCast_pow256 ys.length
        have e3 : (ys.length + 1 + 1 - 2) = ys.length := by omega
        have e4 : (256 : Nat) ^ (ys.length + 1) = 256 ^ ys.length * 256 := Nat.pow_succ ..
        simp only [List.length_cons, e3]
        rw [← e2]
        simp only [beNat, List.length_cons, e4]
        by_cases hxs : x.toNat < 128
        · rw [if_pos hxs]
          left
          by_cases hx0 : x.toNat = 0
          · have : 128 * 256 ^ ys.length ≤ y.toNat * 256 ^ ys.length :=
              Nat.mul_le_mul_right _ (by have := hmin.1; omega)
            rw [hx0]; omega
          · have : 1 * (256 ^ ys.length * 256) ≤ x.toNat * (256 ^ ys.length * 256) := Nat.mul_le_mul_right _ (by omega)
            omega
        · rw [if_neg hxs]
          right
          by_cases hxf : x.toNat = 255
          · have : y.toNat * 256 ^ ys.length ≤ 127 * 256 ^ ys.length :=
              Nat.mul_le_mul_right _ (by have := hmin.2; omega)
            rw [hxf]; omega
          · have h3 : x.toNat * (256 ^ ys.length * 256) ≤ 254 * (256 ^ ys.length * 256) :=
              Nat.mul_le_mul_right _ (by omega)
            have h4 : y.toNat * 256 ^ ys.length ≤ 255 * 256 ^ ys.length := Nat.mul_le_mul_right _ (by omega)
            have hp : 0 < 256 ^ ys.length := Nat.pow_pos (by omega)
            omega

theorem twos_inj_len {b b' : Bytes} (hl : b.length = b'.length) (h : twos b = twos b') : b = b' := by
  cases b with
  | nil => cases b' <;> simp_all
  | cons x xs =>
    cases b' with
    | nil => simp at hl
    | cons y ys =>
      have hl' : xs.length = ys.length := by simpa using hl
      have h1 := beNat_lt (x :: xs)
      have h2 := beNat_lt (y :: ys)
      rw [hl] at h1
      simp only [twos, hl'] at h
      have e := natCast_pow256 (ys.length + 1)
      rw [← e] at h
      simp only [List.length_cons] at h1 h2
      refine beNat_inj hl ?_
      split at h <;> split at h <;> omega

/-- Minimal encodings are unique. -/
theorem twos_inj {b b' : Bytes} (hm : MinimalInt b) (hm' : MinimalInt b') (h : twos b = twos b') : b = b' := by
  have key : ∀ {b b' : Bytes}, MinimalInt b → MinimalInt b' → twos b = twos b' → ¬ b.length < b'.length := by
    intro b b' hm hm' h hlt
    have h1 := minimal_bounds hm
    have h2 := minimal_bounds hm'
    have hb : 1 ≤ b.length := by
      cases b with
      | nil => exact absurd rfl hm.1
      | cons => simp
    have h3 := h2.2.2 (by omega)
    have hp : 256 ^ (b.length - 1) ≤ 256 ^ (b'.length - 2) := Nat.pow_le_pow_right (by omega) (by omega)
    have e1 := natCast_pow256 (b.length - 1)
    have e2 := natCast_pow256 (b'.length - 2)
    rw [← e1, h] at h1
    rw [← e2] at h3
    omega
  have k1 := key hm hm' h
  have k2 := key hm' hm h.symm
  exact twos_inj_len (by omega) h

theorem int64Bytes_length (i : Int) (n : Nat) : (int64Bytes i n).length = n := by
  induction n with
  | zero => rfl
  | succ n ih => simp [int64Bytes, ih]

theorem beNat_int64Bytes (i : Int) (n : Nat) : (beNat (int64Bytes i n) : Int) = i % 256 ^ n := by
  induction n with
  | zero => simp [int64Bytes, beNat, Int.emod_one]
  | succ n ih =>
    have hd : (((UInt8.ofNat ((i / 256 ^ n) % 256).toNat).toNat : Nat) : Int) = i / 256 ^ n % 256 := by
      rw [u8_toNat_ofNat]; omega
    have e := natCast_pow256 n
    rw [int64Bytes, beNat, int64Bytes_length, Int.natCast_add, Int.natCast_mul, e, ih, hd, Int.pow_succ]
    have hp : (0 : Int) < 256 ^ n := by rw [← e]; exact_mod_cast Nat.pow_pos (by omega : 0 < 256)
    have := Int.emod_emod_of_dvd i (Int.dvd_mul_right (256 ^ n : Int) 256)
    have h1 := Int.mul_ediv_add_emod i (256 ^ n)
    have h2 := Int.mul_ediv_add_emod (i / 256 ^ n) 256
    have h3 := Int.mul_ediv_add_emod i (256 ^ n * 256)
    have h4 : i / (256 ^ n * 256) = i / 256 ^ n / 256 := (Int.ediv_ediv_of_nonneg (Int.le_of_lt hp)).symm
    rw [h4] at h3
    generalize i / 256 ^ n / 256 = q at *
    generalize i / 256 ^ n = a at *
    have h5 : (256 : Int) ^ n * a = 256 ^ n * (256 * q) + 256 ^ n * (a % 256) := by rw [← Int.mul_add, h2]
    have h6 : (256 : Int) ^ n * 256 * q = 256 ^ n * (256 * q) := Int.mul_assoc _ _ _
    rw [Int.mul_comm (a % 256)]
    omega

/-- The `n` low bytes of a number in range are its two's complement form. -/
theorem twos_int64Bytes {i : Int} {n : Nat} (hn : 1 ≤ n) (h1 : -(128 * 256 ^ (n - 1) : Int) ≤ i)
    (h2 : i < 128 * 256 ^ (n - 1)) : twos (int64Bytes i n) = i := by
  obtain ⟨m, rfl⟩ : ∃ m, n = m + 1 := ⟨n - 1, by omega⟩
  simp only [Nat.add_sub_cancel] at h1 h2
  have hb := beNat_int64Bytes i (m + 1)
  rw [int64Bytes] at hb ⊢
  rw [twos_cons, int64Bytes_length, hb]
  have e := natCast_pow256 m
  have hp : (0 : Int) < 256 ^ m := by rw [← e]; exact_mod_cast Nat.pow_pos (by omega : 0 < 256)
  have hpow : (256 : Int) ^ (m + 1) = 256 ^ m * 256 := Int.pow_succ ..
  have hmod : i % 256 ^ (m + 1) = if 0 ≤ i then i else i + 256 ^ (m + 1) := by
    split
    · exact Int.emod_eq_of_lt (by omega) (by omega)
    · rw [← Int.add_emod_right]
      exact Int.emod_eq_of_lt (by omega) (by omega)
  have hcond : (beNat (UInt8.ofNat (i / 256 ^ m % 256).toNat :: int64Bytes i m) < 128 * 256 ^ m) ↔ 0 ≤ i := by
    have : ((beNat (UInt8.ofNat (i / 256 ^ m % 256).toNat :: int64Bytes i m) : Int) < 128 * 256 ^ m) ↔ 0 ≤ i := by
      rw [hb, hmod]
      split <;> constructor <;> intro _ <;> omega
    rw [← this, ← e]
    omega
  rw [hmod]
  by_cases hi : 0 ≤ i
  · rw [if_pos (hcond.2 hi), if_pos hi]
  · rw [if_neg (fun h => hi (hcond.1 h)), if_neg hi]; omega

theorem int64LenAux_spec (fuel : Nat) (i : Int) (h1 : -(128 * 256 ^ fuel : Int) ≤ i) (h2 : i < 128 * 256 ^ fuel) :
    1 ≤ int64LenAux fuel i ∧ int64LenAux fuel i ≤ fuel + 1 ∧
    -(128 * 256 ^ (int64LenAux fuel i - 1) : Int) ≤ i ∧ i < 128 * 256 ^ (int64LenAux fuel i - 1) ∧
    (2 ≤ int64LenAux fuel i → 128 * 256 ^ (int64LenAux fuel i - 2) ≤ i ∨ i < -(128 * 256 ^ (int64LenAux fuel i - 2) : Int)) := by
  induction fuel generalizing i with
  | zero => simp only [int64LenAux]; simp at h1 h2 ⊢; omega
  | succ fuel ih =>
    rw [Int.pow_succ] at h1 h2
    unfold int64LenAux
    split
    · rename_i hc
      have ⟨a1, a2, a3, a4, a5⟩ := ih (i / 256) (by omega) (by omega)
      generalize int64LenAux fuel (i / 256) = L at *
      obtain ⟨m, rfl⟩ : ∃ m, L = m + 1 := ⟨L - 1, by omega⟩
      have e1 : m + 1 + 1 - 2 = m := by omega
      have e2 : m + 1 - 2 = m - 1 := by omega
      simp only [Nat.add_sub_cancel, e1, e2] at *
      rw [Int.pow_succ]
      refine ⟨by omega, by omega, by omega, by omega, fun _ => ?_⟩
      by_cases hm : m = 0
      · subst hm; simp; omega
      · have := a5 (by omega)
        obtain ⟨k, rfl⟩ : ∃ k, m = k + 1 := ⟨m - 1, by omega⟩
        simp only [Nat.add_sub_cancel] at this
        rw [Int.pow_succ]
        omega
    · simp; omega

/-- A string of the right length for its value is minimal. -/
theorem minimal_of_bounds {b : Bytes} (hne : b ≠ [])
    (h : 2 ≤ b.length → 128 * 256 ^ (b.length - 2) ≤ twos b ∨ twos b < -(128 * 256 ^ (b.length - 2) : Int)) : MinimalInt b := by
  refine ⟨hne, ?_⟩
  rintro x y r rfl
  have h := h (by simp)
  have hy := y.toNat_lt
  have hlt := beNat_lt r
  have e3 : (r.length + 1 + 1 - 2) = r.length := by omega
  have e2 := natCast_pow256 r.length
  have e4 : (256 : Nat) ^ (r.length + 1) = 256 ^ r.length * 256 := Nat.pow_succ ..
  have e5 : (256 : Int) ^ (r.length + 1) = 256 ^ r.length * 256 := Int.pow_succ ..
  have e6 : (256 : Int) ^ (r.length + 1 + 1) = 256 ^ (r.length + 1) * 256 := Int.pow_succ ..
  simp only [twos, List.length_cons, e3, e6, e5, beNat, e4] at h
  rw [← e2] at h
  constructor
  · rintro ⟨hx, hy2⟩
    rw [if_pos (by omega), hx] at h
    have : y.toNat * 256 ^ r.length ≤ 127 * 256 ^ r.length := Nat.mul_le_mul_right _ (by omega)
    omega
  · rintro ⟨hx, hy2⟩
    rw [if_neg (by omega), hx] at h
    have : 128 * 256 ^ r.length ≤ y.toNat * 256 ^ r.length := Nat.mul_le_mul_right _ (by omega)
    have : y.toNat * 256 ^ r.length ≤ 255 * 256 ^ r.length := Nat.mul_le_mul_right _ (by omega)
    omega

theorem encodeInt64_spec {i : Int} (h : IsInt64 i) :
    MinimalInt (encodeInt64 i) ∧ (encodeInt64 i).length ≤ 8 ∧ twos (encodeInt64 i) = i := by
  obtain ⟨h1, h2⟩ := h
  have ⟨a1, a2, a3, a4, a5⟩ := int64LenAux_spec 7 i (by omega) (by omega)
  have e87 : int64LenAux 8 i = int64LenAux 7 i := by
    have key : ∀ (f : Nat) (j : Int), -(128 * 256 ^ f : Int) ≤ j → j < 128 * 256 ^ f →
        int64LenAux (f + 1) j = int64LenAux f j := by
      intro f
      induction f with
      | zero =>
        intro j h1 h2
        have hj : ¬ (127 < j ∨ j < -128) := by simp at h1 h2; omega
        simp only [int64LenAux, hj, if_false]
      | succ f ih =>
        intro j h1 h2
        rw [Int.pow_succ] at h1 h2
        have hi := ih (j / 256) (by omega) (by omega)
        rw [int64LenAux, hi, int64LenAux]
    exact key 7 i (by omega) (by omega)
  have ht : twos (encodeInt64 i) = i := by
    unfold encodeInt64 int64Len
    rw [e87]
    exact twos_int64Bytes a1 a3 a4
  have hl : (encodeInt64 i).length = int64LenAux 7 i := by
    unfold encodeInt64 int64Len
    rw [int64Bytes_length, e87]
  refine ⟨minimal_of_bounds ?_ ?_, by omega, ht⟩
  · intro hn
    rw [hn] at hl
    simp at hl; omega
  · rw [hl, ht]; exact a5

theorem natBytes_spec {n : Nat} (hn : 1 ≤ n) :
    ∃ d ds, natBytes n = d :: ds ∧ d.toNat ≠ 0 ∧ beNat (d :: ds) = n := by
  have ⟨h2, h3, h4⟩ := lengthLength_spec n
  unfold natBytes
  rw [if_neg (by omega)]
  generalize hL : lengthLength n = L at *
  cases L with
  | zero => omega
  | succ m =>
    refine ⟨UInt8.ofNat (n / 256 ^ m), longLength n m, rfl, ?_, ?_⟩
    · simp only [Nat.add_sub_cancel] at h4
      have h5 : 1 ≤ n / 256 ^ m := (Nat.le_div_iff_mul_le (Nat.pow_pos (by omega))).2 (by simpa using h4 hn)
      have h6 : n / 256 ^ m < 256 := by
        rw [Nat.div_lt_iff_lt_mul (Nat.pow_pos (by omega)), Nat.mul_comm, ← Nat.pow_succ]; exact h3
      rw [u8_toNat_ofNat]
      omega
    · have := beNat_longLength n (m + 1)
      rw [Nat.mod_eq_of_lt h3] at this
      exact this

theorem encodeBigInt_spec (n : Int) : MinimalInt (encodeBigInt n) ∧ twos (encodeBigInt n) = n := by
  unfold encodeBigInt
  by_cases hneg : n < 0
  · rw [if_pos hneg]
    obtain ⟨m, hm⟩ : ∃ m : Nat, (-n - 1) = m := ⟨(-n - 1).toNat, by omega⟩
    rw [hm]
    simp only [Int.toNat_natCast]
    by_cases h0 : m = 0
    · subst h0
      have : n = -1 := by omega
      subst this
      refine ⟨⟨by simp [natBytes], ?_⟩, by decide⟩
      intro x y r h; simp [natBytes] at h
    · obtain ⟨d, ds, he, hd, hb⟩ := natBytes_spec (n := m) (by omega)
      rw [he]
      have hnot := beNat_not (d :: ds)
      have hdl := d.toNat_lt
      simp only [List.map_cons, List.length_cons] at hnot ⊢
      have e := natCast_pow256 (ds.length + 1)
      rw [not_toNat]
      by_cases hx : 255 - d.toNat < 128
      · rw [if_pos hx]
        refine ⟨⟨by simp, ?_⟩, ?_⟩
        · rintro x y r h
          simp only [List.cons.injEq] at h
          obtain ⟨rfl, rfl, -⟩ := h
          rw [not_toNat]
          exact ⟨fun hh => absurd hh.1 (by decide), fun hh => by omega⟩
        · rw [twos, if_neg (by decide), beNat]
          simp only [List.length_cons, List.length_map]
          rw [Int.pow_succ, ← e]
          have : (255 : UInt8).toNat = 255 := rfl
          rw [this]
          omega
      · rw [if_neg hx]
        refine ⟨⟨by simp, ?_⟩, ?_⟩
        · rintro x y r h
          have h := (List.cons.inj h).1
          subst h
          rw [not_toNat]
          exact ⟨fun hh => by omega, fun hh => by omega⟩
        · rw [twos, not_toNat, if_neg hx]
          simp only [List.length_map]
          rw [← e]
          omega
  · rw [if_neg hneg]
    by_cases h0 : n = 0
    · rw [if_pos h0]; subst h0
      refine ⟨⟨by simp, ?_⟩, by decide⟩
      intro x y r h; simp at h
    · rw [if_neg h0]
      obtain ⟨m, rfl⟩ : ∃ m : Nat, n = m := ⟨n.toNat, by omega⟩
      obtain ⟨d, ds, he, hd, hb⟩ := natBytes_spec (n := m) (by omega)
      simp only [Int.toNat_natCast, he]
      by_cases hx : 128 ≤ d.toNat
      · rw [if_pos hx]
        refine ⟨⟨by simp, ?_⟩, ?_⟩
        · rintro x y r h
          simp only [List.cons.injEq] at h
          obtain ⟨rfl, rfl, -⟩ := h
          exact ⟨fun hh => by omega, fun hh => absurd hh.1 (by decide)⟩
        · rw [twos, if_pos (by decide), beNat, hb]
          simp
      · rw [if_neg hx]
        refine ⟨⟨by simp, ?_⟩, ?_⟩
        · rintro x y r h
          simp only [List.cons.injEq] at h
          obtain ⟨rfl, -, -⟩ := h
          exact ⟨fun hh => by omega, fun hh => by omega⟩
        · rw [twos, if_pos (by omega), hb]

/-! ## Base 128 -/

theorem base128Bytes_length (n l : Nat) : (base128Bytes n l).length = l := by
  induction l with
  | zero => rfl
  | succ l ih => simp [base128Bytes, ih]

theorem base128Bytes_spec (n l : Nat) : Base128 (n % 128 ^ (l + 1)) (base128Bytes n (l + 1)) := by
  induction l with
  | zero =>
    have : base128Bytes n 1 = [UInt8.ofNat (n % 128)] := by simp [base128Bytes]
    rw [this]
    have e : (UInt8.ofNat (n % 128)).toNat = n % 128 ^ (0 + 1) := by rw [u8_toNat_ofNat]; omega
    have := Base128.last (x := UInt8.ofNat (n % 128)) (by rw [e]; omega)
    rw [e] at this
    exact this
  | succ l ih =>
    rw [base128Bytes]
    have e : (UInt8.ofNat (n / 128 ^ (l + 1) % 128 + if l + 1 ≠ 0 then 128 else 0)).toNat = n / 128 ^ (l + 1) % 128 + 128 := by
      rw [u8_toNat_ofNat, if_pos (by omega)]; omega
    have h := Base128.more (x := UInt8.ofNat (n / 128 ^ (l + 1) % 128 + if l + 1 ≠ 0 then 128 else 0)) (by omega) ih
    rw [e, base128Bytes_length, Nat.add_sub_cancel, Nat.mul_comm, Nat.add_comm, ← Nat.mod_mul, ← Nat.pow_succ] at h
    exact h

theorem base128LenAux_spec (fuel n : Nat) (h : n ≤ fuel) (hn : 1 ≤ n) :
    1 ≤ base128LenAux fuel n ∧ n < 128 ^ base128LenAux fuel n ∧ 128 ^ (base128LenAux fuel n - 1) ≤ n := by
  induction fuel generalizing n with
  | zero => omega
  | succ fuel ih =>
    unfold base128LenAux
    rw [if_pos (by omega)]
    by_cases hq : n / 128 = 0
    · have : base128LenAux fuel (n / 128) = 0 := by
        rw [hq]; cases fuel <;> simp [base128LenAux]
      rw [this]
      simp; omega
    · have ⟨h1, h2, h3⟩ := ih (n / 128) (by omega) (by omega)
      generalize base128LenAux fuel (n / 128) = L at *
      obtain ⟨m, rfl⟩ : ∃ m, L = m + 1 := ⟨L - 1, by omega⟩
      simp only [Nat.add_sub_cancel, Nat.pow_succ] at *
      omega

theorem base128Len_spec (n : Nat) : 1 ≤ base128Len n ∧ n < 128 ^ base128Len n ∧ (1 ≤ n → 128 ^ (base128Len n - 1) ≤ n) := by
  unfold base128Len
  split
  · rename_i h; subst h; simp
  · have := base128LenAux_spec n n (Nat.le_refl _) (by omega)
    exact ⟨this.1, this.2.1, fun _ => this.2.2⟩

theorem base128Len_le {n : Nat} (h : n < 2 ^ 31) : base128Len n ≤ 5 := by
  refine Classical.byContradiction (fun hc => ?_)
  have ⟨_, _, h3⟩ := base128Len_spec n
  by_cases h0 : n = 0
  · subst h0; simp [base128Len] at hc
  · have h4 := h3 (by omega)
    have : (128 : Nat) ^ 5 ≤ 128 ^ (base128Len n - 1) := Nat.pow_le_pow_right (by omega) (by omega)
    omega

theorem encodeBase128_spec (n : Nat) : Base128 n (encodeBase128 n) := by
  have ⟨h1, h2, _⟩ := base128Len_spec n
  unfold encodeBase128
  obtain ⟨l, hl⟩ : ∃ l, base128Len n = l + 1 := ⟨base128Len n - 1, by omega⟩
  rw [hl] at h2 ⊢
  have := base128Bytes_spec n l
  rw [Nat.mod_eq_of_lt h2] at this
  exact this

theorem Base128.pos {n : Nat} {b : Bytes} (h : Base128 n b) : 1 ≤ b.length := by cases h <;> simp

theorem Base128.lt {n : Nat} {b : Bytes} (h : Base128 n b) : n < 128 ^ b.length := by
  induction h with
  | last h => simpa using h
  | @more x n b hx _ ih =>
    have := x.toNat_lt
    simp only [List.length_cons, Nat.pow_succ]
    have : (x.toNat - 128) * 128 ^ b.length ≤ 127 * 128 ^ b.length := Nat.mul_le_mul_right _ (by omega)
    omega

theorem parseBase128Aux_spec {n : Nat} {b : Bytes} (h : Base128 n b) (k acc : Nat) (rest : Bytes) (hk : b.length ≤ k) :
    parseBase128Aux k (b ++ rest) acc =
      if 2147483647 < acc * 128 ^ b.length + n then .error .base128TooLarge else .ok (acc * 128 ^ b.length + n, rest) := by
  induction h generalizing k acc with
  | @last x hx =>
    obtain ⟨k, rfl⟩ : ∃ k', k = k' + 1 := ⟨k - 1, by simp at hk; omega⟩
    have : x.toNat % 128 = x.toNat := by omega
    simp only [List.cons_append, List.nil_append, parseBase128Aux, this, List.length_cons, List.length_nil]
    rw [if_pos hx]
  | @more x n b hx hb ih =>
    obtain ⟨k, rfl⟩ : ∃ k', k = k' + 1 := ⟨k - 1, by simp at hk; omega⟩
    have hl := x.toNat_lt
    have : x.toNat % 128 = x.toNat - 128 := by omega
    simp only [List.cons_append, parseBase128Aux, this]
    rw [if_neg (by omega), ih k _ (by simp at hk; omega)]
    have e : (acc * 128 + (x.toNat - 128)) * 128 ^ b.length + n =
        acc * 128 ^ (x :: b).length + ((x.toNat - 128) * 128 ^ b.length + n) := by
      rw [List.length_cons, Nat.pow_succ, Nat.add_mul, Nat.mul_assoc, Nat.mul_comm 128]; omega
    rw [e]

theorem parseBase128_enc {n : Nat} (h : n < 2 ^ 31) (rest : Bytes) : parseBase128 (encodeBase128 n ++ rest) = .ok (n, rest) := by
  unfold parseBase128
  rw [parseBase128Aux_spec (encodeBase128_spec n) 5 0 rest
    (by unfold encodeBase128; rw [base128Bytes_length]; exact base128Len_le h), if_neg (by omega)]
  simp

theorem parseBase128Aux_sound {k : Nat} {b : Bytes} {acc v : Nat} {rest : Bytes}
    (h : parseBase128Aux k b acc = .ok (v, rest)) :
    ∃ n p, Base128 n p ∧ b = p ++ rest ∧ v = acc * 128 ^ p.length + n ∧ v < 2 ^ 31 ∧ p.length ≤ k := by
  induction k generalizing b acc with
  | zero => cases b <;> simp [parseBase128Aux] at h
  | succ k ih =>
    cases b with
    | nil => simp [parseBase128Aux] at h
    | cons x xs =>
      simp only [parseBase128Aux] at h
      split at h
      · rename_i hx
        split at h
        · simp at h
        · simp only [Except.ok.injEq, Prod.mk.injEq] at h
          obtain ⟨rfl, rfl⟩ := h
          exact ⟨x.toNat, [x], .last hx, rfl, by simp; omega, by omega, by simp⟩
      · rename_i hx
        obtain ⟨n, p, hp, rfl, hv, hlt, hk⟩ := ih h
        have hl := x.toNat_lt
        refine ⟨_, x :: p, .more (by omega) hp, rfl, ?_, hlt, by simp; omega⟩
        have : x.toNat % 128 = x.toNat - 128 := by omega
        rw [hv, this, List.length_cons, Nat.pow_succ, Nat.add_mul, Nat.mul_assoc, Nat.mul_comm 128]; omega

theorem parseBase128_sound {b : Bytes} {v : Nat} {rest : Bytes} (h : parseBase128 b = .ok (v, rest)) :
    ∃ p, Base128 v p ∧ b = p ++ rest ∧ v < 2 ^ 31 ∧ p.length ≤ 5 := by
  obtain ⟨n, p, hp, hb, hv, hlt, hk⟩ := parseBase128Aux_sound h
  have : v = n := by omega
  subst this
  exact ⟨p, hp, hb, hlt, hk⟩

/-! ## Object identifiers -/

theorem parseArcs_enc (arcs : List Nat) (h : ∀ n ∈ arcs, n < 2 ^ 31) (fuel cap : Nat)
    (hf : ((arcs.map encodeBase128).flatten).length ≤ fuel) (hc : arcs.length ≤ cap) :
    parseArcs fuel cap ((arcs.map encodeBase128).flatten) = .ok (.ok arcs) := by
  induction arcs generalizing fuel cap with
  | nil => cases fuel <;> simp [parseArcs]
  | cons n ns ih =>
    have hp := (encodeBase128_spec n).pos
    simp only [List.map_cons, List.flatten_cons, List.length_append, List.length_cons] at hf hc ⊢
    obtain ⟨fuel, rfl⟩ : ∃ f, fuel = f + 1 := ⟨fuel - 1, by omega⟩
    obtain ⟨cap, rfl⟩ : ∃ f, cap = f + 1 := ⟨cap - 1, by omega⟩
    rw [parseArcs, if_neg (by intro he; rw [List.append_eq_nil_iff] at he; rw [he.1] at hp; simp at hp),
      parseBase128_enc (h n (by simp))]
    simp only
    rw [ih (fun m hm => h m (by simp [hm])) fuel cap (by omega) (by omega)]

theorem arcs_length (arcs : List Nat) : arcs.length ≤ ((arcs.map encodeBase128).flatten).length := by
  induction arcs with
  | nil => simp
  | cons n ns ih =>
    have hp := (encodeBase128_spec n).pos
    simp only [List.map_cons, List.flatten_cons, List.length_append, List.length_cons] at *
    omega

theorem encodeOid_valid {oid : List Nat} (h : ValidOid oid) :
    ∃ b, encodeOid oid = .ok b ∧ parseOid b = .ok (.ok oid) := by
  match oid with
  | [] => exact h.elim
  | [_] => exact h.elim
  | a :: c :: arcs =>
    obtain ⟨h1, h2, h3, h4⟩ := h
    have hp := (encodeBase128_spec (a * 40 + c)).pos
    have hne : encodeBase128 (a * 40 + c) ++ (arcs.map encodeBase128).flatten ≠ [] := by
      intro he; rw [List.append_eq_nil_iff] at he; rw [he.1] at hp; simp at hp
    refine ⟨encodeBase128 (a * 40 + c) ++ (arcs.map encodeBase128).flatten, ?_, ?_⟩
    · rw [encodeOid, if_neg (by omega)]
    · rw [parseOid, if_neg hne, parseBase128_enc h3]
      simp only
      have hal := arcs_length arcs
      rw [parseArcs_enc arcs h4 _ _ (by simp only [List.length_append]; omega) (by simp only [List.length_append]; omega)]
      simp only
      split
      · have e1 : (a * 40 + c) / 40 = a := by omega
        have e2 : (a * 40 + c) % 40 = c := by omega
        rw [e1, e2]; rfl
      · have e1 : a = 2 := by omega
        subst e1
        have e2 : 2 * 40 + c - 80 = c := by omega
        rw [e2]; rfl

theorem parseArcs_sound (fuel cap : Nat) (b : Bytes) (hc : b.length ≤ cap) (hf : b.length ≤ fuel) :
    (∃ e, parseArcs fuel cap b = .ok (.error e)) ∨ ∃ vs, parseArcs fuel cap b = .ok (.ok vs) ∧ ∀ v ∈ vs, v < 2 ^ 31 := by
  induction fuel generalizing cap b with
  | zero => exact .inr ⟨[], rfl, by simp⟩
  | succ fuel ih =>
    rw [parseArcs]
    split
    · exact .inr ⟨[], rfl, by simp⟩
    · rename_i hb
      split
      · exact .inl ⟨_, rfl⟩
      · rename_i v rest hv
        obtain ⟨p, hp, rfl, hlt, _⟩ := parseBase128_sound hv
        have hpos := hp.pos
        simp only [List.length_append] at hc hf
        obtain ⟨cap, rfl⟩ : ∃ f, cap = f + 1 := ⟨cap - 1, by omega⟩
        simp only
        rcases ih cap rest (by omega) (by omega) with ⟨e, he⟩ | ⟨vs, hvs, hall⟩
        · rw [he]; exact .inl ⟨e, rfl⟩
        · rw [hvs]; exact .inr ⟨v :: vs, rfl, by simpa using ⟨hlt, hall⟩⟩

/-- Parsing never panics and yields encodable identifiers. -/
theorem parseOid_sound (b : Bytes) :
    (∃ e, parseOid b = .ok (.error e)) ∨ ∃ oid, parseOid b = .ok (.ok oid) ∧ ValidOid oid := by
  rw [parseOid]
  split
  · exact .inl ⟨_, rfl⟩
  · split
    · exact .inl ⟨_, rfl⟩
    · rename_i v rest hv
      obtain ⟨p, hp, rfl, hlt, _⟩ := parseBase128_sound hv
      have hpos := hp.pos
      rcases parseArcs_sound (p ++ rest).length ((p ++ rest).length + 1 - 2) rest (by simp only [List.length_append]; omega)
        (by simp only [List.length_append]; omega) with ⟨e, he⟩ | ⟨vs, hvs, hall⟩
      · rw [he]; exact .inl ⟨e, rfl⟩
      · rw [hvs]
        refine .inr ⟨_, rfl, ?_⟩
        split
        · exact ⟨by omega, by omega, by omega, hall⟩
        · exact ⟨by omega, by omega, by omega, hall⟩

/-! ## Tag and length -/

theorem parseLengthBytes_spec (ds rest : Bytes) (acc : Nat) (h : acc * 256 ^ ds.length + beNat ds < 2 ^ 31) :
    parseLengthBytes ds.length acc (ds ++ rest) = .ok (acc * 256 ^ ds.length + beNat ds, rest) := by
  induction ds generalizing acc with
  | nil => simp [parseLengthBytes, beNat]
  | cons d ds ih =>
    have e : (acc * 256 + d.toNat) * 256 ^ ds.length + beNat ds = acc * 256 ^ (d :: ds).length + beNat (d :: ds) := by
      rw [beNat, List.length_cons, Nat.pow_succ, Nat.add_mul, Nat.mul_assoc, Nat.mul_comm 256]; omega
    have hacc : acc < 2 ^ 23 := by
      rw [List.length_cons, Nat.pow_succ] at h
      have : acc * 256 * 1 ≤ acc * 256 * 256 ^ ds.length := Nat.mul_le_mul_left _ (Nat.pow_pos (by omega))
      have e2 : acc * 256 * 256 ^ ds.length = acc * (256 ^ ds.length * 256) := by
        rw [Nat.mul_assoc, Nat.mul_comm 256]
      omega
    simp only [List.length_cons, List.cons_append, parseLengthBytes]
    rw [if_neg (by omega), ih _ (by rw [e]; exact h), e, List.length_cons]

theorem parseDerLength_spec {n : Nat} (h : n < 2 ^ 31) (rest : Bytes) :
    parseDerLength (encodeLength n ++ rest) = .ok (n, rest) := by
  have hd := encodeLength_der (n := n) (by omega)
  rcases hd with ⟨h1, x, hx, he⟩ | ⟨h1, x, d, ds, hx, hd, hb, he⟩
  · rw [he]
    simp only [List.cons_append, List.nil_append, parseDerLength]
    rw [if_pos (by omega), hx]
  · rw [he]
    simp only [List.cons_append, parseDerLength]
    have hxl := x.toNat_lt
    have : x.toNat % 128 = (d :: ds).length := by omega
    rw [if_neg (by omega), this, if_neg (by simp), ← List.cons_append, parseLengthBytes_spec _ _ _ (by omega)]
    simp [hb]

theorem parseTagAndLength_enc {t : TagLen} (hc : t.cls < 4) (ht : t.tag < 2 ^ 31) (hl : t.length < 2 ^ 31) (rest : Bytes) :
    parseTagAndLength (encodeTagAndLength t ++ rest) = .ok (t, rest) := by
  unfold encodeTagAndLength
  have hcomp : (if t.isCompound = true then 32 else 0) = 0 ∧ t.isCompound = false ∨
      (if t.isCompound = true then 32 else 0) = 32 ∧ t.isCompound = true := by
    cases t.isCompound <;> simp
  dsimp only
  generalize (if t.isCompound = true then 32 else 0) = c at *
  by_cases h31 : 31 ≤ t.tag
  · rw [if_pos h31]
    have e : (UInt8.ofNat (t.cls % 4 * 64 + c + 31)).toNat = t.cls * 64 + c + 31 := by rw [u8_toNat_ofNat]; omega
    simp only [List.cons_append, List.append_assoc, parseTagAndLength, e]
    rw [if_pos (by omega), parseBase128_enc ht]
    simp only
    rw [parseDerLength_spec hl]
    simp only [Except.ok.injEq, Prod.mk.injEq, and_true]
    have e1 : (t.cls * 64 + c + 31) / 64 = t.cls := by omega
    have e2 : decide ((t.cls * 64 + c + 31) / 32 % 2 = 1) = t.isCompound := by
      rcases hcomp with ⟨rfl, h⟩ | ⟨rfl, h⟩ <;> rw [h] <;> simp <;> omega
    rw [e1, e2]
  · rw [if_neg h31]
    have e : (UInt8.ofNat (t.cls % 4 * 64 + c + t.tag)).toNat = t.cls * 64 + c + t.tag := by rw [u8_toNat_ofNat]; omega
    simp only [List.cons_append, List.nil_append, parseTagAndLength, e]
    rw [if_neg (by omega)]
    simp only
    rw [parseDerLength_spec hl]
    simp only [Except.ok.injEq, Prod.mk.injEq, and_true]
    have e0 : (t.cls * 64 + c + t.tag) % 32 = t.tag := by omega
    have e1 : (t.cls * 64 + c + t.tag) / 64 = t.cls := by omega
    have e2 : decide ((t.cls * 64 + c + t.tag) / 32 % 2 = 1) = t.isCompound := by
      rcases hcomp with ⟨rfl, h⟩ | ⟨rfl, h⟩ <;> rw [h] <;> simp <;> omega
    rw [e0, e1, e2]

theorem parseLengthBytes_sound {k acc : Nat} {b : Bytes} {n : Nat} {rest : Bytes} (ha : acc < 2 ^ 31)
    (h : parseLengthBytes k acc b = .ok (n, rest)) :
    n < 2 ^ 31 ∧ ∃ p, b = p ++ rest ∧ p.length = k ∧ n = acc * 256 ^ k + beNat p := by
  induction k generalizing acc b with
  | zero =>
    simp only [parseLengthBytes, Except.ok.injEq, Prod.mk.injEq] at h
    obtain ⟨rfl, rfl⟩ := h
    exact ⟨ha, [], rfl, rfl, by simp [beNat]⟩
  | succ k ih =>
    cases b with
    | nil => simp [parseLengthBytes] at h
    | cons x xs =>
      simp only [parseLengthBytes] at h
      split at h
      · simp at h
      · have hx := x.toNat_lt
        obtain ⟨h1, p, rfl, hp, hn⟩ := ih (by omega) h
        refine ⟨h1, x :: p, rfl, by simp [hp], ?_⟩
        rw [hn, beNat, hp, Nat.pow_succ, Nat.add_mul, Nat.mul_assoc, Nat.mul_comm 256]; omega

theorem parseDerLength_sound {b : Bytes} {n : Nat} {rest : Bytes} (h : parseDerLength b = .ok (n, rest)) :
    n < 2 ^ 31 ∧ ∃ x p, b = x :: (p ++ rest) ∧
      ((x.toNat < 128 ∧ p = [] ∧ n = x.toNat) ∨ (x.toNat = 128 + p.length ∧ p ≠ [] ∧ n = beNat p)) := by
  cases b with
  | nil => simp [parseDerLength] at h
  | cons x xs =>
    have hxl := x.toNat_lt
    simp only [parseDerLength] at h
    split at h
    · simp only [Except.ok.injEq, Prod.mk.injEq] at h
      obtain ⟨rfl, rfl⟩ := h
      exact ⟨by omega, x, [], rfl, .inl ⟨by assumption, rfl, rfl⟩⟩
    · split at h
      · simp at h
      · obtain ⟨h1, p, rfl, hp, hn⟩ := parseLengthBytes_sound (by omega) h
        refine ⟨h1, x, p, rfl, .inr ⟨by omega, ?_, by omega⟩⟩
        intro hpn; subst hpn; simp at hp; omega

theorem parseTagAndLength_sound {b : Bytes} {t : TagLen} {rest : Bytes} (h : parseTagAndLength b = .ok (t, rest)) :
    t.cls < 4 ∧ t.tag < 2 ^ 31 ∧ t.length < 2 ^ 31 ∧ ∃ hdr, b = hdr ++ rest ∧ 2 ≤ hdr.length := by
  cases b with
  | nil => simp [parseTagAndLength] at h
  | cons x xs =>
    have hxl := x.toNat_lt
    simp only [parseTagAndLength] at h
    split at h
    · simp at h
    · rename_i tag bs1 ht
      split at h
      · simp at h
      · rename_i n rest' hl
        simp only [Except.ok.injEq, Prod.mk.injEq] at h
        obtain ⟨rfl, rfl⟩ := h
        obtain ⟨h1, y, p, rfl, hp⟩ := parseDerLength_sound hl
        split at ht
        · obtain ⟨q, hq, rfl, hlt, _⟩ := parseBase128_sound ht
          exact ⟨by simp only; omega, hlt, h1, x :: (q ++ (y :: p)), by simp, by simp; omega⟩
        · simp only [Except.ok.injEq, Prod.mk.injEq] at ht
          obtain ⟨rfl, rfl⟩ := ht
          exact ⟨by simp only; omega, by simp only; omega, h1, x :: (y :: p), by simp, by simp⟩

/-! ## SET OF -/

theorem bytesLt_irrefl (a : Bytes) : bytesLt a a = false := by
  induction a with
  | nil => rfl
  | cons x xs ih => simp [bytesLt, ih]

theorem bytesLt_trans {a b c : Bytes} (h1 : bytesLt a b = true) (h2 : bytesLt b c = true) : bytesLt a c = true := by
  induction a generalizing b c with
  | nil =>
    cases b with
    | nil => simp [bytesLt] at h1
    | cons y ys => cases c with
      | nil => simp [bytesLt] at h2
      | cons z zs => rfl
  | cons x xs ih =>
    cases b with
    | nil => simp [bytesLt] at h1
    | cons y ys =>
      cases c with
      | nil => simp [bytesLt] at h2
      | cons z zs =>
        simp only [bytesLt] at *
        by_cases hxy : x.toNat < y.toNat
        · by_cases hyz : z.toNat < y.toNat
          · rw [if_neg (by omega), if_pos hyz] at h2; simp at h2
          · rw [if_pos (by omega)]
        · rw [if_neg hxy] at h1
          by_cases hyx : y.toNat < x.toNat
          · rw [if_pos hyx] at h1; simp at h1
          · rw [if_neg hyx] at h1
            by_cases hyz : y.toNat < z.toNat
            · rw [if_pos (by omega)]
            · rw [if_neg hyz] at h2
              by_cases hzy : z.toNat < y.toNat
              · rw [if_pos hzy] at h2; simp at h2
              · rw [if_neg hzy] at h2
                rw [if_neg (by omega), if_neg (by omega)]
                exact ih h1 h2

theorem bytesLt_total {a b : Bytes} (h1 : bytesLt a b = false) (h2 : bytesLt b a = false) : a = b := by
  induction a generalizing b with
  | nil => cases b with
    | nil => rfl
    | cons => simp [bytesLt] at h1
  | cons x xs ih =>
    cases b with
    | nil => simp [bytesLt] at h2
    | cons y ys =>
      simp only [bytesLt] at h1 h2
      by_cases hxy : x.toNat < y.toNat
      · rw [if_pos hxy] at h1; simp at h1
      · rw [if_neg hxy] at h1
        by_cases hyx : y.toNat < x.toNat
        · rw [if_pos hyx] at h2; simp at h2
        · rw [if_neg hyx] at h1 h2
          rw [if_neg hxy] at h2
          have : x = y := UInt8.toNat_inj.1 (by omega)
          rw [this, ih h1 h2]

theorem setInsert_comm (x y : Bytes) (l : List Bytes) : setInsert x (setInsert y l) = setInsert y (setInsert x l) := by
  induction l with
  | nil =>
    simp only [setInsert]
    cases h1 : bytesLt y x <;> cases h2 : bytesLt x y <;> simp
    · have := bytesLt_total h1 h2; subst this; exact ⟨rfl, rfl⟩
    · have := bytesLt_trans h1 h2
      rw [bytesLt_irrefl] at this; simp at this
  | cons z zs ih =>
    simp only [setInsert]
    cases hzy : bytesLt z y <;> cases hzx : bytesLt z x <;> simp [setInsert, hzy, hzx]
    · cases h1 : bytesLt y x <;> cases h2 : bytesLt x y <;> simp
      · have := bytesLt_total h1 h2; subst this; exact ⟨rfl, rfl⟩
      · have := bytesLt_trans h1 h2
        rw [bytesLt_irrefl] at this; simp at this
    · -- z < x, not z < y : y ≤ z < x
      cases h1 : bytesLt y x
      · exfalso
        cases h2 : bytesLt x y
        · have := bytesLt_total h1 h2; subst this; rw [hzx] at hzy; simp at hzy
        · rw [bytesLt_trans hzx h2] at hzy; simp at hzy
      · simp
    · cases h1 : bytesLt x y
      · exfalso
        cases h2 : bytesLt y x
        · have := bytesLt_total h1 h2; subst this; rw [hzx] at hzy; simp at hzy
        · rw [bytesLt_trans hzy h2] at hzx; simp at hzx
      · simp
    · exact ih

theorem setSort_perm {xs ys : List Bytes} (h : xs.Perm ys) : setSort xs = setSort ys := by
  induction h with
  | nil => rfl
  | cons x _ ih => rw [setSort, setSort, ih]
  | swap x y l => simp only [setSort]; exact setInsert_comm y x _
  | trans _ _ ih1 ih2 => rw [ih1, ih2]

end Apk
