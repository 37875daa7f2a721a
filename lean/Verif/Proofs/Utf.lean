import Verif.Model.Utf
import Verif.Spec.Utf
/-! # Character sets: validation and conversion do what UTF-8 and UTF-16 say -/
namespace Apk
open Spec

theorem char_range (c : Char) : c.toNat < 0xD800 ∨ (0xDFFF < c.toNat ∧ c.toNat < 0x110000) := by
  have := c.valid
  exact this

/-- A scalar value as a character. -/
theorem exists_char {n : Nat} (h : n < 0xD800 ∨ (0xDFFF < n ∧ n < 0x110000)) : ∃ c : Char, c.toNat = n := by
  refine ⟨Char.ofNatAux n h, ?_⟩
  show (UInt32.ofNatLT n _).toNat = n
  exact UInt32.toNat_ofNatLT

theorem char_ext {c d : Char} (h : c.toNat = d.toNat) : c = d := Char.ext (UInt32.toNat_inj.1 h)

theorem u8 {n : Nat} (h : n < 256) : (UInt8.ofNat n).toNat = n := by
  rw [UInt8.toNat_ofNat']; omega

theorem u8_eq {n : Nat} {b : UInt8} (h : n = b.toNat) : UInt8.ofNat n = b := by
  rw [h]; exact UInt8.ofNat_toNat

/-! ## Encoding -/

theorem enc1 {c : Char} (h : c.toNat < 128) : String.utf8EncodeChar c = [UInt8.ofNat c.toNat] := by
  have h : c.val.toNat < 128 := h
  unfold String.utf8EncodeChar
  simp only
  rw [if_pos (by omega)]; rfl

theorem enc2 {c : Char} (h : 128 ≤ c.toNat) (h' : c.toNat < 0x800) :
    String.utf8EncodeChar c = [UInt8.ofNat (0xC0 + c.toNat / 64), UInt8.ofNat (0x80 + c.toNat % 64)] := by
  have h : 128 ≤ c.val.toNat := h
  have h' : c.val.toNat < 0x800 := h'
  unfold String.utf8EncodeChar
  simp only
  rw [if_neg (by omega), if_pos (by omega)]
  show _ = [UInt8.ofNat (0xC0 + c.val.toNat / 64), UInt8.ofNat (0x80 + c.val.toNat % 64)]
  have e1 : c.val.toNat / 64 % 0x20 + 0xc0 = 0xC0 + c.val.toNat / 64 := by omega
  have e2 : c.val.toNat % 0x40 + 0x80 = 0x80 + c.val.toNat % 64 := by omega
  rw [e1, e2]

theorem enc3 {c : Char} (h : 0x800 ≤ c.toNat) (h' : c.toNat < 0x10000) :
    String.utf8EncodeChar c = [UInt8.ofNat (0xE0 + c.toNat / 4096), UInt8.ofNat (0x80 + c.toNat / 64 % 64), UInt8.ofNat (0x80 + c.toNat % 64)] := by
  have h : 0x800 ≤ c.val.toNat := h
  have h' : c.val.toNat < 0x10000 := h'
  unfold String.utf8EncodeChar
  simp only
  rw [if_neg (by omega), if_neg (by omega), if_pos (by omega)]
  show _ = [UInt8.ofNat (0xE0 + c.val.toNat / 4096), UInt8.ofNat (0x80 + c.val.toNat / 64 % 64), UInt8.ofNat (0x80 + c.val.toNat % 64)]
  have e1 : c.val.toNat / 4096 % 0x10 + 0xe0 = 0xE0 + c.val.toNat / 4096 := by omega
  have e2 : c.val.toNat / 64 % 0x40 + 0x80 = 0x80 + c.val.toNat / 64 % 64 := by omega
  have e3 : c.val.toNat % 0x40 + 0x80 = 0x80 + c.val.toNat % 64 := by omega
  rw [e1, e2, e3]

theorem enc4 {c : Char} (h : 0x10000 ≤ c.toNat) :
    String.utf8EncodeChar c = [UInt8.ofNat (0xF0 + c.toNat / 262144), UInt8.ofNat (0x80 + c.toNat / 4096 % 64),
      UInt8.ofNat (0x80 + c.toNat / 64 % 64), UInt8.ofNat (0x80 + c.toNat % 64)] := by
  have hr := char_range c
  have h : 0x10000 ≤ c.val.toNat := h
  have hr : c.val.toNat < 0xD800 ∨ (0xDFFF < c.val.toNat ∧ c.val.toNat < 0x110000) := hr
  unfold String.utf8EncodeChar
  simp only
  rw [if_neg (by omega), if_neg (by omega), if_neg (by omega)]
  show _ = [UInt8.ofNat (0xF0 + c.val.toNat / 262144), UInt8.ofNat (0x80 + c.val.toNat / 4096 % 64), UInt8.ofNat (0x80 + c.val.toNat / 64 % 64),
    UInt8.ofNat (0x80 + c.val.toNat % 64)]
  have e0 : c.val.toNat / 262144 % 0x08 + 0xf0 = 0xF0 + c.val.toNat / 262144 := by omega
  have e1 : c.val.toNat / 4096 % 0x40 + 0x80 = 0x80 + c.val.toNat / 4096 % 64 := by omega
  have e2 : c.val.toNat / 64 % 0x40 + 0x80 = 0x80 + c.val.toNat / 64 % 64 := by omega
  have e3 : c.val.toNat % 0x40 + 0x80 = 0x80 + c.val.toNat % 64 := by omega
  rw [e0, e1, e2, e3]

theorem encodeRune_char (c : Char) : encodeRune c.toNat = String.utf8EncodeChar c := by
  have hr := char_range c
  unfold encodeRune
  by_cases h1 : c.toNat ≤ 0x7F
  · rw [if_pos h1, enc1 (by omega)]
  · rw [if_neg h1]
    by_cases h2 : c.toNat ≤ 0x7FF
    · rw [if_pos h2, enc2 (by omega) (by omega)]
    · rw [if_neg h2, if_neg (by omega)]
      by_cases h3 : c.toNat ≤ 0xFFFF
      · rw [if_pos h3, enc3 (by omega) (by omega)]
      · rw [if_neg h3, enc4 (by omega)]

theorem enc_ne (c : Char) : String.utf8EncodeChar c ≠ [] := String.utf8EncodeChar_ne_nil

/-! ## Validation -/

theorem utf8Step_cons (b : UInt8) (r : Bytes) : utf8Step (b :: r) =
    if b.toNat < 128 then some r
    else match utf8First b.toNat with
      | none => none
      | some (n, lo, hi) =>
        if r.length < n then none
        else if (r.getD 0 0).toNat < lo ∨ hi < (r.getD 0 0).toNat then none
        else if n = 1 then some (r.drop 1)
        else if utf8Cont (r.getD 1 0) = false then none
        else if n = 2 then some (r.drop 2)
        else if utf8Cont (r.getD 2 0) = false then none
        else some (r.drop 3) := rfl

theorem cont_iff (b : UInt8) : utf8Cont b = true ↔ 0x80 ≤ b.toNat ∧ b.toNat ≤ 0xBF := by
  unfold utf8Cont; exact decide_eq_true_iff

theorem first_cases (b : Nat) : (utf8First b = none ∧ (b < 0xC2 ∨ 0xF4 < b)) ∨
    (∃ lo hi, utf8First b = some (1, lo, hi) ∧ 0xC2 ≤ b ∧ b ≤ 0xDF ∧ lo = 0x80 ∧ hi = 0xBF) ∨
    (∃ lo hi, utf8First b = some (2, lo, hi) ∧ 0xE0 ≤ b ∧ b ≤ 0xEF ∧ lo = (if b = 0xE0 then 0xA0 else 0x80) ∧ hi = (if b = 0xED then 0x9F else 0xBF)) ∨
    (∃ lo hi, utf8First b = some (3, lo, hi) ∧ 0xF0 ≤ b ∧ b ≤ 0xF4 ∧ lo = (if b = 0xF0 then 0x90 else 0x80) ∧ hi = (if b = 0xF4 then 0x8F else 0xBF)) := by
  unfold utf8First
  by_cases h1 : b < 0xC2
  · rw [if_pos h1]; exact .inl ⟨rfl, .inl h1⟩
  rw [if_neg h1]
  by_cases h2 : b ≤ 0xDF
  · rw [if_pos h2]; exact .inr (.inl ⟨_, _, rfl, by omega, h2, rfl, rfl⟩)
  rw [if_neg h2]
  by_cases h3 : b = 0xE0
  · subst h3; exact .inr (.inr (.inl ⟨_, _, rfl, by decide, by decide, by decide, by decide⟩))
  rw [if_neg h3]
  by_cases h4 : b ≤ 0xEC
  · rw [if_pos h4]; exact .inr (.inr (.inl ⟨_, _, rfl, by omega, by omega, by rw [if_neg h3], by rw [if_neg (by omega)]⟩))
  rw [if_neg h4]
  by_cases h5 : b = 0xED
  · subst h5; exact .inr (.inr (.inl ⟨_, _, rfl, by decide, by decide, by decide, by decide⟩))
  rw [if_neg h5]
  by_cases h6 : b ≤ 0xEF
  · rw [if_pos h6]; exact .inr (.inr (.inl ⟨_, _, rfl, by omega, by omega, by rw [if_neg h3], by rw [if_neg h5]⟩))
  rw [if_neg h6]
  by_cases h7 : b = 0xF0
  · subst h7; exact .inr (.inr (.inr ⟨_, _, rfl, by decide, by decide, by decide, by decide⟩))
  rw [if_neg h7]
  by_cases h8 : b ≤ 0xF3
  · rw [if_pos h8]; exact .inr (.inr (.inr ⟨_, _, rfl, by omega, by omega, by rw [if_neg h7], by rw [if_neg (by omega)]⟩))
  rw [if_neg h8]
  by_cases h9 : b = 0xF4
  · subst h9; exact .inr (.inr (.inr ⟨_, _, rfl, by decide, by decide, by decide, by decide⟩))
  rw [if_neg h9]; exact .inl ⟨rfl, .inr (by omega)⟩

/-- One round of the loop takes one character off. -/
theorem utf8Step_iff (b rest : Bytes) : utf8Step b = some rest ↔ ∃ c, b = String.utf8EncodeChar c ++ rest := by
  constructor
  · intro h
    cases b with
    | nil => cases h
    | cons b r =>
      rw [utf8Step_cons] at h
      have hb := b.toNat_lt
      by_cases h0 : b.toNat < 128
      · rw [if_pos h0] at h
        cases h
        obtain ⟨c, hc⟩ := exists_char (n := b.toNat) (by omega)
        refine ⟨c, ?_⟩
        rw [enc1 (by omega), u8_eq hc]; rfl
      · rw [if_neg h0] at h
        rcases first_cases b.toNat with ⟨hf, _⟩ | ⟨lo, hi, hf, g1, g2, g3, g4⟩ | ⟨lo, hi, hf, g1, g2, g3, g4⟩ | ⟨lo, hi, hf, g1, g2, g3, g4⟩
        · rw [hf] at h; cases h
        · rw [hf] at h
          simp only at h
          match r with
          | [] => simp at h
          | b1 :: r =>
            rw [if_neg (by simp)] at h
            simp only [List.getD_cons_zero] at h
            by_cases hr : b1.toNat < lo ∨ hi < b1.toNat
            · rw [if_pos hr] at h; cases h
            · rw [if_neg hr, if_pos trivial] at h
              cases h
              obtain ⟨c, hc⟩ := exists_char (n := (b.toNat - 0xC0) * 64 + (b1.toNat - 0x80)) (by omega)
              refine ⟨c, ?_⟩
              rw [enc2 (by omega) (by omega), u8_eq (b := b) (by omega), u8_eq (b := b1) (by omega)]
              rfl
        · rw [hf] at h
          simp only at h
          match r with
          | [] => simp at h
          | [_] => simp at h
          | b1 :: b2 :: r =>
            rw [if_neg (by simp)] at h
            simp only [List.getD_cons_zero, List.getD_cons_succ] at h
            by_cases hr : b1.toNat < lo ∨ hi < b1.toNat
            · rw [if_pos hr] at h; cases h
            · rw [if_neg hr, if_neg (by decide)] at h
              cases hc2 : utf8Cont b2 with
              | false => rw [hc2, if_pos rfl] at h; cases h
              | true =>
                rw [hc2, if_neg (by decide), if_pos trivial] at h
                cases h
                have hc2 := (cont_iff b2).1 hc2
                have k1 : 0x80 ≤ lo := by rw [g3]; split <;> decide
                have k2 : hi ≤ 0xBF := by rw [g4]; split <;> decide
                have k3 : b.toNat = 0xE0 → 0xA0 ≤ b1.toNat := by intro e; rw [if_pos e] at g3; omega
                have k4 : b.toNat = 0xED → b1.toNat ≤ 0x9F := by intro e; rw [if_pos e] at g4; omega
                obtain ⟨c, hc⟩ := exists_char (n := (b.toNat - 0xE0) * 4096 + (b1.toNat - 0x80) * 64 + (b2.toNat - 0x80)) (by omega)
                refine ⟨c, ?_⟩
                rw [enc3 (by omega) (by omega), u8_eq (b := b) (by omega), u8_eq (b := b1) (by omega), u8_eq (b := b2) (by omega)]
                rfl
        · rw [hf] at h
          simp only at h
          match r with
          | [] => simp at h
          | [_] => simp at h
          | [_, _] => simp at h
          | b1 :: b2 :: b3 :: r =>
            rw [if_neg (by simp)] at h
            simp only [List.getD_cons_zero, List.getD_cons_succ] at h
            by_cases hr : b1.toNat < lo ∨ hi < b1.toNat
            · rw [if_pos hr] at h; cases h
            · rw [if_neg hr, if_neg (by decide)] at h
              cases hc2 : utf8Cont b2 with
              | false => rw [hc2, if_pos rfl] at h; cases h
              | true =>
                rw [hc2, if_neg (by decide), if_neg (by decide)] at h
                cases hc3 : utf8Cont b3 with
                | false => rw [hc3, if_pos rfl] at h; cases h
                | true =>
                  rw [hc3, if_neg (by decide)] at h
                  cases h
                  have hc2 := (cont_iff b2).1 hc2
                  have hc3 := (cont_iff b3).1 hc3
                  have k1 : 0x80 ≤ lo := by rw [g3]; split <;> decide
                  have k2 : hi ≤ 0xBF := by rw [g4]; split <;> decide
                  have k3 : b.toNat = 0xF0 → 0x90 ≤ b1.toNat := by intro e; rw [if_pos e] at g3; omega
                  have k4 : b.toNat = 0xF4 → b1.toNat ≤ 0x8F := by intro e; rw [if_pos e] at g4; omega
                  obtain ⟨c, hc⟩ := exists_char
                    (n := (b.toNat - 0xF0) * 262144 + (b1.toNat - 0x80) * 4096 + (b2.toNat - 0x80) * 64 + (b3.toNat - 0x80)) (by omega)
                  refine ⟨c, ?_⟩
                  rw [enc4 (by omega), u8_eq (b := b) (by omega), u8_eq (b := b1) (by omega), u8_eq (b := b2) (by omega), u8_eq (b := b3) (by omega)]
                  rfl
  · rintro ⟨c, rfl⟩
    have hr := char_range c
    by_cases h1 : c.toNat < 128
    · rw [enc1 h1, List.singleton_append, utf8Step_cons, u8 (by omega), if_pos h1]
    · by_cases h2 : c.toNat < 0x800
      · rw [enc2 (by omega) h2]
        show utf8Step (_ :: _ :: rest) = _
        rw [utf8Step_cons, u8 (by omega), if_neg (by omega)]
        rcases first_cases (0xC0 + c.toNat / 64) with ⟨hf, _⟩ | ⟨lo, hi, hf, g1, g2, g3, g4⟩ | ⟨lo, hi, hf, g1, g2, g3, g4⟩ | ⟨lo, hi, hf, g1, g2, g3, g4⟩
        · omega
        · rw [hf]
          simp only [List.getD_cons_zero]
          rw [if_neg (by simp), u8 (by omega), if_neg (by omega)]; rfl
        · omega
        · omega
      · by_cases h3 : c.toNat < 0x10000
        · rw [enc3 (by omega) h3]
          show utf8Step (_ :: _ :: _ :: rest) = _
          rw [utf8Step_cons, u8 (by omega), if_neg (by omega)]
          rcases first_cases (0xE0 + c.toNat / 4096) with ⟨hf, _⟩ | ⟨lo, hi, hf, g1, g2, g3, g4⟩ | ⟨lo, hi, hf, g1, g2, g3, g4⟩ | ⟨lo, hi, hf, g1, g2, g3, g4⟩
          · omega
          · omega
          · rw [hf]
            simp only [List.getD_cons_zero, List.getD_cons_succ]
            have k1 : lo ≤ 0x80 + c.toNat / 64 % 64 := by rw [g3]; split <;> omega
            have k2 : 0x80 + c.toNat / 64 % 64 ≤ hi := by rw [g4]; split <;> omega
            rw [if_neg (by simp), u8 (by omega), if_neg (by omega), if_neg (by decide),
              (cont_iff (UInt8.ofNat (0x80 + c.toNat % 64))).2 (by rw [u8 (by omega)]; omega)]; rfl
          · omega
        · rw [enc4 (by omega)]
          show utf8Step (_ :: _ :: _ :: _ :: rest) = _
          rw [utf8Step_cons, u8 (by omega), if_neg (by omega)]
          rcases first_cases (0xF0 + c.toNat / 262144) with ⟨hf, _⟩ | ⟨lo, hi, hf, g1, g2, g3, g4⟩ | ⟨lo, hi, hf, g1, g2, g3, g4⟩ | ⟨lo, hi, hf, g1, g2, g3, g4⟩
          · omega
          · omega
          · omega
          · rw [hf]
            simp only [List.getD_cons_zero, List.getD_cons_succ]
            have k1 : lo ≤ 0x80 + c.toNat / 4096 % 64 := by rw [g3]; split <;> omega
            have k2 : 0x80 + c.toNat / 4096 % 64 ≤ hi := by rw [g4]; split <;> omega
            rw [if_neg (by simp), u8 (by omega), if_neg (by omega), if_neg (by decide),
              (cont_iff (UInt8.ofNat (0x80 + c.toNat / 64 % 64))).2 (by rw [u8 (by omega)]; omega), if_neg (by decide), if_neg (by decide),
              (cont_iff (UInt8.ofNat (0x80 + c.toNat % 64))).2 (by rw [u8 (by omega)]; omega)]; rfl

theorem utf8Loop_iff : ∀ (fuel : Nat) (b : Bytes), b.length ≤ fuel → (utf8Loop fuel b = true ↔ ∃ cs, b = utf8 cs) := by
  intro fuel
  induction fuel with
  | zero =>
    intro b hb
    cases b with
    | nil => exact ⟨fun _ => ⟨[], rfl⟩, fun _ => rfl⟩
    | cons => simp at hb
  | succ fuel ih =>
    intro b hb
    cases b with
    | nil => exact ⟨fun _ => ⟨[], rfl⟩, fun _ => rfl⟩
    | cons x r =>
      have e : utf8Loop (fuel + 1) (x :: r) = (match utf8Step (x :: r) with
        | none => false
        | some rest => utf8Loop fuel rest) := rfl
      rw [e]
      cases hs : utf8Step (x :: r) with
      | none =>
        simp only [Bool.false_eq_true, false_iff]
        rintro ⟨cs, hcs⟩
        cases cs with
        | nil => cases hcs
        | cons c cs =>
          have := (utf8Step_iff (x :: r) (utf8 cs)).2 ⟨c, hcs⟩
          rw [hs] at this; cases this
      | some rest =>
        simp only
        obtain ⟨c, hc⟩ := (utf8Step_iff _ _).1 hs
        have hl : rest.length ≤ fuel := by
          have := congrArg List.length hc
          have hp := List.length_pos_iff.2 (enc_ne c)
          simp only [List.length_append, List.length_cons] at this hb
          omega
        rw [ih rest hl]
        constructor
        · rintro ⟨cs, rfl⟩; exact ⟨c :: cs, hc⟩
        · rintro ⟨cs, hcs⟩
          cases cs with
          | nil => cases hcs
          | cons d cs =>
            have := (utf8Step_iff (x :: r) (utf8 cs)).2 ⟨d, hcs⟩
            rw [hs] at this
            exact ⟨cs, Option.some.inj this⟩

theorem goUtf8Valid_iff (b : Bytes) : goUtf8Valid b = true ↔ ∃ cs, b = utf8 cs := utf8Loop_iff _ _ (Nat.le_refl _)

/-! ## UTF-16 -/

theorem utf16Decode_cons (r : Nat) (rest : List Nat) : utf16Decode (r :: rest) =
    if r < 0xD800 ∨ 0xE000 ≤ r then r :: utf16Decode rest
    else match rest with
      | s :: rest' =>
        if r < 0xDC00 ∧ 0xDC00 ≤ s ∧ s < 0xE000 then ((r - 0xD800) * 1024 + (s - 0xDC00) + 0x10000) :: utf16Decode rest'
        else 0xFFFD :: utf16Decode (s :: rest')
      | [] => [0xFFFD] := by
  cases rest with
  | nil => rfl
  | cons s t => rfl

theorem utf16Decode_units (c : Char) (us : List Nat) : utf16Decode (utf16Units c ++ us) = c.toNat :: utf16Decode us := by
  have hr := char_range c
  unfold utf16Units
  by_cases h : c.toNat < 0x10000
  · rw [if_pos h, List.singleton_append, utf16Decode_cons, if_pos (by omega)]
  · rw [if_neg h]
    show utf16Decode (_ :: _ :: us) = _
    rw [utf16Decode_cons, if_neg (by omega)]
    simp only
    rw [if_pos (by omega)]
    congr 1
    omega

theorem utf16Decode_lone {u : Nat} {us : List Nat} (h1 : 0xD800 ≤ u) (h2 : u < 0xE000) (h3 : ¬ SurrogatePair u us) :
    utf16Decode (u :: us) = 0xFFFD :: utf16Decode us := by
  rw [utf16Decode_cons, if_neg (by omega)]
  cases us with
  | nil => rfl
  | cons s t =>
    simp only
    rw [if_neg]
    rintro ⟨a, b, c⟩
    exact h3 ⟨h1, a, s, t, rfl, b, c⟩

theorem reads_decode {us : List Nat} {cs : List Char} (h : ReadsUtf16 us cs) : utf16Decode us = cs.map Char.toNat := by
  induction h with
  | nil => rw [utf16Decode]; rfl
  | char c _ ih => rw [utf16Decode_units, ih]; rfl
  | lone u h1 h2 h3 _ ih => rw [utf16Decode_lone h1 h2 h3, ih]; rfl

theorem exists_reads : ∀ (n : Nat) (us : List Nat), us.length ≤ n → (∀ u ∈ us, u < 65536) → ∃ cs, ReadsUtf16 us cs := by
  intro n
  induction n with
  | zero =>
    intro us h _
    cases us with
    | nil => exact ⟨[], .nil⟩
    | cons => simp at h
  | succ n ih =>
    intro us hl h
    cases us with
    | nil => exact ⟨[], .nil⟩
    | cons u us =>
      have hu := h u (by simp)
      have hl' : us.length ≤ n := by simpa using hl
      by_cases h1 : u < 0xD800 ∨ 0xE000 ≤ u
      · obtain ⟨cs, hcs⟩ := ih us hl' (fun x hx => h x (by simp [hx]))
        obtain ⟨c, hc⟩ := exists_char (n := u) (by omega)
        refine ⟨c :: cs, ?_⟩
        have := ReadsUtf16.char c hcs
        rw [utf16Units, if_pos (by omega), hc] at this
        exact this
      · by_cases h2 : SurrogatePair u us
        · obtain ⟨a1, a2, l, t, rfl, b1, b2⟩ := h2
          obtain ⟨cs, hcs⟩ := ih t (by simp at hl'; omega) (fun x hx => h x (by simp [hx]))
          obtain ⟨c, hc⟩ := exists_char (n := (u - 0xD800) * 1024 + (l - 0xDC00) + 0x10000) (by omega)
          refine ⟨c :: cs, ?_⟩
          have := ReadsUtf16.char c hcs
          rw [utf16Units, if_neg (by omega), hc] at this
          have e1 : 0xD800 + ((u - 0xD800) * 1024 + (l - 0xDC00) + 0x10000 - 0x10000) / 0x400 = u := by omega
          have e2 : 0xDC00 + ((u - 0xD800) * 1024 + (l - 0xDC00) + 0x10000 - 0x10000) % 0x400 = l := by omega
          rw [e1, e2] at this
          exact this
        · obtain ⟨cs, hcs⟩ := ih us hl' (fun x hx => h x (by simp [hx]))
          exact ⟨_, .lone u (by omega) (by omega) h2 hcs⟩

theorem reads_utf16_unique {us : List Nat} {cs cs' : List Char} (h : ReadsUtf16 us cs) (h' : ReadsUtf16 us cs') : cs = cs' := by
  have e := (reads_decode h).symm.trans (reads_decode h')
  clear h h'
  induction cs generalizing cs' with
  | nil => cases cs' with
    | nil => rfl
    | cons => cases e
  | cons c cs ih => cases cs' with
    | nil => cases e
    | cons d ds =>
      simp only [List.map_cons, List.cons.injEq] at e
      rw [char_ext e.1, ih e.2]

theorem goUtf16_reads {us : List Nat} {cs : List Char} (h : ReadsUtf16 us cs) : goUtf16 us = utf8 cs := by
  unfold goUtf16 utf8
  rw [reads_decode h, List.flatMap_map]
  congr 1
  funext c
  exact encodeRune_char c

/-- A text has one reading in UTF-8. -/
theorem utf8_inj {cs cs' : List Char} (h : utf8 cs = utf8 cs') : cs = cs' := by
  induction cs generalizing cs' with
  | nil =>
    cases cs' with
    | nil => rfl
    | cons d ds => exact absurd (List.append_eq_nil_iff.1 h.symm).1 (enc_ne d)
  | cons c cs ih =>
    cases cs' with
    | nil => exact absurd (List.append_eq_nil_iff.1 h).1 (enc_ne c)
    | cons d ds =>
      have h : String.utf8EncodeChar c ++ utf8 cs = String.utf8EncodeChar d ++ utf8 ds := h
      have h1 := (utf8Step_iff (String.utf8EncodeChar c ++ utf8 cs) (utf8 cs)).2 ⟨c, rfl⟩
      rw [(utf8Step_iff _ (utf8 ds)).2 ⟨d, h⟩] at h1
      have e := Option.some.inj h1
      rw [← e] at h
      have hc : String.utf8EncodeChar c = String.utf8EncodeChar d := List.append_cancel_right h
      rw [ih e.symm]
      congr 1
      refine char_ext ?_
      rw [← encodeRune_char, ← encodeRune_char] at hc
      have hr := char_range c
      have hs := char_range d
      have inj : ∀ {a b : Nat}, a < 256 → b < 256 → UInt8.ofNat a = UInt8.ofNat b → a = b := by
        intro a b ha hb h
        have := congrArg UInt8.toNat h
        rwa [u8 ha, u8 hb] at this
      have rc : ∀ n : Nat, (n < 0xD800 ∨ (0xDFFF < n ∧ n < 0x110000)) →
          (n ≤ 0x7F ∧ encodeRune n = [UInt8.ofNat n]) ∨
          (0x7F < n ∧ n ≤ 0x7FF ∧ encodeRune n = [UInt8.ofNat (0xC0 + n / 64), UInt8.ofNat (0x80 + n % 64)]) ∨
          (0x7FF < n ∧ n ≤ 0xFFFF ∧ encodeRune n = [UInt8.ofNat (0xE0 + n / 4096), UInt8.ofNat (0x80 + n / 64 % 64), UInt8.ofNat (0x80 + n % 64)]) ∨
          (0xFFFF < n ∧ encodeRune n = [UInt8.ofNat (0xF0 + n / 262144), UInt8.ofNat (0x80 + n / 4096 % 64), UInt8.ofNat (0x80 + n / 64 % 64),
            UInt8.ofNat (0x80 + n % 64)]) := by
        intro n hn
        unfold encodeRune
        by_cases a1 : n ≤ 0x7F
        · rw [if_pos a1]; exact .inl ⟨a1, rfl⟩
        rw [if_neg a1]
        by_cases a2 : n ≤ 0x7FF
        · rw [if_pos a2]; exact .inr (.inl ⟨by omega, a2, rfl⟩)
        rw [if_neg a2, if_neg (by omega)]
        by_cases a3 : n ≤ 0xFFFF
        · rw [if_pos a3]; exact .inr (.inr (.inl ⟨by omega, a3, rfl⟩))
        rw [if_neg a3]; exact .inr (.inr (.inr ⟨by omega, rfl⟩))
      rcases rc _ hr with ⟨a, e1⟩ | ⟨a, a', e1⟩ | ⟨a, a', e1⟩ | ⟨a, e1⟩ <;>
        rcases rc _ hs with ⟨b, e2⟩ | ⟨b, b', e2⟩ | ⟨b, b', e2⟩ | ⟨b, e2⟩ <;> rw [e1, e2] at hc <;>
        simp only [List.cons.injEq, and_true, reduceCtorEq, and_false] at hc
      · exact inj (by omega) (by omega) hc
      · have := inj (by omega) (by omega) hc.1
        have := inj (by omega) (by omega) hc.2
        omega
      · have := inj (by omega) (by omega) hc.1
        have := inj (by omega) (by omega) hc.2.1
        have := inj (by omega) (by omega) hc.2.2
        omega
      · have := inj (by omega) (by omega) hc.1
        have := inj (by omega) (by omega) hc.2.1
        have := inj (by omega) (by omega) hc.2.2.1
        have := inj (by omega) (by omega) hc.2.2.2
        omega

end Apk
