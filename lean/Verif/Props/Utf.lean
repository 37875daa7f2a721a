import Verif.Proofs.Utf
import Verif.Proofs.DerField
/-! # C68: texts in certificates -/
namespace Apk
open Spec

/-- C68: a UTF8String is accepted exactly if it is a sequence of Unicode characters in UTF-8 (shortest forms, no surrogates, nothing above
    U+10FFFF). -/
theorem C68_utf8_iff (te : TimeEnv) (b s : Bytes) :
    parseStr (goAsnEnv te) 12 b = .ok s ↔ ∃ cs : List Char, b = utf8 cs ∧ s = b := by
  have h := str_iff (goAsnEnv te) 12 b s
  rw [show ((12 : Nat) : Int) = 12 from rfl] at h
  rw [h]
  clear h
  unfold StringContents
  constructor
  · rintro (⟨h | h | h, _⟩ | ⟨h, _⟩ | ⟨h, _⟩ | ⟨_, rfl, h⟩ | ⟨h, _⟩) <;> try cases h
    obtain ⟨cs, h⟩ := (goUtf8Valid_iff s).1 h
    exact ⟨cs, h, rfl⟩
  · rintro ⟨cs, h, rfl⟩
    exact .inr (.inr (.inr (.inl ⟨rfl, rfl, (goUtf8Valid_iff s).2 ⟨cs, h⟩⟩)))

theorem bigEndian_eq (us : List Nat) : (us.map (fun u => [UInt8.ofNat (u / 256), UInt8.ofNat (u % 256)])).flatten = bigEndian us := by
  unfold bigEndian; rw [List.flatMap_def]

/-- C68: a BMPString is accepted exactly if it has an even number of bytes; two zero bytes at the end are dropped, the rest is read as
    UTF-16 with U+FFFD for surrogates that are not in pairs, and recorded in UTF-8. -/
theorem C68_bmp_iff (te : TimeEnv) (b s : Bytes) :
    parseStr (goAsnEnv te) 30 b = .ok s ↔ ∃ us cs, (∀ u ∈ us, u < 65536) ∧ (b = bigEndian us ∧ us.getLast? ≠ some 0 ∨ b = bigEndian us ++ [0, 0]) ∧
      ReadsUtf16 us cs ∧ s = utf8 cs := by
  have h := str_iff (goAsnEnv te) 30 b s
  rw [show ((30 : Nat) : Int) = 30 from rfl] at h
  rw [h]
  clear h
  unfold StringContents
  constructor
  · rintro (⟨h | h | h, _⟩ | ⟨h, _⟩ | ⟨h, _⟩ | ⟨h, _⟩ | ⟨_, us, rfl, h⟩)
    · cases h
    · cases h
    · cases h
    · cases h
    · cases h
    · cases h
    rcases h with h | h
    · rw [bigEndian_eq] at h
      obtain ⟨cs, hc⟩ := exists_reads us.length us (Nat.le_refl _) h.2.1
      exact ⟨us, cs, h.2.1, .inl ⟨h.1, h.2.2⟩, hc, goUtf16_reads hc⟩
    · rw [bigEndian_eq] at h
      obtain ⟨cs, hc⟩ := exists_reads us.length us (Nat.le_refl _) h.2
      exact ⟨us, cs, h.2, .inr h.1, hc, goUtf16_reads hc⟩
  · rintro ⟨us, cs, hu, hb, hc, rfl⟩
    refine .inr (.inr (.inr (.inr ⟨rfl, us, (goUtf16_reads hc).symm, ?_⟩)))
    rw [bigEndian_eq]
    rcases hb with ⟨h1, h2⟩ | h1
    · exact .inl ⟨h1, hu, h2⟩
    · exact .inr ⟨h1, hu⟩

theorem bigEndian_length (us : List Nat) : (bigEndian us).length = 2 * us.length := by
  unfold bigEndian
  induction us with
  | nil => rfl
  | cons u us ih => simp only [List.flatMap_cons, List.length_append, ih, List.length_cons, List.length_nil]; omega

theorem units_exist : ∀ (n : Nat) (b : Bytes), b.length = 2 * n → ∃ us, (∀ u ∈ us, u < 65536) ∧ b = bigEndian us := by
  intro n
  induction n with
  | zero => intro b hb; exact ⟨[], by simp, List.length_eq_zero_iff.1 (by omega)⟩
  | succ n ih =>
    intro b hb
    match b with
    | [] => simp at hb
    | [_] => simp at hb; omega
    | x :: y :: r =>
      obtain ⟨us, h1, h2⟩ := ih r (by simp at hb; omega)
      have hx := x.toNat_lt
      have hy := y.toNat_lt
      refine ⟨(x.toNat * 256 + y.toNat) :: us, ?_, ?_⟩
      · intro u hu
        rcases List.mem_cons.1 hu with rfl | hu
        · omega
        · exact h1 u hu
      · show _ = UInt8.ofNat ((x.toNat * 256 + y.toNat) / 256) :: UInt8.ofNat ((x.toNat * 256 + y.toNat) % 256) :: bigEndian us
        rw [u8_eq (b := x) (by omega), u8_eq (b := y) (by omega), ← h2]

/-- C68: every BMPString with an even number of bytes is accepted, every other one is refused. -/
theorem C68_bmp_accepted_iff (te : TimeEnv) (b : Bytes) : (∃ s, parseStr (goAsnEnv te) 30 b = .ok s) ↔ 2 ∣ b.length := by
  constructor
  · rintro ⟨s, h⟩
    obtain ⟨us, cs, _, hb, _⟩ := (C68_bmp_iff te b s).1 h
    rcases hb with ⟨rfl, _⟩ | rfl
    · rw [bigEndian_length]; exact ⟨_, rfl⟩
    · rw [List.length_append, bigEndian_length]; exact ⟨us.length + 1, by simp; omega⟩
  · rintro ⟨n, hn⟩
    obtain ⟨us, h1, h2⟩ := units_exist n b hn
    by_cases hl : us.getLast? = some 0
    · obtain ⟨vs, rfl⟩ := List.getLast?_eq_some_iff.1 hl
      have hv : ∀ u ∈ vs, u < 65536 := fun u hu => h1 u (by simp [hu])
      obtain ⟨cs, hc⟩ := exists_reads vs.length vs (Nat.le_refl _) hv
      refine ⟨_, (C68_bmp_iff te b _).2 ⟨vs, cs, hv, .inr ?_, hc, rfl⟩⟩
      rw [h2]; simp [bigEndian]
    · obtain ⟨cs, hc⟩ := exists_reads us.length us (Nat.le_refl _) h1
      exact ⟨_, (C68_bmp_iff te b _).2 ⟨us, cs, h1, .inl ⟨h2, hl⟩, hc, rfl⟩⟩

theorem readsUtf16_units (cs : List Char) : ReadsUtf16 (cs.flatMap utf16Units) cs := by
  induction cs with
  | nil => exact .nil
  | cons c cs ih => exact .char c ih

theorem utf16Units_lt (cs : List Char) : ∀ u ∈ cs.flatMap utf16Units, u < 65536 := by
  intro u hu
  obtain ⟨c, _, hc⟩ := List.mem_flatMap.1 hu
  have := char_range c
  unfold utf16Units at hc
  split at hc
  · rw [List.mem_singleton] at hc; omega
  · simp only [List.mem_cons, List.not_mem_nil, or_false] at hc; omega

/-- C68: a text written in UTF-16 as a BMPString is read as this text, if it does not end in U+0000. -/
theorem C68_bmp_read_back (te : TimeEnv) (cs : List Char) (h : cs.getLast? ≠ some (Char.ofNat 0)) :
    parseStr (goAsnEnv te) 30 (bigEndian (cs.flatMap utf16Units)) = .ok (utf8 cs) := by
  refine (C68_bmp_iff te _ _).2 ⟨_, cs, utf16Units_lt cs, .inl ⟨rfl, ?_⟩, readsUtf16_units cs, rfl⟩
  cases hl : cs.getLast? with
  | none =>
    rw [List.getLast?_eq_none_iff.1 hl]; simp
  | some c =>
    obtain ⟨ds, rfl⟩ := List.getLast?_eq_some_iff.1 hl
    rw [List.flatMap_append]
    simp only [List.flatMap_cons, List.flatMap_nil, List.append_nil]
    have hc : c.toNat ≠ 0 := by
      intro e
      exact h (by rw [hl]; exact congrArg some (char_ext (e.trans rfl)))
    unfold utf16Units
    split
    · rw [List.getLast?_append]
      simp
      exact fun e => hc e
    · rw [List.getLast?_append]
      simp

/-- C68: what is read of a BMPString, and a text in UTF-8, is determined by the bytes. -/
theorem C68_one_reading : (∀ {us : List Nat} {cs cs' : List Char}, ReadsUtf16 us cs → ReadsUtf16 us cs' → cs = cs') ∧
    (∀ {cs cs' : List Char}, utf8 cs = utf8 cs' → cs = cs') := ⟨fun h h' => reads_utf16_unique h h', fun h => utf8_inj h⟩

theorem ascii_utf8 (b : Bytes) (h : ∀ c ∈ b, c.toNat < 128) : ∃ cs, b = utf8 cs := by
  induction b with
  | nil => exact ⟨[], rfl⟩
  | cons x b ih =>
    obtain ⟨cs, hcs⟩ := ih (fun c hc => h c (by simp [hc]))
    have hx := h x (by simp)
    obtain ⟨c, hc⟩ := exists_char (n := x.toNat) (by omega)
    refine ⟨c :: cs, ?_⟩
    show _ = String.utf8EncodeChar c ++ utf8 cs
    rw [enc1 (by omega), u8_eq hc, ← hcs]; rfl

/-- C68: an accepted string of one of the other types (NumericString, IA5String, UTF8String, BMPString) is text in UTF-8.
    PrintableString, T61String and GeneralString are recorded as they stand, whatever their bytes are. -/
theorem C68_accepted_text (te : TimeEnv) {k : Nat} {b s : Bytes} (h : parseStr (goAsnEnv te) k b = .ok s) :
    (∃ cs, s = utf8 cs) ∨ ((k = 19 ∨ k = 20 ∨ k = 27) ∧ s = b) := by
  replace h := (str_iff (goAsnEnv te) k b s).1 h
  rcases h with h | ⟨_, rfl, h⟩ | ⟨_, rfl, h⟩ | ⟨_, rfl, h⟩ | ⟨_, us, rfl, h⟩
  · exact .inr h
  · refine .inl (ascii_utf8 s (fun c hc => ?_))
    rcases h c hc with h | h
    · omega
    · rw [h]; decide
  · exact .inl (ascii_utf8 s h)
  · exact .inl ((goUtf8Valid_iff s).1 h)
  · have hu : ∀ u ∈ us, u < 65536 := by
      rcases h with h | h
      · exact h.2.1
      · exact h.2
    obtain ⟨cs, hc⟩ := exists_reads us.length us (Nat.le_refl _) hu
    exact .inl ⟨cs, goUtf16_reads hc⟩

/-! ## Examples -/

section
variable (te : TimeEnv)

example : goUtf8Valid [0xE2, 0x82, 0xAC] = true ∧ goUtf8Valid [0xC0, 0x80] = false ∧ goUtf8Valid [0xED, 0xA0, 0x80] = false ∧
    goUtf8Valid [0xF4, 0x90, 0x80, 0x80] = false ∧ goUtf8Valid [0xE2, 0x82] = false := by decide
example : utf8 ['€'] = [0xE2, 0x82, 0xAC] := by decide
example : goUtf16 [0xD83D, 0xDE00] = utf8 ['😀'] ∧ goUtf16 [0xD83D, 65] = utf8 ['\uFFFD', 'A'] ∧ goUtf16 [0xDE00] = utf8 ['\uFFFD'] := by decide
example : parseStr (goAsnEnv te) 30 [0, 65, 0x20, 0xAC, 0, 0] = .ok (utf8 ['A', '€']) := by
  refine (C68_bmp_iff te _ _).2 ⟨[65, 0x20AC], ['A', '€'], by decide, .inr (by decide), ?_, rfl⟩
  exact readsUtf16_units ['A', '€']
end

end Apk
