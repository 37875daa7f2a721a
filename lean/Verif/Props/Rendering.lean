import Verif.Proofs.Strings
import Verif.Proofs.Base
import Verif.Spec.Rendering
/-! # C47: the exact texts of block ids, signature algorithms and API levels -/
namespace Apk
open Spec

theorem hexDigit_table : ∀ d : Fin 16, hexDigit d.1 = hexDigits.getD d.1 0 := by decide

theorem foldl_radix (base : Nat) (ds : List Nat) : ds.reverse.foldl (fun a d => a * base + d) 0 = radixVal base ds := by
  induction ds with
  | nil => rfl
  | cons d ds ih => rw [List.reverse_cons, List.foldl_append, ih]; simp [radixVal]; rw [Nat.mul_comm]; omega

theorem digitsRev_top (base : Nat) (hb : 2 ≤ base) : ∀ fuel n, n ≤ fuel → 1 < (digitsRev base fuel n).length → (digitsRev base fuel n).getLast? ≠ some 0 := by
  intro fuel
  induction fuel with
  | zero => intro n _ h; simp [digitsRev] at h
  | succ f ih =>
    intro n hn h
    rw [digitsRev] at h ⊢
    by_cases hlt : n < base
    · rw [if_pos hlt] at h; simp at h
    · rw [if_neg hlt] at h ⊢
      have h0 : 0 < n / base := Nat.div_pos (by omega) (by omega)
      have h1 : n / base ≤ f := by
        have h2 : n / base < n := Nat.div_lt_self (by omega) (by omega)
        omega
      have hne := digitsRev_ne base f (n / base)
      rw [List.getLast?_cons_of_ne_nil hne]
      by_cases h2 : 1 < (digitsRev base f (n / base)).length
      · exact ih _ h1 h2
      · have hv := digitsRev_val base hb f (n / base) h1
        match hd : digitsRev base f (n / base), hne, h2 with
        | [d], _, _ =>
          rw [hd] at hv
          simp [radixVal] at hv
          simp; omega
        | _ :: _ :: _, _, h2 => simp at h2

/-- Digits with zeros in front form a numeral. -/
theorem numeral_padded {base : Nat} (hb : 2 ≤ base) (hb' : base ≤ 16) (w n : Nat) :
    NumeralText base w n ((List.replicate (w - (digitsRev base n n).length) 0 ++ (digitsRev base n n).reverse).map hexDigit) := by
  have hlt : ∀ d ∈ List.replicate (w - (digitsRev base n n).length) 0 ++ (digitsRev base n n).reverse, d < base := by
    intro d hd
    rcases List.mem_append.1 hd with hd | hd
    · rw [(List.mem_replicate.1 hd).2]; omega
    · exact digitsRev_lt base hb n n d (List.mem_reverse.1 hd)
  have hpos := List.length_pos_iff.2 (digitsRev_ne base n n)
  refine ⟨_, ?_, hlt, ?_, ?_, ?_, ?_⟩
  · intro h
    have := (List.append_eq_nil_iff.1 h).2
    exact digitsRev_ne base n n (List.reverse_eq_nil_iff.1 this)
  · refine List.map_congr_left (fun d hd => ?_)
    exact hexDigit_table ⟨d, Nat.lt_of_lt_of_le (hlt d hd) hb'⟩
  · have : List.replicate (w - (digitsRev base n n).length) 0 ++ (digitsRev base n n).reverse =
        (digitsRev base n n ++ List.replicate (w - (digitsRev base n n).length) 0).reverse := by simp
    rw [this, foldl_radix, radixVal_zeros, digitsRev_val base hb n n (Nat.le_refl n)]
  · simp only [List.length_append, List.length_replicate, List.length_reverse]; omega
  · intro hl
    simp only [List.length_append, List.length_replicate, List.length_reverse] at hl
    have hw : w - (digitsRev base n n).length = 0 := by omega
    rw [hw]
    simp only [List.replicate_zero, List.nil_append, List.head?_reverse]
    exact digitsRev_top base hb n n (Nat.le_refl n) (by omega)

/-- A numeral denotes one number. -/
theorem numeral_unique {base w w' n n' : Nat} {s : Bytes} (hb : base ≤ 16) (h : NumeralText base w n s) (h' : NumeralText base w' n' s) : n = n' := by
  obtain ⟨ds, _, h1, rfl, h2, _⟩ := h
  obtain ⟨ds', _, h1', h3, h2', _⟩ := h'
  have e : ds = ds' := by
    refine map_hexDigit_inj (fun a ha => Nat.lt_of_lt_of_le (h1 a ha) hb) (fun a ha => Nat.lt_of_lt_of_le (h1' a ha) hb) ?_
    have c : ∀ l : List Nat, (∀ d ∈ l, d < base) → l.map hexDigit = l.map (fun d => hexDigits.getD d 0) := fun l hl =>
      List.map_congr_left (fun d hd => hexDigit_table ⟨d, Nat.lt_of_lt_of_le (hl d hd) hb⟩)
    rw [c ds h1, c ds' h1']; exact h3
  rw [← h2, ← h2', e]

theorem fmtHexMin_text (w n : Nat) : NumeralText 16 w n (fmtHexMin w n) := numeral_padded (by decide) (by decide) w n

theorem decDigits_text (n : Nat) : NumeralText 10 1 n (((digitsRev 10 n n).reverse).map hexDigit) := by
  have := numeral_padded (base := 10) (by decide) (by decide) 1 n
  have hpos := List.length_pos_iff.2 (digitsRev_ne 10 n n)
  have e : 1 - (digitsRev 10 n n).length = 0 := by omega
  rw [e] at this
  simpa using this

theorem rendered_table {κ : Type} [DecidableEq κ] {tab : List (κ × Bytes)} {P : κ → Bytes → Prop} (h1 : ∀ p ∈ tab, P p.1 p.2)
    (h2 : ∀ k s, P k s → mget tab k = some s) (k : κ) (s : Bytes) : mget tab k = some s ↔ P k s := by
  refine ⟨fun h => ?_, h2 k s⟩
  have := mget_mem h
  exact h1 _ this

theorem blockName_iff (id : Nat) (s : Bytes) : mget blockIdNames id = some s ↔ BlockName id s := by
  refine rendered_table ?_ ?_ id s
  · intro p hp
    simp only [blockIdNames, List.mem_cons, List.not_mem_nil, or_false] at hp
    rcases hp with rfl | rfl | rfl | rfl | rfl | rfl | rfl | rfl | rfl
    · exact .dependencies
    · exact .meituan
    · exact .stampV1
    · exact .stampV2
    · exact .padding
    · exact .v2
    · exact .v3
    · exact .v31
    · exact .frosting
  · intro k s h; cases h <;> rfl

theorem algoName_iff (id : Nat) (s : Bytes) : mget algoNames id = some s ↔ AlgoName id s := by
  refine rendered_table ?_ ?_ id s
  · intro p hp
    simp only [algoNames, List.mem_cons, List.not_mem_nil, or_false] at hp
    rcases hp with rfl | rfl | rfl | rfl | rfl | rfl | rfl | rfl | rfl | rfl
    · exact .pss256
    · exact .pss512
    · exact .rsa256
    · exact .rsa512
    · exact .ecdsa256
    · exact .ecdsa512
    · exact .dsa256
    · exact .verityRsa
    · exact .verityEcdsa
    · exact .verityDsa
  · intro k s h; cases h <;> rfl

theorem levels_released : ∀ p ∈ levelNames, p.1 = -1 ∧ p.2 = b!"-Infinity" ∨ p.1 = 2147483647 ∧ p.2 = b!"+Infinity" ∨
    (0 ≤ p.1 - 3 ∧ levelsFrom3[(p.1 - 3).toNat]? = some p.2 ∧ p.2 ≠ []) := by decide +kernel

theorem levels_listed : ∀ i : Fin 32, levelsFrom3[i.1]?.getD [] ≠ [] → mget levelNames (3 + i.1 : Int) = levelsFrom3[i.1]? := by decide +kernel

theorem levelName_iff (l : Int) (s : Bytes) : mget levelNames l = some s ↔ LevelName l s := by
  refine rendered_table ?_ ?_ l s
  · rintro ⟨k, s⟩ hp
    rcases levels_released _ hp with ⟨h1, h2⟩ | ⟨h1, h2⟩ | ⟨h1, h2, h3⟩
    · simp only at h1 h2; rw [h1, h2]; exact .lowest
    · simp only at h1 h2; rw [h1, h2]; exact .highest
    · simp only at h1 h2 h3
      have := LevelName.release (k - 3).toNat s h2 h3
      have e : (3 : Int) + ((k - 3).toNat : Int) = k := by omega
      rw [e] at this
      exact this
  · intro k s h
    cases h with
    | release i s h1 h2 =>
      have hi : i < 32 := by
        refine Classical.byContradiction (fun hn => ?_)
        rw [List.getElem?_eq_none (by show levelsFrom3.length ≤ i; have : levelsFrom3.length = 32 := by decide +kernel
                                      omega)] at h1
        cases h1
      have := levels_listed ⟨i, hi⟩ (by simp only; rw [h1]; exact h2)
      simp only at this
      rw [this, h1]
    | lowest => decide +kernel
    | highest => decide +kernel

theorem mget_none_iff {κ : Type} [DecidableEq κ] {tab : List (κ × Bytes)} {P : κ → Bytes → Prop} (h : ∀ k s, mget tab k = some s ↔ P k s) (k : κ) :
    mget tab k = none ↔ ∀ s, ¬ P k s := by
  constructor
  · intro hn s hp
    rw [(h k s).2 hp] at hn; cases hn
  · intro hn
    cases hm : mget tab k with
    | none => rfl
    | some s => exact absurd ((h k s).1 hm) (hn s)

/-- **C47**: a block id is shown by its name if it has one, else as "Unknown" with the id in hexadecimal. -/
theorem C47_block_id_text (id : Nat) (s : Bytes) : blockIdString id = s → BlockText id s := by
  rintro rfl
  unfold blockIdString BlockText
  cases h : mget blockIdNames id with
  | some s => exact .inl ((blockName_iff id s).1 h)
  | none => exact .inr ⟨(mget_none_iff blockName_iff id).1 h, _, fmtHexMin_text 8 id, rfl⟩

/-- **C47**: a signature algorithm is shown by its name if it has one, else by its number in hexadecimal. -/
theorem C47_algorithm_text (id : Nat) (s : Bytes) : algoString id = s → AlgoText id s := by
  rintro rfl
  unfold algoString AlgoText
  cases h : mget algoNames id with
  | some s => exact .inl ((algoName_iff id s).1 h)
  | none => exact .inr ⟨(mget_none_iff algoName_iff id).1 h, _, fmtHexMin_text 4 id, rfl⟩

/-- **C47**: an API level is shown by its name if it has one, else by its number in decimal. -/
theorem C47_level_text (l : Int) (s : Bytes) : levelString l = s → LevelText l s := by
  rintro rfl
  unfold levelString LevelText
  cases h : mget levelNames l with
  | some s => exact .inl ((levelName_iff l s).1 h)
  | none =>
    refine .inr ⟨(mget_none_iff levelName_iff l).1 h, ?_⟩
    unfold fmtDec
    by_cases hl : l < 0
    · rw [if_pos hl]
      refine .inr ⟨hl, _, ?_, rfl⟩
      have e : (-l).toNat = l.natAbs := by omega
      rw [e]; exact decDigits_text _
    · rw [if_neg hl]
      refine .inl ⟨by omega, ?_⟩
      have e : l.toNat = l.natAbs := by omega
      rw [e]; exact decDigits_text _

/-- **C47**: the number in such a text is the one shown. -/
theorem C47_numerals_denote {base w w' n n' : Nat} {s : Bytes} (hb : base ≤ 16) (h : NumeralText base w n s) (h' : NumeralText base w' n' s) :
    n = n' := numeral_unique hb h h'

example : blockIdString 0x2146444e = b!"PlayFrosting" ∧ blockIdString 0xabc = b!"Unknown (0x00000abc)" := by decide
example : algoString 0x0421 = b!"SigVerityRsaPkcs1V15WithSha256" ∧ algoString 0xabcde = b!"0xabcde" := by decide
example : levelString 34 = b!"V14_0_UPSIDE_DOWN_CAKE" ∧ levelString 20 = b!"20" ∧ levelString (-7) = b!"-7" := by decide

end Apk
