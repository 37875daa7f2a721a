import Verif.Proofs.Strings
import Verif.Props.Ranges
/-! # C47: renderings are faithful -/
namespace Apk

/-! ## Specification -/

/-- The `String` method of the capability flags returns `s` (for some depth of nested calls). -/
def CapsReturns (c : Nat) (s : Bytes) : Prop := ∃ depth, capsEval depth c = some s

/-- The five capabilities, by bit. -/
inductive CapIs : Nat → Bytes → Prop
  | installedData : CapIs 0 (b!"InstalledData")
  | sharedUserId : CapIs 1 (b!"SharedUserId")
  | permission : CapIs 2 (b!"Permission")
  | rollback : CapIs 3 (b!"Rollback")
  | auth : CapIs 4 (b!"Auth")

/-- The words of a text, separated by a bar. -/
inductive BarWords : Bytes → List Bytes → Prop
  | one {w} : (124 : UInt8) ∉ w → BarWords w [w]
  | more {w t ws} : (124 : UInt8) ∉ w → BarWords t ws → BarWords (w ++ 124 :: t) (w :: ws)

/-- A capability beyond the five named ones is set (bit 31, the sign, does not count). -/
def UnknownCap (c : Nat) : Prop := ∃ i, 5 ≤ i ∧ i < 31 ∧ c.testBit i = true

theorem barWords_join : ∀ (l : List Bytes), l ≠ [] → (∀ w ∈ l, (124 : UInt8) ∉ w) → BarWords (joinWith (b!"|") l) l := by
  intro l
  induction l with
  | nil => intro h; exact absurd rfl h
  | cons w l ih =>
    intro _ h
    cases l with
    | nil => exact .one (h w (by simp))
    | cons w' l =>
      have := ih (by simp) (fun x hx => h x (by simp [hx]))
      have h2 := BarWords.more (h w (by simp)) this
      rw [joinWith_cons2]
      simpa using h2

theorem capIs_mget {i : Nat} {w : Bytes} : CapIs i w ↔ mget capNames i = some w := by
  constructor
  · intro h; cases h <;> rfl
  · intro h
    by_cases hi : i < 5
    · rcases (show i = 0 ∨ i = 1 ∨ i = 2 ∨ i = 3 ∨ i = 4 by omega) with rfl | rfl | rfl | rfl | rfl <;>
        (have h2 := Option.some.inj h; subst h2)
      · exact .installedData
      · exact .sharedUserId
      · exact .permission
      · exact .rollback
      · exact .auth
    · rw [capNames_none (by omega)] at h; cases h

/-! ## Theorems -/

/-- **C47** (false of the code for the capabilities): with an unknown capability set, the method never returns: no depth of nested calls is
    enough, so the program dies of stack exhaustion. -/
theorem C47_caps_unknown_never_returns {c : Nat} (h : UnknownCap c) : ∀ s, ¬ CapsReturns c s := by
  obtain ⟨i, h1, h2, h3⟩ := h
  rintro s ⟨d, hd⟩
  rw [capsEval_diverges d c i h1 h2 h3] at hd
  cases hd

/-- **C47**: without unknown capabilities the method returns, one text only: "None" if no capability is set, otherwise the names of
    exactly those that are set, separated by bars, in the order of their bits. -/
theorem C47_caps_text_partial {c : Nat} (h : ¬ UnknownCap c) : ∃ s, CapsReturns c s ∧ (∀ t, CapsReturns c t → t = s) ∧
    ((s = b!"None" ∧ ∀ i < 5, c.testBit i = false) ∨
     ∃ ws, BarWords s ws ∧ ws ≠ [] ∧ (∀ w, w ∈ ws ↔ ∃ i, CapIs i w ∧ c.testBit i = true) ∧
       ws.Sublist [b!"InstalledData", b!"SharedUserId", b!"Permission", b!"Rollback", b!"Auth"]) := by
  have hno : ∀ i, 5 ≤ i → i < 31 → c.testBit i = false := by
    intro i h1 h2
    cases hb : c.testBit i with
    | false => rfl
    | true => exact absurd ⟨i, h1, h2, hb⟩ h
  have hv := capsEval_named c hno
  refine ⟨_, ⟨1, hv 0⟩, ?_, ?_⟩
  · rintro t ⟨d, hd⟩
    cases d with
    | zero => cases hd
    | succ d => rw [hv d] at hd; exact (Option.some.inj hd).symm
  · by_cases hz : ((List.range 5).filter (fun i => c.testBit i)).length = 0
    · left
      rw [if_neg (by simpa using hz)]
      refine ⟨rfl, ?_⟩
      have := List.length_eq_zero_iff.1 hz
      rw [List.filter_eq_nil_iff] at this
      intro i hi
      have := this i (List.mem_range.2 hi)
      simpa using this
    · right
      rw [if_pos hz]
      refine ⟨_, barWords_join _ ?_ ?_, ?_, ?_, List.filter_sublist.map (fun i => (mget capNames i).getD [])⟩
      · intro hn; apply hz; simpa using hn
      · intro w hw
        obtain ⟨i, hi, rfl⟩ := List.mem_map.1 hw
        have hi5 := List.mem_range.1 (List.mem_filter.1 hi).1
        have key : ∀ j : Fin 5, (124 : UInt8) ∉ (mget capNames j.1).getD [] := by decide
        exact key ⟨i, hi5⟩
      · intro hn; apply hz; simpa using hn
      · intro w
        constructor
        · intro hw
          obtain ⟨i, hi, rfl⟩ := List.mem_map.1 hw
          obtain ⟨h1, h2⟩ := List.mem_filter.1 hi
          have key : ∀ j : Fin 5, (mget capNames j.1).isSome = true := by decide
          obtain ⟨s, hs⟩ := Option.isSome_iff_exists.1 (key ⟨i, List.mem_range.1 h1⟩)
          exact ⟨i, capIs_mget.2 (by simp only at hs; rw [hs]; rfl), h2⟩
        · rintro ⟨i, hi, hb⟩
          have hi5 : i < 5 := by cases hi <;> omega
          refine List.mem_map.2 ⟨i, List.mem_filter.2 ⟨List.mem_range.2 hi5, hb⟩, ?_⟩
          rw [capIs_mget.1 hi]; rfl

theorem barWords_unique {s : Bytes} {ws vs : List Bytes} (h : BarWords s ws) (h2 : BarWords s vs) : ws = vs := by
  have key : ∀ {s : Bytes} {ws : List Bytes}, BarWords s ws → s = joinWith (b!"|") ws ∧ ws ≠ [] ∧ ∀ w ∈ ws, (124 : UInt8) ∉ w := by
    intro s ws h
    induction h with
    | one hw => exact ⟨rfl, by simp, by simpa using hw⟩
    | @more w t ws hw _ ih =>
      obtain ⟨h1, h2, h3⟩ := ih
      refine ⟨?_, by simp, ?_⟩
      · cases ws with
        | nil => exact absurd rfl h2
        | cons v ws => rw [joinWith_cons2, h1]; simp
      · intro x hx
        rcases List.mem_cons.1 hx with rfl | hx
        · exact hw
        · exact h3 x hx
  obtain ⟨a1, a2, a3⟩ := key h
  obtain ⟨b1, b2, b3⟩ := key h2
  exact joinWith_inj a3 b3 a2 b2 (by rw [← a1]; exact b1)

/-- **C47**: the text determines the capabilities: two values with the same text have the same five flags. -/
theorem C47_caps_injective {a b : Nat} {s : Bytes} (ha : CapsReturns a s) (hb : CapsReturns b s) : ∀ i < 31, a.testBit i = b.testBit i := by
  have hna : ¬ UnknownCap a := fun h => C47_caps_unknown_never_returns h s ha
  have hnb : ¬ UnknownCap b := fun h => C47_caps_unknown_never_returns h s hb
  intro i hi
  by_cases hi5 : 5 ≤ i
  · have h1 : a.testBit i = false := by
      cases h : a.testBit i with
      | false => rfl
      | true => exact absurd ⟨i, hi5, hi, h⟩ hna
    have h2 : b.testBit i = false := by
      cases h : b.testBit i with
      | false => rfl
      | true => exact absurd ⟨i, hi5, hi, h⟩ hnb
    rw [h1, h2]
  · obtain ⟨s1, ra, ua, ta⟩ := C47_caps_text_partial hna
    obtain ⟨s2, rb, ub, tb⟩ := C47_caps_text_partial hnb
    have e1 := ua s ha
    have e2 := ub s hb
    subst e1; subst e2
    obtain ⟨w, hw⟩ : ∃ w, CapIs i w := by
      rcases (show i = 0 ∨ i = 1 ∨ i = 2 ∨ i = 3 ∨ i = 4 by omega) with rfl | rfl | rfl | rfl | rfl
      · exact ⟨_, .installedData⟩
      · exact ⟨_, .sharedUserId⟩
      · exact ⟨_, .permission⟩
      · exact ⟨_, .rollback⟩
      · exact ⟨_, .auth⟩
    have huniq : ∀ j, CapIs j w → j = i := by
      intro j hj
      exact table_inj capNames (by decide) (capIs_mget.1 hj) (capIs_mget.1 hw)
    have hnone : ∀ ws, BarWords (b!"None") ws → ∀ w ∈ ws, ∀ i, ¬ CapIs i w := by
      intro ws hws w hw i hc
      have := barWords_unique hws (.one (w := b!"None") (by decide))
      rw [this] at hw
      rw [List.mem_singleton.1 hw] at hc
      cases hc
    rcases ta with ⟨na, fa⟩ | ⟨ws, wa, nea, ma, _⟩ <;> rcases tb with ⟨nb, fb⟩ | ⟨vs, wb, neb, mb, _⟩
    · rw [fa i (by omega), fb i (by omega)]
    · rw [na] at wb
      obtain ⟨x, hx⟩ := List.exists_mem_of_ne_nil vs neb
      obtain ⟨j, hj, _⟩ := (mb x).1 hx
      exact absurd hj (hnone vs wb x hx j)
    · rw [nb] at wa
      obtain ⟨x, hx⟩ := List.exists_mem_of_ne_nil ws nea
      obtain ⟨j, hj, _⟩ := (ma x).1 hx
      exact absurd hj (hnone ws wa x hx j)
    · have heq := barWords_unique wa wb
      subst heq
      have hiff : a.testBit i = true ↔ b.testBit i = true := by
        constructor
        · intro h
          obtain ⟨j, hj, hjb⟩ := (mb w).1 ((ma w).2 ⟨i, hw, h⟩)
          rw [huniq j hj] at hjb; exact hjb
        · intro h
          obtain ⟨j, hj, hjb⟩ := (ma w).1 ((mb w).2 ⟨i, hw, h⟩)
          rw [huniq j hj] at hjb; exact hjb
      cases h1 : a.testBit i <;> cases h2 : b.testBit i <;> simp_all

/-- **C47**: distinct block ids have distinct texts. -/
theorem C47_block_id_injective (a b : Nat) : blockIdString a = blockIdString b → a = b := blockIdString_inj

/-- **C47**: distinct signature algorithm ids have distinct texts. -/
theorem C47_algorithm_injective (a b : Nat) : algoString a = algoString b → a = b := algoString_inj

/-- **C47**: distinct API levels have distinct texts. -/
theorem C47_level_injective (a b : Int) : levelString a = levelString b → a = b := levelString_inj

/-! ## Cases -/

example : CapsReturns 19 (b!"InstalledData|SharedUserId|Auth") := ⟨1, by decide⟩
example : CapsReturns 0 (b!"None") := ⟨1, by decide⟩
example : ¬ UnknownCap 19 := by
  rintro ⟨i, h1, h2, h3⟩
  have : ∀ j : Fin 31, 5 ≤ j.1 → Nat.testBit 19 j.1 = false := by decide
  have h4 := this ⟨i, h2⟩ h1
  simp only at h4
  rw [h4] at h3; cases h3
example : UnknownCap 32 := ⟨5, by decide, by decide, by decide⟩
example : blockIdString 0xdeadbeef = b!"Unknown (0xdeadbeef)" := by decide +kernel
example : blockIdString 0xbeef = b!"Unknown (0x0000beef)" := by decide +kernel
example : blockIdString 0x7109871a = b!"SchemeV2Signature" := by decide
example : algoString 0x0105 = b!"0x0105" := by decide +kernel
example : levelString 20 = b!"20" := by decide +kernel
example : levelString (-17) = b!"-17" := by decide +kernel
example : levelString 28 = b!"V9_0_Pie" := by decide

namespace Toy
/-- A lineage attribute whose second node has an unknown capability (bit 5). -/
def lineageUnknown : Bytes :=
  let sd1 := lp (0xC0 :: k1) ++ leBytes 4 0
  let sd2 := lp (0xC0 :: k2) ++ leBytes 4 0x0103
  leBytes 4 0x3ba06f8c ++ leBytes 4 1 ++ lpSeq [lp sd1 ++ leBytes 4 7 ++ leBytes 4 0x0103 ++ lp [],
    lp sd2 ++ leBytes 4 39 ++ leBytes 4 0x0103 ++ lp (sign k1 sd2)]
/-- An APK with that lineage. -/
def psUnknownCap : List (Nat × Bytes) :=
  [(idV3, block [v3signer k2 digest 31 0x7fffffff 31 0x7fffffff [lineageUnknown], v3signer k1 digest 28 30 28 30 []])]
end Toy

/-- **C47**: the unknown capability comes from the file, which is accepted: rendering the reported lineage of this APK never returns. -/
theorem C47_accepted_lineage_cannot_be_rendered : ∃ out res l, Toy.run Toy.psUnknownCap 24 35 = .ok out ∧ out.err = none ∧
    out.res = some res ∧ res.core.lineage = some l ∧ ∃ n ∈ l.nodes, ∀ s, ¬ CapsReturns n.flags s := by
  obtain ⟨out, h1, h2⟩ := Toy.of_check (x := Toy.run Toy.psUnknownCap 24 35) (P := fun o =>
    decide (o.err = none) && decide (o.res.map (fun r => r.core.lineage.map (fun l => l.nodes.map (·.flags))) = some (some [7, 39]))) (by decide +kernel)
  simp only [Bool.and_eq_true, decide_eq_true_eq] at h2
  obtain ⟨he, h3⟩ := h2
  cases hr : out.res with
  | none => rw [hr] at h3; cases h3
  | some res =>
    rw [hr] at h3
    simp only [Option.map_some, Option.some.injEq] at h3
    cases hl : res.core.lineage with
    | none => rw [hl] at h3; cases h3
    | some l =>
      rw [hl] at h3
      simp only [Option.map_some, Option.some.injEq] at h3
      have hm : 39 ∈ l.nodes.map (·.flags) := by rw [h3]; simp
      obtain ⟨n, hn, hf⟩ := List.mem_map.1 hm
      refine ⟨out, res, l, h1, he, hr, hl, n, hn, ?_⟩
      rw [hf]
      exact C47_caps_unknown_never_returns ⟨5, by decide, by decide, by decide⟩

end Apk
