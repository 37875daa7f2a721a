import Verif.Model.Unmarshal
import Verif.Proofs.Asn1
/-! # Unmarshalling: no panics, locality, elements -/
namespace Apk

/-! ## Headers only look at their own bytes -/

theorem parseBase128Aux_local {k : Nat} {b : Bytes} {acc v : Nat} {rest : Bytes}
    (h : parseBase128Aux k b acc = .ok (v, rest)) :
    ∃ p, b = p ++ rest ∧ 1 ≤ p.length ∧ ∀ r, parseBase128Aux k (p ++ r) acc = .ok (v, r) := by
  induction k generalizing b acc with
  | zero => cases b <;> simp [parseBase128Aux] at h
  | succ k ih =>
    cases b with
    | nil => simp [parseBase128Aux] at h
    | cons x xs =>
      simp only [parseBase128Aux] at h
      split at h
      · rename_i hx
        split at h
        · simp at h
        · rename_i hv
          simp only [Except.ok.injEq, Prod.mk.injEq] at h
          obtain ⟨rfl, rfl⟩ := h
          refine ⟨[x], rfl, by simp, fun r => ?_⟩
          simp only [List.cons_append, List.nil_append, parseBase128Aux, if_pos hx, if_neg hv]
      · rename_i hx
        obtain ⟨p, rfl, hp, hl⟩ := ih h
        refine ⟨x :: p, rfl, by simp, fun r => ?_⟩
        simp only [List.cons_append, parseBase128Aux, if_neg hx]
        exact hl r

theorem parseLengthBytes_local {k acc : Nat} {b : Bytes} {n : Nat} {rest : Bytes}
    (h : parseLengthBytes k acc b = .ok (n, rest)) :
    ∃ p, b = p ++ rest ∧ ∀ r, parseLengthBytes k acc (p ++ r) = .ok (n, r) := by
  induction k generalizing acc b with
  | zero =>
    simp only [parseLengthBytes, Except.ok.injEq, Prod.mk.injEq] at h
    obtain ⟨rfl, rfl⟩ := h
    exact ⟨[], rfl, fun r => rfl⟩
  | succ k ih =>
    cases b with
    | nil => simp [parseLengthBytes] at h
    | cons x xs =>
      simp only [parseLengthBytes] at h
      split at h
      · simp at h
      · rename_i hx
        obtain ⟨p, rfl, hl⟩ := ih h
        refine ⟨x :: p, rfl, fun r => ?_⟩
        simp only [List.cons_append, parseLengthBytes, if_neg hx]
        exact hl r

theorem parseDerLength_local {b : Bytes} {n : Nat} {rest : Bytes} (h : parseDerLength b = .ok (n, rest)) :
    ∃ p, b = p ++ rest ∧ 1 ≤ p.length ∧ ∀ r, parseDerLength (p ++ r) = .ok (n, r) := by
  cases b with
  | nil => simp [parseDerLength] at h
  | cons x xs =>
    simp only [parseDerLength] at h
    split at h
    · rename_i hx
      simp only [Except.ok.injEq, Prod.mk.injEq] at h
      obtain ⟨rfl, rfl⟩ := h
      refine ⟨[x], rfl, by simp, fun r => ?_⟩
      simp only [List.cons_append, List.nil_append, parseDerLength, if_pos hx]
    · rename_i hx
      split at h
      · simp at h
      · rename_i hx2
        obtain ⟨p, rfl, hl⟩ := parseLengthBytes_local h
        refine ⟨x :: p, rfl, by simp, fun r => ?_⟩
        simp only [List.cons_append, parseDerLength, if_neg hx, if_neg hx2]
        exact hl r

theorem parseTagAndLength_local {b : Bytes} {t : TagLen} {rest : Bytes} (h : parseTagAndLength b = .ok (t, rest)) :
    ∃ p, b = p ++ rest ∧ 2 ≤ p.length ∧ ∀ r, parseTagAndLength (p ++ r) = .ok (t, r) := by
  cases b with
  | nil => simp [parseTagAndLength] at h
  | cons x xs =>
    simp only [parseTagAndLength] at h
    by_cases hx : x.toNat % 32 = 31
    · simp only [hx, if_true] at h
      split at h
      · simp at h
      · rename_i tag bs1 ht
        split at h
        · simp at h
        · rename_i n rest' hl
          simp only [Except.ok.injEq, Prod.mk.injEq] at h
          obtain ⟨rfl, rfl⟩ := h
          obtain ⟨p, rfl, hp, hpl⟩ := parseBase128Aux_local ht
          obtain ⟨q, rfl, hq, hql⟩ := parseDerLength_local hl
          refine ⟨x :: (p ++ q), by simp, by simp; omega, fun r => ?_⟩
          have e : parseBase128 (p ++ (q ++ r)) = .ok (tag, q ++ r) := hpl _
          simp only [List.cons_append, parseTagAndLength, hx, if_true, List.append_assoc, e, hql]
    · simp only [hx, if_false] at h
      split at h
      · simp at h
      · rename_i n rest' hl
        simp only [Except.ok.injEq, Prod.mk.injEq] at h
        obtain ⟨rfl, rfl⟩ := h
        obtain ⟨q, rfl, hq, hql⟩ := parseDerLength_local hl
        refine ⟨x :: q, by simp, by simp; omega, fun r => ?_⟩
        simp only [List.cons_append, parseTagAndLength, hx, if_false, hql]

/-! ## No panics -/

/-- Invariant of `fieldParameters` (common.go:89): an explicit field has a tag. -/
def FP.Ok (fp : FP) : Prop := fp.explicit = true → fp.tag ≠ none

theorem fpOk_ite {c : Prop} [Decidable c] {x y : FP} (hx : x.Ok) (hy : y.Ok) : (if c then x else y).Ok := by
  by_cases hc : c
  · rw [if_pos hc]; exact hx
  · rw [if_neg hc]; exact hy

theorem fpStep_ok {fp : FP} (h : fp.Ok) (part : Bytes) : (fpStep fp part).Ok := by
  unfold fpStep
  repeat' apply fpOk_ite
  all_goals first
    | exact h | exact fun h' => h h' | exact fun _ hn => Option.some_ne_none _ hn
    | (split <;> first | exact h | exact fun h' => h h' | exact fun _ hn => Option.some_ne_none _ hn)

theorem parseFP_ok (s : Bytes) : (parseFP s).Ok := by
  unfold parseFP
  generalize splitByte 44 s = l
  have h0 : FP.Ok {} := by intro h; cases h
  revert h0
  generalize ({} : FP) = fp
  induction l generalizing fp with
  | nil => exact fun h => h
  | cons x xs ih => exact fun h => ih _ (fpStep_ok h x)

theorem fieldHeader_total (u : Bool × Int × Bool) (isRaw isFlag : Bool) {fp : FP} (hfp : fp.Ok) (b : Bytes) :
    ∃ h, fieldHeader u isRaw isFlag fp b = .ok h := by
  unfold fieldHeader
  repeat' split
  all_goals first | exact ⟨_, rfl⟩ | exact absurd ‹fp.tag = none› (hfp ‹fp.explicit = true›)

theorem fieldWith_total {α : Type} (u : Bool × Int × Bool) (isRaw isFlag : Bool) (zero dflt sf : α) {fp : FP} (hfp : fp.Ok)
    (b : Bytes) {k : Int → TagLen → Bytes → Bytes → Bytes → Go (α × Except UE Bytes)}
    (hk : ∀ ut t inner rest full, ∃ r, k ut t inner rest full = .ok r) :
    ∃ r, fieldWith u isRaw isFlag zero dflt sf fp b k = .ok r := by
  unfold fieldWith
  split
  · exact ⟨_, rfl⟩
  · obtain ⟨h, hh⟩ := fieldHeader_total u isRaw isFlag hfp b
    rw [hh]
    cases h with
    | fail e => exact ⟨_, rfl⟩
    | absent => exact ⟨_, rfl⟩
    | flagSet r => exact ⟨_, rfl⟩
    | content ut t inner rest => exact hk _ _ _ _ _

theorem parseOid_total (b : Bytes) : ∃ r, parseOid b = .ok r := by
  rcases parseOid_sound b with ⟨e, h⟩ | ⟨o, h, _⟩ <;> exact ⟨_, h⟩

theorem setOnOk_total {α β : Type} (zero : β) (rest : Bytes) (wrap : α → β) (r : Except AE α) :
    ∃ x, setOnOk zero rest wrap r = .ok x := by cases r <;> exact ⟨_, rfl⟩

theorem primContent_total (env : AsnEnv) (ut : Int) (tl : TagLen) (inner rest full : Bytes) (t : Ty) :
    ∃ r, primContent env ut tl inner rest full t = .ok r := by
  obtain ⟨o, ho⟩ := parseOid_total inner
  cases t <;> simp only [primContent, ho] <;>
    first | exact ⟨_, rfl⟩ | exact setOnOk_total _ _ _ _ | (split <;> exact ⟨_, rfl⟩)

theorem parseAny_total (env : AsnEnv) (b : Bytes) : ∃ r, parseAny env b = .ok r := by
  unfold parseAny
  split
  · exact ⟨_, rfl⟩
  · rename_i t b1 _
    split
    · exact ⟨_, rfl⟩
    · obtain ⟨o, ho⟩ := parseOid_total (b1.take t.length)
      dsimp only
      rw [ho]
      repeat' split
      all_goals first | exact ⟨_, rfl⟩ | skip
      all_goals simp_all

theorem seqElems_total {α : Type} {f : Bytes → Go (α × Except UE Bytes)} (hf : ∀ b, ∃ r, f b = .ok r) (n : Nat) (b : Bytes) :
    ∃ r, seqElems f n b = .ok r := by
  induction n generalizing b with
  | zero => exact ⟨_, rfl⟩
  | succ n ih =>
    obtain ⟨⟨v, r⟩, h⟩ := hf b
    simp only [seqElems, h]
    cases r with
    | error e => exact ⟨_, rfl⟩
    | ok rest =>
      obtain ⟨r2, h2⟩ := ih rest
      simp only [h2]
      cases r2 <;> exact ⟨_, rfl⟩

theorem sliceContent_total {α : Type} (u : Option (Bool × Int × Bool)) {f : Bytes → Go (α × Except UE Bytes)}
    (hf : ∀ b, ∃ r, f b = .ok r) (inner rest : Bytes) : ∃ r, sliceContent u f inner rest = .ok r := by
  unfold sliceContent
  split
  · exact ⟨_, rfl⟩
  · split
    · exact ⟨_, rfl⟩
    · rename_i n _
      obtain ⟨r, h⟩ := seqElems_total hf n inner
      rw [h]
      cases r <;> exact ⟨_, rfl⟩

theorem parsePrim_total (env : AsnEnv) (t : Ty) {fp : FP} (hfp : fp.Ok) (b : Bytes) : ∃ r, parsePrim env t fp b = .ok r := by
  unfold parsePrim
  split
  · exact ⟨_, rfl⟩
  · exact fieldWith_total _ _ _ _ _ _ hfp _ (fun ut t' inner rest full => primContent_total env ut t' inner rest full t)

mutual
theorem parseField_total (env : AsnEnv) : (t : Ty) → (fp : FP) → fp.Ok → (b : Bytes) → ∃ r, parseField env t fp b = .ok r
  | .any, fp, _, b => by
    rw [parseField]
    by_cases hb : b = []
    · exact ⟨_, if_pos hb⟩
    · obtain ⟨r, hr⟩ := parseAny_total env b
      exact ⟨r, (if_neg hb).trans hr⟩
  | .struct raw fs, fp, h, b => by
    rw [parseField]
    refine fieldWith_total _ _ _ _ _ _ h _ (fun ut t inner rest full => ?_)
    obtain ⟨⟨v, r⟩, hr⟩ := parseFields_total env fs inner
    rw [hr]
    cases r <;> exact ⟨_, rfl⟩
  | .slice isSET elem, fp, h, b => by
    rw [parseField]
    refine fieldWith_total _ _ _ _ _ _ h _ (fun ut t inner rest full => ?_)
    exact sliceContent_total _ (fun b => parseField_total env elem {} (by intro h'; cases h') b) _ _
  | .rawValue, fp, h, b => by rw [parseField]; exact parsePrim_total env _ h b; all_goals simp
  | .oid, fp, h, b => by rw [parseField]; exact parsePrim_total env _ h b; all_goals simp
  | .bits, fp, h, b => by rw [parseField]; exact parsePrim_total env _ h b; all_goals simp
  | .time, fp, h, b => by rw [parseField]; exact parsePrim_total env _ h b; all_goals simp
  | .enumerated, fp, h, b => by rw [parseField]; exact parsePrim_total env _ h b; all_goals simp
  | .flag, fp, h, b => by rw [parseField]; exact parsePrim_total env _ h b; all_goals simp
  | .bigInt, fp, h, b => by rw [parseField]; exact parsePrim_total env _ h b; all_goals simp
  | .bool, fp, h, b => by rw [parseField]; exact parsePrim_total env _ h b; all_goals simp
  | .int, fp, h, b => by rw [parseField]; exact parsePrim_total env _ h b; all_goals simp
  | .int32, fp, h, b => by rw [parseField]; exact parsePrim_total env _ h b; all_goals simp
  | .octets, fp, h, b => by rw [parseField]; exact parsePrim_total env _ h b; all_goals simp
  | .str, fp, h, b => by rw [parseField]; exact parsePrim_total env _ h b; all_goals simp

theorem parseFields_total (env : AsnEnv) : (fs : Fields) → (b : Bytes) → ∃ r, parseFields env fs b = .ok r
  | .nil, b => ⟨_, by rw [parseFields]⟩
  | .cons tag t fs, b => by
    rw [parseFields]
    obtain ⟨⟨v, r⟩, hr⟩ := parseField_total env t (parseFP tag) (parseFP_ok tag) b
    rw [hr]
    cases r with
    | error e => exact ⟨_, rfl⟩
    | ok rest =>
      obtain ⟨⟨vs, r2⟩, h2⟩ := parseFields_total env fs rest
      simp only [h2]
      exact ⟨_, rfl⟩
end

theorem unmarshalRaw_total (env : AsnEnv) (t : Ty) (b : Bytes) : ∃ r, unmarshalRaw env t b = .ok r :=
  parseField_total env t _ (parseFP_ok []) b

end Apk
