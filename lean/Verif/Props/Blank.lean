import Verif.Spec.Blank
import Verif.Props.Der
import Verif.Props.Name
import Verif.Props.Rendering
/-! # C54: optional fields that are not there; C64: the text of a type -/
namespace Apk
open Spec

mutual
theorem blank_iff : ∀ (t : Ty) (v : t.interp), Blank t v ↔ v = t.zero
  | .rawValue, ⟨a, b, c, d, e⟩ => by
    show (a = 0 ∧ b = 0 ∧ c = false ∧ d = [] ∧ e = []) ↔ (⟨a, b, c, d, e⟩ : RawVal) = ⟨0, 0, false, [], []⟩
    rw [RawVal.mk.injEq]
  | .oid, v => Iff.rfl
  | .bits, ⟨a, b⟩ => by
    show (a = [] ∧ b = 0) ↔ (⟨a, b⟩ : BitStr) = ⟨[], 0⟩
    rw [BitStr.mk.injEq]
  | .time, v => by
    show v = unixUtc ⟨1, 1, 1, 0, 0, 0⟩ ↔ v = zeroTime
    rw [show unixUtc ⟨1, 1, 1, 0, 0, 0⟩ = zeroTime from by decide +kernel]
  | .enumerated, v => Iff.rfl
  | .flag, v => Iff.rfl
  | .bigInt, v => Iff.rfl
  | .bool, v => Iff.rfl
  | .int, v => Iff.rfl
  | .int32, v => Iff.rfl
  | .octets, v => Iff.rfl
  | .str, v => Iff.rfl
  | .any, v => Iff.rfl
  | .struct r fs, (v1, v2) => by
    show (v1 = [] ∧ BlankAll fs v2) ↔ ((v1, v2) : Bytes × fs.interp) = ([], fs.zero)
    rw [Prod.mk.injEq, blankAll_iff fs v2]
  | .slice _ _, v => Iff.rfl
theorem blankAll_iff : ∀ (fs : Fields) (v : fs.interp), BlankAll fs v ↔ v = fs.zero
  | .nil, v => ⟨fun _ => rfl, fun _ => trivial⟩
  | .cons _ t fs, (v1, v2) => by
    show (Blank t v1 ∧ BlankAll fs v2) ↔ ((v1, v2) : t.interp × fs.interp) = (t.zero, fs.zero)
    rw [Prod.mk.injEq, blank_iff t v1, blankAll_iff fs v2]
end

theorem reads_absent_zero {env : AsnEnv} {t : Ty} {fp : FP} (hd : fp.dflt = none) {b : Bytes} (ha : t ≠ .any) (h : Absent t fp b) :
    Reads env t fp t.zero b b := by
  have prim : AbsentValue fp t t.zero → PrimReads env t fp t.zero b b := fun k => .inr (.inl ⟨h, k, rfl⟩)
  cases t
  case any => exact absurd rfl ha
  case struct raw fs => rw [Reads]; exact .inr ⟨h, rfl, rfl⟩
  case slice s e => rw [Reads]; exact .inr ⟨h, rfl, rfl⟩
  all_goals refine (reads_prim (by simp) (by simp) (by simp)).2 (prim ?_)
  all_goals first
    | exact rfl
    | (show (0 : Int) = fp.dflt.getD 0; rw [hd]; rfl)
    | (show (0 : Int) = wrap32 (fp.dflt.getD 0); rw [hd]; rfl)

/-- C54: an optional field that is not there takes up no bytes and reads as the blank value of its type (unless it is a number
    with a default). -/
theorem C54_absent_is_blank (env : AsnEnv) (t : Ty) (tag b : Bytes) (hd : (parseFP tag).dflt = none) (ha : t ≠ .any)
    (h : Absent t (parseFP tag) b) (v : t.interp) : parseField env t (parseFP tag) b = .ok (v, .ok b) ↔ Blank t v := by
  have k := (parseField_iff env t (parseFP tag) (parseFP_ok _) b _ b).2 (reads_absent_zero hd ha h)
  rw [k, blank_iff]
  constructor
  · intro e
    exact (congrArg Prod.fst (Except.ok.inj e)).symm
  · rintro rfl
    rfl

/-- C54: the extensions that are missing from a certificate, and a missing time. -/
theorem C54_absent_example (env : AsnEnv) :
    parseField env .time (parseFP (b!"optional")) [] = .ok ((-62135596800 : Int), .ok []) ∧
    Absent .time (parseFP (b!"optional")) [] ∧ Blank .time (-62135596800 : Int) ∧
    Blank (.struct false (.cons [] .bigInt .nil)) ([], none, ()) := by
  have h : Absent .time (parseFP (b!"optional")) [] := .empty (by decide)
  have hb : Blank .time (-62135596800 : Int) := (blank_iff .time _).2 rfl
  exact ⟨(C54_absent_is_blank env .time _ [] (by decide) (by simp) h _).2 hb, h, hb, ⟨rfl, rfl, trivial⟩⟩

/-! ## The text of a type -/

theorem hexDigit_dec : ∀ d : Fin 10, UInt8.ofNat (48 + d.val) = hexDigit d.val := by decide

theorem decAux_eq : ∀ (fuel n k : Nat) (acc : Bytes), n < fuel → n ≤ k → decAux fuel n acc = ((digitsRev 10 k n).reverse).map hexDigit ++ acc := by
  intro fuel
  induction fuel with
  | zero => intro n k acc h; omega
  | succ fuel ih =>
    intro n k acc h hk
    rw [decAux]
    by_cases h10 : n < 10
    · rw [if_pos h10, hexDigit_dec ⟨n, h10⟩]
      have : digitsRev 10 k n = [n] := by
        cases k with
        | zero => simp [digitsRev]; omega
        | succ k => rw [digitsRev, if_pos h10]
      rw [this]; rfl
    · rw [if_neg h10]
      obtain ⟨k, rfl⟩ : ∃ j, k = j + 1 := ⟨k - 1, by omega⟩
      rw [ih (n / 10) k _ (by omega) (by omega), digitsRev, if_neg h10, hexDigit_dec ⟨n % 10, by omega⟩]
      simp

theorem dotted_join : ∀ o : List Nat, dotted o = [46].intercalate (o.map decBytes)
  | [] => rfl
  | [a] => by simp [dotted, List.intercalate]
  | a :: b :: r => by
    show decBytes a ++ 46 :: dotted (b :: r) = _
    rw [dotted_join (b :: r)]
    simp [List.intercalate_cons_cons]

/-- C64: the type in the text of a name is written as decimal numbers with dots between them. -/
theorem C64_type_text (o : List Nat) : ∃ ts : List Bytes, ts.length = o.length ∧ (∀ i (h : i < o.length) (h' : i < ts.length), NumeralText 10 1 o[i] ts[i]) ∧
    dotted o = [46].intercalate ts := by
  refine ⟨o.map decBytes, by simp, fun i h h' => ?_, dotted_join o⟩
  rw [List.getElem_map]
  have := decAux_eq (o[i] + 1) o[i] o[i] [] (by omega) (by omega)
  rw [List.append_nil] at this
  show NumeralText 10 1 o[i] (decAux (o[i] + 1) o[i] [])
  rw [this]
  exact decDigits_text _

/-- C64: as in the common name. -/
theorem C64_type_text_example : dotted [2, 5, 4, 3] = b!"2.5.4.3" ∧ dotted [1, 2, 840, 113549] = b!"1.2.840.113549" := by decide

end Apk
