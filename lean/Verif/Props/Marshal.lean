import Verif.Proofs.MarshalFits
import Verif.Model.Pkcs7
import Verif.Props.Time
import Verif.Props.Utf
/-!
# C75: what is written is read back

`Marshal` of internal/asn1andr (and of encoding/asn1), followed by `Unmarshal`, for every type built from the supported ones.
-/
namespace Apk
open Spec

theorem parseMP_nil : parseMP [] = {} := by decide

/-- C75: a value that was written is read back as the same value, with nothing left over. `Fits` (in `Spec/Marshal`) says which
    values; the theorems below show for each of its conditions that it is needed. -/
theorem C75_read_back {env : AsnEnv} {menv : MarEnv} {t : Ty} {v : t.interp} {b : Bytes} (h : marshal menv t v = .ok b) (hl : b.length < 2 ^ 31)
    (hf : Fits env menv t {} v []) : ∃ w, unmarshalRaw env t b = .ok (w, .ok []) ∧ Same menv.sortSets t false v w := by
  rw [marshal, parseMP_nil] at h
  obtain ⟨w, hr, hs⟩ := Mar.makeField_reads env menv t {} Mar.empty_ok v b [] h hl hf
  rw [List.append_nil] at hr
  exact ⟨w, (C54_accepts_exactly_the_grammar env t b w []).2 hr, hs⟩

/-- C75: also with other bytes after it, which are handed back. -/
theorem C75_read_back_before {env : AsnEnv} {menv : MarEnv} {t : Ty} {v : t.interp} {b : Bytes} (h : marshal menv t v = .ok b) (hl : b.length < 2 ^ 31)
    (rest : Bytes) (hf : Fits env menv t {} v rest) : ∃ w, unmarshalRaw env t (b ++ rest) = .ok (w, .ok rest) ∧ Same menv.sortSets t false v w := by
  rw [marshal, parseMP_nil] at h
  obtain ⟨w, hr, hs⟩ := Mar.makeField_reads env menv t {} Mar.empty_ok v b rest h hl hf
  exact ⟨w, (C54_accepts_exactly_the_grammar env t _ w rest).2 hr, hs⟩

/-- C75: values with the same encoding are the same value. -/
theorem C75_told_apart {env : AsnEnv} {menv : MarEnv} {t : Ty} {v v' : t.interp} {b : Bytes} (h : marshal menv t v = .ok b) (h' : marshal menv t v' = .ok b)
    (hl : b.length < 2 ^ 31) (hf : Fits env menv t {} v []) (hf' : Fits env menv t {} v' []) :
    ∃ w, Same menv.sortSets t false v w ∧ Same menv.sortSets t false v' w := by
  obtain ⟨w, hw, hs⟩ := C75_read_back h hl hf
  obtain ⟨w', hw', hs'⟩ := C75_read_back h' hl hf'
  rw [hw] at hw'
  have e := congrArg Prod.fst (Except.ok.inj hw')
  dsimp only at e
  subst e
  exact ⟨w, hs, hs'⟩

/-- Times written in UTC (`encodeTime`), as seconds since 1970; `civilOf` splits them into the calendar fields. -/
def utcMarEnv (sortSets : Bool) (civilOf : Int → Option Civil) : MarEnv where
  sortSets := sortSets
  utf8Valid := goUtf8Valid
  timeBytes := fun g t => (civilOf t).bind (fun c => encodeTime g ⟨c, 0⟩)

/-- C75: the condition on times is met by UTC times: every time that can be written is read back, unless an implicit tag hides that it is a
    GeneralizedTime. -/
theorem C75_utc_times {te : TimeEnv} {utf16 : List Nat → Bytes} {civilOf : Int → Option Civil}
    (hciv : ∀ t c, civilOf t = some c → RealCivil c ∧ unixUtc c = t) (s : Bool) (mp : MP) (t : Int)
    (hk : mp.hidesKind → mp.timeType ≠ 24 ∧ ∀ c, civilOf t = some c → 1950 ≤ c.year ∧ c.year < 2050) :
    LeafFits ⟨goUtf8Valid, utf16, goUtcTime te, goGenTime⟩ (utcMarEnv s civilOf) mp .time t := by
  intro tag b h
  have h : (civilOf t).bind (fun c => encodeTime (decide (mp.timeType = 24)) ⟨c, 0⟩) = some (tag, b) := h
  cases hc : civilOf t with
  | none => rw [hc] at h; cases h
  | some c =>
    rw [hc] at h
    have h : encodeTime (decide (mp.timeType = 24)) ⟨c, 0⟩ = some (tag, b) := h
    obtain ⟨hr, hu⟩ := hciv t c hc
    obtain ⟨h24, h23⟩ := C67_read_back_partial hr (t := ⟨c, 0⟩) (by show (0 : Int).natAbs < 90000; decide) (by show (60 : Int) ∣ 0; exact ⟨0, rfl⟩) h
    have e : unixUtc c - (0 : Int) = t := by rw [hu, Int.sub_zero]
    by_cases hg : (decide (mp.timeType = 24) || outsideUTCRange ⟨c, 0⟩) = true
    · rw [encodeTime, if_pos hg] at h
      obtain ⟨x, _, hx⟩ := Option.map_eq_some_iff.1 h
      have ht : tag = 24 := (congrArg Prod.fst hx).symm
      clear hx
      refine .inr ⟨ht, ?_, ?_⟩
      · intro hh
        obtain ⟨h1, h2⟩ := hk hh
        have h2 := h2 c hc
        rw [Bool.or_eq_true, decide_eq_true_eq] at hg
        rcases hg with h | h
        · exact h1 h
        · have h : c.year < 1950 ∨ 2050 ≤ c.year := of_decide_eq_true h
          omega
      · exact (h24 ht).trans (congrArg some e)
    · rw [encodeTime, if_neg hg] at h
      obtain ⟨x, _, hx⟩ := Option.map_eq_some_iff.1 h
      have ht : tag = 23 := (congrArg Prod.fst hx).symm
      exact .inl ⟨ht, (h23 ht (.inl rfl) te).trans (congrArg some e)⟩

/-! ## What does not survive -/

/-- An environment without times, for the examples. -/
def asnEnv0 : AsnEnv := ⟨goUtf8Valid, fun _ => [], fun _ => none, fun _ => none⟩
def marEnv0 : MarEnv := ⟨false, goUtf8Valid, fun _ _ => none⟩

/-- C75: an explicit private tag is written with the class private and read with the class context specific. -/
theorem C75_explicit_private_lost :
    ∃ b, makeField marEnv0 .int (parseMP (b!"explicit,private,tag:1")) (5 : Int) = .ok b ∧
      parseField asnEnv0 .int (parseFP (b!"explicit,private,tag:1")) b = .ok ((0 : Int), .error .explicitMismatch) :=
  ⟨[0xE1, 3, 2, 1, 5], by rfl, by rfl⟩

/-- C75: with both `application` and `private`, writing uses the former and reading the latter. -/
theorem C75_application_private_lost :
    ∃ b, makeField marEnv0 .int (parseMP (b!"application,private,tag:1")) (5 : Int) = .ok b ∧
      parseField asnEnv0 .int (parseFP (b!"application,private,tag:1")) b = .ok ((0 : Int), .error .tagMismatch) :=
  ⟨[0x41, 1, 5], by rfl, by rfl⟩

/-- C75: a string that is not UTF-8 is written for a `utf8` field and cannot be read. -/
theorem C75_invalid_utf8_written :
    ∃ b, makeField marEnv0 .str (parseMP (b!"utf8")) ([0xFF] : Bytes) = .ok b ∧
      parseField asnEnv0 .str (parseFP (b!"utf8")) b = .ok (([] : Bytes), .error .utf8String) :=
  ⟨[12, 1, 0xFF], by rfl, by rfl⟩

/-- C75: an ENUMERATED value beyond 32 bits is written and cannot be read. -/
theorem C75_large_enumerated_written :
    ∃ b, marshal marEnv0 .enumerated (2147483648 : Int) = .ok b ∧ unmarshalRaw asnEnv0 .enumerated b = .ok ((0 : Int), .error (.prim .integerTooLarge)) :=
  ⟨[10, 5, 0, 128, 0, 0, 0], by rfl, by rfl⟩

/-- C75: a flag that is not set is written and read back as set, unless it is optional. -/
theorem C75_flag_turns_true :
    ∃ b, marshal marEnv0 .flag false = .ok b ∧ unmarshalRaw asnEnv0 .flag b = .ok (true, .ok []) :=
  ⟨[1, 0], by rfl, by rfl⟩

/-- C75: an optional explicit field that is left out before a last field without contents: the struct that was written cannot be read. -/
theorem C75_explicit_before_empty_lost :
    ∃ b, marshal marEnv0 (.struct false (.cons (b!"optional,explicit,tag:0") .int (.cons [] .octets .nil))) (([] : Bytes), (0 : Int), ([] : Bytes), ()) = .ok b ∧
      unmarshalRaw asnEnv0 (.struct false (.cons (b!"optional,explicit,tag:0") .int (.cons [] .octets .nil))) b =
        .ok ((([] : Bytes), (0 : Int), ([] : Bytes), ()), .error .explicitNoChild) :=
  ⟨[48, 2, 4, 0], by rfl, by rfl⟩

/-- C75: a RawValue is written as it is, whatever tag its field has. -/
theorem C75_raw_value_ignores_tag :
    ∃ b, marshal marEnv0 (.struct false (.cons (b!"tag:3") .rawValue .nil)) (([] : Bytes), (⟨0, 4, false, [7], []⟩ : RawVal), ()) = .ok b ∧
      unmarshalRaw asnEnv0 (.struct false (.cons (b!"tag:3") .rawValue .nil)) b = .ok ((([] : Bytes), ({} : RawVal), ()), .error .tagMismatch) :=
  ⟨[48, 3, 4, 1, 7], by rfl, by rfl⟩

/-! ## A case -/

/-- A struct with an object identifier, an optional integer with an explicit tag, a set of integers and a UTF8String. -/
def exTy75 : Ty := .struct false (.cons [] .oid (.cons (b!"optional,explicit,tag:0") .int (.cons (b!"set") (.slice false .int) (.cons (b!"utf8") .str .nil))))
def exVal75 (n : Int) : exTy75.interp := (([] : Bytes), ([1, 2, 840] : List Nat), n, ([300, 5] : List Int), ([0xC3, 0xA4] : Bytes), ())

theorem exOid75 : ValidOid [1, 2, 840] := by refine ⟨by decide, by decide, by decide, ?_⟩; decide

/-- The rest of the fields of the example fit, whatever sorting. -/
theorem exRest75 (s : Bool) : FitsAll asnEnv0 ⟨s, goUtf8Valid, fun _ _ => none⟩ (.cons (b!"set") (.slice false .int) (.cons (b!"utf8") .str .nil))
    (([300, 5] : List Int), ([0xC3, 0xA4] : Bytes), ()) := by
  refine Mar.fitsAll_cons _ (fun rest _ => ?_) (Mar.fitsAll_cons _ (fun rest _ => ?_) (Mar.fitsAll_nil _))
  · refine Mar.fits_slice_intro _ (Mar.omits_required rfl rfl _ _) ⟨by decide, by decide⟩ (by simp) (fun x hx r => ?_)
    refine Mar.fits_leaf_intro (by simp [Mar.IsLeaf]) (Mar.omits_plain _ _) Mar.symmetric_plain ?_
    have hall : ∀ y ∈ ([300, 5] : List Int), IsInt64 y := by
      intro y hy
      simp only [List.mem_cons, List.not_mem_nil, or_false] at hy
      unfold IsInt64
      omega
    exact hall x hx
  · refine Mar.fits_leaf_intro (by simp [Mar.IsLeaf]) (Mar.omits_required rfl rfl _ _) ⟨by decide, by decide⟩ ?_
    exact ⟨fun _ => by decide +kernel, rfl, by decide⟩

/-- The hypotheses of `C75_read_back` hold with the optional field written … -/
theorem exFits75 (s : Bool) : Fits asnEnv0 ⟨s, goUtf8Valid, fun _ _ => none⟩ exTy75 {} (exVal75 7) [] := by
  refine Mar.fits_struct_intro _ (Mar.omits_plain _ _) Mar.symmetric_plain (.inl rfl) (Mar.fitsAll_cons _ (fun rest _ => ?_) (Mar.fitsAll_cons _ (fun rest _ => ?_) (exRest75 s)))
  · exact Mar.fits_leaf_intro (by simp [Mar.IsLeaf]) (Mar.omits_required rfl rfl _ _) ⟨by decide, by decide⟩ exOid75
  · exact Mar.fits_leaf_intro (by simp [Mar.IsLeaf]) (by rfl) ⟨by decide, by decide⟩ (by show IsInt64 7; unfold IsInt64; omega)

/-- … and left out, because the set after it cannot be mistaken for it. -/
theorem exFits75_absent (s : Bool) : Fits asnEnv0 ⟨s, goUtf8Valid, fun _ _ => none⟩ exTy75 {} (exVal75 0) [] := by
  refine Mar.fits_struct_intro _ (Mar.omits_plain _ _) Mar.symmetric_plain (.inl rfl) (Mar.fitsAll_cons _ (fun rest _ => ?_) (Mar.fitsAll_cons _ (fun rest hm => ?_) (exRest75 s)))
  · exact Mar.fits_leaf_intro (by simp [Mar.IsLeaf]) (Mar.omits_required rfl rfl _ _) ⟨by decide, by decide⟩ exOid75
  · refine Mar.fits_leaf_absent (by simp [Mar.IsLeaf]) (by rfl) ?_
    obtain ⟨r, hr, h7⟩ : ∃ r, rest = encodeTagAndLength ⟨0, 17, 7, true⟩ ++ r ∧ r ≠ [] := by
      cases s
      · exact ⟨_, (Except.ok.inj hm).symm.trans (by rfl), by decide⟩
      · exact ⟨_, (Except.ok.inj hm).symm.trans (by rfl), by decide⟩
    rw [hr]
    exact .wrapper (by rfl) (by rfl) (Mar.header_der (tag := 17) (by decide) (by decide) (by decide) (by decide)) h7 (by rintro ⟨h, _⟩; revert h; decide)

/-- What is written and read: sorted by encoding/asn1, in the given order by the fork. -/
example : marshal ⟨true, goUtf8Valid, fun _ _ => none⟩ exTy75 (exVal75 7) =
    .ok [48, 23, 6, 3, 42, 134, 72, 160, 3, 2, 1, 7, 49, 7, 2, 1, 5, 2, 2, 1, 44, 12, 2, 0xC3, 0xA4] := by rfl
example : marshal marEnv0 exTy75 (exVal75 0) = .ok [48, 18, 6, 3, 42, 134, 72, 49, 7, 2, 2, 1, 44, 2, 1, 5, 12, 2, 0xC3, 0xA4] := by rfl
example : ∃ b w, marshal marEnv0 exTy75 (exVal75 0) = .ok b ∧ unmarshalRaw asnEnv0 exTy75 b = .ok (w, .ok []) ∧ Same false exTy75 false (exVal75 0) w := by
  obtain ⟨w, h1, h2⟩ := C75_read_back (env := asnEnv0) (menv := marEnv0) (t := exTy75) (v := exVal75 0) (b := _) (by rfl) (by decide) (exFits75_absent false)
  exact ⟨_, w, by rfl, h1, h2⟩

/-- Dates in UTC, for the example of `C75_utc_times`. -/
example (te : TimeEnv) : LeafFits ⟨goUtf8Valid, fun _ => [], goUtcTime te, goGenTime⟩
    (utcMarEnv false (fun t => if t = 0 then some ⟨1970, 1, 1, 0, 0, 0⟩ else none)) {} .time (0 : Int) := by
  refine C75_utc_times ?_ _ _ _ ?_
  · intro t c h
    by_cases h0 : t = 0
    · rw [if_pos h0] at h
      obtain rfl := Option.some.inj h
      subst h0
      exact ⟨⟨by decide, by decide, by decide, by decide, by decide⟩, by decide +kernel⟩
    · rw [if_neg h0] at h; cases h
  · rintro ⟨_, h⟩; exact absurd rfl h

/-! ## The attributes of a signer -/

/-- pkcs7.go:1043-1045: the struct that `MarshalAuthenticatedAttributes` writes. -/
def authAttrsTy : Ty := .struct false (.cons (b!"set") (.slice false attributeTy) .nil)

/-- A parsed attribute as a Go value. -/
def P7Attr.val (cls tag : Nat) (con : Bool) (a : P7Attr) : attributeTy.interp := (([] : Bytes), a.type, (⟨cls, tag, con, a.value, a.full⟩ : RawVal), ())

theorem attr_written (menv : MarEnv) (cls tag : Nat) (con : Bool) {a : P7Attr} (hf : a.full ≠ []) (b : Bytes) :
    makeField menv attributeTy {} (a.val cls tag con) = .ok b ↔ marshalAttr a = some b := by
  have hoid : makeField menv .oid (parseMP []) a.type = (match encodeOid a.type with | .error _ => .error .oid | .ok b => .ok (tlv 0 false 6 b)) := by
    refine (Mar.make_leaf (t := .oid) (.inl (by simp [Mar.IsLeaf])) _).trans ?_
    show fieldTagged {} (Ty.omits {} .oid a.type) 6 false (.ok 6) _ = _
    refine (congrArg (fun o => fieldTagged {} o 6 false (.ok 6) _) (Mar.omits_plain .oid a.type)).trans ?_
    cases he : encodeOid a.type <;> rfl
  have hraw : makeField menv .rawValue (parseMP (b!"set")) (⟨cls, tag, con, a.value, a.full⟩ : RawVal) = .ok a.full :=
    (Mar.make_raw _ (Mar.omits_required (mp := parseMP (b!"set")) (by rfl) (by rfl) _ _)).trans (by rw [rawBytes, if_pos hf])
  have hstep : makeField menv attributeTy {} (a.val cls tag con) =
      (match encodeOid a.type with | .error _ => .error .oid | .ok o => .ok (tlv 0 true 16 (tlv 0 false 6 o ++ a.full))) := by
    refine (Mar.make_struct (a.val cls tag con)).trans ?_
    refine (congrArg (fun o => fieldTagged {} o 16 true (.ok 16) _) (Mar.omits_plain attributeTy (a.val cls tag con))).trans ?_
    have hf2 : makeFields menv (.cons (b!"set") .rawValue .nil) ((⟨cls, tag, con, a.value, a.full⟩ : RawVal), ()) = .ok a.full := by
      refine (Mar.makeFields_cons _).trans ?_
      refine (congrArg (fun o => o >>= _) hraw).trans ?_
      refine (congrArg (fun o => o >>= fun bs => Except.ok (a.full ++ bs)) (Mar.makeFields_nil (menv := menv) ())).trans ?_
      show Except.ok (a.full ++ []) = _
      rw [List.append_nil]
    have hf1 : makeFields menv (.cons [] .oid (.cons (b!"set") .rawValue .nil)) (a.type, (⟨cls, tag, con, a.value, a.full⟩ : RawVal), ()) =
        (match encodeOid a.type with | .error _ => .error .oid | .ok o => .ok (tlv 0 false 6 o ++ a.full)) := by
      refine (Mar.makeFields_cons _).trans ?_
      refine (congrArg (fun o => o >>= _) hoid).trans ?_
      cases he : encodeOid a.type with
      | error e => rfl
      | ok o => exact congrArg (fun x => x >>= fun bs => Except.ok (tlv 0 false 6 o ++ bs)) hf2
    show (makeFields menv (.cons [] .oid (.cons (b!"set") .rawValue .nil)) (a.type, (⟨cls, tag, con, a.value, a.full⟩ : RawVal), ()) >>=
      fun b => Except.ok (tlv 0 true 16 b)) = _
    rw [hf1]
    cases encodeOid a.type <;> rfl
  rw [hstep, marshalAttr]
  cases encodeOid a.type with
  | error e => simp
  | ok o => simp

theorem attrs_written (menv : MarEnv) (cls tag : Nat) (con : Bool) : ∀ {attrs : List P7Attr}, (∀ a ∈ attrs, a.full ≠ []) → ∀ b : Bytes,
    ((makeElems (makeField menv attributeTy {}) (attrs.map (P7Attr.val cls tag con))).map List.flatten = .ok b ↔ marshalAttrList attrs = some b)
  | [], _, b => by
    show (Except.ok [] = Except.ok b ↔ some [] = some b)
    simp
  | a :: as, hf, b => by
    have ih := attrs_written menv cls tag con (fun x hx => hf x (List.mem_cons_of_mem _ hx))
    have ha := attr_written menv cls tag con (hf a (List.mem_cons_self ..))
    rw [List.map_cons, makeElems, marshalAttrList]
    cases h1 : makeField menv attributeTy {} (a.val cls tag con) with
    | error e =>
      have hn : marshalAttr a = none := by
        cases hm : marshalAttr a with
        | none => rfl
        | some x => rw [(ha x).2 hm] at h1; cases h1
      rw [hn]
      show Except.error e = Except.ok b ↔ none = some b
      simp
    | ok x =>
      rw [(ha x).1 h1]
      cases h2 : makeElems (makeField menv attributeTy {}) (as.map (P7Attr.val cls tag con)) with
      | error e =>
        have hn : marshalAttrList as = none := by
          cases hm : marshalAttrList as with
          | none => rfl
          | some y => have := (ih y).2 hm; rw [h2] at this; cases this
        rw [hn]
        show Except.error e = Except.ok b ↔ none = some b
        simp
      | ok xs =>
        have := (ih xs.flatten).1 (by rw [h2]; rfl)
        rw [this]
        show Except.ok (x ++ xs.flatten) = Except.ok b ↔ some (x ++ xs.flatten) = some b
        simp

/-- C75: what `Marshal` of the fork writes for the attributes of a signer is what the model of `MarshalAuthenticatedAttributes` (C46,
    C58) works with: the attributes in the order in which they were read, as they were read. -/
theorem C75_attributes_in_order {menv : MarEnv} (hs : menv.sortSets = false) (cls tag : Nat) (con : Bool) {attrs : List P7Attr}
    (hf : ∀ a ∈ attrs, a.full ≠ []) (b : Bytes) :
    marshal menv authAttrsTy (([] : Bytes), attrs.map (P7Attr.val cls tag con), ()) = .ok b ↔
      ∃ body, marshalAttrList attrs = some body ∧ b = tlv 0 true 16 (tlv 0 true 17 body) := by
  have hsl : ∀ l : (Ty.slice false attributeTy).interp, makeField menv (.slice false attributeTy) (parseMP (b!"set")) l =
      ((makeElems (makeField menv attributeTy {}) l).map List.flatten).map (tlv 0 true 17) := by
    intro l
    rw [Mar.make_slice, Mar.omits_required (mp := parseMP (b!"set")) (by rfl) (by rfl), hs]
    cases makeElems (makeField menv attributeTy {}) l <;> rfl
  have hstep : marshal menv authAttrsTy (([] : Bytes), attrs.map (P7Attr.val cls tag con), ()) =
      ((makeElems (makeField menv attributeTy {}) (attrs.map (P7Attr.val cls tag con))).map List.flatten).map (fun b => tlv 0 true 16 (tlv 0 true 17 b)) := by
    refine (congrArg (fun mp => makeField menv authAttrsTy mp (([] : Bytes), attrs.map (P7Attr.val cls tag con), ())) parseMP_nil).trans ?_
    refine (Mar.make_struct (raw := false) (fs := .cons (b!"set") (.slice false attributeTy) .nil) (([] : Bytes), attrs.map (P7Attr.val cls tag con), ())).trans ?_
    refine (congrArg (fun o => fieldTagged {} o 16 true (.ok 16) _) (Mar.omits_plain authAttrsTy _)).trans ?_
    have hf1 : makeFields menv (.cons (b!"set") (.slice false attributeTy) .nil) (attrs.map (P7Attr.val cls tag con), ()) =
        ((makeElems (makeField menv attributeTy {}) (attrs.map (P7Attr.val cls tag con))).map List.flatten).map (tlv 0 true 17) := by
      refine (Mar.makeFields_cons _).trans ?_
      refine (congrArg (fun o => o >>= _) (hsl _)).trans ?_
      cases makeElems (makeField menv attributeTy {}) (attrs.map (P7Attr.val cls tag con)) with
      | error e => rfl
      | ok x =>
        refine (congrArg (fun o => o >>= fun bs => Except.ok (tlv 0 true 17 x.flatten ++ bs)) (Mar.makeFields_nil (menv := menv) ())).trans ?_
        show Except.ok (tlv 0 true 17 x.flatten ++ []) = _
        rw [List.append_nil]; rfl
    show (makeFields menv (.cons (b!"set") (.slice false attributeTy) .nil) (attrs.map (P7Attr.val cls tag con), ()) >>=
      fun b => Except.ok (tlv 0 true 16 b)) = _
    rw [hf1]
    cases makeElems (makeField menv attributeTy {}) (attrs.map (P7Attr.val cls tag con)) <;> rfl
  have hi := attrs_written menv cls tag con hf
  rw [hstep]
  constructor
  · intro h
    cases hx : (makeElems (makeField menv attributeTy {}) (attrs.map (P7Attr.val cls tag con))).map List.flatten with
    | error e => rw [hx] at h; cases h
    | ok x => rw [hx] at h; exact ⟨x, (hi x).1 hx, (Except.ok.inj h).symm⟩
  · rintro ⟨x, hx, rfl⟩
    rw [(hi x).2 hx]; rfl

end Apk
