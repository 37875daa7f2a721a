import Verif.Props.MarshalDer
import Verif.Proofs.P7Written
/-!
# C75: strings, times and empty slices

What is written for a string, a time and an empty slice in a field with each of the tag strings that say something about it.
-/
namespace Apk
open Mar P7S

/-- The characters of a PrintableString (X.680 41.4). -/
def printableSet : Bytes := b!"ABCDEFGHIJKLMNOPQRSTUVWXYZabcdefghijklmnopqrstuvwxyz0123456789 '()+,-./:=?"

/-- The characters of a NumericString. -/
def numericSet : Bytes := b!"0123456789 "

/-- The tag of the string type for a string in a field with a tag string. -/
inductive StringKind (utf8 : Bytes → Bool) : (tag s : Bytes) → Nat → Prop
  | plain {s : Bytes} (h : ∀ c ∈ s, c ∈ printableSet) : StringKind utf8 [] s 19
  | plainUtf8 {s : Bytes} (h : ∃ c ∈ s, c ∉ printableSet) (hu : utf8 s = true) : StringKind utf8 [] s 12
  | printable {s : Bytes} (h : ∀ c ∈ s, c ∈ printableSet ∨ c ∈ (b!"*")) : StringKind utf8 (b!"printable") s 19
  | ia5 {s : Bytes} (h : ∀ c ∈ s, c.toNat < 128) : StringKind utf8 (b!"ia5") s 22
  | numeric {s : Bytes} (h : ∀ c ∈ s, c ∈ numericSet) : StringKind utf8 (b!"numeric") s 18
  | utf8 {s : Bytes} : StringKind utf8 (b!"utf8") s 12

namespace Mar

theorem printable_mem (c : UInt8) : isPrintableByte false c = decide (c ∈ printableSet) := by
  have : ∀ n : Fin 256, isPrintableByte false (UInt8.ofNat n.val) = decide (UInt8.ofNat n.val ∈ printableSet) := by decide +kernel
  have h := this ⟨c.toNat, UInt8.toNat_lt c⟩
  rwa [UInt8.ofNat_toNat] at h

theorem printable_star (c : UInt8) : isPrintableByte true c = decide (c ∈ printableSet ∨ c ∈ (b!"*")) := by
  have : ∀ n : Fin 256, isPrintableByte true (UInt8.ofNat n.val) = decide (UInt8.ofNat n.val ∈ printableSet ∨ UInt8.ofNat n.val ∈ (b!"*")) := by decide +kernel
  have h := this ⟨c.toNat, UInt8.toNat_lt c⟩
  rwa [UInt8.ofNat_toNat] at h

theorem numeric_mem (c : UInt8) : isNumericByte c = decide (c ∈ numericSet) := by
  have : ∀ n : Fin 256, isNumericByte (UInt8.ofNat n.val) = decide (UInt8.ofNat n.val ∈ numericSet) := by decide +kernel
  have h := this ⟨c.toNat, UInt8.toNat_lt c⟩
  rwa [UInt8.ofNat_toNat] at h

/-- A struct with one field. -/
theorem one_field {menv : MarEnv} {tag : Bytes} {t : Ty} (v : t.interp) (b : Bytes) :
    marshal menv (.struct false (.cons tag t .nil)) ((([] : Bytes), v, ()) : Bytes × t.interp × Unit) = .ok b ↔
      ∃ x, makeField menv t (parseMP tag) v = .ok x ∧ b = tlv 0 true 16 x := by
  unfold marshal
  rw [mp_empty]
  constructor
  · intro h
    obtain ⟨c, h', rfl⟩ := struct_ok (fs := .cons tag t .nil) [] (v, ()) h
    obtain ⟨x, r, h1, h2, rfl⟩ := cons_ok (t := t) (fs := .nil) v () h'
    obtain rfl := nil_ok _ h2
    rw [List.append_nil]
    exact ⟨x, h1, rfl⟩
  · rintro ⟨x, h1, rfl⟩
    have hf : makeFields menv (.cons tag t .nil) ((v, ()) : t.interp × Unit) = .ok x := by
      refine (makeFields_cons _).trans ?_
      refine (congrArg (fun o => o >>= _) h1).trans ?_
      refine (congrArg (fun o => o >>= fun bs => Except.ok (x ++ bs)) (makeFields_nil (menv := menv) ())).trans ?_
      show Except.ok (x ++ []) = _
      rw [List.append_nil]
    refine (make_struct _).trans ?_
    refine (congrArg (fun o => fieldTagged {} o 16 true (.ok 16) _) (omits_plain (.struct false (.cons tag t .nil)) _)).trans ?_
    show (makeFields menv (.cons tag t .nil) ((v, ()) : t.interp × Unit) >>= fun b => Except.ok (tagged {} 16 true b)) = _
    rw [hf]
    rfl

theorem str_eq {menv : MarEnv} (k : Nat) (s : Bytes) : makeField menv .str { stringType := k } s =
    (stringTag menv { stringType := k } s >>= fun t => stringBody { stringType := k } s >>= fun b => Except.ok (tagged { stringType := k } t false b)) := by
  refine (make_leaf (t := .str) (.inl (by simp [IsLeaf])) s).trans ?_
  show fieldTagged { stringType := k } (Ty.omits { stringType := k } .str s) 19 false (stringTag menv { stringType := k } s) (fun _ => stringBody { stringType := k } s) = _
  rw [show Ty.omits { stringType := k } .str s = false from omits_required (t := .str) (mp := { stringType := k }) (v := s) rfl rfl]
  have hc : checkParams { stringType := k } 19 = .ok () := by
    unfold checkParams
    rw [if_neg (fun h => h.1 rfl), if_neg (fun h => h.2 rfl)]
  unfold fieldTagged
  rw [if_neg (by simp), hc]
  cases stringTag menv { stringType := k } s <;> rfl

theorem tagged_str (k : Nat) (t : Nat) (s : Bytes) : tagged { stringType := k } (t : Int) false s = tlv 0 false t s := by
  unfold tagged tlv encodeHeader
  simp only
  rw [if_neg (by omega)]
  rfl

theorem all_iff {p : UInt8 → Bool} {P : UInt8 → Prop} (h : ∀ c, p c = true ↔ P c) {s : Bytes} : s.all p = true ↔ ∀ c ∈ s, P c := by
  rw [List.all_eq_true]
  exact ⟨fun h1 c hc => (h c).1 (h1 c hc), fun h1 c hc => (h c).2 (h1 c hc)⟩

/-- A field of a string type whose contents are checked. -/
theorem str_checked {menv : MarEnv} {k : Nat} (hk : k ≠ 0) {p : Bool} {e : MErr} {s x : Bytes}
    (hb : stringBody { stringType := k } s = if p then .ok s else .error e) :
    makeField menv .str { stringType := k } s = .ok x ↔ p = true ∧ x = tlv 0 false k s := by
  rw [str_eq, hb]
  have ht : stringTag menv { stringType := k } s = .ok (k : Int) := by
    unfold stringTag
    exact if_neg hk
  rw [ht]
  cases p with
  | true =>
    constructor
    · intro h
      have h := Except.ok.inj h
      rw [tagged_str] at h
      exact ⟨rfl, h.symm⟩
    · rintro ⟨_, rfl⟩
      show Except.ok (tagged { stringType := k } (k : Int) false s) = _
      rw [tagged_str]
  | false =>
    constructor
    · intro h; cases h
    · rintro ⟨h, _⟩; cases h

theorem str_plain {menv : MarEnv} {s x : Bytes} : makeField menv .str {} s = .ok x ↔
    (s.all (isPrintableByte false) = true ∧ x = tlv 0 false 19 s) ∨ (s.all (isPrintableByte false) = false ∧ menv.utf8Valid s = true ∧ x = tlv 0 false 12 s) := by
  have h0 := str_eq (menv := menv) 0 s
  have hb : stringBody { stringType := 0 } s = .ok s := rfl
  rw [hb] at h0
  rw [show makeField menv .str {} s = _ from h0]
  have ht : stringTag menv { stringType := 0 } s = (if s.all (isPrintableByte false) then .ok 19 else if menv.utf8Valid s then .ok 12 else .error .notUtf8) := if_pos rfl
  rw [ht]
  have t19 : tagged { stringType := 0 } 19 false s = tlv 0 false 19 s := tagged_str 0 19 s
  have t12 : tagged { stringType := 0 } 12 false s = tlv 0 false 12 s := tagged_str 0 12 s
  cases s.all (isPrintableByte false) with
  | true =>
    show (Except.ok (tagged { stringType := 0 } 19 false s) = _) ↔ _
    rw [t19]
    constructor
    · intro h; exact .inl ⟨rfl, (Except.ok.inj h).symm⟩
    · rintro (⟨_, rfl⟩ | ⟨h, _⟩)
      · rfl
      · cases h
  | false =>
    cases menv.utf8Valid s with
    | true =>
      show (Except.ok (tagged { stringType := 0 } 12 false s) = _) ↔ _
      rw [t12]
      constructor
      · intro h; exact .inr ⟨rfl, rfl, (Except.ok.inj h).symm⟩
      · rintro (⟨h, _⟩ | ⟨_, _, rfl⟩)
        · cases h
        · rfl
    | false =>
      constructor
      · intro h; cases h
      · rintro (⟨h, _⟩ | ⟨_, h, _⟩) <;> cases h

end Mar

/-- C75: what is written for a string, with each of the tag strings of string types: which strings are accepted and which type they get. -/
theorem C75_strings {menv : MarEnv} {tag : Bytes} (ht : tag ∈ [[], b!"printable", b!"ia5", b!"numeric", b!"utf8"]) (s b : Bytes) :
    marshal menv (.struct false (.cons tag .str .nil)) ((([] : Bytes), s, ()) : Bytes × Bytes × Unit) = .ok b ↔
      ∃ k, StringKind menv.utf8Valid tag s k ∧ b = tlv 0 true 16 (tlv 0 false k s) := by
  refine (one_field (t := .str) s b).trans ?_
  have hpr : ∀ c, isPrintableByte false c = true ↔ c ∈ printableSet := fun c => by rw [printable_mem, decide_eq_true_iff]
  simp only [List.mem_cons, List.not_mem_nil, or_false] at ht
  rcases ht with rfl | rfl | rfl | rfl | rfl
  · rw [mp_empty]
    constructor
    · rintro ⟨x, h, rfl⟩
      rcases str_plain.1 h with ⟨h1, rfl⟩ | ⟨h1, h2, rfl⟩
      · exact ⟨19, .plain ((all_iff hpr).1 h1), rfl⟩
      · refine ⟨12, .plainUtf8 ?_ h2, rfl⟩
        obtain ⟨c, hc, h3⟩ := List.all_eq_false.1 h1
        exact ⟨c, hc, fun hm => h3 ((hpr c).2 hm)⟩
    · rintro ⟨k, h, rfl⟩
      cases h with
      | plain h => exact ⟨_, str_plain.2 (.inl ⟨(all_iff hpr).2 h, rfl⟩), rfl⟩
      | plainUtf8 h hu =>
        obtain ⟨c, hc, h3⟩ := h
        exact ⟨_, str_plain.2 (.inr ⟨List.all_eq_false.2 ⟨c, hc, fun hm => h3 ((hpr c).1 hm)⟩, hu, rfl⟩), rfl⟩
  · rw [show parseMP (b!"printable") = { stringType := 19 } by decide]
    have hs : ∀ c, isPrintableByte true c = true ↔ (c ∈ printableSet ∨ c ∈ (b!"*")) := fun c => by rw [printable_star, decide_eq_true_iff]
    constructor
    · rintro ⟨x, h, rfl⟩
      obtain ⟨h1, rfl⟩ := (str_checked (k := 19) (by decide) rfl).1 h
      exact ⟨19, .printable ((all_iff hs).1 h1), rfl⟩
    · rintro ⟨k, h, rfl⟩
      cases h with
      | printable h => exact ⟨_, (str_checked (k := 19) (by decide) rfl).2 ⟨(all_iff hs).2 h, rfl⟩, rfl⟩
  · rw [show parseMP (b!"ia5") = { stringType := 22 } by decide]
    have hs : ∀ c : UInt8, decide (c.toNat < 128) = true ↔ c.toNat < 128 := fun c => decide_eq_true_iff
    constructor
    · rintro ⟨x, h, rfl⟩
      obtain ⟨h1, rfl⟩ := (str_checked (k := 22) (by decide) rfl).1 h
      exact ⟨22, .ia5 ((all_iff hs).1 h1), rfl⟩
    · rintro ⟨k, h, rfl⟩
      cases h with
      | ia5 h => exact ⟨_, (str_checked (k := 22) (by decide) rfl).2 ⟨(all_iff hs).2 h, rfl⟩, rfl⟩
  · rw [show parseMP (b!"numeric") = { stringType := 18 } by decide]
    have hs : ∀ c, isNumericByte c = true ↔ c ∈ numericSet := fun c => by rw [numeric_mem, decide_eq_true_iff]
    constructor
    · rintro ⟨x, h, rfl⟩
      obtain ⟨h1, rfl⟩ := (str_checked (k := 18) (by decide) rfl).1 h
      exact ⟨18, .numeric ((all_iff hs).1 h1), rfl⟩
    · rintro ⟨k, h, rfl⟩
      cases h with
      | numeric h => exact ⟨_, (str_checked (k := 18) (by decide) rfl).2 ⟨(all_iff hs).2 h, rfl⟩, rfl⟩
  · rw [show parseMP (b!"utf8") = { stringType := 12 } by decide]
    constructor
    · rintro ⟨x, h, rfl⟩
      obtain ⟨_, rfl⟩ := (str_checked (k := 12) (p := true) (e := .notUtf8) (by decide) rfl).1 h
      exact ⟨12, .utf8, rfl⟩
    · rintro ⟨k, h, rfl⟩
      cases h with
      | utf8 => exact ⟨_, (str_checked (k := 12) (p := true) (e := .notUtf8) (by decide) rfl).2 ⟨rfl, rfl⟩, rfl⟩

/-- C75: what is written for a time: a GeneralizedTime is asked for exactly with `generalized`, otherwise the year decides. -/
theorem C75_times {menv : MarEnv} {tag : Bytes} (ht : tag ∈ [[], b!"utc", b!"generalized"]) (t : Int) (b : Bytes) :
    marshal menv (.struct false (.cons tag .time .nil)) ((([] : Bytes), t, ()) : Bytes × Int × Unit) = .ok b ↔
      ∃ k c, menv.timeBytes (decide (tag = b!"generalized")) t = some (k, c) ∧ b = tlv 0 true 16 (tlv 0 false k c) := by
  have key : ∀ (n : Nat) (x : Bytes), makeField menv .time { timeType := n } t = .ok x ↔ ∃ k c, menv.timeBytes (decide (n = 24)) t = some (k, c) ∧ x = tlv 0 false k c := by
    intro n x
    have h0 : makeField menv .time { timeType := n } t = fieldTagged { timeType := n } false 23 false ((timeOf menv { timeType := n } t).map (fun r => (r.1 : Int)))
        (fun _ => (timeOf menv { timeType := n } t).map Prod.snd) := by
      refine (make_leaf (t := .time) (.inl (by simp [IsLeaf])) t).trans ?_
      show fieldTagged { timeType := n } (Ty.omits { timeType := n } .time t) 23 false _ _ = _
      rw [show Ty.omits { timeType := n } .time t = false from omits_required (t := .time) (mp := { timeType := n }) (v := t) rfl rfl]
      rfl
    rw [h0]
    have hc : checkParams { timeType := n } 23 = .ok () := by
      unfold checkParams
      rw [if_neg (fun h => h.2 rfl), if_neg (fun h => h.1 rfl)]
    unfold fieldTagged timeOf
    rw [if_neg (by simp), hc]
    cases hb : menv.timeBytes (decide (n = 24)) t with
    | none =>
      constructor
      · intro h; cases h
      · rintro ⟨k, c, h, _⟩; cases h
    | some r =>
      obtain ⟨k, c⟩ := r
      have e : tagged { timeType := n } (k : Int) false c = tlv 0 false k c := by
        unfold tagged tlv encodeHeader
        simp only
        rw [if_neg (by omega)]
        rfl
      show (Except.ok (tagged { timeType := n } (k : Int) false c) = _) ↔ _
      rw [e]
      constructor
      · intro h; exact ⟨k, c, rfl, (Except.ok.inj h).symm⟩
      · rintro ⟨k', c', h, rfl⟩
        cases h
        rfl
  refine (one_field (t := .time) t b).trans ?_
  simp only [List.mem_cons, List.not_mem_nil, or_false] at ht
  have fin : ∀ n g, (n = 24 ↔ g = true) → ((∃ x, makeField menv .time { timeType := n } t = .ok x ∧ b = tlv 0 true 16 x) ↔
      ∃ k c, menv.timeBytes g t = some (k, c) ∧ b = tlv 0 true 16 (tlv 0 false k c)) := by
    intro n g hg
    have e : decide (n = 24) = g := by cases g <;> simp_all
    constructor
    · rintro ⟨x, h, rfl⟩
      obtain ⟨k, c, h1, rfl⟩ := (key n x).1 h
      exact ⟨k, c, e ▸ h1, rfl⟩
    · rintro ⟨k, c, h, rfl⟩
      exact ⟨_, (key n _).2 ⟨k, c, e ▸ h, rfl⟩, rfl⟩
  rcases ht with rfl | rfl | rfl
  · rw [mp_empty]; exact fin 0 _ (by decide)
  · rw [show parseMP (b!"utc") = { timeType := 23 } by decide]; exact fin 23 _ (by decide)
  · rw [show parseMP (b!"generalized") = { timeType := 24 } by decide]; exact fin 24 _ (by decide)

/-- C75: with `omitempty` an empty byte slice is left out, and without it written as an empty element. -/
theorem C75_omitempty {menv : MarEnv} (s b : Bytes) :
    (marshal menv (.struct false (.cons (b!"omitempty") .octets .nil)) ((([] : Bytes), s, ()) : Bytes × Bytes × Unit) = .ok b ↔
      (s = [] ∧ b = tlv 0 true 16 []) ∨ (s ≠ [] ∧ b = tlv 0 true 16 (tlv 0 false 4 s))) ∧
    (marshal menv (.struct false (.cons [] .octets .nil)) ((([] : Bytes), s, ()) : Bytes × Bytes × Unit) = .ok b ↔ b = tlv 0 true 16 (tlv 0 false 4 s)) := by
  have key : ∀ (o : Bool) (x : Bytes), makeField menv .octets { omitEmpty := o } s = .ok x ↔ x = if o = true ∧ s = [] then [] else tlv 0 false 4 s := by
    intro o x
    have h0 : makeField menv .octets { omitEmpty := o } s = fieldTagged { omitEmpty := o } (o && decide (s = []) || false) 4 false (.ok 4) (fun _ => .ok s) :=
      make_leaf (t := .octets) (.inl (by simp [IsLeaf])) s
    rw [h0]
    cases o with
    | false =>
      rw [if_neg (fun h => by cases h.1)]
      exact ⟨fun h => (Except.ok.inj h).symm, fun h => by rw [h]; rfl⟩
    | true =>
      by_cases hs : s = []
      · subst hs
        rw [if_pos ⟨rfl, rfl⟩]
        exact ⟨fun h => (Except.ok.inj h).symm, fun h => by rw [h]; rfl⟩
      · rw [if_neg (fun h => hs h.2)]
        have e : (true && decide (s = []) || false) = false := by simp [hs]
        rw [e]
        exact ⟨fun h => (Except.ok.inj h).symm, fun h => by rw [h]; rfl⟩
  constructor
  · refine (one_field (t := .octets) s b).trans ?_
    rw [show parseMP (b!"omitempty") = { omitEmpty := true } by decide]
    constructor
    · rintro ⟨x, h, rfl⟩
      have h := (key true x).1 h
      by_cases hs : s = []
      · rw [if_pos ⟨rfl, hs⟩] at h; subst h; exact .inl ⟨hs, rfl⟩
      · rw [if_neg (fun h => hs h.2)] at h; subst h; exact .inr ⟨hs, rfl⟩
    · rintro (⟨hs, rfl⟩ | ⟨hs, rfl⟩)
      · exact ⟨_, (key true _).2 (by rw [if_pos ⟨rfl, hs⟩]), rfl⟩
      · exact ⟨_, (key true _).2 (by rw [if_neg (fun h => hs h.2)]), rfl⟩
  · refine (one_field (t := .octets) s b).trans ?_
    rw [mp_empty]
    constructor
    · rintro ⟨x, h, rfl⟩
      have h := (key false x).1 h
      rw [if_neg (fun h => by cases h.1)] at h
      rw [h]
    · rintro rfl
      exact ⟨_, (key false _).2 (by rw [if_neg (fun h => by cases h.1)]), rfl⟩

/-- C75: a string with an asterisk is a PrintableString only if that was asked for. -/
theorem C75_strings_example : StringKind goUtf8Valid (b!"printable") (b!"a*b") 19 ∧ StringKind goUtf8Valid [] (b!"a*b") 12 ∧ StringKind goUtf8Valid [] (b!"a b") 19 ∧
    ¬ ∃ k, StringKind goUtf8Valid (b!"numeric") (b!"1a") k := by
  refine ⟨.printable (by decide), .plainUtf8 (by decide) (by decide), .plain (by decide), ?_⟩
  rintro ⟨k, h⟩
  have h := (C75_strings (menv := ⟨false, goUtf8Valid, fun _ _ => none⟩) (by decide) (b!"1a") _).2 ⟨k, h, rfl⟩
  cases h

end Apk
