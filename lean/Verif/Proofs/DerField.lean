import Verif.Proofs.Der
/-! # The decoder reads exactly the grammar: strings, field headers -/
namespace Apk
set_option linter.unusedSimpArgs false

/-! ## Strings -/

def bmpEnc (units : List Nat) : Bytes := (units.map (fun u => [UInt8.ofNat (u / 256), UInt8.ofNat (u % 256)])).flatten

theorem bmpUnits_enc (units : List Nat) (h : ∀ u ∈ units, u < 65536) : bmpUnits (bmpEnc units) = units := by
  induction units with
  | nil => rfl
  | cons u us ih =>
    have hu := h u (by simp)
    have e1 : (UInt8.ofNat (u / 256)).toNat = u / 256 := by rw [u8_toNat_ofNat]; omega
    have e2 : (UInt8.ofNat (u % 256)).toNat = u % 256 := by rw [u8_toNat_ofNat]; omega
    have e : bmpEnc (u :: us) = UInt8.ofNat (u / 256) :: UInt8.ofNat (u % 256) :: bmpEnc us := by simp [bmpEnc]
    rw [e, bmpUnits, ih (fun x hx => h x (by simp [hx])), e1, e2]
    congr 1
    omega

theorem bmpEnc_length (units : List Nat) : (bmpEnc units).length = 2 * units.length := by
  induction units with
  | nil => rfl
  | cons u us ih =>
    have e : bmpEnc (u :: us) = UInt8.ofNat (u / 256) :: UInt8.ofNat (u % 256) :: bmpEnc us := by simp [bmpEnc]
    rw [e]; simp [ih]; omega

theorem bmpUnits_lt (b : Bytes) : ∀ u ∈ bmpUnits b, u < 65536 := by
  match b with
  | [] => simp [bmpUnits]
  | [_] => simp [bmpUnits]
  | x :: y :: r =>
    intro u hu
    simp only [bmpUnits, List.mem_cons] at hu
    rcases hu with rfl | hu
    · have := x.toNat_lt; have := y.toNat_lt; omega
    · exact bmpUnits_lt r u hu

theorem bmpEnc_units (b : Bytes) (h : b.length % 2 = 0) : bmpEnc (bmpUnits b) = b := by
  match b with
  | [] => rfl
  | [_] => simp at h
  | x :: y :: r =>
    have e : ∀ u us, bmpEnc (u :: us) = UInt8.ofNat (u / 256) :: UInt8.ofNat (u % 256) :: bmpEnc us := by intros; simp [bmpEnc]
    have hx := x.toNat_lt
    have hy := y.toNat_lt
    have e1 : UInt8.ofNat ((x.toNat * 256 + y.toNat) / 256) = x := by
      apply UInt8.toNat_inj.1; rw [u8_toNat_ofNat]; omega
    have e2 : UInt8.ofNat ((x.toNat * 256 + y.toNat) % 256) = y := by
      apply UInt8.toNat_inj.1; rw [u8_toNat_ofNat]; omega
    rw [bmpUnits, e, e1, e2, bmpEnc_units r (by simp at h; omega)]

theorem bmpEnc_append (a b : List Nat) : bmpEnc (a ++ b) = bmpEnc a ++ bmpEnc b := by simp [bmpEnc]

/-- The last two bytes are zero exactly if the last unit is. -/
theorem bmp_last (units : List Nat) (h : ∀ u ∈ units, u < 65536) :
    (2 ≤ (bmpEnc units).length ∧ (bmpEnc units).drop ((bmpEnc units).length - 2) = [0, 0]) ↔ units.getLast? = some 0 := by
  rcases List.eq_nil_or_concat units with rfl | ⟨l, u, rfl⟩
  · simp [bmpEnc]
  · rw [List.concat_eq_append, bmpEnc_append]
    have hu := h u (by simp)
    have e : bmpEnc [u] = [UInt8.ofNat (u / 256), UInt8.ofNat (u % 256)] := by simp [bmpEnc]
    have hl : (bmpEnc l ++ bmpEnc [u]).length - 2 = (bmpEnc l).length := by rw [e]; simp
    rw [hl, List.drop_left, e]
    simp only [List.length_append, List.length_cons, List.length_nil, List.getLast?_concat, Option.some.injEq]
    constructor
    · rintro ⟨_, h2⟩
      simp only [List.cons.injEq, and_true] at h2
      have a1 := congrArg UInt8.toNat h2.1
      have a2 := congrArg UInt8.toNat h2.2
      rw [u8_toNat_ofNat] at a1 a2
      have z : (0 : UInt8).toNat = 0 := rfl
      rw [z] at a1 a2
      omega
    · rintro rfl
      exact ⟨by omega, rfl⟩

theorem bmp_iff (env : AsnEnv) (b s : Bytes) : parseBMP env b = .ok s ↔ ∃ units, s = env.utf16 units ∧
    (b = bmpEnc units ∧ (∀ u ∈ units, u < 65536) ∧ units.getLast? ≠ some 0 ∨ b = bmpEnc units ++ [0, 0] ∧ ∀ u ∈ units, u < 65536) := by
  unfold parseBMP
  constructor
  · intro h
    split at h
    · cases h
    · rename_i he
      have he : b.length % 2 = 0 := Classical.byContradiction he
      simp only [Except.ok.injEq] at h
      subst h
      refine ⟨_, rfl, ?_⟩
      have hb := bmpEnc_units b he
      have hlast := bmp_last (bmpUnits b) (bmpUnits_lt b)
      rw [hb] at hlast
      by_cases hc : 2 ≤ b.length ∧ b.drop (b.length - 2) = [0, 0]
      · right
        rw [if_pos (by simp only [Bool.and_eq_true, decide_eq_true_eq]; exact hc)]
        refine ⟨?_, bmpUnits_lt _⟩
        rw [bmpEnc_units _ (by rw [List.length_take]; omega)]
        have := List.take_append_drop (b.length - 2) b
        rw [hc.2] at this
        exact this.symm
      · left
        rw [if_neg (by simp only [Bool.and_eq_true, decide_eq_true_eq]; exact hc)]
        exact ⟨hb.symm, bmpUnits_lt _, fun h => hc (hlast.2 h)⟩
  · rintro ⟨units, rfl, ⟨rfl, hlt, hl⟩ | ⟨rfl, hlt⟩⟩
    · have hlast := bmp_last units hlt
      rw [if_neg (by rw [bmpEnc_length]; omega), if_neg (by
        simp only [Bool.and_eq_true, decide_eq_true_eq]; exact fun h => hl (hlast.1 h)), bmpUnits_enc units hlt]
    · have hlen : (bmpEnc units ++ [0, 0]).length = 2 * units.length + 2 := by simp [bmpEnc_length]
      have hl2 : 2 * units.length + 2 - 2 = (bmpEnc units).length := by rw [bmpEnc_length]; omega
      rw [if_neg (by rw [hlen]; omega), if_pos]
      · rw [hlen, hl2, List.take_left, bmpUnits_enc units hlt]
      · simp only [Bool.and_eq_true, decide_eq_true_eq]
        rw [hlen, hl2, List.drop_left]
        exact ⟨by omega, rfl⟩

theorem ite_err {α : Type} {c : Prop} [Decidable c] {x : Except UE α} {e : UE} {v : α} :
    (if c then x else .error e) = .ok v ↔ c ∧ x = .ok v := by
  by_cases h : c <;> simp [h]

theorem str_iff (env : AsnEnv) (k : Nat) (b s : Bytes) : parseStr env (k : Int) b = .ok s ↔ StringContents env k s b := by
  have cast : ∀ n : Nat, ((k : Int) = (n : Int)) ↔ k = n := by intro n; omega
  unfold parseStr StringContents
  have c19 := cast 19; have c18 := cast 18; have c22 := cast 22; have c20 := cast 20
  have c12 := cast 12; have c27 := cast 27; have c30 := cast 30
  simp only [Int.cast_ofNat_Int] at c19 c18 c22 c20 c12 c27 c30
  have hbmp := bmp_iff env b s
  unfold bmpEnc at hbmp
  simp only [c19, c18, c22, c20, c12, c27, c30]
  by_cases h19 : k = 19
  · subst h19
    rw [if_pos rfl, Except.ok.injEq]
    constructor
    · intro h; exact .inl ⟨by omega, h.symm⟩
    · rintro (⟨_, h⟩ | h | h | h | h)
      · exact h.symm
      all_goals omega
  · rw [if_neg h19]
    by_cases h18 : k = 18
    · subst h18
      rw [if_pos rfl, ite_err]
      simp only [List.all_eq_true, isNumericByte, Bool.or_eq_true, decide_eq_true_eq, Except.ok.injEq]
      constructor
      · rintro ⟨h1, h2⟩; exact .inr (.inl ⟨by trivial, h2.symm, h1⟩)
      · rintro (h | ⟨_, h1, h2⟩ | h | h | h)
        · omega
        · exact ⟨h2, h1.symm⟩
        all_goals omega
    · rw [if_neg h18]
      by_cases h22 : k = 22
      · subst h22
        rw [if_pos rfl, ite_err]
        simp only [List.all_eq_true, decide_eq_true_eq, Except.ok.injEq]
        constructor
        · rintro ⟨h1, h2⟩; exact .inr (.inr (.inl ⟨by trivial, h2.symm, h1⟩))
        · rintro (h | h | ⟨_, h1, h2⟩ | h | h)
          · omega
          · omega
          · exact ⟨h2, h1.symm⟩
          all_goals omega
      · rw [if_neg h22]
        by_cases h20 : k = 20
        · subst h20
          rw [if_pos rfl, Except.ok.injEq]
          constructor
          · intro h; exact .inl ⟨by omega, h.symm⟩
          · rintro (⟨_, h⟩ | h | h | h | h)
            · exact h.symm
            all_goals omega
        · rw [if_neg h20]
          by_cases h12 : k = 12
          · subst h12
            rw [if_pos rfl, ite_err]
            simp only [Except.ok.injEq]
            constructor
            · rintro ⟨h1, h2⟩; exact .inr (.inr (.inr (.inl ⟨by trivial, h2.symm, h1⟩)))
            · rintro (h | h | h | ⟨_, h1, h2⟩ | h)
              · omega
              · omega
              · omega
              · exact ⟨h2, h1.symm⟩
              · omega
          · rw [if_neg h12]
            by_cases h27 : k = 27
            · subst h27
              rw [if_pos rfl, Except.ok.injEq]
              constructor
              · intro h; exact .inl ⟨by omega, h.symm⟩
              · rintro (⟨_, h⟩ | h | h | h | h)
                · exact h.symm
                all_goals omega
            · rw [if_neg h27]
              by_cases h30 : k = 30
              · subst h30
                rw [if_pos rfl, hbmp]
                constructor
                · intro h; exact .inr (.inr (.inr (.inr ⟨rfl, h⟩)))
                · rintro (h | h | h | h | ⟨_, h⟩)
                  · omega
                  · omega
                  · omega
                  · omega
                  · exact h
              · rw [if_neg h30]
                constructor
                · intro h; cases h
                · rintro (h | h | h | h | h) <;> omega

/-! ## Field headers -/

/-- The universal type after asn1.go:793-812. -/
def utOf (tag0 : Int) (fp : FP) (t : TagLen) : Int :=
  let ut1 : Int :=
    if tag0 = 19 then
      (if t.cls = 0 then (if isStringTag t.tag then (t.tag : Int) else tag0)
       else if fp.stringType ≠ 0 then (fp.stringType : Int) else tag0)
    else tag0
  let ut2 : Int := if ut1 = 23 ∧ t.tag = 24 ∧ t.cls = 0 then 24 else ut1
  if fp.set then 17 else ut2

/-- The tag comparison of asn1.go:814-826. -/
def mismatch (u : Bool × Int × Bool) (fp : FP) (t : TagLen) : Bool :=
  let implicit := !fp.explicit && fp.tag.isSome
  let cls := if implicit then (if fp.priv then 3 else if fp.application then 1 else 2) else 0
  let tag := if implicit then fp.tag.getD 0 else utOf u.2.1 fp t
  (!(u.1 && !implicit) && (decide (t.cls ≠ cls) || decide ((t.tag : Int) ≠ tag))) || (!u.1 && decide (t.isCompound ≠ u.2.2))

theorem matchHeader_eq (u : Bool × Int × Bool) (fp : FP) (t : TagLen) (b : Bytes) :
    matchHeader u.1 u.2.1 u.2.2 fp t b =
      if mismatch u fp t then (if fp.optional then .absent else .fail .tagMismatch)
      else if b.length < t.length then .fail .dataTruncated
      else .content (utOf u.2.1 fp t) t (b.take t.length) (b.drop t.length) := rfl

theorem isStringTag_iff (n : Nat) : isStringTag n = true ↔ n = 12 ∨ n = 18 ∨ n = 20 ∨ n = 22 ∨ n = 27 ∨ n = 30 := by
  unfold isStringTag
  simp only [Bool.or_eq_true, decide_eq_true_eq]
  omega

theorem utOf_other {n : Int} (h1 : n ≠ 19) (h2 : n ≠ 23) (fp : FP) (t : TagLen) : utOf n fp t = if fp.set then 17 else n := by
  unfold utOf
  dsimp only
  rw [if_neg h1]
  have : ¬ (n = 23 ∧ t.tag = 24 ∧ t.cls = 0) := fun h => h2 h.1
  simp only [if_neg this]

/-- In class 0 the tag of the header fits the type exactly if it is among the universal tags of the type. -/
theorem utOf_tag {t : Ty} {u : Bool × Int × Bool} (hu : t.univ = some u) (hr : t ≠ .rawValue) (fp : FP) (tl : TagLen) (hc : tl.cls = 0) :
    (tl.tag : Int) = utOf u.2.1 fp tl ↔ if fp.set then tl.tag = 17 else t.HasTag tl.tag := by
  cases hs : fp.set
  · cases t <;> simp only [Ty.univ, Option.some.injEq] at hu
    case rawValue => exact absurd rfl hr
    case any => cases hu
    case time =>
      subst hu
      simp only [utOf, hs, Ty.HasTag, hc, Bool.false_eq_true, if_false]
      by_cases h : tl.tag = 24
      · simp [h]
      · simp [h]; omega
    case str =>
      subst hu
      simp only [utOf, hs, Ty.HasTag, hc, Bool.false_eq_true, if_false, if_true]
      by_cases h : isStringTag tl.tag = true
      · rw [if_pos h]
        have h' := (isStringTag_iff _).1 h
        rw [if_neg (by omega)]
        constructor
        · intro _; omega
        · intro _; rfl
      · rw [if_neg h]
        have h' := fun h' => h ((isStringTag_iff _).2 h')
        rw [if_neg (by omega)]
        constructor
        · intro _; omega
        · intro hh
          have : tl.tag = 19 := by
            rcases hh with hh | hh | hh | hh | hh | hh | hh
            · exact absurd (.inl hh) h'
            · exact absurd (.inr (.inl hh)) h'
            · exact hh
            · exact absurd (.inr (.inr (.inl hh))) h'
            · exact absurd (.inr (.inr (.inr (.inl hh)))) h'
            · exact absurd (.inr (.inr (.inr (.inr (.inl hh))))) h'
            · exact absurd (.inr (.inr (.inr (.inr (.inr hh))))) h'
          omega
    case slice isSET e =>
      subst hu
      cases isSET <;> (rw [utOf_other (by decide) (by decide)]; simp only [hs, Ty.HasTag, Bool.false_eq_true, if_false, if_true]; omega)
    all_goals
      subst hu
      rw [utOf_other (by decide) (by decide)]
      simp only [hs, Ty.HasTag, Bool.false_eq_true, if_false]
      omega
  · simp only [utOf, hs, if_true]
    omega

theorem univ_any {t : Ty} {u : Bool × Int × Bool} (hu : t.univ = some u) : u.1 = true ↔ t = .rawValue := by
  cases t <;> simp only [Ty.univ, Option.some.injEq] at hu <;> first | (cases hu; done) | (subst hu; simp)

theorem univ_compound {t : Ty} {u : Bool × Int × Bool} (hu : t.univ = some u) : u.2.2 = t.constructed := by
  cases t <;> simp only [Ty.univ, Option.some.injEq] at hu <;> first | (cases hu; done) | (subst hu; rfl)

/-- The tag comparison is that of the grammar. -/
theorem mismatch_iff {t : Ty} {u : Bool × Int × Bool} (hu : t.univ = some u) (fp : FP) (tl : TagLen) :
    mismatch u fp tl = true ↔ ¬ FieldPresent t fp tl := by
  have ha := univ_any hu
  have hc := univ_compound hu
  unfold mismatch FieldPresent
  dsimp only
  rw [hc]
  by_cases hr : t = .rawValue
  · have h1 : u.1 = true := ha.2 hr
    rw [h1]
    simp only [hr, true_or, true_and, Bool.not_true, Bool.false_and, Bool.or_false, Bool.true_and, Bool.not_not]
    cases he : fp.explicit <;> cases ht : fp.tag <;> simp [FP.cls] <;> exact ⟨fun h h1 h2 => h.elim (fun k => k h1) (fun k => k h2), fun h => (Classical.em _).elim (fun k => .inr (h k)) .inl⟩
  · have h1 : u.1 = false := by
      cases h : u.1
      · rfl
      · exact absurd (ha.1 h) hr
    rw [h1]
    have key : tl.cls = 0 → ((tl.tag : Int) = utOf u.2.1 fp tl ↔ if fp.set then tl.tag = 17 else t.HasTag tl.tag) := utOf_tag hu hr fp tl
    simp only [hr, false_or, Bool.not_false, Bool.false_and, Bool.true_and, Bool.or_eq_true, decide_eq_true_eq]
    cases he : fp.explicit with
    | false =>
      cases ht : fp.tag with
      | none =>
        simp only [Option.isSome_none, Bool.and_false, Bool.false_eq_true, if_false]
        by_cases h0 : tl.cls = 0
        · have := key h0
          rw [← this]
          simp only [h0]
          by_cases hcc : tl.isCompound = t.constructed <;> by_cases htt : (tl.tag : Int) = utOf u.2.1 fp tl <;> simp [hcc, htt]
        · simp [h0]
      | some n =>
        simp only [Option.isSome_some, Bool.not_false, Bool.and_self, if_true, Option.getD_some, FP.cls]
        by_cases hcc : tl.isCompound = t.constructed <;>
          by_cases hcl : tl.cls = (if fp.priv = true then 3 else if fp.application = true then 1 else 2) <;>
          by_cases htt : (tl.tag : Int) = n <;> simp [hcc, hcl, htt]
    | true =>
      simp only [Bool.not_true, Bool.false_and, Bool.false_eq_true, if_false]
      by_cases h0 : tl.cls = 0
      · have := key h0
        rw [← this]
        simp only [h0]
        by_cases hcc : tl.isCompound = t.constructed <;> by_cases htt : (tl.tag : Int) = utOf u.2.1 fp tl <;> simp [hcc, htt]
      · simp [h0]

/-- Contents found by the header comparison. -/
theorem matchHeader_content {t : Ty} {u : Bool × Int × Bool} (hu : t.univ = some u) {fp : FP} {tl : TagLen} {b : Bytes}
    {ut : Int} {tl' : TagLen} {inner rest : Bytes} :
    matchHeader u.1 u.2.1 u.2.2 fp tl b = .content ut tl' inner rest ↔
      FieldPresent t fp tl ∧ tl' = tl ∧ ut = utOf u.2.1 fp tl ∧ b = inner ++ rest ∧ inner.length = tl.length := by
  rw [matchHeader_eq]
  have hm := mismatch_iff hu fp tl
  by_cases h : mismatch u fp tl = true
  · rw [if_pos h]
    constructor
    · intro hh; split at hh <;> cases hh
    · intro hh; exact absurd hh.1 (hm.1 h)
  · rw [if_neg h]
    have hp : FieldPresent t fp tl := Classical.byContradiction (fun hn => h (hm.2 hn))
    constructor
    · intro hh
      split at hh
      · cases hh
      · rename_i hl
        simp only [Hdr.content.injEq] at hh
        obtain ⟨rfl, rfl, rfl, rfl⟩ := hh
        exact ⟨hp, rfl, rfl, (List.take_append_drop _ _).symm, by rw [List.length_take]; omega⟩
    · rintro ⟨_, rfl, rfl, rfl, hl⟩
      rw [if_neg (by rw [List.length_append]; omega), ← hl, List.take_left, List.drop_left]

theorem matchHeader_absent {t : Ty} {u : Bool × Int × Bool} (hu : t.univ = some u) {fp : FP} {tl : TagLen} {b : Bytes} :
    matchHeader u.1 u.2.1 u.2.2 fp tl b = .absent ↔ fp.optional = true ∧ ¬ FieldPresent t fp tl := by
  rw [matchHeader_eq, ← mismatch_iff hu]
  by_cases h : mismatch u fp tl = true
  · rw [if_pos h]
    by_cases ho : fp.optional = true <;> simp [ho, h]
  · rw [if_neg h]
    constructor
    · intro hh; split at hh <;> cases hh
    · intro hh; exact absurd hh.2 h

theorem matchHeader_flag {u : Bool × Int × Bool} {fp : FP} {tl : TagLen} {b r : Bytes} :
    matchHeader u.1 u.2.1 u.2.2 fp tl b ≠ .flagSet r := by
  rw [matchHeader_eq]
  split
  · split <;> simp
  · split <;> simp

theorem isRaw_iff (t : Ty) : t.isRaw = true ↔ t = .rawValue := by cases t <;> simp [Ty.isRaw]
theorem isFlag_iff (t : Ty) : t.isFlag = true ↔ t = .flag := by cases t <;> simp [Ty.isFlag]

/-- A flag set by an empty explicit wrapper. -/
def FlagSet (t : Ty) (fp : FP) (b rest : Bytes) : Prop :=
  t = .flag ∧ fp.explicit = true ∧ ∃ hdr tl, b = hdr ++ rest ∧ rest ≠ [] ∧ DerHeader tl hdr ∧ Wrapper fp tl ∧ tl.length = 0

theorem wrapper_iff {fp : FP} {tl : TagLen} {n : Int} (ht : fp.tag = some n) :
    Wrapper fp tl ↔ tl.cls = (if fp.application then 1 else 2) ∧ (tl.tag : Int) = n ∧ (tl.length = 0 ∨ tl.isCompound = true) := by
  unfold Wrapper
  rw [ht]
  simp only [Option.some.injEq]

section
variable {t : Ty} {u : Bool × Int × Bool} (hu : t.univ = some u) {fp : FP} (hfp : fp.Ok)
include hu hfp

theorem fieldHeader_content {b : Bytes} {ut : Int} {tl : TagLen} {inner rest : Bytes} :
    fieldHeader u t.isRaw t.isFlag fp b = .ok (.content ut tl inner rest) ↔ Located t fp b tl inner rest ∧ ut = utOf u.2.1 fp tl := by
  constructor
  · intro h
    unfold fieldHeader at h
    split at h
    · cases h
    · rename_i t0 b1 hb
      obtain ⟨hdr, hh, rfl⟩ := (header_iff _ _ _).1 hb
      split at h
      · rename_i he
        obtain ⟨n, hn⟩ := Option.ne_none_iff_exists'.1 (hfp he)
        split at h
        · cases h
        · rename_i hb1
          by_cases hcls : t0.cls = (if fp.application = true then 1 else 2)
          · rw [if_pos hcls, hn] at h
            simp only at h
            split at h
            · rename_i htag
              have hw : Wrapper fp t0 := (wrapper_iff hn).2 ⟨hcls, htag⟩
              split at h
              · rename_i hraw
                simp only [Except.ok.injEq] at h
                obtain ⟨h1, rfl, rfl, rfl, h5⟩ := (matchHeader_content hu).1 h
                rw [← List.append_assoc]
                exact ⟨.explicitRaw he ((isRaw_iff t).1 hraw) hh hw h5 hb1, rfl⟩
              · rename_i hraw
                split at h
                · rename_i hpos
                  split at h
                  · cases h
                  · rename_i t2 b2 hb2
                    obtain ⟨hdr2, hh2, rfl⟩ := (header_iff _ _ _).1 hb2
                    simp only [Except.ok.injEq] at h
                    obtain ⟨h1, rfl, rfl, rfl, h5⟩ := (matchHeader_content hu).1 h
                    rw [← List.append_assoc hdr2]
                    exact ⟨.explicit he (fun hr => hraw ((isRaw_iff t).2 hr)) hh hw hpos hh2 h1 h5, rfl⟩
                · split at h <;> cases h
            · split at h <;> cases h
          · rw [if_neg hcls] at h
            split at h <;> cases h
      · rename_i he
        simp only [Except.ok.injEq] at h
        obtain ⟨h1, rfl, rfl, rfl, h5⟩ := (matchHeader_content hu).1 h
        rw [← List.append_assoc]
        exact ⟨.plain (Bool.eq_false_iff.2 he) hh h1 h5, rfl⟩
  · rintro ⟨h, rfl⟩
    cases h with
    | plain he hh hp hl =>
      unfold fieldHeader
      rw [List.append_assoc, header_parse hh]
      simp only [he, Bool.false_eq_true, if_false, Except.ok.injEq]
      exact (matchHeader_content hu).2 ⟨hp, rfl, rfl, rfl, hl⟩
    | explicit he hr hh hw hpos hh2 hp hl =>
      obtain ⟨n, hn⟩ := Option.ne_none_iff_exists'.1 (hfp he)
      have hw' := (wrapper_iff hn).1 hw
      have hne := header_ne hh2
      unfold fieldHeader
      rw [header_parse hh]
      simp only [he, if_true]
      rw [if_neg (by simp [hne]), if_pos hw'.1, hn]
      simp only
      rw [if_pos hw'.2, if_neg (fun h => hr ((isRaw_iff t).1 h)), if_pos hpos, List.append_assoc, header_parse hh2]
      simp only [Except.ok.injEq]
      exact (matchHeader_content hu).2 ⟨hp, rfl, rfl, rfl, hl⟩
    | explicitRaw he hr hh hw hl hne =>
      obtain ⟨n, hn⟩ := Option.ne_none_iff_exists'.1 (hfp he)
      have hw' := (wrapper_iff hn).1 hw
      unfold fieldHeader
      rw [List.append_assoc, header_parse hh]
      simp only [he, if_true]
      rw [if_neg hne, if_pos hw'.1, hn]
      simp only
      rw [if_pos hw'.2, if_pos ((isRaw_iff t).2 hr)]
      simp only [Except.ok.injEq]
      refine (matchHeader_content hu).2 ⟨?_, rfl, rfl, rfl, hl⟩
      unfold FieldPresent
      rw [he]
      exact ⟨.inl hr, .inl hr⟩

theorem fieldHeader_absent {b : Bytes} (hb0 : b ≠ []) :
    fieldHeader u t.isRaw t.isFlag fp b = .ok .absent ↔ Absent t fp b := by
  constructor
  · intro h
    unfold fieldHeader at h
    split at h
    · cases h
    · rename_i t0 b1 hb
      obtain ⟨hdr, hh, rfl⟩ := (header_iff _ _ _).1 hb
      split at h
      · rename_i he
        obtain ⟨n, hn⟩ := Option.ne_none_iff_exists'.1 (hfp he)
        split at h
        · cases h
        · rename_i hb1
          by_cases hcls : t0.cls = (if fp.application = true then 1 else 2)
          · rw [if_pos hcls, hn] at h
            simp only at h
            split at h
            · rename_i htag
              have hw : Wrapper fp t0 := (wrapper_iff hn).2 ⟨hcls, htag⟩
              split at h
              · rename_i hraw
                simp only [Except.ok.injEq] at h
                obtain ⟨h1, h2⟩ := (matchHeader_absent hu).1 h
                exact absurd (by unfold FieldPresent; rw [he]; exact ⟨.inl ((isRaw_iff t).1 hraw), .inl ((isRaw_iff t).1 hraw)⟩) h2
              · rename_i hraw
                split at h
                · rename_i hpos
                  split at h
                  · cases h
                  · rename_i t2 b2 hb2
                    obtain ⟨hdr2, hh2, rfl⟩ := (header_iff _ _ _).1 hb2
                    simp only [Except.ok.injEq] at h
                    obtain ⟨h1, h2⟩ := (matchHeader_absent hu).1 h
                    exact .inside h1 he (fun hr => hraw ((isRaw_iff t).2 hr)) hh hw hpos hh2 h2
                · split at h <;> cases h
            · rename_i htag
              split at h
              · rename_i ho
                exact .wrapper ho he hh hb1 (fun hw => htag ((wrapper_iff hn).1 hw).2)
              · cases h
          · rw [if_neg hcls] at h
            split at h
            · rename_i ho
              exact .wrapper ho he hh hb1 (fun hw => hcls ((wrapper_iff hn).1 hw).1)
            · cases h
      · rename_i he
        simp only [Except.ok.injEq] at h
        obtain ⟨h1, h2⟩ := (matchHeader_absent hu).1 h
        exact .plain h1 (Bool.eq_false_iff.2 he) hh h2
  · intro h
    cases h with
    | empty => exact absurd rfl hb0
    | plain ho he hh hp =>
      unfold fieldHeader
      rw [header_parse hh]
      simp only [he, Bool.false_eq_true, if_false, Except.ok.injEq]
      exact (matchHeader_absent hu).2 ⟨ho, hp⟩
    | wrapper ho he hh hr hw =>
      obtain ⟨n, hn⟩ := Option.ne_none_iff_exists'.1 (hfp he)
      have hw' := fun h => hw ((wrapper_iff hn).2 h)
      unfold fieldHeader
      rw [header_parse hh]
      simp only [he, if_true]
      rw [if_neg hr]
      rename_i tl
      by_cases hc : tl.cls = (if fp.application = true then 1 else 2)
      · rw [if_pos hc, hn]
        simp only
        rw [if_neg (fun ht => hw' ⟨hc, ht⟩), if_pos ho]
      · rw [if_neg hc, if_pos ho]
    | inside ho he hr hh hw hpos hh2 hp =>
      obtain ⟨n, hn⟩ := Option.ne_none_iff_exists'.1 (hfp he)
      have hw' := (wrapper_iff hn).1 hw
      have hne := header_ne hh2
      unfold fieldHeader
      rw [header_parse hh]
      simp only [he, if_true]
      rw [if_neg (by simp [hne]), if_pos hw'.1, hn]
      simp only
      rw [if_pos hw'.2, if_neg (fun h => hr ((isRaw_iff t).1 h)), if_pos hpos, header_parse hh2]
      simp only [Except.ok.injEq]
      exact (matchHeader_absent hu).2 ⟨ho, hp⟩

omit hu in
theorem fieldHeader_flag {b r : Bytes} :
    fieldHeader u t.isRaw t.isFlag fp b = .ok (.flagSet r) ↔ FlagSet t fp b r := by
  constructor
  · intro h
    unfold fieldHeader at h
    split at h
    · cases h
    · rename_i t0 b1 hb
      obtain ⟨hdr, hh, rfl⟩ := (header_iff _ _ _).1 hb
      split at h
      · rename_i he
        obtain ⟨n, hn⟩ := Option.ne_none_iff_exists'.1 (hfp he)
        split at h
        · cases h
        · rename_i hb1
          by_cases hcls : t0.cls = (if fp.application = true then 1 else 2)
          · rw [if_pos hcls, hn] at h
            simp only at h
            split at h
            · rename_i htag
              have hw : Wrapper fp t0 := (wrapper_iff hn).2 ⟨hcls, htag⟩
              split at h
              · simp only [Except.ok.injEq] at h
                exact absurd h matchHeader_flag
              · split at h
                · split at h
                  · cases h
                  · simp only [Except.ok.injEq] at h
                    exact absurd h matchHeader_flag
                · rename_i hpos
                  split at h
                  · rename_i hf
                    simp only [Except.ok.injEq, Hdr.flagSet.injEq] at h
                    subst h
                    exact ⟨(isFlag_iff t).1 hf, he, hdr, t0, rfl, hb1, hh, hw, by omega⟩
                  · cases h
            · split at h <;> cases h
          · rw [if_neg hcls] at h
            split at h <;> cases h
      · simp only [Except.ok.injEq] at h
        exact absurd h matchHeader_flag
  · rintro ⟨hf, he, hdr, tl, rfl, hr, hh, hw, h0⟩
    obtain ⟨n, hn⟩ := Option.ne_none_iff_exists'.1 (hfp he)
    have hw' := (wrapper_iff hn).1 hw
    have hraw : ¬ t.isRaw = true := fun h => by rw [(isRaw_iff t).1 h] at hf; cases hf
    unfold fieldHeader
    rw [header_parse hh]
    simp only [he, if_true]
    rw [if_neg hr, if_pos hw'.1, hn]
    simp only
    rw [if_pos hw'.2, if_neg hraw, if_neg (by omega), if_pos ((isFlag_iff t).2 hf)]

end

theorem Located.ne {t : Ty} {fp : FP} {b : Bytes} {tl : TagLen} {inner rest : Bytes} (h : Located t fp b tl inner rest) : b ≠ [] := by
  cases h with
  | plain _ hh => have := header_ne hh; simp [this]
  | explicit _ _ hh => have := header_ne hh; simp [this]
  | explicitRaw _ _ hh => have := header_ne hh; simp [this]

theorem FlagSet.ne {t : Ty} {fp : FP} {b rest : Bytes} (h : FlagSet t fp b rest) : b ≠ [] := by
  obtain ⟨_, _, hdr, tl, rfl, hr, _⟩ := h
  simp [hr]

/-- A successful field: located contents accepted by the content parser, absent, or a flag. -/
theorem fieldWith_iff {α : Type} {t : Ty} {u : Bool × Int × Bool} (hu : t.univ = some u) {fp : FP} (hfp : fp.Ok) {zero dflt sf : α} {b : Bytes}
    {k : Int → TagLen → Bytes → Bytes → Bytes → Go (α × Except UE Bytes)} {v : α} {rest : Bytes} :
    fieldWith u t.isRaw t.isFlag zero dflt sf fp b k = .ok (v, .ok rest) ↔
      (∃ tl inner rest0, Located t fp b tl inner rest0 ∧
        k (utOf u.2.1 fp tl) tl inner rest0 (b.take (b.length - rest0.length)) = .ok (v, .ok rest)) ∨
      (Absent t fp b ∧ v = dflt ∧ rest = b) ∨ (FlagSet t fp b rest ∧ v = sf) := by
  unfold fieldWith
  by_cases hb : b = []
  · subst hb
    rw [if_pos rfl]
    constructor
    · intro h
      by_cases ho : fp.optional = true
      · rw [if_pos ho] at h
        simp only [Except.ok.injEq, Prod.mk.injEq] at h
        exact .inr (.inl ⟨.empty ho, h.1.symm, h.2.symm⟩)
      · rw [if_neg ho] at h
        simp at h
    · rintro (⟨_, _, _, h, _⟩ | ⟨h, rfl, rfl⟩ | ⟨h, _⟩)
      · exact absurd rfl h.ne
      · have ho : fp.optional = true := by
          generalize hb : ([] : Bytes) = b at h
          cases h <;> assumption
        rw [if_pos ho]
      · exact absurd rfl h.ne
  · rw [if_neg hb]
    obtain ⟨hd, hh⟩ := fieldHeader_total u t.isRaw t.isFlag hfp b
    rw [hh]
    have h1 := fun {ut tl inner r} => fieldHeader_content hu hfp (b := b) (ut := ut) (tl := tl) (inner := inner) (rest := r)
    have h2 := fieldHeader_absent hu hfp hb
    have h3 := fun {r} => fieldHeader_flag (t := t) (u := u) hfp (b := b) (r := r)
    rw [hh] at h1 h2 h3
    constructor
    · intro h
      cases hd with
      | fail e => simp [Hdr.run] at h
      | absent =>
        simp only [Hdr.run, Except.ok.injEq, Prod.mk.injEq] at h
        exact .inr (.inl ⟨h2.1 rfl, h.1.symm, h.2.symm⟩)
      | flagSet r =>
        simp only [Hdr.run, Except.ok.injEq, Prod.mk.injEq] at h
        obtain ⟨rfl, rfl⟩ := h
        exact .inr (.inr ⟨h3.1 rfl, rfl⟩)
      | content ut tl inner r =>
        obtain ⟨hl, rfl⟩ := h1.1 rfl
        exact .inl ⟨tl, inner, r, hl, h⟩
    · rintro (⟨tl, inner, r, hl, hk⟩ | ⟨ha, rfl, rfl⟩ | ⟨hf, rfl⟩)
      · have := h1.2 ⟨hl, rfl⟩
        simp only [Except.ok.injEq] at this
        subst this
        exact hk
      · have := h2.2 ha
        simp only [Except.ok.injEq] at this
        subst this
        rfl
      · have := h3.2 hf
        simp only [Except.ok.injEq] at this
        subst this
        rfl

end Apk
