import Verif.Proofs.DerField
/-! # The decoder reads exactly the grammar: contents, slices, structs -/
namespace Apk
set_option linter.unusedSimpArgs false

theorem Located.present {t : Ty} {fp : FP} {b : Bytes} {tl : TagLen} {inner rest : Bytes} (h : Located t fp b tl inner rest) :
    FieldPresent t fp tl := by
  cases h with
  | plain _ _ hp => exact hp
  | explicit _ _ _ _ _ _ hp => exact hp
  | explicitRaw he hr =>
    unfold FieldPresent
    rw [he]
    exact ⟨.inl hr, .inl hr⟩

theorem setOnOk_iff {α β : Type} {zero : β} {rest0 rest : Bytes} {wrap : α → β} {r : Except AE α} {v : β} :
    setOnOk zero rest0 wrap r = .ok (v, .ok rest) ↔ (∃ x, r = .ok x ∧ v = wrap x) ∧ rest = rest0 := by
  cases r with
  | error e => simp [setOnOk]
  | ok x =>
    simp only [setOnOk, Except.ok.injEq, Prod.mk.injEq]
    constructor
    · rintro ⟨rfl, rfl⟩; exact ⟨⟨x, rfl, rfl⟩, rfl⟩
    · rintro ⟨⟨y, rfl, rfl⟩, rfl⟩; exact ⟨rfl, rfl⟩

theorem FP.cls_ne (fp : FP) : fp.cls ≠ 0 := by
  unfold FP.cls
  split
  · omega
  · split <;> omega

theorem present_universal {t : Ty} {fp : FP} {tl : TagLen} (h : FieldPresent t fp tl) (hr : t ≠ .rawValue) (hc : tl.cls = 0) (hs : fp.set = false) :
    t.HasTag tl.tag := by
  obtain ⟨_, h2⟩ := h
  have key : (t = .rawValue ∨ (tl.cls = 0 ∧ if fp.set then tl.tag = 17 else t.HasTag tl.tag)) → t.HasTag tl.tag := by
    rintro (h | ⟨_, h⟩)
    · exact absurd h hr
    · rw [hs] at h; simpa using h
  cases he : fp.explicit with
  | true => rw [he] at h2; exact key h2
  | false =>
    rw [he] at h2
    cases ht : fp.tag with
    | none => rw [ht] at h2; exact key h2
    | some n =>
      rw [ht] at h2
      have h2 : tl.cls = fp.cls ∧ (tl.tag : Int) = n := h2
      exact absurd (h2.1.symm.trans hc) fp.cls_ne

theorem utOf_str {fp : FP} {tl : TagLen} (h : FieldPresent .str fp tl) : utOf 19 fp tl = (stringKind fp tl : Int) := by
  unfold stringKind
  cases hs : fp.set with
  | true => simp [utOf, hs]
  | false =>
    by_cases hc : tl.cls = 0
    · have ht := present_universal h (by simp) hc hs
      simp only [Ty.HasTag] at ht
      simp only [utOf, hs, hc, Bool.false_eq_true, if_false, if_true]
      by_cases h19 : isStringTag tl.tag = true
      · have := (isStringTag_iff _).1 h19
        rw [if_pos h19, if_neg (by omega)]
      · have h' := fun h' => h19 ((isStringTag_iff _).2 h')
        have : tl.tag = 19 := by
          rcases ht with hh | hh | hh | hh | hh | hh | hh
          · exact absurd (.inl hh) h'
          · exact absurd (.inr (.inl hh)) h'
          · exact hh
          · exact absurd (.inr (.inr (.inl hh))) h'
          · exact absurd (.inr (.inr (.inr (.inl hh)))) h'
          · exact absurd (.inr (.inr (.inr (.inr (.inl hh))))) h'
          · exact absurd (.inr (.inr (.inr (.inr (.inr hh))))) h'
        rw [if_neg h19, if_neg (by omega), this]; rfl
    · have hng : ∀ n : Int, ¬ (n = 23 ∧ tl.tag = 24 ∧ tl.cls = 0) := fun n h => hc h.2.2
      simp only [utOf, hs, hc, Bool.false_eq_true, if_false, if_true, and_false]
      by_cases h0 : fp.stringType = 0 <;> simp [h0]

theorem utOf_time {fp : FP} {tl : TagLen} : utOf 23 fp tl = 23 ↔ ¬ isGeneralized fp tl := by
  unfold isGeneralized
  cases hs : fp.set with
  | true => simp [utOf, hs]
  | false =>
    simp only [utOf, hs, Bool.false_eq_true, if_false, false_or]
    rw [if_neg (show ¬ (23 : Int) = 19 by omega)]
    by_cases h : tl.tag = 24 ∧ tl.cls = 0
    · rw [if_pos ⟨rfl, h⟩]; simp [h.1, h.2]
    · rw [if_neg (fun h' => h h'.2)]; simp only [true_iff]; exact fun h' => h ⟨h'.2, h'.1⟩

theorem time_ok {o : Option Int} {v : Int} {rest0 rest : Bytes} :
    (match o with | none => (.ok (zeroTime, .error .time) : Go (Int × Except UE Bytes)) | some i => .ok (i, .ok rest0)) = .ok (v, .ok rest) ↔
      o = some v ∧ rest = rest0 := by
  cases o with
  | none => simp
  | some i => simp only [Except.ok.injEq, Prod.mk.injEq, Option.some.injEq, eq_comm (a := rest0)]

theorem str_ok {r : Except UE Bytes} {v rest0 rest : Bytes} :
    (match r with | .error e => (.ok (([] : Bytes), .error e) : Go (Bytes × Except UE Bytes)) | .ok s => .ok (s, .ok rest0)) = .ok (v, .ok rest) ↔
      r = .ok v ∧ rest = rest0 := by
  cases r with
  | error e => simp
  | ok i => simp only [Except.ok.injEq, Prod.mk.injEq, eq_comm (a := rest0)]

theorem ok_pair {α : Type} {x v : α} {r0 r : Bytes} : (.ok (x, .ok r0) : Go (α × Except UE Bytes)) = .ok (v, .ok r) ↔ v = x ∧ r = r0 := by
  simp only [Except.ok.injEq, Prod.mk.injEq, eq_comm]

theorem setOnOk_id {α : Type} {zero v : α} {rest0 rest : Bytes} {r : Except AE α} {P : Prop} (h : r = .ok v ↔ P) :
    setOnOk zero rest0 id r = .ok (v, .ok rest) ↔ P ∧ rest = rest0 := by
  rw [setOnOk_iff, ← h]
  constructor
  · rintro ⟨⟨x, h, rfl⟩, h2⟩; exact ⟨h, h2⟩
  · rintro ⟨h, h2⟩; exact ⟨⟨v, h, rfl⟩, h2⟩

theorem bigContent_iff {inner rest0 rest : Bytes} {v : Option Int} :
    setOnOk (none : Option Int) rest0 some (parseBigInt inner) = .ok (v, .ok rest) ↔
      (∃ i, v = some i ∧ MinimalInt inner ∧ twos inner = i) ∧ rest = rest0 := by
  rw [setOnOk_iff]
  refine and_congr ?_ Iff.rfl
  constructor
  · rintro ⟨x, h, e⟩; exact ⟨x, e, (parseBigInt_iff _ _).1 h⟩
  · rintro ⟨i, h, e⟩; exact ⟨i, (parseBigInt_iff _ _).2 e, h⟩

theorem oidContent_iff {inner rest0 rest : Bytes} {v : List Nat} :
    (match parseOid inner with
      | .error p => (.error p : Go (List Nat × Except UE Bytes))
      | .ok r => setOnOk ([] : List Nat) rest0 id r) = .ok (v, .ok rest) ↔ OidContents v inner ∧ rest = rest0 := by
  have hv := oid_iff inner v
  obtain ⟨r, hr⟩ := parseOid_total inner
  rw [hr] at hv ⊢
  simp only at hv ⊢
  exact setOnOk_id (by rw [← hv, Except.ok.injEq])

theorem timeContent_iff {env : AsnEnv} {fp : FP} {tl : TagLen} {inner rest0 rest : Bytes} {v : Int} :
    (match (if utOf 23 fp tl = 23 then env.utcTime inner else env.genTime inner) with
      | none => (.ok (zeroTime, .error .time) : Go (Int × Except UE Bytes)) | some i => .ok (i, .ok rest0)) = .ok (v, .ok rest) ↔
    ((isGeneralized fp tl ∧ env.genTime inner = some v) ∨ (¬ isGeneralized fp tl ∧ env.utcTime inner = some v)) ∧ rest = rest0 := by
  rw [time_ok]
  have ht := utOf_time (fp := fp) (tl := tl)
  by_cases hg : isGeneralized fp tl
  · rw [if_neg (fun h => ht.1 h hg)]
    constructor
    · rintro ⟨h1, h2⟩; exact ⟨.inl ⟨hg, h1⟩, h2⟩
    · rintro ⟨⟨_, h⟩ | ⟨h, _⟩, h2⟩
      · exact ⟨h, h2⟩
      · exact absurd hg h
  · rw [if_pos (ht.2 hg)]
    constructor
    · rintro ⟨h1, h2⟩; exact ⟨.inr ⟨hg, h1⟩, h2⟩
    · rintro ⟨⟨h, _⟩ | ⟨_, h⟩, h2⟩
      · exact absurd h hg
      · exact ⟨h, h2⟩

theorem strContent_iff {env : AsnEnv} {fp : FP} {tl : TagLen} (hp : FieldPresent .str fp tl) {inner rest0 rest : Bytes} {v : Bytes} :
    (match parseStr env (utOf 19 fp tl) inner with
      | .error e => (.ok (([] : Bytes), .error e) : Go (Bytes × Except UE Bytes)) | .ok s => .ok (s, .ok rest0)) = .ok (v, .ok rest) ↔
    StringContents env (stringKind fp tl) v inner ∧ rest = rest0 := by
  rw [str_ok, utOf_str hp, str_iff]

theorem primContent_iff {env : AsnEnv} {t : Ty} {u : Bool × Int × Bool} (hu : t.univ = some u) {fp : FP} {tl : TagLen} (hp : FieldPresent t fp tl)
    {inner rest0 full : Bytes} {v : t.interp} {rest : Bytes} :
    primContent env (utOf u.2.1 fp tl) tl inner rest0 full t = .ok (v, .ok rest) ↔ PrimContents env fp tl inner full t v ∧ rest = rest0 := by
  cases t <;> simp only [Ty.univ, Option.some.injEq] at hu
  case any => cases hu
  case rawValue => exact ok_pair
  case oid => exact oidContent_iff
  case bits => exact setOnOk_id (bits_iff _ _)
  case time => subst hu; exact timeContent_iff
  case enumerated => exact setOnOk_id (int32_iff _ _)
  case flag => exact ok_pair
  case bigInt => exact bigContent_iff
  case bool => exact setOnOk_id (bool_iff _ _)
  case int => exact setOnOk_id (int64_iff _ _)
  case int32 => exact setOnOk_id (int32_iff _ _)
  case octets => exact ok_pair
  case str => subst hu; exact strContent_iff hp
  case struct raw fs => simp [primContent, PrimContents]
  case slice s e => simp [primContent, PrimContents]

/-- Primitive fields. -/
theorem parsePrim_iff {env : AsnEnv} {t : Ty} (h1 : t ≠ .any) (h2 : ∀ r fs, t ≠ .struct r fs) (h3 : ∀ s e, t ≠ .slice s e) {fp : FP} (hfp : fp.Ok)
    {b : Bytes} {v : t.interp} {rest : Bytes} :
    parsePrim env t fp b = .ok (v, .ok rest) ↔ PrimReads env t fp v b rest := by
  have hu : ∃ u, t.univ = some u := by
    cases t <;> first | exact ⟨_, rfl⟩ | exact absurd rfl h1
  obtain ⟨u, hu⟩ := hu
  unfold parsePrim
  rw [hu]
  have hd : ∀ v : t.interp, v = t.withDefault fp ↔ AbsentValue fp t v := by
    intro v
    cases t <;> exact Iff.rfl
  simp only
  rw [fieldWith_iff hu hfp]
  unfold PrimReads
  rw [hd]
  constructor
  · rintro (⟨tl, inner, r, hl, hk⟩ | h | ⟨⟨hf1, hf2, hf3⟩, hv⟩)
    · obtain ⟨h, rfl⟩ := (primContent_iff hu hl.present).1 hk
      exact .inl ⟨tl, inner, hl, h⟩
    · exact .inr (.inl h)
    · exact .inr (.inr ⟨hf1, by subst hf1; exact hv, hf2, hf3⟩)
  · rintro (⟨tl, inner, hl, hk⟩ | h | ⟨hf1, hv, hf2, hf3⟩)
    · exact .inl ⟨tl, inner, rest, hl, (primContent_iff hu hl.present).2 ⟨hk, rfl⟩⟩
    · exact .inr (.inl h)
    · exact .inr (.inr ⟨⟨hf1, hf2, hf3⟩, by subst hf1; exact hv⟩)

/-! ## Values of unknown type -/

/-- asn1.go:706-743 after the header. -/
def anyContent (env : AsnEnv) (t : TagLen) (inner rest : Bytes) : Go (Option AnyVal × Except UE Bytes) :=
  if t.isCompound || decide (t.cls ≠ 0) then .ok (none, .ok rest)
  else if t.tag = 19 ∨ t.tag = 18 ∨ t.tag = 22 ∨ t.tag = 20 ∨ t.tag = 12 ∨ t.tag = 30 then
    match parseStr env t.tag inner with
    | .error e => .ok (none, .error e)
    | .ok s => .ok (some (.str s), .ok rest)
  else if t.tag = 2 then
    match parseInt64 inner with
    | .error e => .ok (none, .error (.prim e))
    | .ok i => .ok (some (.int i), .ok rest)
  else if t.tag = 3 then
    match parseBitString inner with
    | .error e => .ok (none, .error (.prim e))
    | .ok i => .ok (some (.bits i), .ok rest)
  else if t.tag = 6 then
    match parseOid inner with
    | .error p => .error p
    | .ok (.error e) => .ok (none, .error (.prim e))
    | .ok (.ok o) => .ok (some (.oid o), .ok rest)
  else if t.tag = 23 ∨ t.tag = 24 then
    match (if t.tag = 23 then env.utcTime inner else env.genTime inner) with
    | none => .ok (none, .error .time)
    | some i => .ok (some (.time i), .ok rest)
  else if t.tag = 4 then .ok (some (.octets inner), .ok rest)
  else .ok (none, .ok rest)

theorem exists_ok {α : Type} {r : Option α} {f : α → Option AnyVal} {rest0 rest : Bytes} {v : Option AnyVal} {P : α → Prop}
    (h : ∀ x, r = some x ↔ P x) (x : Go (Option AnyVal × Except UE Bytes))
    (hx : (∃ y, r = some y ∧ x = .ok (f y, .ok rest0)) ∨ (r = none ∧ ∃ e, x = .ok (none, .error e))) :
    x = .ok (v, .ok rest) ↔ (∃ y, v = f y ∧ P y) ∧ rest = rest0 := by
  rcases hx with ⟨y, hy, rfl⟩ | ⟨hr, e, rfl⟩
  · rw [ok_pair]
    constructor
    · rintro ⟨rfl, h2⟩; exact ⟨⟨y, rfl, (h y).1 hy⟩, h2⟩
    · rintro ⟨⟨z, rfl, hz⟩, h2⟩
      have := (h z).2 hz
      rw [hy] at this
      rw [Option.some.inj this]
      exact ⟨rfl, h2⟩
  · constructor
    · intro h; simp at h
    · rintro ⟨⟨z, _, hz⟩, _⟩
      have := (h z).2 hz
      rw [hr] at this
      cases this

theorem anyContent_iff {env : AsnEnv} {t : TagLen} {inner rest0 rest : Bytes} {v : Option AnyVal} :
    anyContent env t inner rest0 = .ok (v, .ok rest) ↔ AnyContents env t inner v ∧ rest = rest0 := by
  unfold anyContent AnyContents
  have hmem : t.tag ∈ [12, 18, 19, 20, 22, 30] ↔ (t.tag = 19 ∨ t.tag = 18 ∨ t.tag = 22 ∨ t.tag = 20 ∨ t.tag = 12 ∨ t.tag = 30) := by
    simp only [List.mem_cons, List.not_mem_nil, or_false]; omega
  by_cases h0 : t.isCompound = true ∨ t.cls ≠ 0
  · rw [if_pos (by simpa using h0), if_pos h0, ok_pair]
  rw [if_neg (by simpa using h0), if_neg h0]
  by_cases h1 : t.tag = 19 ∨ t.tag = 18 ∨ t.tag = 22 ∨ t.tag = 20 ∨ t.tag = 12 ∨ t.tag = 30
  · rw [if_pos h1, if_pos (hmem.2 h1)]
    refine exists_ok (r := (parseStr env t.tag inner).toOption) (f := fun s => some (.str s)) (fun x => ?_) _ ?_
    · rw [← str_iff]; cases parseStr env t.tag inner <;> simp [Except.toOption]
    · cases parseStr env t.tag inner with
      | error e => exact .inr ⟨rfl, e, rfl⟩
      | ok x => exact .inl ⟨x, rfl, rfl⟩
  rw [if_neg h1, if_neg (fun h => h1 (hmem.1 h))]
  by_cases h2 : t.tag = 2
  · rw [if_pos h2, if_pos h2]
    refine exists_ok (r := (parseInt64 inner).toOption) (f := fun s => some (.int s)) (fun x => ?_) _ ?_
    · rw [← int64_iff]; cases parseInt64 inner <;> simp [Except.toOption]
    · cases parseInt64 inner with
      | error e => exact .inr ⟨rfl, _, rfl⟩
      | ok x => exact .inl ⟨x, rfl, rfl⟩
  rw [if_neg h2, if_neg h2]
  by_cases h3 : t.tag = 3
  · rw [if_pos h3, if_pos h3]
    refine exists_ok (r := (parseBitString inner).toOption) (f := fun s => some (.bits s)) (fun x => ?_) _ ?_
    · rw [← bits_iff]; cases parseBitString inner <;> simp [Except.toOption]
    · cases parseBitString inner with
      | error e => exact .inr ⟨rfl, _, rfl⟩
      | ok x => exact .inl ⟨x, rfl, rfl⟩
  rw [if_neg h3, if_neg h3]
  by_cases h6 : t.tag = 6
  · rw [if_pos h6, if_pos h6]
    obtain ⟨r, hr⟩ := parseOid_total inner
    refine exists_ok (r := r.toOption) (f := fun s => some (.oid s)) (fun x => ?_) _ ?_
    · rw [← oid_iff, hr]; cases r <;> simp [Except.toOption]
    · rw [hr]
      cases r with
      | error e => exact .inr ⟨rfl, _, rfl⟩
      | ok x => exact .inl ⟨x, rfl, rfl⟩
  rw [if_neg h6, if_neg h6]
  by_cases h23 : t.tag = 23
  · rw [if_pos (.inl h23)]
    simp only [if_pos h23]
    refine exists_ok (r := env.utcTime inner) (f := fun s => some (.time s)) (fun x => Iff.rfl) _ ?_
    cases env.utcTime inner with
    | none => exact .inr ⟨rfl, _, rfl⟩
    | some x => exact .inl ⟨x, rfl, rfl⟩
  by_cases h24 : t.tag = 24
  · rw [if_pos (.inr h24)]
    simp only [if_neg h23, if_pos h24]
    refine exists_ok (r := env.genTime inner) (f := fun s => some (.time s)) (fun x => Iff.rfl) _ ?_
    cases env.genTime inner with
    | none => exact .inr ⟨rfl, _, rfl⟩
    | some x => exact .inl ⟨x, rfl, rfl⟩
  rw [if_neg (by rintro (h | h); exact h23 h; exact h24 h), if_neg h23, if_neg h24]
  by_cases h4 : t.tag = 4
  · rw [if_pos h4, if_pos h4, ok_pair]
  · rw [if_neg h4, if_neg h4, ok_pair]

theorem parseAny_iff {env : AsnEnv} {b : Bytes} {v : Option AnyVal} {rest : Bytes} :
    parseAny env b = .ok (v, .ok rest) ↔
      ∃ hdr tl inner, b = hdr ++ inner ++ rest ∧ DerHeader tl hdr ∧ inner.length = tl.length ∧ AnyContents env tl inner v := by
  constructor
  · intro h
    unfold parseAny at h
    split at h
    · cases h
    · rename_i t b1 hb
      obtain ⟨hdr, hh, rfl⟩ := (header_iff _ _ _).1 hb
      split at h
      · cases h
      · rename_i hl
        obtain ⟨h1, h2⟩ := anyContent_iff.1 (show anyContent env t (b1.take t.length) (b1.drop t.length) = _ from h)
        refine ⟨hdr, t, b1.take t.length, ?_, hh, by rw [List.length_take]; omega, h1⟩
        rw [h2, List.append_assoc, List.take_append_drop]
  · rintro ⟨hdr, tl, inner, rfl, hh, hl, hc⟩
    have := (anyContent_iff (rest0 := rest) (rest := rest)).2 ⟨hc, rfl⟩
    unfold parseAny
    rw [List.append_assoc, header_parse hh]
    simp only
    rw [if_neg (by rw [List.length_append]; omega)]
    have e : inner ++ rest = inner ++ rest := rfl
    rw [← hl, List.take_left, List.drop_left]
    exact this

/-! ## Sequences -/

/-- The header check of the counting pass (asn1.go:628-647). -/
def CountOk (u : Bool × Int × Bool) (t : TagLen) : Prop :=
  (!u.1 && (decide (t.cls ≠ 0) || decide (t.isCompound ≠ u.2.2) ||
    decide (((if isStringTag t.tag then 19 else if t.tag = 24 ∨ t.tag = 23 then 23 else t.tag : Nat) : Int) ≠ u.2.1))) = false

theorem countElems_cons {u : Bool × Int × Bool} {fuel : Nat} {hdr inner rest : Bytes} {t : TagLen} (hh : DerHeader t hdr)
    (hl : inner.length = t.length) (hc : CountOk u t) :
    countElems u (fuel + 1) (hdr ++ inner ++ rest) = (match countElems u fuel rest with | .error e => .error e | .ok n => .ok (n + 1)) := by
  have hne := header_ne hh
  rw [countElems, if_neg (by simp [hne]), List.append_assoc, header_parse hh]
  simp only
  rw [if_neg (by unfold CountOk at hc; rw [hc]; simp), if_neg (by rw [List.length_append]; omega), ← hl, List.drop_left]
  cases countElems u fuel rest <;> rfl

theorem of_ite_err {α : Type} {c : Prop} [Decidable c] {e : UE} {x : Except UE α} {v : α} (h : (if c then .error e else x) = .ok v) : x = .ok v := by
  split at h
  · cases h
  · exact h

section
variable {α : Type} {u : Bool × Int × Bool} {f : Bytes → Go (α × Except UE Bytes)} {P : α → Bytes → Bytes → Prop}
  (hf : ∀ b v rest, f b = .ok (v, .ok rest) ↔ P v b rest)
  (hP : ∀ b v rest, P v b rest → ∃ hdr tl inner, b = hdr ++ inner ++ rest ∧ DerHeader tl hdr ∧ inner.length = tl.length ∧ CountOk u tl)
include hf hP

theorem seq_of_elems (n : Nat) (fuel : Nat) (b : Bytes) (vs : List α) (hfu : b.length ≤ fuel) (hc : countElems u fuel b = .ok n)
    (hs : seqElems f n b = .ok (.ok vs)) : SeqOf P vs b := by
  induction n generalizing fuel b vs with
  | zero =>
    simp only [seqElems, Except.ok.injEq] at hs
    subst hs
    have hb : b = [] := by
      cases fuel with
      | zero => exact List.length_eq_zero_iff.1 (by omega)
      | succ fuel =>
        rw [countElems] at hc
        split at hc
        · assumption
        · split at hc
          · cases hc
          · have hc := of_ite_err (of_ite_err hc)
            split at hc <;> simp at hc
    subst hb
    exact .nil
  | succ n ih =>
    simp only [seqElems] at hs
    split at hs
    · cases hs
    · cases hs
    · rename_i v rest hv
      split at hs
      · cases hs
      · cases hs
      · rename_i vs' hvs
        simp only [Except.ok.injEq] at hs
        subst hs
        have hp := (hf _ _ _).1 hv
        obtain ⟨hdr, tl, inner, rfl, hh, hl, hco⟩ := hP _ _ _ hp
        have hne := header_ne hh
        have hpos : 0 < hdr.length := List.length_pos_iff.2 hne
        cases fuel with
        | zero => simp only [List.length_append] at hfu; omega
        | succ fuel =>
          rw [countElems_cons hh hl hco] at hc
          split at hc
          · cases hc
          · rename_i m hm
            simp only [Except.ok.injEq, Nat.add_right_cancel_iff] at hc
            subst hc
            simp only [List.length_append] at hfu
            exact .cons (by simp [hne]) hp (ih fuel rest vs' (by omega) hm hvs)

theorem elems_of_seq (fuel : Nat) (b : Bytes) (vs : List α) (hfu : b.length ≤ fuel) (h : SeqOf P vs b) :
    countElems u fuel b = .ok vs.length ∧ seqElems f vs.length b = .ok (.ok vs) := by
  induction h generalizing fuel with
  | nil => exact ⟨by cases fuel <;> simp [countElems], rfl⟩
  | @cons v vs b rest hb hp _ ih =>
    obtain ⟨hdr, tl, inner, e, hh, hl, hco⟩ := hP _ _ _ hp
    have hne := header_ne hh
    have hpos : 0 < hdr.length := List.length_pos_iff.2 hne
    have hfb := (hf _ _ _).2 hp
    rw [e] at hfu
    simp only [List.length_append] at hfu
    obtain ⟨fuel, rfl⟩ : ∃ k, fuel = k + 1 := ⟨fuel - 1, by omega⟩
    obtain ⟨h1, h2⟩ := ih fuel (by omega)
    refine ⟨?_, ?_⟩
    · rw [e, countElems_cons hh hl hco, h1]; rfl
    · simp only [List.length_cons, seqElems, hfb, h2]

theorem sliceContent_iff {inner rest0 rest : Bytes} {vs : List α} :
    sliceContent (some u) f inner rest0 = .ok (vs, .ok rest) ↔ SeqOf P vs inner ∧ rest = rest0 := by
  constructor
  · intro h
    unfold sliceContent at h
    simp only at h
    split at h
    · cases h
    · rename_i n hn
      split at h
      · cases h
      · cases h
      · rename_i ws hs
        obtain ⟨rfl, rfl⟩ := ok_pair.1 h
        exact ⟨seq_of_elems hf hP n _ _ _ (Nat.le_refl _) hn hs, rfl⟩
  · rintro ⟨h, rfl⟩
    obtain ⟨h1, h2⟩ := elems_of_seq hf hP inner.length inner vs (Nat.le_refl _) h
    unfold sliceContent
    simp only [h1, h2]

end

theorem countOk_of_present {t : Ty} {u : Bool × Int × Bool} (hu : t.univ = some u) {tl : TagLen} (h : FieldPresent t {} tl) : CountOk u tl := by
  unfold CountOk
  by_cases hr : t = .rawValue
  · rw [(univ_any hu).2 hr]; rfl
  · obtain ⟨hc, h2⟩ := h
    have h2 : t = .rawValue ∨ (tl.cls = 0 ∧ t.HasTag tl.tag) := by
      rcases h2 with h2 | ⟨h2, h3⟩
      · exact .inl h2
      · exact .inr ⟨h2, by simpa using h3⟩
    rcases h2 with h2 | ⟨h2, h3⟩
    · exact absurd h2 hr
    · have hc : tl.isCompound = t.constructed := hc.resolve_left hr
      rw [univ_compound hu, h2, hc]
      simp only [ne_eq, not_true_eq_false, decide_false, Bool.false_or, Bool.and_eq_false_iff, decide_eq_false_iff_not, Decidable.not_not]
      right
      cases t <;> simp only [Ty.univ, Option.some.injEq] at hu <;> simp only [Ty.HasTag] at h3
      case any => cases hu
      case rawValue => exact absurd rfl hr
      case str =>
        subst hu
        by_cases h19 : tl.tag = 19
        · rw [h19]; rfl
        · rw [if_pos ((isStringTag_iff _).2 (by omega))]; rfl
      case time =>
        subst hu
        rcases h3 with h3 | h3 <;> rw [h3] <;> rfl
      case slice =>
        subst hu
        split at h3 <;> rename_i hs <;> (rw [h3]; simp only [hs, if_true, if_false]; rfl)
      all_goals (subst hu; rw [h3]; rfl)

theorem Located.plain_inv {t : Ty} {fp : FP} {b : Bytes} {tl : TagLen} {inner rest : Bytes} (h : Located t fp b tl inner rest)
    (he : fp.explicit = false) : ∃ hdr, b = hdr ++ inner ++ rest ∧ DerHeader tl hdr ∧ inner.length = tl.length ∧ FieldPresent t fp tl := by
  cases h with
  | plain _ hh hp hl => exact ⟨_, rfl, hh, hl, hp⟩
  | explicit he' => rw [he] at he'; cases he'
  | explicitRaw he' => rw [he] at he'; cases he'

theorem absent_optional {t : Ty} {fp : FP} {b : Bytes} (h : Absent t fp b) : fp.optional = true := by
  cases h <;> assumption

/-- An element of a sequence is always there. -/
theorem reads_elem {env : AsnEnv} {t : Ty} (ha : t ≠ .any) {v : t.interp} {b rest : Bytes} (h : Reads env t {} v b rest) :
    ∃ tl inner, Located t {} b tl inner rest := by
  have prim : PrimReads env t {} v b rest → ∃ tl inner, Located t {} b tl inner rest := by
    rintro (⟨tl, inner, hl, _⟩ | ⟨h, _⟩ | ⟨_, _, h, _⟩)
    · exact ⟨tl, inner, hl⟩
    · exact absurd (absent_optional h) (by simp)
    · cases h
  cases t
  case any => exact absurd rfl ha
  case struct raw fs =>
    rw [Reads] at h
    rcases h with ⟨tl, inner, hl, _⟩ | ⟨h, _⟩
    · exact ⟨tl, inner, hl⟩
    · exact absurd (absent_optional h) (by simp)
  case slice s e =>
    rw [Reads] at h
    rcases h with ⟨tl, inner, hl, _⟩ | ⟨h, _⟩
    · exact ⟨tl, inner, hl⟩
    · exact absurd (absent_optional h) (by simp)
  all_goals
    rw [Reads] at h
    exact prim h
    all_goals simp

/-! ## The main theorem -/

theorem structContent_iff {α : Type} {r : Go (α × Option UE)} {P : α → Prop} (hr : ∀ v, r = .ok (v, none) ↔ P v) {raw : Bool} {full rest0 rest : Bytes}
    {v : Bytes × α} :
    structContent raw full rest0 r = .ok (v, .ok rest) ↔
    (P v.2 ∧ v.1 = if raw then full else []) ∧ rest = rest0 := by
  rw [← hr]
  obtain ⟨v1, v2⟩ := v
  rcases r with p | ⟨w, _ | e⟩
  · simp [structContent]
  · simp only [structContent, ok_pair, Prod.mk.injEq, Except.ok.injEq, and_true]
    constructor
    · rintro ⟨⟨rfl, rfl⟩, rfl⟩; exact ⟨⟨rfl, rfl⟩, rfl⟩
    · rintro ⟨⟨rfl, rfl⟩, rfl⟩; exact ⟨⟨rfl, rfl⟩, rfl⟩
  · simp [structContent]

theorem readsAll_cons {env : AsnEnv} {tag : Bytes} {t : Ty} {fs : Fields} {v1 : t.interp} {v2 : fs.interp} {b : Bytes} :
    ReadsAll env (.cons tag t fs) (v1, v2) b ↔ ∃ rest, Reads env t (parseFP tag) v1 b rest ∧ ReadsAll env fs v2 rest := by
  have : ∀ v : (Fields.cons tag t fs).interp, ReadsAll env (.cons tag t fs) v b ↔
      ∃ rest, Reads env t (parseFP tag) v.1 b rest ∧ ReadsAll env fs v.2 rest := by
    intro v
    rw [ReadsAll]
  exact this (v1, v2)

mutual
theorem parseField_iff (env : AsnEnv) : (t : Ty) → (fp : FP) → fp.Ok → (b : Bytes) → (v : t.interp) → (rest : Bytes) →
    (parseField env t fp b = .ok (v, .ok rest) ↔ Reads env t fp v b rest)
  | .any, fp, _, b, v, rest => by
    rw [parseField, Reads]
    by_cases hb : b = []
    · refine (Iff.of_eq (congrArg (· = _) (if_pos hb))).trans ?_
      subst hb
      have hno : ¬ ∃ hdr tl inner, ([] : Bytes) = hdr ++ inner ++ rest ∧ DerHeader tl hdr ∧ inner.length = tl.length ∧ AnyContents env tl inner v := by
        rintro ⟨hdr, tl, inner, e, hh, _⟩
        have := header_ne hh
        have e := e.symm
        simp [this] at e
      constructor
      · intro h
        left
        by_cases ho : fp.optional = true
        · rw [if_pos ho] at h
          obtain ⟨h1, h2⟩ := ok_pair.1 h
          exact ⟨rfl, ho, h1, h2⟩
        · rw [if_neg ho] at h
          cases h
      · rintro (⟨_, ho, h1, h2⟩ | h)
        · rw [if_pos ho]
          exact ok_pair.2 ⟨h1, h2⟩
        · exact absurd h hno
    · refine (Iff.of_eq (congrArg (· = _) (if_neg hb))).trans ?_
      refine parseAny_iff.trans ?_
      constructor
      · exact .inr
      · rintro (⟨h, _⟩ | h)
        · exact absurd h hb
        · exact h
  | .struct raw fs, fp, h, b, v, rest => by
    rw [parseField, Reads]
    have hu : (Ty.struct raw fs).univ = some (false, 16, true) := rfl
    refine (fieldWith_iff (t := .struct raw fs) hu h).trans ?_
    have ih := fun inner v => parseFields_iff env fs inner v
    constructor
    · rintro (⟨tl, inner, r, hl, hk⟩ | h | ⟨⟨h, _⟩, _⟩)
      · obtain ⟨⟨h1, h2⟩, rfl⟩ := (structContent_iff (ih inner)).1 hk
        exact .inl ⟨tl, inner, hl, h1, h2⟩
      · exact .inr h
      · cases h
    · rintro (⟨tl, inner, hl, h1, h2⟩ | h)
      · exact .inl ⟨tl, inner, rest, hl, (structContent_iff (ih inner)).2 ⟨⟨h1, h2⟩, rfl⟩⟩
      · exact .inr (.inl h)
  | .slice isSET elem, fp, h, b, v, rest => by
    rw [parseField, Reads]
    have hu : (Ty.slice isSET elem).univ = some (false, if isSET then 17 else 16, true) := rfl
    refine (fieldWith_iff (t := .slice isSET elem) hu h).trans ?_
    have hfp : FP.Ok {} := by intro h'; cases h'
    have ih := fun b v rest => parseField_iff env elem {} hfp b v rest
    have key : ∀ inner rest0, (sliceContent elem.univ (parseField env elem {}) inner rest0 = .ok (v, .ok rest) ↔
        (elem ≠ .any ∧ SeqOf (Reads env elem {}) v inner) ∧ rest = rest0) := by
      intro inner rest0
      by_cases ha : elem = .any
      · subst ha
        refine ⟨fun h => ?_, fun h => absurd rfl h.1.1⟩
        have h := congrArg (fun x : Go (List Ty.any.interp × Except UE Bytes) => match x with | .ok (_, .error _) => true | _ => false) h
        cases h
      · have hue : ∃ u, elem.univ = some u := by
          cases elem <;> first | exact ⟨_, rfl⟩ | exact absurd rfl ha
        obtain ⟨u, hue⟩ := hue
        rw [hue]
        refine (sliceContent_iff ih (fun b v rest hr => ?_)).trans ?_
        · obtain ⟨tl, inner, hl⟩ := reads_elem ha hr
          obtain ⟨hdr, h1, h2, h3, h4⟩ := hl.plain_inv rfl
          exact ⟨hdr, tl, inner, h1, h2, h3, countOk_of_present hue h4⟩
        · exact and_congr ⟨fun h => ⟨ha, h⟩, fun h => h.2⟩ Iff.rfl
    constructor
    · rintro (⟨tl, inner, r, hl, hk⟩ | h | ⟨⟨h, _⟩, _⟩)
      · obtain ⟨⟨h1, h2⟩, rfl⟩ := (key _ _).1 hk
        exact .inl ⟨tl, inner, hl, h1, h2⟩
      · exact .inr h
      · cases h
    · rintro (⟨tl, inner, hl, h1, h2⟩ | h)
      · exact .inl ⟨tl, inner, rest, hl, (key _ _).2 ⟨⟨h1, h2⟩, rfl⟩⟩
      · exact .inr (.inl h)
  | .rawValue, fp, h, b, v, rest => by rw [parseField, Reads]; exact parsePrim_iff (by simp) (by simp) (by simp) h; all_goals simp
  | .oid, fp, h, b, v, rest => by rw [parseField, Reads]; exact parsePrim_iff (by simp) (by simp) (by simp) h; all_goals simp
  | .bits, fp, h, b, v, rest => by rw [parseField, Reads]; exact parsePrim_iff (by simp) (by simp) (by simp) h; all_goals simp
  | .time, fp, h, b, v, rest => by rw [parseField, Reads]; exact parsePrim_iff (by simp) (by simp) (by simp) h; all_goals simp
  | .enumerated, fp, h, b, v, rest => by rw [parseField, Reads]; exact parsePrim_iff (by simp) (by simp) (by simp) h; all_goals simp
  | .flag, fp, h, b, v, rest => by rw [parseField, Reads]; exact parsePrim_iff (by simp) (by simp) (by simp) h; all_goals simp
  | .bigInt, fp, h, b, v, rest => by rw [parseField, Reads]; exact parsePrim_iff (by simp) (by simp) (by simp) h; all_goals simp
  | .bool, fp, h, b, v, rest => by rw [parseField, Reads]; exact parsePrim_iff (by simp) (by simp) (by simp) h; all_goals simp
  | .int, fp, h, b, v, rest => by rw [parseField, Reads]; exact parsePrim_iff (by simp) (by simp) (by simp) h; all_goals simp
  | .int32, fp, h, b, v, rest => by rw [parseField, Reads]; exact parsePrim_iff (by simp) (by simp) (by simp) h; all_goals simp
  | .octets, fp, h, b, v, rest => by rw [parseField, Reads]; exact parsePrim_iff (by simp) (by simp) (by simp) h; all_goals simp
  | .str, fp, h, b, v, rest => by rw [parseField, Reads]; exact parsePrim_iff (by simp) (by simp) (by simp) h; all_goals simp

theorem parseFields_iff (env : AsnEnv) : (fs : Fields) → (b : Bytes) → (v : fs.interp) →
    (parseFields env fs b = .ok (v, none) ↔ ReadsAll env fs v b)
  | .nil, b, v => by
    rw [parseFields, ReadsAll]
    exact ⟨fun _ => trivial, fun _ => rfl⟩
  | .cons tag t fs, b, v => by
    obtain ⟨v1, v2⟩ := v
    refine Iff.trans ?_ readsAll_cons.symm
    rw [parseFields]
    have ih1 := parseField_iff env t (parseFP tag) (parseFP_ok tag) b v1
    obtain ⟨⟨w1, r⟩, hr⟩ := parseField_total env t (parseFP tag) (parseFP_ok tag) b
    rw [hr] at ih1 ⊢
    cases r with
    | error e =>
      constructor
      · intro h; cases h
      · rintro ⟨rest, h1, _⟩
        have := (ih1 rest).2 h1
        simp at this
    | ok rest =>
      have ih2 := fun v2 => parseFields_iff env fs rest v2
      obtain ⟨⟨w2, r2⟩, hr2⟩ := parseFields_total env fs rest
      have ih2 := ih2 v2
      simp only [hr2] at ih2 ⊢
      constructor
      · intro h
        simp only [Except.ok.injEq, Prod.mk.injEq] at h
        obtain ⟨⟨rfl, rfl⟩, rfl⟩ := h
        exact ⟨rest, (ih1 rest).1 rfl, ih2.1 rfl⟩
      · rintro ⟨rest', h1, h2⟩
        have h1 := (ih1 rest').2 h1
        simp only [Except.ok.injEq, Prod.mk.injEq] at h1
        obtain ⟨rfl, rfl⟩ := h1
        have h2 := ih2.2 h2
        simp only [Except.ok.injEq, Prod.mk.injEq] at h2
        obtain ⟨rfl, rfl⟩ := h2
        rfl
end

end Apk
