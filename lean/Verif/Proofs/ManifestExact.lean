import Verif.Spec.ManifestExact
import Verif.Proofs.Manifest
/-! # The manifest parser reads exactly the grammar -/
namespace Apk.Mf

theorem Text.tail {cr : Bool} {c : UInt8} {t : Bytes} (h : Text cr (c :: t)) (hc : c ≠ 10) : Text cr t := by
  refine ⟨fun x hx => h.bytes x (List.mem_cons_of_mem _ hx), ?_, ?_⟩
  · have := h.lf
    rw [List.count_cons_of_ne hc] at this
    exact this
  · have := h.last
    cases t with
    | nil => simp
    | cons d t => rwa [List.getLast?_cons_cons] at this

theorem Text.tail_lf {cr : Bool} {t : Bytes} (h : Text cr (10 :: t)) : cr = true ∧ t ≠ [] ∧ Text false t := by
  have h1 := h.lf
  rw [List.count_cons_self] at h1
  have hcr : cr = true := by cases cr <;> simp_all
  subst hcr
  have hne : t ≠ [] := by
    intro e
    subst e
    exact h.last rfl
  refine ⟨rfl, hne, fun x hx => h.bytes x (List.mem_cons_of_mem _ hx), ?_, ?_⟩
  · simp only [Bool.toNat_true] at h1; simp; omega
  · have := h.last
    cases t with
    | nil => simp
    | cons d t => rwa [List.getLast?_cons_cons] at this

theorem readValue_nil (value seg : Bytes) (len : Option Nat) (clb : Nat) (cr : Bool) :
    readValue [] value seg len clb cr = .ok (.ok (finishValue value seg len, [], clb)) := by rw [readValue.eq_def]

theorem readValue_cons (c : UInt8) (rest value seg : Bytes) (len : Option Nat) (clb : Nat) (lastCr : Bool) :
    readValue (c :: rest) value seg len clb lastCr =
    if c = 0 then .ok (.error .nul)
    else if c = 10 then readValue rest value (seg ++ [c]) len (if lastCr then clb else clb + 1) false
    else if c = 13 then readValue rest value (seg ++ [c]) len (clb + 1) true
    else if c = 32 ∧ clb = 1 then
      match len with
      | none => .error .sliceOutOfRange
      | some k => readValue rest (value ++ seg.take k) [] none 0 lastCr
    else if 1 ≤ clb then .ok (.ok (finishValue value seg len, c :: rest, clb))
    else readValue rest value (seg ++ [c]) (some (seg.length + 1)) clb lastCr := by
  cases len <;> simp only [readValue]

theorem scan_text (t : Bytes) (b value seg : Bytes) (len : Option Nat) (cr : Bool) (h : Text cr t) :
    readValue (t ++ b) value seg len 0 cr = readValue b value (seg ++ t) (if t = [] then len else some (seg.length + t.length)) 0 (after cr t) := by
  induction t generalizing seg len cr with
  | nil => simp [after]
  | cons c t ih =>
    have hb := h.bytes c (List.mem_cons_self ..)
    have hnn : ¬ (c :: t) = [] := by simp
    have es : seg ++ [c] ++ t = seg ++ c :: t := by simp
    have el : (seg ++ [c]).length + t.length = seg.length + (c :: t).length := by simp; omega
    rw [List.cons_append, readValue_cons, if_neg hb.1]
    by_cases hc : c = 10
    · subst hc
      obtain ⟨rfl, hne, ht⟩ := h.tail_lf
      have e : after true (10 :: t) = after false t := by simp [after]
      rw [if_pos rfl, if_pos rfl, ih _ _ _ ht, if_neg hne, if_neg hnn, e, es, el]
    · have e : after cr (c :: t) = after cr t := by
        have : ¬ 10 = c := fun h => hc h.symm
        simp [after, this]
      rw [if_neg hc, if_neg hb.2, if_neg (show ¬ (c = 32 ∧ 0 = 1) from fun h => by cases h.2), if_neg (show ¬ 1 ≤ 0 by decide),
        ih _ _ _ (h.tail hc), if_neg hnn, e, es, el]
      by_cases ht : t = []
      · subst ht; simp
      · rw [if_neg ht]

theorem scan_breaks (r : Bytes) (b value seg : Bytes) (len : Option Nat) (clb : Nat) (cr : Bool) (h : Breaks r) :
    readValue (r ++ b) value seg len clb cr = readValue b value (seg ++ r) len (clb + breakCount cr r)
      (if r = [] then cr else decide (r.getLast? = some 13)) := by
  induction r generalizing seg clb cr with
  | nil => simp [breakCount]
  | cons c r ih =>
    have hr : Breaks r := fun x hx => h x (List.mem_cons_of_mem _ hx)
    have hnn : ¬ (c :: r) = [] := by simp
    have es : seg ++ [c] ++ r = seg ++ c :: r := by simp
    have fl : (if r = [] then decide (c = 13) else decide (r.getLast? = some 13)) = decide ((c :: r).getLast? = some 13) := by
      cases r with
      | nil => simp
      | cons x r => rw [if_neg (show ¬ (x :: r) = [] by simp), List.getLast?_cons_cons]
    rw [List.cons_append, readValue_cons, if_neg hnn, ← fl]
    rcases h c (List.mem_cons_self ..) with hc | hc
    · have e : (if cr = true then clb else clb + 1) + breakCount false r = clb + breakCount cr (c :: r) := by
        rw [breakCount, if_neg (show ¬ c = 13 by rw [hc]; decide)]
        cases cr <;> simp; omega
      have e2 : decide (c = 13) = false := by rw [hc]; decide
      rw [if_neg (show ¬ c = 0 by rw [hc]; decide), if_pos hc, ih _ _ _ hr, e, e2, es]
    · have e : clb + 1 + breakCount true r = clb + breakCount cr (c :: r) := by
        rw [breakCount, if_pos hc]; omega
      have e2 : decide (c = 13) = true := by rw [hc]; decide
      rw [if_neg (show ¬ c = 0 by rw [hc]; decide), if_neg (show ¬ c = 10 by rw [hc]; decide), if_pos hc, ih _ _ _ hr, e, e2, es]

/-- The state at the start of a line: `some 0` at the start of a value, `none` at the start of a continuation line. -/
def start (first : Bool) : Option Nat := if first then some 0 else none

theorem scan_line {cr first : Bool} {t r : Bytes} (b value : Bytes) (ht : Text cr t) (hr : Breaks r) :
    readValue (t ++ r ++ b) value [] (start first) 0 cr = readValue b value (t ++ r) (if t = [] then start first else some t.length) (breakCount (after cr t) r)
      (if r = [] then after cr t else decide (r.getLast? = some 13)) := by
  rw [List.append_assoc, scan_text t _ _ _ _ _ ht, scan_breaks r _ _ _ _ _ _ hr]
  simp

theorem finish_line (value t r : Bytes) (first : Bool) : finishValue value (t ++ r) (if t = [] then start first else some t.length) = value ++ t := by
  by_cases h : t = []
  · subst h
    cases first <;> simp [start, finishValue]
  · simp [h, finishValue]

theorem value_complete {cr first : Bool} {b v rest : Bytes} {n : Nat} (h : ValueIs cr first b v rest n) (value : Bytes) :
    readValue b value [] (start first) 0 cr = .ok (.ok (value ++ v, rest, n)) := by
  induction h generalizing value with
  | @eof cr first t r ht hr =>
    have := scan_line (first := first) [] value ht hr
    rw [List.append_nil] at this
    rw [this, readValue_nil, finish_line]
  | @stop cr first t r c rest ht hr hn hc hs =>
    rw [scan_line _ _ ht hr, readValue_cons, if_neg hc.1, if_neg hc.2.1, if_neg hc.2.2, if_neg (fun h => hs h.1 h.2), if_pos hn, finish_line]
  | @more cr first t r b v rest n ht hf hr hn _ ih =>
    have hr0 : r ≠ [] := by
      intro h; subst h; simp [breakCount] at hn
    rw [scan_line _ _ ht hr, hn, if_neg hr0, readValue_cons, if_neg (by decide), if_neg (by decide), if_neg (by decide), if_pos ⟨rfl, rfl⟩]
    have e : (if t = [] then start first else some t.length) = some t.length := by
      by_cases h : t = []
      · rcases hf with hf | hf
        · subst h; subst hf; rfl
        · exact absurd h hf
      · rw [if_neg h]
    rw [e]
    show readValue b (value ++ (t ++ r).take t.length) [] (start false) 0 _ = _
    rw [List.take_left' rfl, ih, List.append_assoc]

theorem value_panics {cr first : Bool} {b : Bytes} (h : ValuePanics cr first b) (value : Bytes) :
    readValue b value [] (start first) 0 cr = .error .sliceOutOfRange := by
  induction h generalizing value with
  | @here cr r b hr hn =>
    have ht : Text cr [] := ⟨by simp, by simp, by simp⟩
    have := scan_line (first := false) (32 :: b) value ht hr
    have ea : after cr [] = cr := by simp [after]
    rw [List.nil_append, ea, hn] at this
    rw [this, readValue_cons, if_neg (by decide), if_neg (by decide), if_neg (by decide), if_pos ⟨rfl, rfl⟩]
    rfl
  | @more cr first t r b ht hf hr hn _ ih =>
    have hr0 : r ≠ [] := by
      intro h; subst h; simp [breakCount] at hn
    rw [scan_line _ _ ht hr, hn, if_neg hr0, readValue_cons, if_neg (by decide), if_neg (by decide), if_neg (by decide), if_pos ⟨rfl, rfl⟩]
    have e : (if t = [] then start first else some t.length) = some t.length := by
      by_cases h : t = []
      · rcases hf with hf | hf
        · subst h; subst hf; rfl
        · exact absurd h hf
      · rw [if_neg h]
    rw [e]
    exact ih _

/-- Every input starts with a line and line breaks. -/
theorem line_exists (b : Bytes) (cr : Bool) : ∃ t r rest, b = t ++ r ++ rest ∧ Text cr t ∧ Breaks r ∧
    (rest = [] ∨ ∃ c q, rest = c :: q ∧ c ≠ 10 ∧ c ≠ 13 ∧ (c = 0 ∨ 1 ≤ breakCount (after cr t) r)) := by
  have runs : ∀ b : Bytes, ∃ r rest, b = r ++ rest ∧ Breaks r ∧ (rest = [] ∨ ∃ c q, rest = c :: q ∧ c ≠ 10 ∧ c ≠ 13) := by
    intro b
    induction b with
    | nil => exact ⟨[], [], rfl, (fun _ h => by cases h), .inl rfl⟩
    | cons c b ih =>
      by_cases hc : c = 10 ∨ c = 13
      · obtain ⟨r, rest, e, h1, h2⟩ := ih
        refine ⟨c :: r, rest, by rw [e]; rfl, ?_, h2⟩
        intro x hx
        rcases List.mem_cons.1 hx with rfl | hx
        · exact hc
        · exact h1 x hx
      · exact ⟨[], c :: b, rfl, (fun _ h => by cases h), .inr ⟨c, b, rfl, fun h => hc (.inl h), fun h => hc (.inr h)⟩⟩
  have nil : ∀ cr, Text cr [] := fun cr => ⟨by simp, by simp, by simp⟩
  have an : ∀ cr, after cr [] = cr := fun cr => by simp [after]
  induction b generalizing cr with
  | nil => exact ⟨[], [], [], rfl, nil cr, (fun _ h => by cases h), .inl rfl⟩
  | cons c b ih =>
    by_cases h0 : c = 0
    · exact ⟨[], [], c :: b, rfl, nil cr, (fun _ h => by cases h), .inr ⟨c, b, rfl, by rw [h0]; decide, by rw [h0]; decide, .inl h0⟩⟩
    by_cases h13 : c = 13
    · obtain ⟨r, rest, e, h1, h2⟩ := runs b
      refine ⟨[], c :: r, rest, by rw [e]; rfl, nil cr, ?_, ?_⟩
      · intro x hx
        rcases List.mem_cons.1 hx with rfl | hx
        · exact .inr h13
        · exact h1 x hx
      · rcases h2 with h2 | ⟨d, q, h2, h3, h4⟩
        · exact .inl h2
        · exact .inr ⟨d, q, h2, h3, h4, .inr (by rw [breakCount, if_pos h13]; omega)⟩
    by_cases h10 : c = 10
    · cases cr with
      | false =>
        obtain ⟨r, rest, e, h1, h2⟩ := runs b
        refine ⟨[], c :: r, rest, by rw [e]; rfl, nil _, ?_, ?_⟩
        · intro x hx
          rcases List.mem_cons.1 hx with rfl | hx
          · exact .inl h10
          · exact h1 x hx
        · rcases h2 with h2 | ⟨d, q, h2, h3, h4⟩
          · exact .inl h2
          · refine .inr ⟨d, q, h2, h3, h4, .inr ?_⟩
            rw [an, breakCount, if_neg h13, if_neg (by decide)]; omega
      | true =>
        obtain ⟨t, r, rest, e, h1, h2, h3⟩ := ih false
        by_cases ht : t = []
        · subst ht
          refine ⟨[], c :: r, rest, by rw [e]; rfl, nil _, ?_, ?_⟩
          · intro x hx
            rcases List.mem_cons.1 hx with rfl | hx
            · exact .inl h10
            · exact h2 x hx
          · rcases h3 with h3 | ⟨d, q, h3, h4, h5, h6⟩
            · exact .inl h3
            · refine .inr ⟨d, q, h3, h4, h5, h6.imp id (fun h => ?_)⟩
              rw [an] at h ⊢
              rw [breakCount, if_neg h13, if_pos rfl]; exact h
        · refine ⟨c :: t, r, rest, by rw [e]; rfl, ⟨?_, ?_, ?_⟩, h2, ?_⟩
          · intro x hx
            rcases List.mem_cons.1 hx with rfl | hx
            · exact ⟨h0, h13⟩
            · exact h1.bytes x hx
          · rw [h10, List.count_cons_self]
            have := h1.lf
            simp at this ⊢; simp [this]
          · cases t with
            | nil => exact absurd rfl ht
            | cons d t => rw [List.getLast?_cons_cons]; exact h1.last
          · have e1 : after true (c :: t) = after false t := by simp [after, h10]
            rw [e1]; exact h3
    · obtain ⟨t, r, rest, e, h1, h2, h3⟩ := ih cr
      refine ⟨c :: t, r, rest, by rw [e]; rfl, ⟨?_, ?_, ?_⟩, h2, ?_⟩
      · intro x hx
        rcases List.mem_cons.1 hx with rfl | hx
        · exact ⟨h0, h13⟩
        · exact h1.bytes x hx
      · rw [List.count_cons_of_ne h10]; exact h1.lf
      · cases t with
        | nil => simp [h10]
        | cons d t => rw [List.getLast?_cons_cons]; exact h1.last
      · have e1 : after cr (c :: t) = after cr t := by
          have : ¬ 10 = c := fun h => h10 h.symm
          simp [after, this]
        rw [e1]; exact h3

/-- A value is read, or reading it panics, or there is a NUL. -/
theorem value_cases (b : Bytes) (cr first : Bool) : (∃ v rest n, ValueIs cr first b v rest n) ∨ ValuePanics cr first b ∨
    ∀ value, readValue b value [] (start first) 0 cr = .ok (.error .nul) := by
  induction hl : b.length using Nat.strongRecOn generalizing b cr first with
  | _ n ih =>
    obtain ⟨t, r, rest, rfl, ht, hr, h⟩ := line_exists b cr
    rcases h with rfl | ⟨c, q, rfl, h10, h13, h0⟩
    · rw [List.append_nil]
      exact .inl ⟨_, _, _, .eof ht hr⟩
    by_cases hc0 : c = 0
    · refine .inr (.inr fun value => ?_)
      rw [scan_line _ _ ht hr, readValue_cons, if_pos hc0]
    have hn : 1 ≤ breakCount (after cr t) r := h0.resolve_left hc0
    by_cases hsp : c = 32 ∧ breakCount (after cr t) r = 1
    · obtain ⟨rfl, h1⟩ := hsp
      have hr0 : r ≠ [] := by
        intro h; subst h; simp [breakCount] at h1
      by_cases hf : first = true ∨ t ≠ []
      · rcases ih q.length (by rw [← hl]; simp only [List.length_append, List.length_cons]; omega) q (decide (r.getLast? = some 13)) false rfl with ⟨v, rest, m, h⟩ | h | h
        · exact .inl ⟨_, _, _, .more ht hf hr h1 h⟩
        · exact .inr (.inl (.more ht hf hr h1 h))
        · refine .inr (.inr fun value => ?_)
          rw [scan_line _ _ ht hr, h1, if_neg hr0, readValue_cons, if_neg (by decide), if_neg (by decide), if_neg (by decide), if_pos ⟨rfl, rfl⟩]
          have e : (if t = [] then start first else some t.length) = some t.length := by
            by_cases h : t = []
            · rcases hf with hf | hf
              · subst h; subst hf; rfl
              · exact absurd h hf
            · rw [if_neg h]
          rw [e]
          exact h _
      · have hf1 : first = false := by cases first <;> simp_all
        have ht0 : t = [] := Classical.byContradiction fun h => hf (.inr h)
        subst hf1; subst ht0
        have ea : after cr [] = cr := by simp [after]
        rw [ea] at h1
        exact .inr (.inl (.here hr h1))
    · exact .inl ⟨_, _, _, .stop ht hr hn ⟨hc0, h10, h13⟩ (fun h1 h2 => hsp ⟨h1, h2⟩)⟩

theorem value_iff {b v rest : Bytes} {n : Nat} : readValue b [] [] (some 0) 0 false = .ok (.ok (v, rest, n)) ↔ ValueIs false true b v rest n := by
  constructor
  · intro h
    rcases value_cases b false true with ⟨v', rest', n', h'⟩ | h' | h'
    · have := value_complete h' []
      have e : start true = some 0 := rfl
      rw [e, h] at this
      cases this
      exact h'
    · have := value_panics h' []
      have e : start true = some 0 := rfl
      rw [e, h] at this; cases this
    · have := h' []
      have e : start true = some 0 := rfl
      rw [e, h] at this; cases this
  · intro h
    exact value_complete h []

theorem value_panics_iff {b : Bytes} : (∃ p, readValue b [] [] (some 0) 0 false = .error p) ↔ ValuePanics false true b := by
  constructor
  · rintro ⟨p, h⟩
    have e : start true = some 0 := rfl
    rcases value_cases b false true with ⟨v', rest', n', h'⟩ | h' | h'
    · have := value_complete h' []
      rw [e, h] at this; cases this
    · exact h'
    · have := h' []
      rw [e, h] at this; cases this
  · intro h
    exact ⟨_, value_panics h []⟩

/-! ## Attributes -/

theorem ValueIs.zero {cr first : Bool} {b v rest : Bytes} {n : Nat} (h : ValueIs cr first b v rest n) (hn : n = 0) : rest = [] := by
  induction h with
  | eof => rfl
  | stop _ _ h => omega
  | more _ _ _ _ _ ih => exact ih hn

theorem ValueIs.length {cr first : Bool} {b v rest : Bytes} {n : Nat} (h : ValueIs cr first b v rest n) : rest <:+ b := by
  induction h with
  | eof => exact List.nil_suffix
  | stop => exact List.suffix_append _ _
  | more _ _ _ _ _ ih => exact ih.trans ((List.suffix_cons _ _).trans (List.suffix_append _ _))

theorem Name.noColon {n : Bytes} (h : Name n) : (58 : UInt8) ∉ n := by
  intro hm
  have := h.2.2 _ hm
  revert this
  unfold IsNameByte
  decide

theorem AttrIs.suffix {b rest : Bytes} {a : Bytes × Bytes} {n : Nat} (h : AttrIs b a rest n) : rest <:+ b := by
  obtain ⟨name, body, rfl, _, _, hv⟩ := h
  exact hv.length.trans (List.suffix_append _ _)

theorem AttrIs.length {b rest : Bytes} {a : Bytes × Bytes} {n : Nat} (h : AttrIs b a rest n) : rest.length < b.length := by
  obtain ⟨name, body, rfl, _, _, hv⟩ := h
  have := hv.length.length_le
  simp only [List.length_append, List.length_cons, List.length_nil]
  omega

theorem header_attr {b rest : Bytes} {a : Bytes × Bytes} {n clb : Nat} (hc : clb ≤ 1) (h : AttrIs b a rest n) :
    readHeader b clb = .ok (.ok ⟨if 0 < n then some a else none, rest, n⟩) := by
  obtain ⟨name, body, rfl, hn, ha, hv⟩ := h
  have e : name ++ [58, 32] ++ body = name ++ 58 :: 32 :: body := by simp
  rw [e, readHeader_of hc hn.noColon ((isValidName_iff _).2 hn) (value_iff.2 hv), lower_eq, ← ha]

theorem header_none {b : Bytes} {clb : Nat} (hc : clb ≤ 1) (h : (58 : UInt8) ∉ b) : readHeader b clb = .ok (.ok ⟨none, [], 0⟩) := by
  unfold readHeader
  rw [if_neg (by omega), splitColon_none.2 h]

theorem header_blank {b : Bytes} {clb : Nat} (hc : 1 < clb) : readHeader b clb = .ok (.ok ⟨none, b, 0⟩) := by
  unfold readHeader
  rw [if_pos hc]

theorem header_noMore {b : Bytes} {clb : Nat} (hc : clb ≤ 1) (h : NoMore b) : readHeader b clb = .ok (.ok ⟨none, [], 0⟩) := by
  rcases h with h | ⟨a, h⟩
  · exact header_none hc h
  · rw [header_attr hc h]; rfl

theorem header_panics {b : Bytes} {clb : Nat} (hc : clb ≤ 1) (h : AttrPanics b) : ∃ p, readHeader b clb = .error p := by
  unfold readHeader
  rw [if_neg (by omega)]
  rcases h with ⟨name, rfl, hn⟩ | ⟨name, body, rfl, hn, hv⟩
  · rw [splitColon_append hn]
    exact ⟨_, rfl⟩
  · have e : name ++ [58, 32] ++ body = name ++ 58 :: 32 :: body := by simp
    obtain ⟨p, hp⟩ := value_panics_iff.2 hv
    rw [e, splitColon_append hn.noColon]
    refine ⟨p, ?_⟩
    show (if (32 : UInt8) ≠ 32 then _ else _) = _
    rw [if_neg (by decide), if_neg (by simp [(isValidName_iff _).2 hn]), hp]

theorem header_cases (b : Bytes) : (∃ a rest n, AttrIs b a rest n) ∨ (58 : UInt8) ∉ b ∨ AttrPanics b ∨
    ∃ e, ∀ clb, clb ≤ 1 → readHeader b clb = .ok (.error e) := by
  cases hs : splitColon b with
  | none => exact .inr (.inl (splitColon_none.1 hs))
  | some p =>
    obtain ⟨name, rest⟩ := p
    obtain ⟨rfl, hn⟩ := splitColon_some hs
    cases rest with
    | nil => exact .inr (.inr (.inl (.inl ⟨name, rfl, hn⟩)))
    | cons c body =>
      by_cases hc : c = 32
      · subst hc
        by_cases hv : isValidName name = true
        · have hN : Name name := (isValidName_iff _).1 hv
          rcases value_cases body false true with ⟨v, rest, n, h⟩ | h | h
          · exact .inl ⟨(asciiLower name, v), rest, n, name, body, by simp, hN, rfl, h⟩
          · exact .inr (.inr (.inl (.inr ⟨name, body, by simp, hN, h⟩)))
          · refine .inr (.inr (.inr ⟨.nul, fun clb hc => ?_⟩))
            have h := h []
            have e : start true = some 0 := rfl
            rw [e] at h
            unfold readHeader
            rw [if_neg (by omega), hs]
            show (if (32 : UInt8) ≠ 32 then _ else _) = _
            rw [if_neg (by decide), if_neg (by simp [hv]), h]
        · refine .inr (.inr (.inr ⟨.attrName, fun clb hc => ?_⟩))
          unfold readHeader
          rw [if_neg (by omega), hs]
          show (if (32 : UInt8) ≠ 32 then _ else _) = _
          rw [if_neg (by decide), if_pos (by simp [hv])]
      · refine .inr (.inr (.inr ⟨.headerStructure, fun clb hc' => ?_⟩))
        unfold readHeader
        rw [if_neg (by omega), hs]
        show (if c ≠ 32 then _ else _) = _
        rw [if_pos hc]

/-! ## Sections -/

/-- Storing attributes in order. -/
def store (m : Attrs) (as : List (Bytes × Bytes)) : Attrs := as.foldl (fun e a => mset e a.1 a.2) m

theorem readAttrs_succ (f : Nat) (b : Bytes) (clb : Nat) (m : Attrs) : readAttrs (f + 1) b clb m =
    match readHeader b clb with
    | .error p => .error p
    | .ok (.error e) => .ok (.error e)
    | .ok (.ok h) =>
      match h.attr with
      | none => .ok (.ok (m, h.rest, h.clb))
      | some (n, v) => readAttrs f h.rest h.clb (mset m n v) := rfl

theorem attrs_complete {n : Nat} {b rest : Bytes} {as : List (Bytes × Bytes)} (h : AttrsAre n b as rest) {f : Nat} (hf : b.length < f) (m : Attrs) :
    readAttrs f b n m = .ok (.ok (store m as, rest, 0)) := by
  induction h generalizing f m with
  | @blank n b hn =>
    obtain ⟨f, rfl⟩ : ∃ g, f = g + 1 := ⟨f - 1, by omega⟩
    rw [readAttrs_succ, header_blank hn]; rfl
  | @eof n b hn h =>
    obtain ⟨f, rfl⟩ : ∃ g, f = g + 1 := ⟨f - 1, by omega⟩
    rw [readAttrs_succ, header_noMore hn h]; rfl
  | @cons n k b rest rest' a as hn h hk _ ih =>
    obtain ⟨f, rfl⟩ : ∃ g, f = g + 1 := ⟨f - 1, by omega⟩
    have := h.length
    rw [readAttrs_succ, header_attr hn h, if_pos hk]
    show readAttrs f rest k (mset m a.1 a.2) = _
    rw [ih (by omega)]; rfl

theorem attrs_panic {n : Nat} {b : Bytes} (h : AttrsPanic n b) {f : Nat} (hf : b.length < f) (m : Attrs) : ∃ p, readAttrs f b n m = .error p := by
  induction h generalizing f m with
  | @here n b hn h =>
    obtain ⟨f, rfl⟩ : ∃ g, f = g + 1 := ⟨f - 1, by omega⟩
    obtain ⟨p, hp⟩ := header_panics hn h
    rw [readAttrs_succ, hp]; exact ⟨p, rfl⟩
  | @later n k b rest a hn h hk _ ih =>
    obtain ⟨f, rfl⟩ : ∃ g, f = g + 1 := ⟨f - 1, by omega⟩
    have := h.length
    rw [readAttrs_succ, header_attr hn h, if_pos hk]
    exact ih (by omega) _

theorem attrs_cases (n : Nat) (b : Bytes) : (∃ as rest, AttrsAre n b as rest) ∨ AttrsPanic n b ∨
    ∃ e, ∀ f m, b.length < f → readAttrs f b n m = .ok (.error e) := by
  induction hl : b.length using Nat.strongRecOn generalizing b n with
  | _ l ih =>
    by_cases hn : 1 < n
    · exact .inl ⟨_, _, .blank hn⟩
    have hn : n ≤ 1 := by omega
    rcases header_cases b with ⟨a, rest, k, h⟩ | h | h | ⟨e, h⟩
    · by_cases hk : 0 < k
      · have hlen := h.length
        rcases ih rest.length (by omega) k rest rfl with ⟨as, r, h'⟩ | h' | ⟨e, h'⟩
        · exact .inl ⟨_, _, .cons hn h hk h'⟩
        · exact .inr (.inl (.later hn h hk h'))
        · refine .inr (.inr ⟨e, fun f m hf => ?_⟩)
          obtain ⟨f, rfl⟩ : ∃ g, f = g + 1 := ⟨f - 1, by omega⟩
          rw [readAttrs_succ, header_attr hn h, if_pos hk]
          exact h' _ _ (by omega)
      · have hk0 : k = 0 := by omega
        subst hk0
        have hr : rest = [] := by
          obtain ⟨_, _, _, _, _, hv⟩ := h
          exact hv.zero rfl
        subst hr
        exact .inl ⟨_, _, .eof hn (.inr ⟨a, h⟩)⟩
    · exact .inl ⟨_, _, .eof hn (.inl h)⟩
    · exact .inr (.inl (.here hn h))
    · refine .inr (.inr ⟨e, fun f m hf => ?_⟩)
      obtain ⟨f, rfl⟩ : ∃ g, f = g + 1 := ⟨f - 1, by omega⟩
      rw [readAttrs_succ, h n hn]

theorem AttrsAre.suffix {n : Nat} {b rest : Bytes} {as : List (Bytes × Bytes)} (h : AttrsAre n b as rest) : rest <:+ b := by
  induction h with
  | blank => exact List.suffix_refl _
  | eof => exact List.nil_suffix
  | cons _ h _ _ ih => exact ih.trans h.suffix

theorem readSections_succ (wc : Bool) (f : Nat) (b : Bytes) (clb : Nat) (m : Manifest) : readSections wc (f + 1) b clb m =
    match readHeader b clb with
    | .error p => .error p
    | .ok (.error e) => .ok (.error e)
    | .ok (.ok h) =>
      match h.attr with
      | none => .ok (.ok m)
      | some (n, v) =>
        if n ≠ attrName then .ok (.error .entryNotNamed)
        else
          match readAttrs (h.rest.length + 1) h.rest h.clb ((mget m.entries v).getD []) with
          | .error p => .error p
          | .ok (.error e) => .ok (.error e)
          | .ok (.ok (entry', rest', clb')) =>
            if wc then
              if (mget m.chunks v).isSome then .ok (.error .duplicateEntry)
              else readSections wc f rest' clb'
                { m with entries := mset m.entries v entry', chunks := mset m.chunks v (b.take (b.length - rest'.length)) }
            else readSections wc f rest' clb' { m with entries := mset m.entries v entry' } := rfl

/-- Storing a section. -/
def storeSec (wc : Bool) (m : Manifest) (s : Section) : Manifest :=
  { m with entries := mset m.entries s.name (store ((mget m.entries s.name).getD []) s.attrs), chunks := if wc then mset m.chunks s.name s.bytes else m.chunks }

theorem SectionIs.length {b rest : Bytes} {s : Section} (h : SectionIs b s rest) : rest.length < b.length := by
  obtain ⟨r, k, h1, _, h2, _⟩ := h
  have := h1.length
  have := h2.suffix.length_le
  omega

theorem section_step {wc : Bool} {b rest : Bytes} {s : Section} (h : SectionIs b s rest) (f : Nat) (m : Manifest) : readSections wc (f + 1) b 0 m =
    if wc = true ∧ (mget m.chunks s.name).isSome = true then .ok (.error .duplicateEntry) else readSections wc f rest 0 (storeSec wc m s) := by
  obtain ⟨r, k, h1, hk, h2, h3⟩ := h
  rw [readSections_succ, header_attr (by omega) h1, if_pos hk]
  show (if b!"name" ≠ attrName then _ else _) = _
  rw [if_neg (by decide)]
  dsimp only
  rw [attrs_complete h2 (by omega)]
  have e : b.take (b.length - rest.length) = s.bytes := by
    rw [h3, List.length_append, Nat.add_sub_cancel, List.take_left]
  cases wc with
  | false => simp [storeSec]
  | true => simp only [e, storeSec]; simp

theorem sections_stop {wc : Bool} {b : Bytes} (h : NoMore b) (f : Nat) (m : Manifest) : readSections wc (f + 1) b 0 m = .ok (.ok m) := by
  rw [readSections_succ, header_noMore (by omega) h]

theorem sections_complete {wc : Bool} {b : Bytes} {ss : List Section} (h : SectionsAre b ss) {f : Nat} (hf : b.length < f) (m : Manifest)
    (hd : wc = true → (ss.map Section.name).Nodup ∧ ∀ s ∈ ss, mget m.chunks s.name = none) :
    readSections wc f b 0 m = .ok (.ok (ss.foldl (storeSec wc) m)) := by
  induction h generalizing f m with
  | @nil b h =>
    obtain ⟨f, rfl⟩ : ∃ g, f = g + 1 := ⟨f - 1, by omega⟩
    exact sections_stop h _ _
  | @cons b rest s ss h _ ih =>
    obtain ⟨f, rfl⟩ : ∃ g, f = g + 1 := ⟨f - 1, by omega⟩
    have := h.length
    rw [section_step h, if_neg, ih (by omega)]
    · rfl
    · intro hw
      obtain ⟨h1, h2⟩ := hd hw
      rw [List.map_cons, List.nodup_cons] at h1
      refine ⟨h1.2, fun x hx => ?_⟩
      have hne : ¬ s.name = x.name := fun e => h1.1 (by rw [e]; exact List.mem_map.2 ⟨x, hx, rfl⟩)
      simp only [storeSec, hw, if_true]
      rw [mget_mset, if_neg hne]
      exact h2 x (List.mem_cons_of_mem _ hx)
    · rintro ⟨hw, h1⟩
      rw [(hd hw).2 s (List.mem_cons_self ..)] at h1
      cases h1

/-- The recorded sections are those of the names seen. -/
def Seen (wc : Bool) (seen : List Bytes) (m : Manifest) : Prop := wc = true → ∀ n, (mget m.chunks n).isSome = true ↔ n ∈ seen

theorem Seen.store {wc : Bool} {seen : List Bytes} {m : Manifest} (h : Seen wc seen m) (s : Section) : Seen wc (s.name :: seen) (storeSec wc m s) := by
  intro hw n
  simp only [storeSec, hw, if_true]
  rw [mget_mset, List.mem_cons, ← h hw n]
  by_cases e : n = s.name
  · simp [e]
  · have e' : ¬ s.name = n := fun h => e h.symm
    simp [e, e']

theorem sections_panic {wc : Bool} {seen : List Bytes} {b : Bytes} (h : SectionsPanic wc seen b) {f : Nat} (hf : b.length < f) (m : Manifest)
    (hm : Seen wc seen m) : ∃ p, readSections wc f b 0 m = .error p := by
  induction h generalizing f m with
  | @name seen b h =>
    obtain ⟨f, rfl⟩ : ∃ g, f = g + 1 := ⟨f - 1, by omega⟩
    obtain ⟨p, hp⟩ := header_panics (clb := 0) (by omega) h
    rw [readSections_succ, hp]; exact ⟨p, rfl⟩
  | @attrs seen b v r k h hk hs =>
    obtain ⟨f, rfl⟩ : ∃ g, f = g + 1 := ⟨f - 1, by omega⟩
    obtain ⟨p, hp⟩ := attrs_panic hs (Nat.lt_succ_self _) ((mget m.entries v).getD [])
    rw [readSections_succ, header_attr (by omega) h, if_pos hk]
    refine ⟨p, ?_⟩
    show (if b!"name" ≠ attrName then _ else _) = _
    rw [if_neg (by decide)]
    dsimp only
    rw [hp]
  | @later seen b rest s h hn _ ih =>
    obtain ⟨f, rfl⟩ : ∃ g, f = g + 1 := ⟨f - 1, by omega⟩
    have := h.length
    rw [section_step h, if_neg]
    · exact ih (by omega) _ (hm.store s)
    · rintro ⟨hw, h1⟩
      exact hn hw ((hm hw _).1 h1)

theorem sections_cases (wc : Bool) (seen : List Bytes) (b : Bytes) :
    (∃ ss, SectionsAre b ss ∧ (wc = true → (ss.map Section.name).Nodup ∧ ∀ s ∈ ss, s.name ∉ seen)) ∨ SectionsPanic wc seen b ∨
    ∃ e, ∀ f m, b.length < f → Seen wc seen m → readSections wc f b 0 m = .ok (.error e) := by
  induction hl : b.length using Nat.strongRecOn generalizing b seen with
  | _ l ih =>
    rcases header_cases b with ⟨a, rest, k, h⟩ | h | h | ⟨e, h⟩
    · by_cases hk : 0 < k
      · obtain ⟨an, v⟩ := a
        by_cases hna : an = b!"name"
        · subst hna
          have hlen := h.length
          rcases attrs_cases k rest with ⟨as, r, h'⟩ | h' | ⟨e, h'⟩
          · obtain ⟨p, hp⟩ := h'.suffix.trans h.suffix
            have hsec : SectionIs b ⟨v, as, p⟩ r := ⟨rest, k, h, hk, h', hp.symm⟩
            have hr := h'.suffix.length_le
            by_cases hd : wc = true → v ∉ seen
            · rcases ih r.length (by omega) (v :: seen) r rfl with ⟨ss, h1, h2⟩ | h1 | ⟨e, h1⟩
              · refine .inl ⟨_, .cons hsec h1, fun hw => ?_⟩
                obtain ⟨g1, g2⟩ := h2 hw
                constructor
                · rw [List.map_cons, List.nodup_cons]
                  refine ⟨?_, g1⟩
                  intro hm
                  obtain ⟨s, hs, e⟩ := List.mem_map.1 hm
                  exact g2 s hs (by rw [e]; exact List.mem_cons_self ..)
                · intro s hs
                  rcases List.mem_cons.1 hs with rfl | hs
                  · exact hd hw
                  · exact fun hm => g2 s hs (List.mem_cons_of_mem _ hm)
              · exact .inr (.inl (.later hsec hd h1))
              · refine .inr (.inr ⟨e, fun f m hf hm => ?_⟩)
                obtain ⟨f, rfl⟩ : ∃ g, f = g + 1 := ⟨f - 1, by omega⟩
                rw [section_step hsec, if_neg]
                · exact h1 _ _ (by omega) (hm.store ⟨v, as, p⟩)
                · rintro ⟨hw, h1⟩
                  exact hd hw ((hm hw _).1 h1)
            · refine .inr (.inr ⟨.duplicateEntry, fun f m hf hm => ?_⟩)
              obtain ⟨f, rfl⟩ : ∃ g, f = g + 1 := ⟨f - 1, by omega⟩
              have hw : wc = true ∧ v ∈ seen := by
                refine Classical.byContradiction fun hn => hd fun hw hm => hn ⟨hw, hm⟩
              rw [section_step hsec, if_pos ⟨hw.1, (hm hw.1 _).2 hw.2⟩]
          · exact .inr (.inl (.attrs h hk h'))
          · refine .inr (.inr ⟨e, fun f m hf hm => ?_⟩)
            obtain ⟨f, rfl⟩ : ∃ g, f = g + 1 := ⟨f - 1, by omega⟩
            rw [readSections_succ, header_attr (by omega) h, if_pos hk]
            show (if b!"name" ≠ attrName then _ else _) = _
            rw [if_neg (by decide)]
            dsimp only
            rw [h' _ _ (Nat.lt_succ_self _)]
        · refine .inr (.inr ⟨.entryNotNamed, fun f m hf hm => ?_⟩)
          obtain ⟨f, rfl⟩ : ∃ g, f = g + 1 := ⟨f - 1, by omega⟩
          rw [readSections_succ, header_attr (by omega) h, if_pos hk]
          show (if an ≠ attrName then _ else _) = _
          rw [if_pos (show an ≠ attrName from hna)]
      · have hk0 : k = 0 := by omega
        subst hk0
        have hr : rest = [] := by
          obtain ⟨_, _, _, _, _, hv⟩ := h
          exact hv.zero rfl
        subst hr
        exact .inl ⟨[], .nil (.inr ⟨a, h⟩), fun _ => ⟨List.nodup_nil, fun _ h => by cases h⟩⟩
    · exact .inl ⟨[], .nil (.inl h), fun _ => ⟨List.nodup_nil, fun _ h => by cases h⟩⟩
    · exact .inr (.inl (.name h))
    · refine .inr (.inr ⟨e, fun f m hf hm => ?_⟩)
      obtain ⟨f, rfl⟩ : ∃ g, f = g + 1 := ⟨f - 1, by omega⟩
      rw [readSections_succ, h 0 (by omega)]

theorem mset_new {ν : Type} {m : List (Bytes × ν)} {k : Bytes} (v : ν) (h : mget m k = none) : mset m k v = m ++ [(k, v)] := by
  induction m with
  | nil => rfl
  | cons p ps ih =>
    rw [mget_cons] at h
    split at h
    · cases h
    · rename_i hne
      rw [mset, if_neg hne, ih h]; rfl

/-- What `parse` returns for a manifest of this meaning. -/
theorem stored (wc : Bool) (ss : List Section) (m : Manifest) (h : wc = true → (ss.map Section.name).Nodup ∧ ∀ s ∈ ss, mget m.chunks s.name = none) :
    ss.foldl (storeSec wc) m = { m with
      entries := ss.foldl (fun m s => mset m s.name (s.attrs.foldl (fun e a => mset e a.1 a.2) ((mget m s.name).getD []))) m.entries
      chunks := if wc then m.chunks ++ ss.map (fun s => (s.name, s.bytes)) else m.chunks } := by
  induction ss generalizing m with
  | nil => cases wc <;> simp
  | cons s ss ih =>
    rw [List.foldl_cons, ih]
    · cases wc with
      | false => simp [storeSec, store]
      | true =>
        have := (h rfl).2 s (List.mem_cons_self ..)
        simp only [storeSec, if_true, store, List.foldl_cons, List.map_cons]
        rw [mset_new _ this]
        simp
    · intro hw
      obtain ⟨h1, h2⟩ := h hw
      rw [List.map_cons, List.nodup_cons] at h1
      refine ⟨h1.2, fun x hx => ?_⟩
      have hne : ¬ s.name = x.name := fun e => h1.1 (by rw [e]; exact List.mem_map.2 ⟨x, hx, rfl⟩)
      simp only [storeSec, hw, if_true]
      rw [mget_mset, if_neg hne]
      exact h2 x (List.mem_cons_of_mem _ hx)

end Apk.Mf
