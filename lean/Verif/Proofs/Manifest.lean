import Verif.Model.Manifest
import Verif.Spec.Manifest
import Verif.Proofs.Base
/-! # The manifest parser -/
namespace Apk

theorem lower_eq (n : Bytes) : lower n = asciiLower n := rfl

theorem nameByte_iff (c : UInt8) : nameByte c = true ↔ IsNameByte c := by
  unfold nameByte IsNameByte
  simp only [Bool.or_eq_true, Bool.and_eq_true, decide_eq_true_eq]
  constructor
  · rintro ((((h | h) | h) | h) | h) <;> simp [h]
  · rintro (h | h | h | h | h) <;> simp [h]

theorem isValidName_iff (n : Bytes) : isValidName n = true ↔ n ≠ [] ∧ n.length ≤ 70 ∧ ∀ c ∈ n, IsNameByte c := by
  unfold isValidName
  simp only [Bool.and_eq_true, decide_eq_true_eq, List.all_eq_true, nameByte_iff, and_assoc, ne_eq, List.length_eq_zero_iff]

theorem splitColon_some {b n r : Bytes} (h : splitColon b = some (n, r)) : b = n ++ 58 :: r ∧ (58 : UInt8) ∉ n := by
  induction b generalizing n r with
  | nil => cases h
  | cons c b ih =>
    unfold splitColon at h
    split at h
    · rename_i hc
      cases h; subst hc; simp
    · rename_i hc
      obtain ⟨⟨n', r'⟩, h1, h2⟩ := Option.map_eq_some_iff.1 h
      cases h2
      obtain ⟨h3, h4⟩ := ih h1
      refine ⟨by rw [h3]; rfl, ?_⟩
      intro hm
      rcases List.mem_cons.1 hm with h5 | h5
      · exact hc h5.symm
      · exact h4 h5

theorem splitColon_append {n : Bytes} (h : (58 : UInt8) ∉ n) (r : Bytes) : splitColon (n ++ 58 :: r) = some (n, r) := by
  induction n with
  | nil => simp [splitColon]
  | cons c n ih =>
    have h1 : c ≠ 58 := fun hc => h (by simp [hc])
    have h2 : (58 : UInt8) ∉ n := fun hc => h (by simp [hc])
    rw [List.cons_append, splitColon, if_neg h1, ih h2]; rfl

theorem splitColon_none {b : Bytes} : splitColon b = none ↔ (58 : UInt8) ∉ b := by
  induction b with
  | nil => simp [splitColon]
  | cons c b ih =>
    unfold splitColon
    split
    · rename_i hc; subst hc; simp
    · rename_i hc
      simp only [Option.map_eq_none_iff, ih, List.mem_cons, not_or]
      constructor
      · intro h; exact ⟨fun h' => hc h'.symm, h⟩
      · intro h; exact h.2

theorem name_no_colon {n : Bytes} (h : ∀ c ∈ n, IsNameByte c) : (58 : UInt8) ∉ n := by
  intro hm
  have := h 58 hm
  unfold IsNameByte at this
  have h58 : (58 : UInt8).toNat = 58 := rfl
  omega

/-! ## The value loop consumes a prefix -/

theorem readValue_suffix {b value seg : Bytes} {len : Option Nat} {clb : Nat} {cr : Bool} {v r : Bytes} {n : Nat}
    (h : readValue b value seg len clb cr = .ok (.ok (v, r, n))) : r <:+ b := by
  induction b generalizing value seg len clb cr with
  | nil => unfold readValue at h; cases h; exact List.suffix_refl _
  | cons c b ih =>
    unfold readValue at h
    split at h
    · cases h
    split at h
    · exact (ih h).trans (List.suffix_cons _ _)
    split at h
    · exact (ih h).trans (List.suffix_cons _ _)
    split at h
    · split at h
      · cases h
      · exact (ih h).trans (List.suffix_cons _ _)
    split at h
    · cases h; exact List.suffix_refl _
    · exact (ih h).trans (List.suffix_cons _ _)

/-- The loop looks at nothing beyond what it consumes, but for the byte it stops at. -/
theorem readValue_local {x x' y value seg : Bytes} {len : Option Nat} {clb : Nat} {cr : Bool} {v : Bytes} {n : Nat}
    (h : readValue (x ++ y) value seg len clb cr = .ok (.ok (v, x' ++ y, n))) :
    readValue x value seg len clb cr = .ok (.ok (v, x', n)) := by
  induction x generalizing value seg len clb cr with
  | nil =>
    have hs := readValue_suffix h
    have hl := hs.length_le
    rw [List.nil_append, List.length_append] at hl
    have hx : x' = [] := List.length_eq_zero_iff.1 (by omega)
    subst hx
    unfold readValue
    rw [List.nil_append] at h
    cases y with
    | nil => unfold readValue at h; exact h
    | cons c y =>
      have hno : ∀ {value seg len clb cr}, readValue y value seg len clb cr ≠ .ok (.ok (v, c :: y, n)) := by
        intro value seg len clb cr h'
        have := (readValue_suffix h').length_le
        simp only [List.length_cons] at this
        omega
      unfold readValue at h
      split at h
      · cases h
      split at h
      · exact absurd h hno
      split at h
      · exact absurd h hno
      split at h
      · split at h
        · cases h
        · exact absurd h hno
      split at h
      · cases h; rfl
      · exact absurd h hno
  | cons c x ih =>
    rw [List.cons_append] at h
    unfold readValue at h ⊢
    split at h
    · cases h
    rename_i h1
    rw [if_neg h1]
    split at h
    · rename_i h2
      rw [if_pos h2]; exact ih h
    rename_i h2
    rw [if_neg h2]
    split at h
    · rename_i h3
      rw [if_pos h3]; exact ih h
    rename_i h3
    rw [if_neg h3]
    split at h
    · rename_i h4
      rw [if_pos h4]
      cases len with
      | none => cases h
      | some k => exact ih h
    rename_i h4
    rw [if_neg h4]
    split at h
    · rename_i h5
      rw [if_pos h5]
      simp only [Except.ok.injEq, Prod.mk.injEq] at h
      obtain ⟨h6, h7, h8⟩ := h
      rw [h6, h8]
      rw [← List.cons_append] at h7
      rw [List.append_cancel_right h7]
    · rename_i h5
      rw [if_neg h5]; exact ih h

/-! ## Headers -/

theorem readHeader_inv {b : Bytes} {clb : Nat} {h : Header} (hh : readHeader b clb = .ok (.ok h)) :
    (1 < clb ∧ h = ⟨none, b, 0⟩) ∨
    (clb ≤ 1 ∧ (58 : UInt8) ∉ b ∧ h = ⟨none, [], 0⟩) ∨
    (clb ≤ 1 ∧ ∃ name body v r n, b = name ++ 58 :: 32 :: body ∧ (58 : UInt8) ∉ name ∧ isValidName name = true ∧
      readValue body [] [] (some 0) 0 false = .ok (.ok (v, r, n)) ∧
      h = ⟨if 0 < n then some (lower name, v) else none, r, n⟩) := by
  unfold readHeader at hh
  split at hh
  · rename_i h1; cases hh; exact Or.inl ⟨h1, rfl⟩
  rename_i h1
  refine Or.inr ?_
  split at hh
  · rename_i h2; cases hh
    exact Or.inl ⟨by omega, splitColon_none.1 h2, rfl⟩
  rename_i name after h2
  refine Or.inr ⟨by omega, ?_⟩
  obtain ⟨h3, h4⟩ := splitColon_some h2
  split at hh
  · cases hh
  rename_i c body
  split at hh
  · cases hh
  rename_i h5
  split at hh
  · cases hh
  rename_i h6
  have h5' : c = 32 := Classical.not_not.1 h5
  subst h5'
  split at hh
  · cases hh
  · cases hh
  · rename_i v r n h7
    cases hh
    exact ⟨name, body, v, r, n, h3, h4, by simpa using h6, h7, rfl⟩

theorem readHeader_suffix {b : Bytes} {clb : Nat} {h : Header} (hh : readHeader b clb = .ok (.ok h)) : h.rest <:+ b := by
  rcases readHeader_inv hh with ⟨_, rfl⟩ | ⟨_, _, rfl⟩ | ⟨_, name, body, v, r, n, h1, _, _, h2, rfl⟩
  · exact List.suffix_refl _
  · exact List.nil_suffix
  · rw [h1]
    exact (readValue_suffix h2).trans ⟨name ++ [58, 32], by simp⟩

theorem readHeader_some_len {b : Bytes} {clb : Nat} {h : Header} {p} (hh : readHeader b clb = .ok (.ok h)) (hp : h.attr = some p) :
    h.rest.length + 2 ≤ b.length ∧ 0 < h.clb := by
  rcases readHeader_inv hh with ⟨_, rfl⟩ | ⟨_, _, rfl⟩ | ⟨_, name, body, v, r, n, h1, _, _, h2, rfl⟩
  · cases hp
  · cases hp
  · have := (readValue_suffix h2).length_le
    constructor
    · rw [h1]; simp; omega
    · simp only at hp ⊢
      split at hp
      · assumption
      · cases hp

theorem readHeader_none_clb {b : Bytes} {clb : Nat} {h : Header} (hh : readHeader b clb = .ok (.ok h)) (hp : h.attr = none) :
    h.clb = 0 := by
  rcases readHeader_inv hh with ⟨_, rfl⟩ | ⟨_, _, rfl⟩ | ⟨_, name, body, v, r, n, h1, _, _, h2, rfl⟩
  · rfl
  · rfl
  · simp only at hp ⊢
    split at hp
    · cases hp
    · omega

theorem readHeader_of {name body : Bytes} {clb : Nat} (hc : clb ≤ 1) (h1 : (58 : UInt8) ∉ name) (h2 : isValidName name = true)
    {v r : Bytes} {n : Nat} (h3 : readValue body [] [] (some 0) 0 false = .ok (.ok (v, r, n))) :
    readHeader (name ++ 58 :: 32 :: body) clb = .ok (.ok ⟨if 0 < n then some (lower name, v) else none, r, n⟩) := by
  unfold readHeader
  rw [if_neg (by omega), splitColon_append h1]
  simp only
  rw [if_neg (by simp), if_neg (by simp [h2]), h3]

/-- A header is determined by the bytes it consumes. -/
theorem readHeader_local {x x' y : Bytes} {clb : Nat} {h : Header} (hh : readHeader (x ++ y) clb = .ok (.ok h))
    (hr : h.rest = x' ++ y) : readHeader x clb = .ok (.ok ⟨h.attr, x', h.clb⟩) := by
  rcases readHeader_inv hh with ⟨h0, rfl⟩ | ⟨h0, hn, rfl⟩ | ⟨h0, name, body, v, r, n, h1, hc, hv, h2, rfl⟩
  · have := List.append_cancel_right hr
    unfold readHeader
    rw [if_pos h0, this]
  · have h1 := List.append_eq_nil_iff.1 hr.symm
    rw [h1.1]
    unfold readHeader
    rw [if_neg (by omega), splitColon_none.2 (fun hm => hn (by simp [hm]))]
  · simp only at hr ⊢
    subst hr
    obtain ⟨z, hz⟩ := readValue_suffix h2
    -- x = name ++ ": " ++ z ++ x'
    have hx : x = name ++ 58 :: 32 :: (z ++ x') := by
      rw [← hz] at h1
      have : x ++ y = (name ++ 58 :: 32 :: (z ++ x')) ++ y := by rw [h1]; simp
      exact List.append_cancel_right this
    rw [hx]
    refine readHeader_of h0 hc hv ?_
    rw [← hz, ← List.append_assoc] at h2
    exact readValue_local h2

/-! ## Sections -/

theorem readAttrs_suffix {fuel : Nat} {b : Bytes} {clb : Nat} {m m' : Attrs} {r : Bytes} {n : Nat}
    (h : readAttrs fuel b clb m = .ok (.ok (m', r, n))) : r <:+ b := by
  induction fuel generalizing b clb m with
  | zero => unfold readAttrs at h; cases h; exact List.suffix_refl _
  | succ f ih =>
    unfold readAttrs at h
    split at h
    · cases h
    · cases h
    · rename_i hd hh
      split at h
      · cases h; exact readHeader_suffix hh
      · exact (ih h).trans (readHeader_suffix hh)

/-- With enough fuel the loop ends by itself. -/
theorem readAttrs_clb {fuel : Nat} {b : Bytes} {clb : Nat} {m m' : Attrs} {r : Bytes} {n : Nat} (hf : b.length < fuel)
    (h : readAttrs fuel b clb m = .ok (.ok (m', r, n))) : n = 0 := by
  induction fuel generalizing b clb m with
  | zero => omega
  | succ f ih =>
    unfold readAttrs at h
    split at h
    · cases h
    · cases h
    · rename_i hd hh
      split at h
      · rename_i hn
        cases h; exact readHeader_none_clb hh hn
      · rename_i nm vl hn
        have := (readHeader_some_len hh hn).1
        exact ih (by omega) h

theorem readAttrs_fuel {f g : Nat} {b : Bytes} {clb : Nat} {m : Attrs} (hf : b.length < f) (hg : b.length < g) :
    readAttrs f b clb m = readAttrs g b clb m := by
  induction f generalizing g b clb m with
  | zero => omega
  | succ f ih =>
    cases g with
    | zero => omega
    | succ g =>
      unfold readAttrs
      cases hh : readHeader b clb with
      | error p => rfl
      | ok x =>
        cases x with
        | error e => rfl
        | ok hd =>
          simp only
          cases ha : hd.attr with
          | none => rfl
          | some p =>
            have := (readHeader_some_len hh ha).1
            exact ih (by omega) (by omega)

theorem readAttrs_local {f : Nat} {x x' y : Bytes} {clb : Nat} {m m' : Attrs} {n : Nat}
    (h : readAttrs f (x ++ y) clb m = .ok (.ok (m', x' ++ y, n))) : readAttrs f x clb m = .ok (.ok (m', x', n)) := by
  induction f generalizing x clb m with
  | zero =>
    unfold readAttrs at h ⊢
    simp only [Except.ok.injEq, Prod.mk.injEq] at h ⊢
    exact ⟨h.1, List.append_cancel_right h.2.1, h.2.2⟩
  | succ f ih =>
    unfold readAttrs at h
    split at h
    · cases h
    · cases h
    · rename_i hd hh
      have hsuf : ∃ z, hd.rest = z ++ y := by
        split at h
        · simp only [Except.ok.injEq, Prod.mk.injEq] at h
          exact ⟨x', h.2.1⟩
        · obtain ⟨w, hw⟩ := readAttrs_suffix h
          exact ⟨w ++ x', by rw [← hw]; simp⟩
      obtain ⟨z, hz⟩ := hsuf
      have hloc := readHeader_local hh hz
      unfold readAttrs
      rw [hloc]
      simp only
      split at h
      · rename_i ha
        simp only [Except.ok.injEq, Prod.mk.injEq] at h
        rw [h.1, h.2.2]
        rw [hz] at h
        rw [List.append_cancel_right h.2.1]
      · rename_i nm vl ha
        rw [hz] at h
        exact ih h

/-- One section: its bytes alone, the entry it names, its attributes (starting from those the entry already has). -/
def SectionOf (c name : Bytes) (old attrs : Attrs) : Prop :=
  ∃ r n, readHeader c 0 = .ok (.ok ⟨some (attrName, name), r, n⟩) ∧ readAttrs (r.length + 1) r n old = .ok (.ok (attrs, [], 0))

theorem SectionOf.unique {c n1 n2 : Bytes} {o a1 a2 : Attrs} (h1 : SectionOf c n1 o a1) (h2 : SectionOf c n2 o a2) :
    n1 = n2 ∧ a1 = a2 := by
  obtain ⟨r1, m1, e1, f1⟩ := h1
  obtain ⟨r2, m2, e2, f2⟩ := h2
  rw [e1] at e2
  cases e2
  rw [f1] at f2
  cases f2
  exact ⟨rfl, rfl⟩

theorem SectionOf.ne_nil {c n : Bytes} {o a : Attrs} (h : SectionOf c n o a) : c ≠ [] := by
  rintro rfl
  obtain ⟨r, m, e, _⟩ := h
  have := (readHeader_some_len e rfl).1
  simp at this

/-- What is left after the last section: nothing the parser takes for an attribute. -/
def NoHeader (b : Bytes) : Prop := ∃ r, readHeader b 0 = .ok (.ok ⟨none, r, 0⟩)

/-- The sections one after the other, with or without recording chunks. -/
inductive SectionsRun (wc : Bool) : Bytes → Manifest → Manifest → Prop
  | done {b m} : NoHeader b → SectionsRun wc b m m
  | step {c b name attrs m m'} : SectionOf c name ((mget m.entries name).getD []) attrs →
      (wc = true → mget m.chunks name = none) →
      SectionsRun wc b { m with entries := mset m.entries name attrs,
                                chunks := if wc then mset m.chunks name c else m.chunks } m' →
      SectionsRun wc (c ++ b) m m'

theorem readSections_run {wc : Bool} {fuel : Nat} {b : Bytes} {m m' : Manifest} (hf : b.length < fuel)
    (h : readSections wc fuel b 0 m = .ok (.ok m')) : SectionsRun wc b m m' := by
  induction fuel generalizing b m with
  | zero => omega
  | succ f ih =>
    unfold readSections at h
    split at h
    · cases h
    · cases h
    · rename_i hd hh
      split at h
      · rename_i ha
        cases h
        refine .done ⟨hd.rest, ?_⟩
        rw [hh]
        have := readHeader_none_clb hh ha
        cases hd; simp only at ha this; subst ha; subst this; rfl
      · rename_i nm v ha
        split at h
        · cases h
        rename_i hnm
        have hnm' : nm = attrName := Classical.not_not.1 hnm
        subst hnm'
        simp only at h
        split at h
        · cases h
        · cases h
        · rename_i entry rest' clb' hra
          have hz := readAttrs_clb (Nat.lt_succ_self _) hra
          subst hz
          obtain ⟨w1, hw1⟩ := readHeader_suffix hh
          obtain ⟨w2, hw2⟩ := readAttrs_suffix hra
          have hb : b = (w1 ++ w2) ++ rest' := by rw [← hw1, ← hw2]; simp
          have hlen := (readHeader_some_len hh ha).1
          have hchunk : b.take (b.length - rest'.length) = w1 ++ w2 := by
            have hk : b.length - rest'.length = (w1 ++ w2).length := by
              have := congrArg List.length hb
              simp only [List.length_append] at this ⊢
              omega
            rw [hk, hb, List.take_left]
          have hl2 : hd.rest.length = w2.length + rest'.length := by rw [← hw2, List.length_append]
          have hsec : SectionOf (w1 ++ w2) v ((mget m.entries v).getD []) entry := by
            rw [hb] at hh
            have := readHeader_local hh hw2.symm
            rw [ha] at this
            refine ⟨w2, hd.clb, this, ?_⟩
            rw [← hw2, ← List.nil_append rest', ← List.append_assoc] at hra
            have h3 := readAttrs_local (x' := []) hra
            rw [List.append_nil] at h3
            rw [readAttrs_fuel (g := ((w2 ++ ([] ++ rest')).length + 1)) (Nat.lt_succ_self _)
              (by simp only [List.length_append]; omega)]
            simpa using h3
          rw [hb]
          split at h
          · rename_i hwc
            split at h
            · cases h
            · rename_i hno
              refine .step hsec (fun _ => by simpa using hno) ?_
              rw [if_pos hwc]
              rw [hchunk] at h
              exact ih (by omega) h
          · rename_i hwc
            refine .step hsec (fun hh' => absurd hh' hwc) ?_
            rw [if_neg hwc]
            exact ih (by omega) h

/-- The main attributes of a chunk of bytes. -/
def MainOf (c : Bytes) (attrs : Attrs) : Prop := readAttrs (c.length + 1) c 0 [] = .ok (.ok (attrs, [], 0))

theorem parse_run {wc : Bool} {data : Bytes} {m : Manifest} (h : parseManifestData wc data = .ok (.ok m)) :
    ∃ c b attrs, data = c ++ b ∧ MainOf c attrs ∧
      SectionsRun wc b { rawData := data, main := attrs, mainEnd := c.length } m := by
  unfold parseManifestData at h
  split at h
  · cases h
  · cases h
  · rename_i main rest clb hra
    have hz := readAttrs_clb (Nat.lt_succ_self _) hra
    subst hz
    obtain ⟨c, hc⟩ := readAttrs_suffix hra
    refine ⟨c, rest, main, hc.symm, ?_, ?_⟩
    · rw [← hc, ← List.nil_append rest] at hra
      have h3 := readAttrs_local (x' := []) hra
      unfold MainOf
      rw [readAttrs_fuel (g := ((c ++ ([] ++ rest)).length + 1)) (Nat.lt_succ_self _)
        (by simp only [List.length_append]; omega)]
      exact h3
    · have : data.length - rest.length = c.length := by rw [← hc, List.length_append]; omega
      rw [this] at h
      exact readSections_run (Nat.lt_succ_self _) h

theorem SectionsRun.frame {wc : Bool} {b : Bytes} {m m' : Manifest} (h : SectionsRun wc b m m') :
    m'.rawData = m.rawData ∧ m'.main = m.main ∧ m'.mainEnd = m.mainEnd := by
  induction h with
  | done _ => exact ⟨rfl, rfl, rfl⟩
  | step _ _ _ ih => exact ih

end Apk
