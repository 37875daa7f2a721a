import Verif.Proofs.Manifest
import Verif.Proofs.Pairs
/-! # Parsing what a writer produces -/
namespace Apk

/-- Text that may stand in a value. -/
def Plain (p : Bytes) : Prop := ∀ c ∈ p, c ≠ 0 ∧ c ≠ 10 ∧ c ≠ 13

theorem readValue_char {c : UInt8} {r value seg : Bytes} {len : Option Nat} {cr : Bool} (h : c ≠ 0 ∧ c ≠ 10 ∧ c ≠ 13) :
    readValue (c :: r) value seg len 0 cr = readValue r value (seg ++ [c]) (some (seg.length + 1)) 0 cr := by
  conv => lhs; unfold readValue
  rw [if_neg h.1, if_neg h.2.1, if_neg h.2.2, if_neg (by simp), if_neg (by omega)]

theorem readValue_plain {p r value seg : Bytes} {len : Option Nat} {cr : Bool} (hp : Plain p) (hne : p ≠ []) :
    readValue (p ++ r) value seg len 0 cr = readValue r value (seg ++ p) (some (seg ++ p).length) 0 cr := by
  induction p generalizing seg len with
  | nil => exact absurd rfl hne
  | cons c p ih =>
    rw [List.cons_append, readValue_char (hp c (by simp))]
    cases p with
    | nil => simp
    | cons d p =>
      rw [ih (fun x hx => hp x (by simp [hx])) (by simp)]
      simp

theorem readValue_eol {e : Eol} {r value seg : Bytes} {len : Option Nat} {clb : Nat} :
    readValue (e.bytes ++ r) value seg len clb false = readValue r value (seg ++ e.bytes) len (clb + 1) false := by
  cases e with
  | lf => simp only [Eol.bytes, List.cons_append, List.nil_append]; conv => lhs; unfold readValue
          simp
  | crlf =>
    simp only [Eol.bytes, List.cons_append, List.nil_append]
    conv => lhs; unfold readValue
    simp only [show (13 : UInt8) ≠ 0 by decide, show (13 : UInt8) ≠ 10 by decide, if_false, if_true]
    conv => lhs; unfold readValue
    simp

theorem readValue_cont {e : Eol} {r value seg : Bytes} {k : Nat} (hk : k ≤ seg.length) :
    readValue (e.bytes ++ 32 :: r) value seg (some k) 0 false = readValue r (value ++ seg.take k) [] none 0 false := by
  rw [readValue_eol]
  conv => lhs; unfold readValue
  simp only [show (32 : UInt8) ≠ 0 by decide, show (32 : UInt8) ≠ 10 by decide, show (32 : UInt8) ≠ 13 by decide, if_false,
    Nat.zero_add, and_self, if_true]
  rw [List.take_append_of_le_length hk]

theorem readValue_more {more : List (Eol × Bytes)} (h1 : ∀ p ∈ more, Plain p.2 ∧ p.2 ≠ []) (value seg : Bytes) :
    ∃ value' seg', value' ++ seg' = value ++ seg ++ (more.map (·.2)).flatten ∧
      ∀ r, readValue ((more.map (fun p => p.1.bytes ++ [32] ++ p.2)).flatten ++ r) value seg (some seg.length) 0 false =
        readValue r value' seg' (some seg'.length) 0 false := by
  induction more generalizing value seg with
  | nil => exact ⟨value, seg, by simp, fun r => rfl⟩
  | cons p more ih =>
    obtain ⟨hp1, hp2⟩ := h1 p (by simp)
    obtain ⟨v', s', e1, e2⟩ := ih (fun q hq => h1 q (by simp [hq])) (value ++ seg) p.2
    refine ⟨v', s', by rw [e1]; simp, ?_⟩
    intro r
    rw [← e2 r]
    simp only [List.map_cons, List.flatten_cons, List.append_assoc, List.cons_append, List.nil_append]
    rw [readValue_cont (Nat.le_refl _), readValue_plain hp1 hp2]
    simp

/-- What may follow an attribute: nothing, or the next name. -/
def NextOk (b : Bytes) : Prop := b = [] ∨ ∃ c t, b = c :: t ∧ IsNameByte c

theorem readValue_end {eols : List Eol} {next value seg : Bytes} {k clb : Nat} (hn : NextOk next) (hk : k ≤ seg.length)
    (hc : 0 < clb + eols.length) :
    readValue ((eols.map Eol.bytes).flatten ++ next) value seg (some k) clb false =
      .ok (.ok (value ++ seg.take k, next, clb + eols.length)) := by
  induction eols generalizing seg clb with
  | nil =>
    rcases hn with rfl | ⟨c, t, rfl, hc'⟩
    · simp [readValue, finishValue]
    · simp only [List.map_nil, List.flatten_nil, List.nil_append, List.length_nil, Nat.add_zero] at hc ⊢
      unfold readValue
      have hh : ∀ x : UInt8, IsNameByte c → ¬ IsNameByte x → c ≠ x := fun x h1 h2 h3 => h2 (h3 ▸ h1)
      rw [if_neg (hh 0 hc' (by unfold IsNameByte; decide)), if_neg (hh 10 hc' (by unfold IsNameByte; decide)),
        if_neg (hh 13 hc' (by unfold IsNameByte; decide)), if_neg (fun h => hh 32 hc' (by unfold IsNameByte; decide) h.1),
        if_pos (show 1 ≤ clb from hc)]
      rfl
  | cons e eols ih =>
    simp only [List.map_cons, List.flatten_cons, List.append_assoc]
    rw [readValue_eol, ih (by rw [List.length_append]; omega) (by omega), List.take_append_of_le_length hk]
    simp only [List.length_cons]
    congr 4; omega

theorem readHeader_written {a : WAttr} (ha : a.Ok) {blanks : List Eol} {next : Bytes} (hn : NextOk next) {clb : Nat} (hc : clb ≤ 1) :
    readHeader (a.bytes ++ (blanks.map Eol.bytes).flatten ++ next) clb =
      .ok (.ok ⟨some (lower a.name, a.value), next, 1 + blanks.length⟩) := by
  have hfirst : Plain a.first := fun c hc => ha.value_bytes c (by unfold WAttr.value; simp [hc])
  have hmore : ∀ p ∈ a.more, Plain p.2 ∧ p.2 ≠ [] := fun p hp =>
    ⟨fun c hc => ha.value_bytes c (by
      unfold WAttr.value
      rw [List.mem_append]
      exact Or.inr (List.mem_flatten.2 ⟨p.2, List.mem_map.2 ⟨p, hp, rfl⟩, hc⟩)), ha.more_pos p hp⟩
  obtain ⟨v', s', e1, e2⟩ := readValue_more hmore [] a.first
  have hval : readValue (a.first ++ ((a.more.map (fun p => p.1.bytes ++ [32] ++ p.2)).flatten ++
      (a.eol.bytes ++ ((blanks.map Eol.bytes).flatten ++ next)))) [] [] (some 0) 0 false =
      .ok (.ok (a.value, next, 1 + blanks.length)) := by
    have hf : ∀ r, readValue (a.first ++ r) [] [] (some 0) 0 false = readValue r [] a.first (some a.first.length) 0 false := by
      intro r
      by_cases h0 : a.first = []
      · rw [h0]; rfl
      · rw [readValue_plain hfirst h0]; simp
    rw [hf, e2]
    have := readValue_end (eols := a.eol :: blanks) (value := v') (seg := s') (k := s'.length) (clb := 0) hn (Nat.le_refl _)
      (by simp)
    simp only [List.map_cons, List.flatten_cons, List.append_assoc, List.length_cons, List.take_length] at this
    rw [this, e1]
    simp only [List.nil_append]
    rw [Nat.zero_add, Nat.add_comm]; rfl
  have hb : a.bytes ++ (blanks.map Eol.bytes).flatten ++ next = a.name ++ 58 :: 32 :: (a.first ++ ((a.more.map (fun p => p.1.bytes ++ [32] ++ p.2)).flatten ++
      (a.eol.bytes ++ ((blanks.map Eol.bytes).flatten ++ next)))) := by
    unfold WAttr.bytes; simp only [List.append_assoc, List.cons_append, List.nil_append]
  rw [hb, readHeader_of hc (name_no_colon ha.name_bytes) ((isValidName_iff _).2 ⟨ha.name_pos, ha.name_len, ha.name_bytes⟩) hval,
    if_pos (by omega)]

theorem WAttr.bytes_next {a : WAttr} (ha : a.Ok) (r : Bytes) : NextOk (a.bytes ++ r) := by
  refine Or.inr ?_
  have := ha.name_pos
  cases hn : a.name with
  | nil => exact absurd hn this
  | cons c n =>
    exact ⟨c, _, by unfold WAttr.bytes; rw [hn]; simp; rfl, ha.name_bytes c (by simp [hn])⟩

/-- What is left of a section when only the attributes `as` remain. -/
def remain (as : List WAttr) (blanks : List Eol) (next : Bytes) : Bytes :=
  if as = [] then next else (as.map WAttr.bytes).flatten ++ (blanks.map Eol.bytes).flatten ++ next

def remainClb (as : List WAttr) (blanks : List Eol) : Nat := if as = [] then 1 + blanks.length else 1

theorem readHeader_section {a : WAttr} {as : List WAttr} {blanks : List Eol} {next : Bytes} (ha : a.Ok) (has : ∀ x ∈ as, x.Ok)
    (hn : NextOk next) {clb : Nat} (hc : clb ≤ 1) :
    readHeader (((a :: as).map WAttr.bytes).flatten ++ (blanks.map Eol.bytes).flatten ++ next) clb =
      .ok (.ok ⟨some (lower a.name, a.value), remain as blanks next, remainClb as blanks⟩) := by
  cases as with
  | nil =>
    have := readHeader_written ha (blanks := blanks) hn hc
    simpa [remain, remainClb] using this
  | cons b as =>
    have := readHeader_written ha (blanks := []) (next := remain (b :: as) blanks next)
      (by
        unfold remain
        rw [if_neg (by simp)]
        simp only [List.map_cons, List.flatten_cons, List.append_assoc]
        exact WAttr.bytes_next (has b (by simp)) _) hc
    rw [show remainClb (b :: as) blanks = 1 by simp [remainClb]]
    simp only [List.map_nil, List.flatten_nil, List.append_nil, List.length_nil, Nat.add_zero] at this
    rw [← this]
    unfold remain
    rw [if_neg (by simp)]
    simp only [List.map_cons, List.flatten_cons, List.append_assoc]

/-- The map after storing attributes. -/
def storeAttrs (m : Attrs) (as : List WAttr) : Attrs := as.foldl (fun m a => mset m (lower a.name) a.value) m

theorem readAttrs_section {as : List WAttr} {blanks : List Eol} {next : Bytes} (has : ∀ x ∈ as, x.Ok)
    (hn : NextOk next) (hb : blanks ≠ [] ∨ next = []) {f : Nat} (hf : (remain as blanks next).length < f) (m : Attrs) :
    readAttrs f (remain as blanks next) (remainClb as blanks) m = .ok (.ok (storeAttrs m as, next, 0)) := by
  induction as generalizing f m with
  | nil =>
    cases f with
    | zero => omega
    | succ f =>
      simp only [remain, remainClb, if_true]
      unfold readAttrs readHeader
      rcases hb with hb | hb
      · have : 0 < blanks.length := List.length_pos_iff.2 hb
        rw [if_pos (by omega)]; rfl
      · subst hb
        by_cases hq : 1 < 1 + blanks.length
        · rw [if_pos hq]; rfl
        · rw [if_neg hq]; rfl
  | cons a as ih =>
    cases f with
    | zero => omega
    | succ f =>
      have hr : remain (a :: as) blanks next = ((a :: as).map WAttr.bytes).flatten ++ (blanks.map Eol.bytes).flatten ++ next := by
        unfold remain; rw [if_neg (by simp)]
      have hh := readHeader_section (as := as) (blanks := blanks) (has a (by simp)) (fun x hx => has x (by simp [hx])) hn
        (clb := remainClb (a :: as) blanks) (by simp [remainClb])
      rw [← hr] at hh
      have hl := (readHeader_some_len hh rfl).1
      unfold readAttrs
      rw [hh]
      simp only
      exact ih (fun x hx => has x (by simp [hx])) (by simp only at hl; omega) _

theorem mget_storeAttrs (m : Attrs) (as : List WAttr) (k : Bytes) :
    mget (storeAttrs m as) k = (WSection.lookup as k).or (mget m k) := by
  induction as generalizing m with
  | nil => simp [storeAttrs, WSection.lookup]
  | cons a as ih =>
    have : storeAttrs m (a :: as) = storeAttrs (mset m (lower a.name) a.value) as := rfl
    rw [this, ih, mget_mset]
    unfold WSection.lookup
    rw [List.filter_cons]
    by_cases h : asciiLower a.name = k
    · rw [if_pos (show lower a.name = k from h), if_pos (decide_eq_true h)]
      rw [List.getLast?_cons]
      cases hg : (as.filter (fun a => decide (asciiLower a.name = k))).getLast? with
      | none => simp
      | some x => simp
    · rw [if_neg (show ¬ lower a.name = k from h), if_neg (by simpa using h)]

/-! ## Documents -/

/-- What a section adds. -/
def storeSection (wc : Bool) (m : Manifest) (p : Bytes × WSection) : Manifest :=
  { m with entries := mset m.entries p.1 (storeAttrs ((mget m.entries p.1).getD []) p.2.attrs.tail),
           chunks := if wc then mset m.chunks p.1 p.2.bytes else m.chunks }

/-- Every section but the last ends with a blank line. -/
def BlankOk : List (Bytes × WSection) → Prop
  | [] => True
  | p :: ps => (ps ≠ [] → p.2.blank ≠ []) ∧ BlankOk ps

def sectionsBytes (ps : List (Bytes × WSection)) : Bytes := (ps.map (fun p => p.2.bytes)).flatten

theorem sections_next {ps : List (Bytes × WSection)} (hok : ∀ p ∈ ps, ∀ a ∈ p.2.attrs, a.Ok) (hnm : ∀ p ∈ ps, p.2.Names p.1) :
    NextOk (sectionsBytes ps) := by
  cases ps with
  | nil => exact Or.inl rfl
  | cons p ps =>
    obtain ⟨a, as, h1, _, _⟩ := hnm p (by simp)
    unfold sectionsBytes WSection.bytes
    simp only [List.map_cons, List.flatten_cons, h1, List.append_assoc]
    exact WAttr.bytes_next (hok p (by simp) a (by simp [h1])) _

theorem readSections_written {wc : Bool} {ps : List (Bytes × WSection)} (hok : ∀ p ∈ ps, ∀ a ∈ p.2.attrs, a.Ok)
    (hnm : ∀ p ∈ ps, p.2.Names p.1) (hb : BlankOk ps) {f : Nat} (hf : (sectionsBytes ps).length < f) (m : Manifest)
    (hd : wc = true → (ps.map (·.1)).Nodup ∧ ∀ p ∈ ps, mget m.chunks p.1 = none) :
    readSections wc f (sectionsBytes ps) 0 m = .ok (.ok (ps.foldl (storeSection wc) m)) := by
  induction ps generalizing f m with
  | nil =>
    cases f with
    | zero => omega
    | succ f => simp [sectionsBytes, readSections, readHeader, splitColon]
  | cons p ps ih =>
    cases f with
    | zero => omega
    | succ f =>
      obtain ⟨a, as, h1, h2, h3⟩ := hnm p (by simp)
      have hoka := hok p (by simp)
      have hn : NextOk (sectionsBytes ps) := sections_next (fun q hq => hok q (by simp [hq])) (fun q hq => hnm q (by simp [hq]))
      have hbytes : sectionsBytes (p :: ps) =
          ((a :: as).map WAttr.bytes).flatten ++ (p.2.blank.map Eol.bytes).flatten ++ sectionsBytes ps := by
        unfold sectionsBytes WSection.bytes
        rw [← h1]
        simp only [List.map_cons, List.flatten_cons]
      have hpb : p.2.bytes = ((a :: as).map WAttr.bytes).flatten ++ (p.2.blank.map Eol.bytes).flatten := by
        unfold WSection.bytes; rw [h1]
      have hh := readHeader_section (as := as) (blanks := p.2.blank) (hoka a (by simp [h1])) (fun x hx => hoka x (by simp [h1, hx])) hn
        (clb := 0) (by omega)
      rw [← hbytes] at hh
      have hl := (readHeader_some_len hh rfl).1
      have hbl : p.2.blank ≠ [] ∨ sectionsBytes ps = [] := by
        by_cases hps : ps = []
        · right; rw [hps]; rfl
        · left; exact hb.1 hps
      have hra := readAttrs_section (as := as) (blanks := p.2.blank) (fun x hx => hoka x (by simp [h1, hx])) hn hbl
        (Nat.lt_succ_self _) ((mget m.entries p.1).getD [])
      have hname : lower a.name = attrName := h2
      unfold readSections
      rw [hh]
      simp only
      rw [if_neg (by simp [hname]), h3, hra]
      simp only
      have htail : p.2.attrs.tail = as := by rw [h1]; rfl
      have hchunk : (sectionsBytes (p :: ps)).take ((sectionsBytes (p :: ps)).length - (sectionsBytes ps).length) = p.2.bytes := by
        have e : sectionsBytes (p :: ps) = p.2.bytes ++ sectionsBytes ps := by rw [hbytes, hpb]
        rw [e, List.length_append, Nat.add_sub_cancel, List.take_left]
      have hlen2 : (sectionsBytes ps).length < f := by
        have e : sectionsBytes (p :: ps) = p.2.bytes ++ sectionsBytes ps := by rw [hbytes, hpb]
        have hpos : 0 < p.2.bytes.length := by
          have := (WAttr.bytes_next (hoka a (by simp [h1])) ((as.map WAttr.bytes).flatten ++ (p.2.blank.map Eol.bytes).flatten))
          rw [hpb]
          simp only [List.map_cons, List.flatten_cons, List.append_assoc]
          rcases this with h | ⟨c, t, h, _⟩
          · exfalso
            have := (hoka a (by simp [h1])).name_pos
            unfold WAttr.bytes at h
            simp at h
          · rw [h]; simp
        rw [e, List.length_append] at hf
        omega
      cases wc with
      | false =>
        simp only [Bool.false_eq_true, if_false]
        rw [ih (fun q hq => hok q (by simp [hq])) (fun q hq => hnm q (by simp [hq])) hb.2 hlen2 _ (by simp)]
        simp only [List.foldl_cons, storeSection, htail, Bool.false_eq_true, if_false]
      | true =>
        obtain ⟨hnd, hc⟩ := hd rfl
        rw [List.map_cons, List.nodup_cons] at hnd
        simp only [if_true]
        rw [hc p (by simp)]
        simp only [Option.isSome_none, Bool.false_eq_true, if_false]
        rw [hchunk]
        rw [ih (fun q hq => hok q (by simp [hq])) (fun q hq => hnm q (by simp [hq])) hb.2 hlen2 _
          (fun _ => ⟨hnd.2, fun q hq => by
            simp only
            rw [mget_mset, if_neg (fun he => hnd.1 (by rw [he]; exact List.mem_map.2 ⟨q, hq, rfl⟩))]
            exact hc q (by simp [hq])⟩)]
        simp only [List.foldl_cons, storeSection, htail, if_true]

/-- With chunks, a second section with the same name is an error. -/
theorem readSections_dup {ps : List (Bytes × WSection)} (hok : ∀ p ∈ ps, ∀ a ∈ p.2.attrs, a.Ok)
    (hnm : ∀ p ∈ ps, p.2.Names p.1) (hb : BlankOk ps) {f : Nat} (hf : (sectionsBytes ps).length < f) (m : Manifest)
    (hd : ¬ ((ps.map (·.1)).Nodup ∧ ∀ p ∈ ps, mget m.chunks p.1 = none)) :
    readSections true f (sectionsBytes ps) 0 m = .ok (.error .duplicateEntry) := by
  induction ps generalizing f m with
  | nil => exact absurd ⟨List.nodup_nil, by simp⟩ hd
  | cons p ps ih =>
    cases f with
    | zero => omega
    | succ f =>
      obtain ⟨a, as, h1, h2, h3⟩ := hnm p (by simp)
      have hoka := hok p (by simp)
      have hn : NextOk (sectionsBytes ps) := sections_next (fun q hq => hok q (by simp [hq])) (fun q hq => hnm q (by simp [hq]))
      have hbytes : sectionsBytes (p :: ps) =
          ((a :: as).map WAttr.bytes).flatten ++ (p.2.blank.map Eol.bytes).flatten ++ sectionsBytes ps := by
        unfold sectionsBytes WSection.bytes
        rw [← h1]
        simp only [List.map_cons, List.flatten_cons]
      have hh := readHeader_section (as := as) (blanks := p.2.blank) (hoka a (by simp [h1])) (fun x hx => hoka x (by simp [h1, hx])) hn
        (clb := 0) (by omega)
      rw [← hbytes] at hh
      have hl := (readHeader_some_len hh rfl).1
      have hbl : p.2.blank ≠ [] ∨ sectionsBytes ps = [] := by
        by_cases hps : ps = []
        · right; rw [hps]; rfl
        · left; exact hb.1 hps
      have hra := readAttrs_section (as := as) (blanks := p.2.blank) (fun x hx => hoka x (by simp [h1, hx])) hn hbl
        (Nat.lt_succ_self _) ((mget m.entries p.1).getD [])
      have hsuf := (readAttrs_suffix hra).length_le
      have hname : lower a.name = attrName := h2
      unfold readSections
      rw [hh]
      simp only
      rw [if_neg (by simp [hname]), h3, hra]
      simp only [if_true]
      cases hc : mget m.chunks p.1 with
      | some x => simp
      | none =>
        simp only [Option.isSome_none, Bool.false_eq_true, if_false]
        refine ih (fun q hq => hok q (by simp [hq])) (fun q hq => hnm q (by simp [hq])) hb.2 (by simp only at hl; omega) _ ?_
        rintro ⟨g1, g2⟩
        apply hd
        have hnot : p.1 ∉ ps.map (·.1) := by
          intro hm
          obtain ⟨q, hq, he⟩ := List.mem_map.1 hm
          have := g2 q hq
          simp only at this
          rw [he, mget_mset_self] at this
          cases this
        refine ⟨List.nodup_cons.2 ⟨hnot, g1⟩, ?_⟩
        intro q hq
        rcases List.mem_cons.1 hq with rfl | hq
        · exact hc
        · have := g2 q hq
          simp only at this
          rw [mget_mset, if_neg (fun he => hnot (List.mem_map.2 ⟨q, hq, he.symm⟩))] at this
          exact this

theorem blankOk_of {ps : List (Bytes × WSection)} (h : ∀ s ∈ (ps.map (·.2)).dropLast, s.blank ≠ []) : BlankOk ps := by
  induction ps with
  | nil => trivial
  | cons p ps ih =>
    cases ps with
    | nil => exact ⟨fun h => absurd rfl h, trivial⟩
    | cons q ps =>
      refine ⟨fun _ => h p.2 (by simp), ih (fun s hs => h s ?_)⟩
      simp only [List.map_cons, List.dropLast_cons_of_ne_nil (List.cons_ne_nil _ _)] at hs ⊢
      exact List.mem_cons_of_mem _ hs

theorem parse_written_main {d : WDoc} (hd : d.Ok) (wc : Bool) :
    parseManifestData wc d.bytes = readSections wc ((sectionsBytes d.sections).length + 1) (sectionsBytes d.sections) 0
      { rawData := d.bytes, main := storeAttrs [] d.main.attrs, mainEnd := d.main.bytes.length } ∧ BlankOk d.sections := by
  have hok : ∀ p ∈ d.sections, ∀ a ∈ p.2.attrs, a.Ok := fun p hp => hd.attrs_ok p.2 (by
    rw [List.mem_cons]; exact Or.inr (List.mem_map.2 ⟨p, hp, rfl⟩))
  have hn : NextOk (sectionsBytes d.sections) := sections_next hok hd.named
  have hbl : d.main.blank ≠ [] ∨ sectionsBytes d.sections = [] := by
    by_cases hps : d.sections = []
    · right; rw [hps]; rfl
    · left
      refine hd.blank d.main ?_
      rw [List.dropLast_cons_of_ne_nil (by simpa using hps)]
      simp
  have hb2 : BlankOk d.sections := by
    apply blankOk_of
    intro s hs
    refine hd.blank s ?_
    cases hps : d.sections with
    | nil => rw [hps] at hs; simp at hs
    | cons q qs =>
      rw [hps] at hs
      rw [List.dropLast_cons_of_ne_nil (by simp)]
      exact List.mem_cons_of_mem _ hs
  refine ⟨?_, hb2⟩
  cases hm : d.main.attrs with
  | nil => exact absurd hm hd.main_pos
  | cons a as =>
    have hoka : ∀ x ∈ d.main.attrs, x.Ok := hd.attrs_ok d.main (by simp)
    have hbytes : d.bytes = ((a :: as).map WAttr.bytes).flatten ++ (d.main.blank.map Eol.bytes).flatten ++ sectionsBytes d.sections := by
      unfold WDoc.bytes sectionsBytes
      conv => lhs; unfold WSection.bytes
      rw [hm]
      rfl
    have hh := readHeader_section (as := as) (blanks := d.main.blank) (hoka a (by simp [hm])) (fun x hx => hoka x (by simp [hm, hx])) hn
      (clb := 0) (by omega)
    rw [← hbytes] at hh
    have hl := (readHeader_some_len hh rfl).1
    have hra := readAttrs_section (as := as) (blanks := d.main.blank) (f := d.bytes.length) (fun x hx => hoka x (by simp [hm, hx])) hn hbl
      (by simp only at hl; omega) (mset [] (lower a.name) a.value)
    unfold parseManifestData
    conv => lhs; unfold readAttrs
    rw [hh]
    simp only
    rw [hra]
    simp only
    have hlen : d.bytes.length - (sectionsBytes d.sections).length = d.main.bytes.length := by
      have : d.bytes = d.main.bytes ++ sectionsBytes d.sections := rfl
      rw [this, List.length_append]; omega
    rw [hlen]; rfl

end Apk
