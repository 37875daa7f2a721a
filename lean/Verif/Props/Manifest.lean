import Verif.Proofs.ManifestWrite
/-! # JAR manifests (C40, C48, C49) -/
namespace Apk

/-! ## Folding sections -/

theorem storeSections_entries (wc : Bool) (ps : List (Bytes × WSection)) (m : Manifest) (n k : Bytes) :
    ((mget (ps.foldl (storeSection wc) m).entries n).bind (fun as => mget as k)) =
      (WSection.lookup ((ps.filter (fun p => decide (p.1 = n))).flatMap (fun p => p.2.attrs.tail)) k).or
        ((mget m.entries n).bind (fun as => mget as k)) := by
  induction ps generalizing m with
  | nil => simp [WSection.lookup]
  | cons p ps ih =>
    rw [List.foldl_cons, ih, List.filter_cons]
    simp only [storeSection]
    rw [mget_mset]
    by_cases h : p.1 = n
    · rw [if_pos h, if_pos (decide_eq_true h), List.flatMap_cons]
      simp only [Option.bind_some]
      rw [mget_storeAttrs, h]
      unfold WSection.lookup
      rw [List.filter_append, List.getLast?_append]
      cases (((ps.filter (fun p => decide (p.1 = n))).flatMap (fun p => p.2.attrs.tail)).filter
        (fun a => decide (asciiLower a.name = k))).getLast? with
      | some x => simp
      | none =>
        cases hm : mget m.entries n <;> simp
    · rw [if_neg h, if_neg (by simpa using h)]

theorem storeSections_isSome (wc : Bool) (ps : List (Bytes × WSection)) (m : Manifest) (n : Bytes) :
    (mget (ps.foldl (storeSection wc) m).entries n).isSome = true ↔ n ∈ ps.map (·.1) ∨ (mget m.entries n).isSome = true := by
  induction ps generalizing m with
  | nil => simp
  | cons p ps ih =>
    rw [List.foldl_cons, ih]
    simp only [storeSection, List.map_cons, List.mem_cons]
    rw [mget_mset]
    by_cases h : p.1 = n
    · rw [if_pos h]; simp [h]
    · rw [if_neg h]
      constructor
      · rintro (h1 | h1)
        · exact Or.inl (Or.inr h1)
        · exact Or.inr h1
      · rintro ((h1 | h1) | h1)
        · exact absurd h1.symm h
        · exact Or.inl h1
        · exact Or.inr h1

theorem storeSections_chunks (ps : List (Bytes × WSection)) (m : Manifest) (hn : (ps.map (·.1)).Nodup) (n : Bytes) :
    (∀ p ∈ ps, mget (ps.foldl (storeSection true) m).chunks p.1 = some p.2.bytes) ∧
      (n ∉ ps.map (·.1) → mget (ps.foldl (storeSection true) m).chunks n = mget m.chunks n) := by
  induction ps generalizing m with
  | nil => simp
  | cons p ps ih =>
    rw [List.map_cons, List.nodup_cons] at hn
    rw [List.foldl_cons]
    have e : (storeSection true m p).chunks = mset m.chunks p.1 p.2.bytes := rfl
    constructor
    · intro q hq
      rcases List.mem_cons.1 hq with rfl | hq
      · have hh : mget (ps.foldl (storeSection true) (storeSection true m q)).chunks q.1 = mget (storeSection true m q).chunks q.1 := by
          clear e
          have hgen : ∀ (m : Manifest), mget (ps.foldl (storeSection true) m).chunks q.1 = mget m.chunks q.1 := by
            have hnot := hn.1
            clear ih hn hq
            induction ps with
            | nil => intro m; rfl
            | cons r rs ih2 =>
              intro m
              simp only [List.map_cons, List.mem_cons, not_or] at hnot
              rw [List.foldl_cons, ih2 hnot.2]
              simp only [storeSection, if_true]
              rw [mget_mset, if_neg (fun h => hnot.1 h.symm)]
          exact hgen _
        rw [hh, e, mget_mset_self]
      · exact (ih _ hn.2).1 q hq
    · intro hnot
      simp only [List.map_cons, List.mem_cons, not_or] at hnot
      rw [(ih _ hn.2).2 hnot.2, e, mget_mset, if_neg (fun h => hnot.1 h.symm)]

theorem storeSections_frame (wc : Bool) (ps : List (Bytes × WSection)) (m : Manifest) :
    (ps.foldl (storeSection wc) m).rawData = m.rawData ∧ (ps.foldl (storeSection wc) m).main = m.main ∧
      (ps.foldl (storeSection wc) m).mainEnd = m.mainEnd := by
  induction ps generalizing m with
  | nil => exact ⟨rfl, rfl, rfl⟩
  | cons p ps ih => rw [List.foldl_cons]; exact ih (storeSection wc m p)

/-! ## C40 -/

/-- C40: whatever line breaks and line lengths a writer uses, parsing gives back the attributes of the main section and of
    every entry, by lower-cased name, the last one of the same name; the bytes recorded for a section are exactly the bytes
    written for it, and the main section is delimited exactly. `wc` tells whether the file is the main manifest (then entry
    names are distinct) or a signature file. -/
theorem C40_roundtrip {d : WDoc} (hd : d.Ok) (wc : Bool) (hn : wc = true → (d.sections.map (·.1)).Nodup) :
    ∃ m, parseManifestData wc d.bytes = .ok (.ok m) ∧ m.rawData = d.bytes ∧ m.mainEnd = d.main.bytes.length ∧
      (∀ k, mget m.main k = WSection.lookup d.main.attrs k) ∧
      (∀ n, (mget m.entries n).isSome = true ↔ n ∈ d.sections.map (·.1)) ∧
      (∀ n as, mget m.entries n = some as → ∀ k, mget as k =
        WSection.lookup ((d.sections.filter (fun p => decide (p.1 = n))).flatMap (fun p => p.2.attrs.tail)) k) ∧
      (wc = true → ∀ p ∈ d.sections, mget m.chunks p.1 = some p.2.bytes) := by
  obtain ⟨h1, h2⟩ := parse_written_main hd wc
  have hok : ∀ p ∈ d.sections, ∀ a ∈ p.2.attrs, a.Ok := fun p hp => hd.attrs_ok p.2 (by
    rw [List.mem_cons]; exact Or.inr (List.mem_map.2 ⟨p, hp, rfl⟩))
  rw [h1, readSections_written hok hd.named h2 (Nat.lt_succ_self _) _ (fun hw => ⟨hn hw, fun p _ => rfl⟩)]
  obtain ⟨f1, f2, f3⟩ := storeSections_frame wc d.sections
    { rawData := d.bytes, main := storeAttrs [] d.main.attrs, mainEnd := d.main.bytes.length }
  refine ⟨_, rfl, f1, f3, ?_, ?_, ?_, ?_⟩
  · intro k
    rw [f2]
    simp only
    rw [mget_storeAttrs]; simp
  · intro n
    rw [storeSections_isSome]; simp
  · intro n as ha k
    have := storeSections_entries wc d.sections
      { rawData := d.bytes, main := storeAttrs [] d.main.attrs, mainEnd := d.main.bytes.length } n k
    rw [ha] at this
    simpa using this
  · intro hw
    subst hw
    exact (storeSections_chunks d.sections _ (hn rfl) []).1

/-- C40: in the main manifest two sections with the same name are an error. -/
theorem C40_duplicate_rejected {d : WDoc} (hd : d.Ok) (hn : ¬ (d.sections.map (·.1)).Nodup) :
    parseManifestData true d.bytes = .ok (.error .duplicateEntry) := by
  obtain ⟨h1, h2⟩ := parse_written_main hd true
  have hok : ∀ p ∈ d.sections, ∀ a ∈ p.2.attrs, a.Ok := fun p hp => hd.attrs_ok p.2 (by
    rw [List.mem_cons]; exact Or.inr (List.mem_map.2 ⟨p, hp, rfl⟩))
  rw [h1]
  exact readSections_dup hok hd.named h2 (Nat.lt_succ_self _) _ (fun h => hn h.1)

theorem pieces_spec (n : Nat) (v : Bytes) :
    (pieces n v).flatten = v ∧ ∀ p ∈ pieces n v, p ≠ [] ∧ p.length ≤ n + 1 := by
  induction hl : v.length using Nat.strongRecOn generalizing v with
  | _ l ih =>
    rw [pieces]
    split
    · rename_i h; subst h; simp
    · rename_i h
      have hpos := List.length_pos_iff.2 h
      obtain ⟨i1, i2⟩ := ih (v.drop (n + 1)).length (by simp only [List.length_drop]; omega) _ rfl
      constructor
      · rw [List.flatten_cons, i1, List.take_append_drop]
      · intro p hp
        rcases List.mem_cons.1 hp with rfl | hp
        · refine ⟨?_, by simp; omega⟩
          intro hh
          have := congrArg List.length hh
          simp only [List.length_take, List.length_nil] at this
          omega
        · exact i2 p hp

/-- C40: the canonical writer (lines of at most 72 bytes) is one of the writers of `C40_roundtrip`: its attributes are well
    formed, carry the given value and respect the line length. -/
theorem C40_canonical_writer (name value : Bytes) (h1 : name ≠ []) (h2 : name.length ≤ 70) (h3 : ∀ c ∈ name, IsNameByte c)
    (h4 : ∀ c ∈ value, c ≠ 0 ∧ c ≠ 10 ∧ c ≠ 13) :
    (canonicalAttr name value).Ok ∧ (canonicalAttr name value).value = value ∧
      (name ++ [58, 32] ++ (canonicalAttr name value).first).length ≤ 72 ∧
      ∀ p ∈ (canonicalAttr name value).more, ([32] ++ p.2).length ≤ 72 := by
  obtain ⟨i1, i2⟩ := pieces_spec 70 (value.drop (70 - name.length))
  have hv : (canonicalAttr name value).value = value := by
    unfold WAttr.value canonicalAttr
    simp only [List.map_map]
    have : ((fun x : Eol × Bytes => x.2) ∘ fun p => (Eol.crlf, p)) = id := rfl
    rw [this, List.map_id, i1, List.take_append_drop]
  refine ⟨⟨h1, h2, h3, by rw [hv]; exact h4, ?_⟩, hv, ?_, ?_⟩
  · intro p hp
    obtain ⟨q, hq, rfl⟩ := List.mem_map.1 hp
    exact (i2 q hq).1
  · unfold canonicalAttr
    simp only [List.length_append, List.length_take, List.length_cons, List.length_nil]; omega
  · intro p hp
    obtain ⟨q, hq, rfl⟩ := List.mem_map.1 hp
    have := (i2 q hq).2
    simp only [List.length_append, List.length_cons, List.length_nil]; omega

/-- The chunks in the order they were recorded. -/
theorem sectionsRun_chunks {b : Bytes} {m m' : Manifest} (h : SectionsRun true b m m') :
    ∃ cs tail, m'.chunks = m.chunks ++ cs ∧ b = (cs.map (·.2)).flatten ++ tail ∧ NoHeader tail ∧ ∀ p ∈ cs, p.2 ≠ [] := by
  have hset : ∀ (l : List (Bytes × Bytes)) n c, mget l n = none → mset l n c = l ++ [(n, c)] := by
    intro l n c hl
    induction l with
    | nil => rfl
    | cons p l ih =>
      rw [mget_cons] at hl
      split at hl
      · cases hl
      · rename_i hne
        rw [mset, if_neg hne, ih hl]; rfl
  induction h with
  | done hn => exact ⟨[], _, by simp, by simp, hn, by simp⟩
  | @step c b name attrs m m' hs hc _ ih =>
    obtain ⟨cs, tail, h1, h2, h3, h4⟩ := ih
    simp only [if_true] at h1
    rw [hset _ _ _ (hc rfl)] at h1
    refine ⟨(name, c) :: cs, tail, by rw [h1]; simp, by rw [h2]; simp, h3, ?_⟩
    intro p hp
    rcases List.mem_cons.1 hp with rfl | hp
    · exact hs.ne_nil
    · exact h4 p hp

/-- A value loop that ends without a pending line break has read everything, and the last byte is not a line break (or it is
    an LF that is ignored because of an earlier CR SP). -/
theorem readValue_unterminated {b value seg : Bytes} {len : Option Nat} {clb : Nat} {cr : Bool} {v r : Bytes}
    (h : readValue b value seg len clb cr = .ok (.ok (v, r, 0))) :
    r = [] ∧ (b = [] → clb = 0) ∧ b.getLast? ≠ some 13 ∧
      (b.getLast? = some 10 → (cr = true ∧ clb = 0) ∨ (cr = true ∧ ∃ y, b = 32 :: y) ∨ [13, 32] <:+: b) := by
  induction b generalizing value seg len clb cr with
  | nil => unfold readValue at h; cases h; simp
  | cons c b ih =>
    have hlast : b ≠ [] → (c :: b).getLast? = b.getLast? := by
      intro hb
      cases b with
      | nil => exact absurd rfl hb
      | cons d b => rfl
    unfold readValue at h
    split at h
    · cases h
    split at h
    · rename_i h2
      obtain ⟨i1, i2, i3, i4⟩ := ih h
      refine ⟨i1, by simp, ?_, ?_⟩
      · by_cases hb : b = []
        · subst hb; subst h2; simp
        · rw [hlast hb]; exact i3
      · by_cases hb : b = []
        · subst hb
          have := i2 rfl
          intro _
          cases cr with
          | true => exact Or.inl ⟨rfl, by simpa using this⟩
          | false => simp at this
        · rw [hlast hb]
          intro hl
          rcases i4 hl with ⟨h5, _⟩ | ⟨h5, _⟩ | h5
          · cases h5
          · cases h5
          · exact Or.inr (Or.inr (h5.trans (List.suffix_cons c b).isInfix))
    split at h
    · rename_i h2
      obtain ⟨i1, i2, i3, i4⟩ := ih h
      refine ⟨i1, by simp, ?_, ?_⟩
      · by_cases hb : b = []
        · subst hb; have := i2 rfl; omega
        · rw [hlast hb]; exact i3
      · by_cases hb : b = []
        · subst hb; have := i2 rfl; omega
        · rw [hlast hb]
          intro hl
          rcases i4 hl with ⟨_, h5⟩ | ⟨_, y, h5⟩ | h5
          · omega
          · rw [h5, h2]; exact Or.inr (Or.inr ⟨[], y, rfl⟩)
          · exact Or.inr (Or.inr (h5.trans (List.suffix_cons c b).isInfix))
    split at h
    · rename_i h4
      cases len with
      | none => cases h
      | some k =>
        obtain ⟨i1, i2, i3, i4⟩ := ih h
        refine ⟨i1, by simp, ?_, ?_⟩
        · by_cases hb : b = []
          · subst hb; rw [h4.1]; simp
          · rw [hlast hb]; exact i3
        · by_cases hb : b = []
          · subst hb; rw [h4.1]; simp
          · rw [hlast hb]
            intro hl
            rcases i4 hl with ⟨h5, _⟩ | ⟨h5, _⟩ | h5
            · exact Or.inr (Or.inl ⟨h5, b, by rw [h4.1]⟩)
            · exact Or.inr (Or.inl ⟨h5, b, by rw [h4.1]⟩)
            · exact Or.inr (Or.inr (h5.trans (List.suffix_cons c b).isInfix))
    split at h
    · rename_i h5
      simp only [Except.ok.injEq, Prod.mk.injEq] at h
      omega
    · rename_i h1 h2 h3 h4 h5
      obtain ⟨i1, i2, i3, i4⟩ := ih h
      refine ⟨i1, by simp, ?_, ?_⟩
      · by_cases hb : b = []
        · subst hb; simp [h3]
        · rw [hlast hb]; exact i3
      · by_cases hb : b = []
        · subst hb; simp [h2]
        · rw [hlast hb]
          intro hl
          rcases i4 hl with ⟨h6, h7⟩ | ⟨h6, _⟩ | h6
          · exact Or.inl ⟨h6, h7⟩
          · exact Or.inl ⟨h6, by omega⟩
          · exact Or.inr (Or.inr (h6.trans (List.suffix_cons c b).isInfix))

/-- Bytes without a complete attribute: no colon, or an attribute that is not ended by a line break. (An LF at the end does
    not count as a line break after a CR that was followed by a space.) -/
def NoAttribute (b : Bytes) : Prop :=
  (58 : UInt8) ∉ b ∨ (b.getLast? ≠ some 13 ∧ (b.getLast? = some 10 → [13, 32] <:+: b))

theorem NoHeader.noAttribute {b : Bytes} (h : NoHeader b) : NoAttribute b := by
  obtain ⟨r, h⟩ := h
  rcases readHeader_inv h with ⟨h0, _⟩ | ⟨_, h1, _⟩ | ⟨_, name, body, v, r', n, h1, _, _, h2, h3⟩
  · omega
  · exact Or.inl h1
  · right
    simp only [Header.mk.injEq] at h3
    have hn : n = 0 := h3.2.2.symm
    subst hn
    obtain ⟨_, _, i3, i4⟩ := readValue_unterminated h2
    have hb : b = (name ++ [58, 32]) ++ body := by rw [h1]; simp
    cases hbd : body with
    | nil => rw [hb, hbd]; simp
    | cons c t =>
      have hl : b.getLast? = body.getLast? := by
        rw [hb, List.getLast?_append]
        cases hg : body.getLast? with
        | none => rw [List.getLast?_eq_none_iff] at hg; rw [hg] at hbd; cases hbd
        | some x => rfl
      rw [hl]
      refine ⟨i3, fun hx => ?_⟩
      rcases i4 hx with ⟨h5, _⟩ | ⟨h5, _⟩ | h5
      · cases h5
      · cases h5
      · rw [hb]; exact h5.trans (List.suffix_append _ _).isInfix

/-- C40: for every accepted manifest, the main part, the recorded chunks in order and a rest without any attribute are a
    partition of the bytes: they are disjoint, in order, and nothing else is there; every chunk belongs to an entry and
    vice versa (C48_entry_has_section). -/
theorem C40_partition {data : Bytes} {m : Manifest} (h : parseManifestData true data = .ok (.ok m)) :
    ∃ tail, data = data.take m.mainEnd ++ (m.chunks.map (·.2)).flatten ++ tail ∧ m.mainEnd ≤ data.length ∧ m.rawData = data ∧
      (∀ p ∈ m.chunks, p.2 ≠ []) ∧ NoAttribute tail := by
  obtain ⟨c, b, attrs, h1, _, h3⟩ := parse_run h
  obtain ⟨cs, tail, g1, g2, g3, g4⟩ := sectionsRun_chunks h3
  obtain ⟨f1, f2, f3⟩ := h3.frame
  simp only [List.nil_append] at g1 f1 f2 f3
  refine ⟨tail, ?_, by rw [f3, h1]; simp, f1, ?_, g3.noAttribute⟩
  · rw [f3, g1, h1, List.take_left, g2]; simp
  · rw [g1]; exact g4

/-! ## C48: what the section digests protect -/

/-- Every recorded entry is what its chunk alone says. -/
theorem sectionsRun_entries {b : Bytes} {m m' : Manifest} (h : SectionsRun true b m m')
    (h0 : ∀ n, (mget m.entries n).isSome = (mget m.chunks n).isSome)
    (h1 : ∀ n c, mget m.chunks n = some c → ∃ as, mget m.entries n = some as ∧ SectionOf c n [] as) :
    (∀ n, (mget m'.entries n).isSome = (mget m'.chunks n).isSome) ∧
      ∀ n c, mget m'.chunks n = some c → ∃ as, mget m'.entries n = some as ∧ SectionOf c n [] as := by
  induction h with
  | done _ => exact ⟨h0, h1⟩
  | @step c b name attrs m m' hs hc _ ih =>
    have hne : mget m.entries name = none := by
      have := h0 name
      rw [hc rfl] at this
      simpa using this
    rw [hne] at hs
    apply ih
    · intro n
      simp only [if_true]
      rw [mget_mset, mget_mset]
      by_cases hn : name = n
      · rw [if_pos hn, if_pos hn]; rfl
      · rw [if_neg hn, if_neg hn]; exact h0 n
    · intro n c' hc'
      simp only [if_true] at hc' ⊢
      rw [mget_mset] at hc' ⊢
      by_cases hn : name = n
      · rw [if_pos hn] at hc' ⊢
        cases hc'
        subst hn
        exact ⟨attrs, rfl, hs⟩
      · rw [if_neg hn] at hc' ⊢
        exact h1 n c' hc'

/-- C48: the attributes of an entry are determined by the bytes of its section alone: two accepted manifests that have the
    same bytes for a name have the same attributes for it, whatever else they contain. -/
theorem C48_section_determines_entry {d1 d2 : Bytes} {m1 m2 : Manifest} (h1 : parseManifestData true d1 = .ok (.ok m1))
    (h2 : parseManifestData true d2 = .ok (.ok m2)) {n c : Bytes} (c1 : mget m1.chunks n = some c) (c2 : mget m2.chunks n = some c) :
    ∃ as, mget m1.entries n = some as ∧ mget m2.entries n = some as := by
  obtain ⟨_, _, _, _, _, r1⟩ := parse_run h1
  obtain ⟨_, _, _, _, _, r2⟩ := parse_run h2
  obtain ⟨a1, e1, s1⟩ := (sectionsRun_entries r1 (fun _ => rfl) (fun _ _ h => by cases h)).2 n c c1
  obtain ⟨a2, e2, s2⟩ := (sectionsRun_entries r2 (fun _ => rfl) (fun _ _ h => by cases h)).2 n c c2
  obtain ⟨_, rfl⟩ := s1.unique s2
  exact ⟨a1, e1, e2⟩

/-- C48: an entry exists exactly if a section was recorded for it. -/
theorem C48_entry_has_section {d : Bytes} {m : Manifest} (h : parseManifestData true d = .ok (.ok m)) (n : Bytes) :
    (mget m.entries n).isSome = (mget m.chunks n).isSome := by
  obtain ⟨_, _, _, _, _, r⟩ := parse_run h
  exact (sectionsRun_entries r (fun _ => rfl) (fun _ _ h => by cases h)).1 n

/-- C48: the main attributes are determined by the bytes of the main section. -/
theorem C48_main_section_determines_attributes {w1 w2 : Bool} {d1 d2 : Bytes} {m1 m2 : Manifest}
    (h1 : parseManifestData w1 d1 = .ok (.ok m1)) (h2 : parseManifestData w2 d2 = .ok (.ok m2))
    (h : d1.take m1.mainEnd = d2.take m2.mainEnd) : m1.main = m2.main := by
  obtain ⟨c1, b1, a1, e1, g1, r1⟩ := parse_run h1
  obtain ⟨c2, b2, a2, e2, g2, r2⟩ := parse_run h2
  obtain ⟨_, f1, k1⟩ := r1.frame
  obtain ⟨_, f2, k2⟩ := r2.frame
  simp only at f1 f2 k1 k2
  rw [k1, k2, e1, e2, List.take_left, List.take_left] at h
  subst h
  rw [f1, f2]
  unfold MainOf at g1 g2
  rw [g1] at g2
  cases g2
  rfl

/-! ## C40: names are stored in lower case -/

theorem lower_lower (n : Bytes) : lower (lower n) = lower n := by
  unfold lower
  rw [List.map_map]
  refine List.map_congr_left fun c _ => ?_
  simp only [Function.comp_apply]
  unfold lowerByte
  by_cases h : 65 ≤ c.toNat ∧ c.toNat ≤ 90
  · rw [if_pos h]
    rw [if_neg]
    rw [UInt8.toNat_ofNat', Nat.mod_eq_of_lt (by omega)]; omega
  · rw [if_neg h, if_neg h]

theorem readAttrs_lower {f : Nat} {b : Bytes} {clb : Nat} {m m' : Attrs} {r : Bytes} {n : Nat}
    (h : readAttrs f b clb m = .ok (.ok (m', r, n))) (hm : ∀ k, (mget m k).isSome = true → asciiLower k = k) :
    ∀ k, (mget m' k).isSome = true → asciiLower k = k := by
  induction f generalizing b clb m with
  | zero => unfold readAttrs at h; cases h; exact hm
  | succ f ih =>
    unfold readAttrs at h
    split at h
    · cases h
    · cases h
    · rename_i hd hh
      split at h
      · cases h; exact hm
      · rename_i nm vl ha
        refine ih h ?_
        intro k hk
        rw [mget_mset] at hk
        split at hk
        · rename_i he
          subst he
          rcases readHeader_inv hh with ⟨_, rfl⟩ | ⟨_, _, rfl⟩ | ⟨_, name, body, v, r, n, h1, _, _, h2, rfl⟩
          · cases ha
          · cases ha
          · simp only at ha
            split at ha
            · cases ha; exact lower_lower name
            · cases ha
        · exact hm k hk

/-- C40: attribute names are case-insensitive: every stored name is lower case. -/
theorem C40_names_lower_case {wc : Bool} {data : Bytes} {m : Manifest} (h : parseManifestData wc data = .ok (.ok m)) :
    (∀ k, (mget m.main k).isSome = true → asciiLower k = k) ∧
      ∀ n as, mget m.entries n = some as → ∀ k, (mget as k).isSome = true → asciiLower k = k := by
  obtain ⟨c, b, attrs, _, h2, h3⟩ := parse_run h
  constructor
  · rw [h3.frame.2.1]
    unfold MainOf at h2
    exact readAttrs_lower h2 (by simp)
  · clear h h2
    suffices hs : ∀ (b : Bytes) (m0 : Manifest), SectionsRun wc b m0 m →
        (∀ n as, mget m0.entries n = some as → ∀ k, (mget as k).isSome = true → asciiLower k = k) →
        ∀ n as, mget m.entries n = some as → ∀ k, (mget as k).isSome = true → asciiLower k = k from
      hs _ _ h3 (fun n as h => by cases h)
    clear h3
    intro b m0 hr
    induction hr with
    | done _ => exact fun h => h
    | @step c b name attrs m m' hs hc _ ih =>
      intro h0
      refine ih ?_
      intro n as ha
      simp only at ha
      rw [mget_mset] at ha
      split at ha
      · cases ha
        obtain ⟨r, k, _, h5⟩ := hs
        refine readAttrs_lower h5 ?_
        cases hg : mget m.entries name with
        | none => simp
        | some x => exact h0 name x hg
      · exact h0 n as ha

/-! ## C49: when the parser panics -/

/-- A line that consists of a space only, between line breaks. -/
def EmptyContinuation (b : Bytes) : Prop := ∃ x y, ∃ c d : UInt8, b = x ++ [c, 32, d] ++ y ∧ (c = 10 ∨ c = 13) ∧ (d = 10 ∨ d = 13)

theorem EmptyContinuation.cons {b : Bytes} (h : EmptyContinuation b) (c : UInt8) : EmptyContinuation (c :: b) := by
  obtain ⟨x, y, c', d, h1, h2⟩ := h
  exact ⟨c :: x, y, c', d, by rw [h1]; rfl, h2⟩

theorem EmptyContinuation.append {b : Bytes} (h : EmptyContinuation b) (x : Bytes) : EmptyContinuation (x ++ b) := by
  induction x with
  | nil => exact h
  | cons c x ih => exact ih.cons c

/-- In state "right after a continuation space" a panic needs a line break next. The context of the loop: `pre` are the
    bytes before. -/
theorem readValue_panic {b value seg : Bytes} {len : Option Nat} {clb : Nat} {cr : Bool} {p : Panic}
    (h : readValue b value seg len clb cr = .error p) :
    EmptyContinuation b ∨
      (0 < clb ∧ len ≠ none ∧ ∃ d y, b = 32 :: d :: y ∧ (d = 10 ∨ d = 13)) ∨
      (len = none ∧ clb = 0 ∧ ∃ d y, b = d :: y ∧ (d = 10 ∨ d = 13)) ∨ (len = none ∧ 0 < clb) := by
  induction b generalizing value seg len clb cr with
  | nil => unfold readValue at h; cases h
  | cons c b ih =>
    unfold readValue at h
    split at h
    · cases h
    by_cases hlc : len = none ∧ 0 < clb
    · exact Or.inr (Or.inr (Or.inr hlc))
    -- a line break with `len` present leads to a state with clb ≥ 1, or clb = 0 after a stray CR SP LF
    have hbreak : ∀ {seg' : Bytes} {clb' : Nat} {cr' : Bool}, (c = 10 ∨ c = 13) →
        readValue b value seg' len clb' cr' = .error p →
        EmptyContinuation (c :: b) ∨ (0 < clb ∧ len ≠ none ∧ ∃ d y, c :: b = 32 :: d :: y ∧ (d = 10 ∨ d = 13)) ∨
          (len = none ∧ clb = 0 ∧ ∃ d y, c :: b = d :: y ∧ (d = 10 ∨ d = 13)) ∨ (len = none ∧ 0 < clb) := by
      intro seg' clb' cr' hc h'
      by_cases hl : len = none
      · by_cases hz : clb = 0
        · exact Or.inr (Or.inr (Or.inl ⟨hl, hz, c, b, rfl, hc⟩))
        · exact Or.inr (Or.inr (Or.inr ⟨hl, by omega⟩))
      · rcases ih h' with h1 | ⟨_, _, d, y, h1, h2⟩ | ⟨h1, _⟩ | ⟨h1, _⟩
        · exact Or.inl (h1.cons c)
        · subst h1
          exact Or.inl ⟨[], y, c, d, rfl, hc, h2⟩
        · exact absurd h1 hl
        · exact absurd h1 hl
    split at h
    · rename_i h2; exact hbreak (Or.inl h2) h
    split at h
    · rename_i h3; exact hbreak (Or.inr h3) h
    split at h
    · rename_i h4
      cases len with
      | none => exact absurd ⟨rfl, by omega⟩ hlc
      | some k =>
        simp only at h
        rcases ih h with h1 | ⟨h1, _⟩ | ⟨_, _, d, y, h1, h2⟩ | ⟨_, h1⟩
        · exact Or.inl (h1.cons c)
        · omega
        · refine Or.inr (Or.inl ⟨by omega, by simp, d, y, ?_, h2⟩)
          rw [h1, h4.1]
        · omega
    split at h
    · cases h
    · rename_i h5
      rcases ih h with h1 | ⟨h1, _⟩ | ⟨h1, _⟩ | ⟨h1, _⟩
      · exact Or.inl (h1.cons c)
      · exact absurd h1 (by omega)
      · cases h1
      · cases h1

theorem readHeader_panic {b : Bytes} {clb : Nat} {p : Panic} (h : readHeader b clb = .error p) :
    EmptyContinuation b ∨ b.getLast? = some 58 := by
  unfold readHeader at h
  split at h
  · cases h
  split at h
  · cases h
  rename_i name after h2
  obtain ⟨h3, h4⟩ := splitColon_some h2
  split at h
  · right; rw [h3]; simp
  rename_i c body
  split at h
  · cases h
  split at h
  · cases h
  split at h
  · rename_i h7
    left
    rcases readValue_panic h7 with h8 | ⟨h8, _⟩ | ⟨h8, _⟩ | ⟨h8, _⟩
    · rw [h3]; exact ((h8.cons c).cons 58).append name
    · omega
    · cases h8
    · cases h8
  · cases h
  · cases h

/-- A suffix inherits neither property wrongly. -/
theorem panic_suffix {r b : Bytes} (hs : r <:+ b) (h : EmptyContinuation r ∨ r.getLast? = some 58) :
    EmptyContinuation b ∨ b.getLast? = some 58 := by
  obtain ⟨z, rfl⟩ := hs
  rcases h with h | h
  · exact Or.inl (h.append z)
  · right; rw [List.getLast?_append, h]; rfl

theorem readAttrs_panic {f : Nat} {b : Bytes} {clb : Nat} {m : Attrs} {p : Panic} (h : readAttrs f b clb m = .error p) :
    EmptyContinuation b ∨ b.getLast? = some 58 := by
  induction f generalizing b clb m with
  | zero => unfold readAttrs at h; cases h
  | succ f ih =>
    unfold readAttrs at h
    split at h
    · rename_i hh; exact readHeader_panic hh
    · cases h
    · rename_i hd hh
      split at h
      · cases h
      · exact panic_suffix (readHeader_suffix hh) (ih h)

theorem readSections_panic {wc : Bool} {f : Nat} {b : Bytes} {clb : Nat} {m : Manifest} {p : Panic}
    (h : readSections wc f b clb m = .error p) : EmptyContinuation b ∨ b.getLast? = some 58 := by
  induction f generalizing b clb m with
  | zero => unfold readSections at h; cases h
  | succ f ih =>
    unfold readSections at h
    split at h
    · rename_i hh; exact readHeader_panic hh
    · cases h
    · rename_i hd hh
      split at h
      · cases h
      split at h
      · cases h
      simp only at h
      split at h
      · rename_i h5; exact panic_suffix (readHeader_suffix hh) (readAttrs_panic h5)
      · cases h
      · rename_i h5
        have hs := (readAttrs_suffix h5).trans (readHeader_suffix hh)
        split at h
        · split at h
          · cases h
          · exact panic_suffix hs (ih h)
        · exact panic_suffix hs (ih h)

/-- C49: parsing a manifest panics only if its last byte is a colon or one of its lines consists of a single space. -/
theorem C49_panic_causes_partial {wc : Bool} {data : Bytes} {p : Panic} (h : parseManifestData wc data = .error p) :
    data.getLast? = some 58 ∨ ∃ x y, ∃ c d : UInt8, data = x ++ [c, 32, d] ++ y ∧ (c = 10 ∨ c = 13) ∧ (d = 10 ∨ d = 13) := by
  unfold parseManifestData at h
  split at h
  · rename_i h1; exact (readAttrs_panic h1).symm
  · cases h
  · rename_i h1
    exact (panic_suffix (readAttrs_suffix h1) (readSections_panic h)).symm

/-- C49 is false of the code: two manifests that make the parser panic. -/
theorem C49_panic_witnesses :
    parseManifestData true (b!"Manifest-Version: 1.0\nName:") = .error .indexOutOfRange ∧
    parseManifestData true (b!"Manifest-Version: 1.0\n \n \n") = .error .sliceOutOfRange := by
  constructor <;> decide +kernel

/-! ## A concrete manifest -/

namespace Toy

/-- A manifest with a wrapped value, mixed line breaks and two entries. -/
def wdoc : WDoc where
  main := ⟨[⟨b!"Manifest-Version", b!"1.0", [], .crlf⟩, ⟨b!"Created-By", b!"x", [(.lf, b!" yz"), (.crlf, b!"w")], .lf⟩], [.crlf]⟩
  sections := [(b!"a.txt", ⟨[⟨b!"Name", b!"a", [(.crlf, b!".txt")], .crlf⟩, ⟨b!"SHA1-Digest", b!"AAAA", [], .crlf⟩], [.crlf, .lf]⟩),
    (b!"b", ⟨[⟨b!"NAME", b!"b", [], .lf⟩], []⟩)]

theorem wdoc_ok : wdoc.Ok where
  main_pos := by decide
  attrs_ok := by
    intro s hs a ha
    have hb : ∀ a ∈ wdoc.main.attrs ++ (wdoc.sections.map (fun p => p.2.attrs)).flatten, a.name ≠ [] ∧ a.name.length ≤ 70 ∧
        (∀ c ∈ a.name, nameByte c = true) ∧ (∀ c ∈ a.value, c ≠ 0 ∧ c ≠ 10 ∧ c ≠ 13) ∧ ∀ p ∈ a.more, p.2 ≠ [] := by
      decide +kernel
    obtain ⟨h1, h2, h3, h4, h5⟩ := hb a (by
      rcases List.mem_cons.1 hs with rfl | hs
      · exact List.mem_append_left _ ha
      · obtain ⟨p, hp, rfl⟩ := List.mem_map.1 hs
        exact List.mem_append_right _ (List.mem_flatten.2 ⟨_, List.mem_map.2 ⟨p, hp, rfl⟩, ha⟩))
    exact ⟨h1, h2, fun c hc => (nameByte_iff c).1 (h3 c hc), h4, h5⟩
  named := by
    intro p hp
    simp only [wdoc, List.mem_cons, List.not_mem_nil, or_false] at hp
    rcases hp with rfl | rfl
    · exact ⟨_, _, rfl, by decide, by decide⟩
    · exact ⟨_, _, rfl, by decide, by decide⟩
  blank := by decide

end Toy

/-- The hypotheses of the C40 and C48 theorems are met. -/
example : ∃ m, parseManifestData true Toy.wdoc.bytes = .ok (.ok m) ∧ mget m.main (b!"created-by") = some (b!"x yzw") ∧
    mget m.chunks (b!"a.txt") = some (b!"Name: a\r\n .txt\r\nSHA1-Digest: AAAA\r\n\r\n\n") := by
  obtain ⟨m, h1, h2, h3, h4, h5, h6, h7⟩ := C40_roundtrip Toy.wdoc_ok true (fun _ => by decide)
  refine ⟨m, h1, ?_, ?_⟩
  · rw [h4]; decide
  · rw [h7 rfl _ (List.mem_cons_self)]; decide

end Apk
