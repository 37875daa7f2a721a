import Verif.Proofs.ManifestExact
/-!
# Which manifests are accepted, what they mean, and which make the parser panic

The grammar is `Verif/Spec/ManifestExact.lean`; it does not mention the parser.
-/
namespace Apk
open Mf

theorem Mf.parse_cases (wc : Bool) (data : Bytes) :
    (∃ as rest ss, AttrsAre 0 data as rest ∧ SectionsAre rest ss ∧ (wc = true → (ss.map Section.name).Nodup) ∧
      parseManifestData wc data = .ok (.ok
        { rawData := data, main := as.foldl (fun m a => mset m a.1 a.2) [], entries := entriesOf ss
          chunks := if wc then ss.map (fun s => (s.name, s.bytes)) else [], mainEnd := data.length - rest.length })) ∨
    ((AttrsPanic 0 data ∨ ∃ as rest, AttrsAre 0 data as rest ∧ SectionsPanic wc [] rest) ∧ ∃ p, parseManifestData wc data = .error p) ∨
    ∃ e, parseManifestData wc data = .ok (.error e) := by
  rcases attrs_cases 0 data with ⟨as, rest, h⟩ | h | ⟨e, h⟩
  · have hp : parseManifestData wc data = readSections wc (rest.length + 1) rest 0
        { rawData := data, main := store [] as, mainEnd := data.length - rest.length } := by
      unfold parseManifestData
      rw [attrs_complete h (Nat.lt_succ_self _)]
    have hseen : ∀ a n, Seen wc [] { rawData := data, main := a, mainEnd := n } := fun _ _ _ _ => by simp [mget_nil]
    rcases sections_cases wc [] rest with ⟨ss, h1, h2⟩ | h1 | ⟨e, h1⟩
    · refine .inl ⟨as, rest, ss, h, h1, fun hw => (h2 hw).1, ?_⟩
      rw [hp, sections_complete h1 (Nat.lt_succ_self _), stored]
      · simp [store, entriesOf]
      · exact fun hw => ⟨(h2 hw).1, fun _ _ => rfl⟩
      · exact fun hw => ⟨(h2 hw).1, fun _ _ => rfl⟩
    · obtain ⟨p, h2⟩ := sections_panic h1 (Nat.lt_succ_self _) _ (hseen (store [] as) (data.length - rest.length))
      exact .inr (.inl ⟨.inr ⟨as, rest, h, h1⟩, p, by rw [hp, h2]⟩)
    · exact .inr (.inr ⟨e, by rw [hp, h1 _ _ (Nat.lt_succ_self _) (hseen _ _)]⟩)
  · obtain ⟨p, hp⟩ := attrs_panic h (Nat.lt_succ_self _) []
    refine .inr (.inl ⟨.inl h, p, ?_⟩)
    unfold parseManifestData
    rw [hp]
  · refine .inr (.inr ⟨e, ?_⟩)
    unfold parseManifestData
    rw [h _ _ (Nat.lt_succ_self _)]

/-- The attributes and sections of a manifest decide what the parser returns. -/
theorem Mf.parse_complete {wc : Bool} {data rest : Bytes} {as : List (Bytes × Bytes)} {ss : List Section} (h1 : AttrsAre 0 data as rest)
    (h2 : SectionsAre rest ss) (h3 : wc = true → (ss.map Section.name).Nodup) : parseManifestData wc data = .ok (.ok
      { rawData := data, main := as.foldl (fun m a => mset m a.1 a.2) [], entries := entriesOf ss
        chunks := if wc then ss.map (fun s => (s.name, s.bytes)) else [], mainEnd := data.length - rest.length }) := by
  unfold parseManifestData
  rw [attrs_complete h1 (Nat.lt_succ_self _)]
  show readSections wc (rest.length + 1) rest 0 { rawData := data, main := store [] as, mainEnd := data.length - rest.length } = _
  rw [sections_complete h2 (Nat.lt_succ_self _), stored]
  · simp [store, entriesOf]
  · exact fun hw => ⟨h3 hw, fun _ _ => rfl⟩
  · exact fun hw => ⟨h3 hw, fun _ _ => rfl⟩

/-- C72: a manifest is accepted exactly if it is attributes, then sections, by the grammar, with no two sections of the same name if it is
    the main manifest (`wc`); and the result is exactly the meaning of that: the last value of every main attribute, the attributes of the
    sections by entry name, the bytes of every section, and where the main section ends. -/
theorem C72_manifest_iff (wc : Bool) (data : Bytes) (m : Manifest) : parseManifestData wc data = .ok (.ok m) ↔
    ∃ as rest ss, AttrsAre 0 data as rest ∧ SectionsAre rest ss ∧ (wc = true → (ss.map Section.name).Nodup) ∧ m =
      { rawData := data, main := as.foldl (fun m a => mset m a.1 a.2) [], entries := entriesOf ss
        chunks := if wc then ss.map (fun s => (s.name, s.bytes)) else [], mainEnd := data.length - rest.length } := by
  constructor
  · intro h
    rcases parse_cases wc data with ⟨as, rest, ss, h1, h2, h3, h4⟩ | ⟨_, p, hp⟩ | ⟨e, he⟩
    · rw [h] at h4
      exact ⟨as, rest, ss, h1, h2, h3, Except.ok.inj (Except.ok.inj h4)⟩
    · rw [h] at hp; cases hp
    · rw [h] at he; cases he
  · rintro ⟨as, rest, ss, h1, h2, h3, rfl⟩
    exact parse_complete h1 h2 h3

/-- C72: one attribute. Reading what comes after the name gives a value exactly if the grammar does; the rest and the number of line breaks
    are those of the grammar. In particular values are read in one way only. -/
theorem C72_value_unique {cr first : Bool} {b v v' rest rest' : Bytes} {n n' : Nat} (h : ValueIs cr first b v rest n)
    (h' : ValueIs cr first b v' rest' n') : v = v' ∧ rest = rest' ∧ n = n' := by
  have e1 := value_complete h []
  rw [value_complete h' []] at e1
  simp only [List.nil_append, Except.ok.injEq, Prod.mk.injEq] at e1
  exact ⟨e1.1.symm, e1.2.1.symm, e1.2.2.symm⟩

/-- C49: parsing a manifest panics exactly if the attributes, up to a blank line, or a later section contain a line of the kind the grammar
    names: a last byte that is a colon and ends a name, or an empty continuation line that is continued. -/
theorem C49_panic_iff (wc : Bool) (data : Bytes) : (∃ p, parseManifestData wc data = .error p) ↔
    AttrsPanic 0 data ∨ ∃ as rest, AttrsAre 0 data as rest ∧ SectionsPanic wc [] rest := by
  constructor
  · rintro ⟨p, h⟩
    rcases parse_cases wc data with ⟨as, rest, ss, h1, h2, h3, h4⟩ | ⟨h', _⟩ | ⟨e, he⟩
    · rw [h] at h4; cases h4
    · exact h'
    · rw [h] at he; cases he
  · rintro (h | ⟨as, rest, h, h1⟩)
    · obtain ⟨p, hp⟩ := attrs_panic h (Nat.lt_succ_self _) []
      refine ⟨p, ?_⟩
      unfold parseManifestData
      rw [hp]
    · unfold parseManifestData
      rw [attrs_complete h (Nat.lt_succ_self _)]
      exact sections_panic h1 (Nat.lt_succ_self _) _ (fun _ _ => by simp [mget_nil])

/-- C72: the irregularity of the grammar is real. After a line that ends with CR alone has been continued, the next LF does not end the
    line: it becomes part of the value, with everything up to the next line break, even if that has the form of an attribute. -/
theorem C72_line_feed_in_value : ∃ m, parseManifestData true (b!"A: x\r y\nB: z\n\n") = .ok (.ok m) ∧ m.main = [(b!"a", b!"xy\nB: z")] :=
  ⟨{ rawData := b!"A: x\r y\nB: z\n\n", main := [(b!"a", b!"xy\nB: z")], mainEnd := 14 }, by decide +kernel, rfl⟩

/-- C72: the same manifest by the grammar. -/
theorem C72_line_feed_by_grammar : AttrsAre 0 (b!"A: x\r y\nB: z\n\n") [(b!"a", b!"xy\nB: z")] [] := by
  refine .cons (k := 2) (rest := []) (by omega) ⟨b!"A", b!"x\r y\nB: z\n\n", by decide, ⟨by decide, by decide, ?_⟩, by decide, ?_⟩ (by omega) (.blank (by omega))
  · intro c hc
    have : c = 65 := by simpa using hc
    subst this
    unfold IsNameByte; decide
  · have tx : Text false (b!"x") := ⟨by decide, by decide, by decide⟩
    have ty : Text true (b!"y\nB: z") := ⟨by decide, by decide, by decide⟩
    have h2 : ValueIs true false (b!"y\nB: z\n\n") (b!"y\nB: z") [] 2 :=
      ValueIs.eof (t := b!"y\nB: z") (r := [10, 10]) ty (by unfold Breaks; decide)
    exact ValueIs.more (t := b!"x") (r := [13]) (b := b!"y\nB: z\n\n") (v := b!"y\nB: z") tx (.inl rfl) (by unfold Breaks; decide) (by decide) h2

/-- C49: the panics are reachable in each position: in the main attributes, in the name and in the attributes of a section. -/
theorem C49_panic_examples : AttrsPanic 0 (b!"Name:") ∧
    (∃ as rest, AttrsAre 0 (b!"A: x\n\nName:") as rest ∧ SectionsPanic true [] rest) := by
  constructor
  · exact .here (by omega) (.inl ⟨b!"Name", by decide, by decide⟩)
  · refine ⟨[(b!"a", b!"x")], b!"Name:", ?_, .name (.inl ⟨b!"Name", by decide, by decide⟩)⟩
    refine .cons (k := 2) (rest := b!"Name:") (by omega) ⟨b!"A", b!"x\n\nName:", by decide, ⟨by decide, by decide, ?_⟩, by decide, ?_⟩ (by omega) (.blank (by omega))
    · intro c hc
      have : c = 65 := by simpa using hc
      subst this
      unfold IsNameByte; decide
    · exact ValueIs.stop (t := b!"x") (r := [10, 10]) (c := 78) (rest := b!"ame:") ⟨by decide, by decide, by decide⟩ (by unfold Breaks; decide)
        (by decide) (by decide) (by decide)

end Apk
