import Verif.Proofs.DerGrammar
import Verif.Model.X509
import Verif.Proofs.TagString
/-!
# C54: ASN.1 decoding

`Unmarshal` of internal/asn1andr, for every Go type built from the types it supports.
-/
namespace Apk

/-- The tag string parameters of a top level value. -/
theorem parseFP_nil : parseFP [] = {} := by decide

/-- C54: decoding never panics. -/
theorem C54_unmarshal_total (env : AsnEnv) (t : Ty) (b : Bytes) : ∃ v r, unmarshalRaw env t b = .ok (v, r) := by
  obtain ⟨⟨v, r⟩, h⟩ := unmarshalRaw_total env t b
  exact ⟨v, r, h⟩

/-- C54: decoding succeeds exactly on the encodings of the grammar in `Spec/Der.lean`, with the value and the remaining bytes the
    grammar says. -/
theorem C54_accepts_exactly_the_grammar (env : AsnEnv) (t : Ty) (b : Bytes) (v : t.interp) (rest : Bytes) :
    unmarshalRaw env t b = .ok (v, .ok rest) ↔ Reads env t {} v b rest := by
  unfold unmarshalRaw
  rw [parseFP_nil]
  exact parseField_iff env t {} (by intro h; cases h) b v rest

/-- C54: the parameters of a field are those that the words of its tag string say. -/
theorem C54_tag_strings {s : Bytes} {fp : FP} : parseFP s = fp ↔ TagString s fp := by
  rw [tagString_iff]
  exact eq_comm

/-- C54: the fields of a struct are read one after the other, each with what its tag string says. -/
theorem C54_fields {env : AsnEnv} {tag : Bytes} {t : Ty} {fs : Fields} {v1 : t.interp} {v2 : fs.interp} {b : Bytes} :
    ReadsAll env (.cons tag t fs) (v1, v2) b ↔ ∃ fp rest, TagString tag fp ∧ Reads env t fp v1 b rest ∧ ReadsAll env fs v2 rest := by
  rw [readsAll_cons]
  constructor
  · rintro ⟨rest, h⟩
    exact ⟨_, rest, tagString_iff.2 rfl, h⟩
  · rintro ⟨fp, rest, h, h'⟩
    rw [tagString_iff.1 h] at h'
    exact ⟨rest, h'⟩

/-- C54: tag strings of the package: a tag number wins over the words that need a tag wherever it stands; unreadable numbers are
    ignored. -/
theorem C54_tag_string_examples :
    TagString (b!"optional,explicit,default:0,tag:3") { optional := true, explicit := true, dflt := some 0, tag := some 3 } ∧
    TagString (b!"tag:5,explicit,application") { explicit := true, application := true, tag := some 5 } ∧
    TagString (b!"private,default:x,tag:9223372036854775808,ia5,utf8") { priv := true, tag := some 0, stringType := 12 } ∧
    TagString (b!"set,default:-1,default:+7") { set := true, dflt := some 7 } := by
  refine ⟨tagString_iff.2 ?_, tagString_iff.2 ?_, tagString_iff.2 ?_, tagString_iff.2 ?_⟩ <;> decide

/-- Primitive types. -/
theorem reads_prim {env : AsnEnv} {t : Ty} (h1 : t ≠ .any) (h2 : ∀ r fs, t ≠ .struct r fs) (h3 : ∀ s e, t ≠ .slice s e) {fp : FP}
    {v : t.interp} {b rest : Bytes} : Reads env t fp v b rest ↔ PrimReads env t fp v b rest := by
  cases t
  case any => exact absurd rfl h1
  case struct r fs => exact absurd rfl (h2 r fs)
  case slice s e => exact absurd rfl (h3 s e)
  all_goals
    rw [Reads]
    all_goals simp

theorem take_front (a r : Bytes) : (a ++ r).take ((a ++ r).length - r.length) = a := by simp

/-- A top level encoding can be followed by anything. -/
theorem reads_local {env : AsnEnv} {t : Ty} {v : t.interp} {b rest : Bytes} (h : Reads env t {} v b rest) :
    ∃ front, front ≠ [] ∧ b = front ++ rest ∧ ∀ r, Reads env t {} v (front ++ r) r := by
  have loc : ∀ {tl inner}, Located t {} b tl inner rest →
      ∃ front, front ≠ [] ∧ b = front ++ rest ∧ b.take (b.length - rest.length) = front ∧ ∀ r, Located t {} (front ++ r) tl inner r := by
    intro tl inner hl
    obtain ⟨hdr, h1, h2, h3, h4⟩ := hl.plain_inv rfl
    refine ⟨hdr ++ inner, ?_, h1, ?_, fun r => Located.plain rfl h2 h4 h3⟩
    · have := header_ne h2
      simp [this]
    · rw [h1]; exact take_front _ _
  have prim : PrimReads env t {} v b rest → ∃ front, front ≠ [] ∧ b = front ++ rest ∧ ∀ r, PrimReads env t {} v (front ++ r) r := by
    rintro (⟨tl, inner, hl, hc⟩ | ⟨h, _⟩ | ⟨_, _, h, _⟩)
    · obtain ⟨front, h1, h2, h3, h4⟩ := loc hl
      refine ⟨front, h1, h2, fun r => .inl ⟨tl, inner, h4 r, ?_⟩⟩
      rw [take_front, ← h3]; exact hc
    · exact absurd (absent_optional h) (by simp)
    · cases h
  cases t
  case any =>
    rw [Reads] at h
    rcases h with ⟨_, h, _⟩ | ⟨hdr, tl, inner, h1, h2, h3, h4⟩
    · cases h
    · refine ⟨hdr ++ inner, ?_, h1, fun r => ?_⟩
      · have := header_ne h2
        simp [this]
      · rw [Reads]
        exact .inr ⟨hdr, tl, inner, rfl, h2, h3, h4⟩
  case struct raw fs =>
    rw [Reads] at h
    rcases h with ⟨tl, inner, hl, hc, hr⟩ | ⟨h, _⟩
    · obtain ⟨front, h1, h2, h3, h4⟩ := loc hl
      refine ⟨front, h1, h2, fun r => ?_⟩
      rw [Reads]
      refine .inl ⟨tl, inner, h4 r, hc, ?_⟩
      rw [take_front, ← h3]; exact hr
    · exact absurd (absent_optional h) (by simp)
  case slice s e =>
    rw [Reads] at h
    rcases h with ⟨tl, inner, hl, hc⟩ | ⟨h, _⟩
    · obtain ⟨front, h1, h2, h3, h4⟩ := loc hl
      refine ⟨front, h1, h2, fun r => ?_⟩
      rw [Reads]
      exact .inl ⟨tl, inner, h4 r, hc⟩
    · exact absurd (absent_optional h) (by simp)
  all_goals
    rw [Reads] at h
    · obtain ⟨front, h1, h2, h3⟩ := prim h
      refine ⟨front, h1, h2, fun r => ?_⟩
      rw [Reads]
      · exact h3 r
      all_goals simp
    all_goals simp

/-- C54: a successful decoding consumes a non-empty prefix, never looks at what follows it, and gives the same value whatever
    follows. -/
theorem C54_prefix_only {env : AsnEnv} {t : Ty} {b : Bytes} {v : t.interp} {rest : Bytes} (h : unmarshalRaw env t b = .ok (v, .ok rest)) :
    ∃ front, front ≠ [] ∧ b = front ++ rest ∧ ∀ r, unmarshalRaw env t (front ++ r) = .ok (v, .ok r) := by
  obtain ⟨front, h1, h2, h3⟩ := reads_local ((C54_accepts_exactly_the_grammar env t b v rest).1 h)
  exact ⟨front, h1, h2, fun r => (C54_accepts_exactly_the_grammar env t _ v r).2 (h3 r)⟩

/-- C54: the encodings of one type are prefix free: two values cannot be decoded from the beginning of the same bytes. -/
theorem C54_unambiguous {env : AsnEnv} {t : Ty} {v v' : t.interp} {front front' r r' : Bytes} (h : Reads env t {} v (front ++ r) r)
    (h' : Reads env t {} v' (front' ++ r') r') (e : front ++ r = front' ++ r') : v = v' ∧ front = front' ∧ r = r' := by
  have h1 := (C54_accepts_exactly_the_grammar env t _ v r).2 h
  have h2 := (C54_accepts_exactly_the_grammar env t _ v' r').2 h'
  rw [e, h2] at h1
  have h1 := Except.ok.inj h1
  have e1 : v' = v := congrArg Prod.fst h1
  have e2 : r' = r := Except.ok.inj (congrArg Prod.snd h1)
  exact ⟨e1.symm, (by rw [e2] at e; exact List.append_cancel_right e), e2.symm⟩

/-! ## Cases -/

namespace DerCase
/-- Any external functions. -/
def env : AsnEnv := ⟨fun _ => true, fun _ => [], fun _ => some 0, fun _ => some 0⟩
/-- SEQUENCE of INTEGER 5, INTEGER -1, a third element, then two more bytes. -/
def bytes : Bytes := [48, 9, 2, 1, 5, 2, 1, 255, 4, 1, 7, 1, 2]
end DerCase

/-- A struct of two integers, with an unknown element in it and bytes after it. -/
example : unmarshalRaw DerCase.env rsTy DerCase.bytes = .ok ((([] : Bytes), (some 5 : Option Int), (some (-1) : Option Int), ()), .ok [1, 2]) := by
  rfl
/-- So the grammar has this encoding. -/
example : Reads DerCase.env rsTy {} (([] : Bytes), (some 5 : Option Int), (some (-1) : Option Int), ()) DerCase.bytes [1, 2] :=
  (C54_accepts_exactly_the_grammar _ _ _ _ _).1 rfl

/-- C54, a defect the grammar shows (`Located.explicit`): the length of an explicit wrapper is not compared with what is in it. The
    version of a certificate is read from `[0] EXPLICIT INTEGER 2` for every declared length from 1 to 127. -/
theorem C54_explicit_length_unchecked (env : AsnEnv) (n : UInt8) (h1 : 1 ≤ n.toNat) (h2 : n.toNat < 128) (rest : Bytes) :
    parseField env .int (parseFP (b!"optional,explicit,default:0,tag:0")) (160 :: n :: 2 :: 1 :: 2 :: rest) = .ok ((2 : Int), .ok rest) := by
  refine (parseField_iff env .int _ (parseFP_ok _) _ _ _).2 ?_
  refine (reads_prim (by simp) (by simp) (by simp)).2 ?_
  · refine .inl ⟨⟨0, 2, 1, false⟩, [2], ?_, ?_⟩
    · refine Located.explicit (t := .int) (fp := parseFP (b!"optional,explicit,default:0,tag:0")) (hdr0 := [160, n]) (hdr := [2, 1]) (inner := [2]) (rest := rest) (tl := ⟨0, 2, 1, false⟩) (tl0 := ⟨2, 0, n.toNat, true⟩) (by decide) (by simp) ?_ ?_ h1 ?_ ?_ rfl
      · exact ⟨[160], [n], rfl, ⟨160, [], rfl, by show 2 < 4; decide, by show 0 < 2 ^ 31; decide, .inl ⟨by show 0 < 31; decide, rfl, rfl⟩⟩, by
          show n.toNat < 2 ^ 31; omega, .inl ⟨n, rfl, rfl, h2⟩⟩
      · exact ⟨rfl, rfl, .inr rfl⟩
      · exact ⟨[2], [1], rfl, ⟨2, [], rfl, by decide, by decide, .inl ⟨by decide, rfl, by decide⟩⟩, by decide, .inl ⟨1, rfl, rfl, by decide⟩⟩
      · exact ⟨.inr rfl, by
          have he : (parseFP (b!"optional,explicit,default:0,tag:0")).explicit = true := by decide
          have hs : (parseFP (b!"optional,explicit,default:0,tag:0")).set = false := by decide
          rw [he]
          exact .inr ⟨rfl, by rw [hs]; rfl⟩⟩
    · exact ⟨⟨by simp, fun x y r h => by simp at h⟩, by decide, by unfold IsInt64; decide⟩

end Apk
