import Verif.Model.Base
/-! # Specification of JAR manifests: what a writer may produce, independent of the parser -/
namespace Apk

/-- The two usual line breaks. -/
inductive Eol where
  | lf | crlf
deriving DecidableEq, Repr

/-- Bytes of a line break. -/
def Eol.bytes : Eol → Bytes
  | .lf => [10]
  | .crlf => [13, 10]

/-- One attribute as written: name, the part of the value on the first line, continuation lines (the line break before
    each of them and its text), and the final line break. -/
structure WAttr where
  name : Bytes
  first : Bytes
  more : List (Eol × Bytes) := []
  eol : Eol := .crlf
deriving DecidableEq, Repr

/-- The value: the concatenation of the lines. -/
def WAttr.value (a : WAttr) : Bytes := a.first ++ (a.more.map (·.2)).flatten

/-- The bytes written: `Name: first`, continuation lines start with a space. -/
def WAttr.bytes (a : WAttr) : Bytes :=
  a.name ++ [58, 32] ++ a.first ++ (a.more.map (fun p => p.1.bytes ++ [32] ++ p.2)).flatten ++ a.eol.bytes

/-- A letter, digit, underscore or hyphen. -/
def IsNameByte (c : UInt8) : Prop :=
  (97 ≤ c.toNat ∧ c.toNat ≤ 122) ∨ (65 ≤ c.toNat ∧ c.toNat ≤ 90) ∨ (48 ≤ c.toNat ∧ c.toNat ≤ 57) ∨ c.toNat = 95 ∨ c.toNat = 45

/-- ASCII lower case. -/
def asciiLower (n : Bytes) : Bytes :=
  n.map (fun c => if 65 ≤ c.toNat ∧ c.toNat ≤ 90 then UInt8.ofNat (c.toNat + 32) else c)

/-- A well-formed attribute: a legal name of 1 to 70 bytes; no NUL, CR or LF in the value; no empty continuation line. -/
structure WAttr.Ok (a : WAttr) : Prop where
  name_pos : a.name ≠ []
  name_len : a.name.length ≤ 70
  name_bytes : ∀ c ∈ a.name, IsNameByte c
  value_bytes : ∀ c ∈ a.value, c ≠ 0 ∧ c ≠ 10 ∧ c ≠ 13
  more_pos : ∀ p ∈ a.more, p.2 ≠ []

/-- A section: attributes and the blank lines after them. -/
structure WSection where
  attrs : List WAttr
  blank : List Eol := [.crlf]
deriving DecidableEq, Repr

/-- Bytes of a section. -/
def WSection.bytes (s : WSection) : Bytes := (s.attrs.map WAttr.bytes).flatten ++ (s.blank.map Eol.bytes).flatten

/-- The value of the last attribute with this name, in any case. -/
def WSection.lookup (attrs : List WAttr) (n : Bytes) : Option Bytes :=
  ((attrs.filter (fun a => decide (asciiLower a.name = n))).getLast?).map WAttr.value

/-- A section that names an entry: its first attribute is `Name`, in any case. -/
def WSection.Names (s : WSection) (n : Bytes) : Prop :=
  ∃ a as, s.attrs = a :: as ∧ asciiLower a.name = b!"name" ∧ a.value = n

/-- A well-formed manifest: a main section and named sections, all non-empty, every one but the last followed by at least
    one blank line. -/
structure WDoc where
  main : WSection
  sections : List (Bytes × WSection)

/-- The bytes of a manifest. -/
def WDoc.bytes (d : WDoc) : Bytes := d.main.bytes ++ (d.sections.map (fun p => p.2.bytes)).flatten

structure WDoc.Ok (d : WDoc) : Prop where
  main_pos : d.main.attrs ≠ []
  attrs_ok : ∀ s ∈ d.main :: d.sections.map (·.2), ∀ a ∈ s.attrs, a.Ok
  named : ∀ p ∈ d.sections, p.2.Names p.1
  blank : ∀ s ∈ (d.main :: d.sections.map (·.2)).dropLast, s.blank ≠ []

end Apk

namespace Apk

/-- Cut into pieces of `n + 1` bytes (the last one may be shorter). -/
def pieces (n : Nat) (v : Bytes) : List Bytes :=
  if h : v = [] then [] else v.take (n + 1) :: pieces n (v.drop (n + 1))
termination_by v.length
decreasing_by
  have := List.length_pos_iff.2 h
  simp only [List.length_drop]; omega

/-- The canonical writer: no line is longer than 72 bytes (without its line break). -/
def canonicalAttr (name value : Bytes) : WAttr :=
  { name := name, first := value.take (70 - name.length),
    more := (pieces 70 (value.drop (70 - name.length))).map (fun p => (Eol.crlf, p)) }

end Apk
