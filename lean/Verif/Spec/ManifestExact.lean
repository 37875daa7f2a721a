import Verif.Spec.Manifest
/-!
# The grammar of JAR manifests as the library reads them

A manifest is a sequence of attributes `name: value`, with values that may be continued on lines that begin with a space, grouped into
sections by blank lines. Lines end with CR, LF or CR LF. One irregularity of the code is part of the grammar: if a line that ends with CR
alone is continued, the next LF does not end a line (it belongs to the value, unless the line ends there anyway).
-/
namespace Apk.Mf

/-- The text of one line. `cr`: the previous line was ended by CR alone; then one LF may be part of the text. -/
structure Text (cr : Bool) (t : Bytes) : Prop where
  bytes : ∀ c ∈ t, c ≠ 0 ∧ c ≠ 13
  lf : t.count 10 ≤ cr.toNat
  last : t.getLast? ≠ some 10

/-- Line breaks only. -/
def Breaks (r : Bytes) : Prop := ∀ c ∈ r, c = 10 ∨ c = 13

/-- The number of line breaks; `cr` says that a CR came before, with which an LF makes one line break. -/
def breakCount : Bool → Bytes → Nat
  | _, [] => 0
  | cr, c :: r => if c = 13 then breakCount true r + 1 else if cr then breakCount false r else breakCount false r + 1

/-- Whether an LF after the text would still be taken together with the CR before the text. -/
def after (cr : Bool) (t : Bytes) : Bool := cr && !t.contains 10

/-- `ValueIs cr first b v rest n`: the bytes `b` start with the value `v`, which is followed by `n` line breaks and `rest`. `first`: no
    continuation line has been read. -/
inductive ValueIs : Bool → Bool → Bytes → Bytes → Bytes → Nat → Prop
  /-- The last line of a value, before the end of the manifest. -/
  | eof {cr first : Bool} {t r : Bytes} (ht : Text cr t) (hr : Breaks r) : ValueIs cr first (t ++ r) t [] (breakCount (after cr t) r)
  /-- The last line of a value, before another line. -/
  | stop {cr first : Bool} {t r : Bytes} {c : UInt8} {rest : Bytes} (ht : Text cr t) (hr : Breaks r) (hn : 1 ≤ breakCount (after cr t) r)
      (hc : c ≠ 0 ∧ c ≠ 10 ∧ c ≠ 13) (hs : c = 32 → breakCount (after cr t) r ≠ 1) :
      ValueIs cr first (t ++ r ++ c :: rest) t (c :: rest) (breakCount (after cr t) r)
  /-- A line that is continued. Continuation lines that are continued are not empty. -/
  | more {cr first : Bool} {t r b v rest : Bytes} {n : Nat} (ht : Text cr t) (hf : first = true ∨ t ≠ []) (hr : Breaks r)
      (hn : breakCount (after cr t) r = 1) (h : ValueIs (decide (r.getLast? = some 13)) false b v rest n) :
      ValueIs cr first (t ++ r ++ 32 :: b) (t ++ v) rest n

/-- Reading the value panics: an empty continuation line is continued. -/
inductive ValuePanics : Bool → Bool → Bytes → Prop
  | here {cr : Bool} {r b : Bytes} (hr : Breaks r) (hn : breakCount cr r = 1) : ValuePanics cr false (r ++ 32 :: b)
  | more {cr first : Bool} {t r b : Bytes} (ht : Text cr t) (hf : first = true ∨ t ≠ []) (hr : Breaks r)
      (hn : breakCount (after cr t) r = 1) (h : ValuePanics (decide (r.getLast? = some 13)) false b) : ValuePanics cr first (t ++ r ++ 32 :: b)

/-- A name: 1 to 70 letters, digits, underscores and hyphens. -/
def Name (n : Bytes) : Prop := n ≠ [] ∧ n.length ≤ 70 ∧ ∀ c ∈ n, IsNameByte c

/-- The bytes `b` start with an attribute: its name in lower case, its value, what follows after `n` line breaks. -/
def AttrIs (b : Bytes) (a : Bytes × Bytes) (rest : Bytes) (n : Nat) : Prop :=
  ∃ name body, b = name ++ [58, 32] ++ body ∧ Name name ∧ a.1 = asciiLower name ∧ ValueIs false true body a.2 rest n

/-- No attribute follows: there is no colon, or the last line is not ended. -/
def NoMore (b : Bytes) : Prop := (58 : UInt8) ∉ b ∨ ∃ a, AttrIs b a [] 0

/-- Reading an attribute panics: the manifest ends with the colon, or reading the value panics. -/
def AttrPanics (b : Bytes) : Prop :=
  (∃ name, b = name ++ [58] ∧ (58 : UInt8) ∉ name) ∨ ∃ name body, b = name ++ [58, 32] ++ body ∧ Name name ∧ ValuePanics false true body

/-- `AttrsAre n b as rest`: after `n` line breaks, the bytes `b` start with the attributes `as` up to a blank line or the end; `rest`
    follows. -/
inductive AttrsAre : Nat → Bytes → List (Bytes × Bytes) → Bytes → Prop
  | blank {n : Nat} {b : Bytes} (hn : 1 < n) : AttrsAre n b [] b
  | eof {n : Nat} {b : Bytes} (hn : n ≤ 1) (h : NoMore b) : AttrsAre n b [] []
  | cons {n k : Nat} {b rest rest' : Bytes} {a : Bytes × Bytes} {as : List (Bytes × Bytes)} (hn : n ≤ 1) (h : AttrIs b a rest k) (hk : 0 < k)
      (hs : AttrsAre k rest as rest') : AttrsAre n b (a :: as) rest'

/-- Reading the attributes panics. -/
inductive AttrsPanic : Nat → Bytes → Prop
  | here {n : Nat} {b : Bytes} (hn : n ≤ 1) (h : AttrPanics b) : AttrsPanic n b
  | later {n k : Nat} {b rest : Bytes} {a : Bytes × Bytes} (hn : n ≤ 1) (h : AttrIs b a rest k) (hk : 0 < k) (hs : AttrsPanic k rest) : AttrsPanic n b

/-- A section: the name of the entry, its other attributes, its bytes. -/
structure Section where
  name : Bytes
  attrs : List (Bytes × Bytes)
  bytes : Bytes

/-- `b` starts with a section. -/
def SectionIs (b : Bytes) (s : Section) (rest : Bytes) : Prop :=
  ∃ r k, AttrIs b (b!"name", s.name) r k ∧ 0 < k ∧ AttrsAre k r s.attrs rest ∧ b = s.bytes ++ rest

/-- The sections of a manifest. -/
inductive SectionsAre : Bytes → List Section → Prop
  | nil {b : Bytes} (h : NoMore b) : SectionsAre b []
  | cons {b rest : Bytes} {s : Section} {ss : List Section} (h : SectionIs b s rest) (hs : SectionsAre rest ss) : SectionsAre b (s :: ss)

/-- Reading the sections panics; `distinct`: no entry may occur twice; `seen`: the names of the entries before. -/
inductive SectionsPanic (distinct : Bool) : List Bytes → Bytes → Prop
  | name {seen : List Bytes} {b : Bytes} (h : AttrPanics b) : SectionsPanic distinct seen b
  | attrs {seen : List Bytes} {b v r : Bytes} {k : Nat} (h : AttrIs b (b!"name", v) r k) (hk : 0 < k) (hs : AttrsPanic k r) : SectionsPanic distinct seen b
  | later {seen : List Bytes} {b rest : Bytes} {s : Section} (h : SectionIs b s rest) (hn : distinct = true → s.name ∉ seen)
      (hs : SectionsPanic distinct (s.name :: seen) rest) : SectionsPanic distinct seen b

/-- The entries as a map: the attributes of all sections of the same name, later values replace earlier ones. -/
def entriesOf (ss : List Section) : List (Bytes × List (Bytes × Bytes)) :=
  ss.foldl (fun m s => mset m s.name (s.attrs.foldl (fun e a => mset e a.1 a.2) ((mget m s.name).getD []))) []

end Apk.Mf
