import Verif.Spec.Asn1
import Verif.Model.Unmarshal
/-!
# What `Unmarshal` accepts: a grammar

`Reads env t fp v b rest`: the bytes `b` start with an encoding, as a value of the Go type `t` with the tag string parameters
`fp`, of the value `v`; `rest` are the bytes after it. The grammar follows X.690 with the Go tag strings on top. It is written
without reference to the decoder; only the vocabulary (`Ty`, `FP`, `RawVal`, zero values) is shared. The parameters `parseFP s` of a
tag string `s` are characterised in `Spec/TagString` (theorem C54_tag_strings).
-/
namespace Apk

/-- Length octets (X.690 8.1.3), definite form. -/
def LengthOctets (n : Nat) (p : Bytes) : Prop :=
  n < 2 ^ 31 ∧ ((∃ x : UInt8, p = [x] ∧ x.toNat = n ∧ n < 128) ∨
    ∃ (x : UInt8) (ds : Bytes), p = x :: ds ∧ ds ≠ [] ∧ x.toNat = 128 + ds.length ∧ beNat ds = n)

/-- Identifier octets (X.690 8.1.2). The high form is also accepted for tags below 31. -/
def IdentifierOctets (cls tag : Nat) (constructed : Bool) (p : Bytes) : Prop :=
  ∃ (x : UInt8) (q : Bytes), p = x :: q ∧ cls < 4 ∧ tag < 2 ^ 31 ∧
    ((tag < 31 ∧ q = [] ∧ x.toNat = 64 * cls + (if constructed then 32 else 0) + tag) ∨
     (Base128 tag q ∧ q.length ≤ 5 ∧ x.toNat = 64 * cls + (if constructed then 32 else 0) + 31))

/-- A header: identifier and length octets. -/
def DerHeader (t : TagLen) (hdr : Bytes) : Prop :=
  ∃ p l, hdr = p ++ l ∧ IdentifierOctets t.cls t.tag t.isCompound p ∧ LengthOctets t.length l

/-- Universal tags of a type (X.680 and common.go). A Go string may be any of the ASN.1 string types. -/
def Ty.HasTag : Ty → Nat → Prop
  | .rawValue, _ => True
  | .any, _ => True
  | .oid, n => n = 6
  | .bits, n => n = 3
  | .time, n => n = 23 ∨ n = 24
  | .enumerated, n => n = 10
  | .flag, n => n = 1
  | .bool, n => n = 1
  | .bigInt, n => n = 2
  | .int, n => n = 2
  | .int32, n => n = 2
  | .octets, n => n = 4
  | .str, n => n = 12 ∨ n = 18 ∨ n = 19 ∨ n = 20 ∨ n = 22 ∨ n = 27 ∨ n = 30
  | .struct _ _, n => n = 16
  | .slice isSET _, n => n = if isSET then 17 else 16

/-- Structs and slices are constructed, all else is primitive. -/
def Ty.constructed : Ty → Bool
  | .struct _ _ => true
  | .slice _ _ => true
  | _ => false

/-- The class selected by the tag string. -/
def FP.cls (fp : FP) : Nat := if fp.priv then 3 else if fp.application then 1 else 2

/-- The header `tl` is one a field may have: the tag of the tag string, or the universal tags of its type. A RawValue takes
    any header unless it has its own tag. -/
def FieldPresent (t : Ty) (fp : FP) (tl : TagLen) : Prop :=
  (t = .rawValue ∨ tl.isCompound = t.constructed) ∧
  match fp.explicit, fp.tag with
  | false, some n => tl.cls = fp.cls ∧ (tl.tag : Int) = n
  | _, _ => t = .rawValue ∨ (tl.cls = 0 ∧ if fp.set then tl.tag = 17 else t.HasTag tl.tag)

/-- The wrapper of an explicitly tagged field. Its class is never `private` (asn1.go:754-757). -/
def Wrapper (fp : FP) (tl : TagLen) : Prop :=
  tl.cls = (if fp.application then 1 else 2) ∧ some (tl.tag : Int) = fp.tag ∧ (tl.length = 0 ∨ tl.isCompound = true)

/-- `Located t fp b tl inner rest`: `b` consists of a field with header `tl` and contents `inner`, and `rest`. Note that the
    length of an explicit wrapper need not match what is in it. -/
inductive Located (t : Ty) (fp : FP) : Bytes → TagLen → Bytes → Bytes → Prop
  | plain {hdr inner rest : Bytes} {tl : TagLen} : fp.explicit = false → DerHeader tl hdr → FieldPresent t fp tl → inner.length = tl.length →
      Located t fp (hdr ++ inner ++ rest) tl inner rest
  | explicit {hdr0 hdr inner rest : Bytes} {tl0 tl : TagLen} : fp.explicit = true → t ≠ .rawValue → DerHeader tl0 hdr0 → Wrapper fp tl0 →
      0 < tl0.length → DerHeader tl hdr → FieldPresent t fp tl → inner.length = tl.length →
      Located t fp (hdr0 ++ (hdr ++ inner ++ rest)) tl inner rest
  | explicitRaw {hdr0 inner rest : Bytes} {tl0 : TagLen} : fp.explicit = true → t = .rawValue → DerHeader tl0 hdr0 → Wrapper fp tl0 →
      inner.length = tl0.length → inner ++ rest ≠ [] → Located t fp (hdr0 ++ inner ++ rest) tl0 inner rest

/-- An optional field that is not there: nothing is left, or the next header is that of something else. -/
inductive Absent (t : Ty) (fp : FP) : Bytes → Prop
  | empty : fp.optional = true → Absent t fp []
  | plain {hdr r : Bytes} {tl : TagLen} : fp.optional = true → fp.explicit = false → DerHeader tl hdr → ¬ FieldPresent t fp tl → Absent t fp (hdr ++ r)
  | wrapper {hdr r : Bytes} {tl : TagLen} : fp.optional = true → fp.explicit = true → DerHeader tl hdr → r ≠ [] → ¬ Wrapper fp tl → Absent t fp (hdr ++ r)
  | inside {hdr0 hdr r : Bytes} {tl0 tl : TagLen} : fp.optional = true → fp.explicit = true → t ≠ .rawValue → DerHeader tl0 hdr0 → Wrapper fp tl0 →
      0 < tl0.length → DerHeader tl hdr → ¬ FieldPresent t fp tl → Absent t fp (hdr0 ++ (hdr ++ r))

/-- The kind of ASN.1 string a Go string was encoded as. -/
def stringKind (fp : FP) (tl : TagLen) : Nat :=
  if fp.set then 17 else if tl.cls = 0 then tl.tag else if fp.stringType = 0 then 19 else fp.stringType

/-- GeneralizedTime (24), UTCTime otherwise; with a `set` parameter always read as GeneralizedTime. -/
def isGeneralized (fp : FP) (tl : TagLen) : Prop := fp.set = true ∨ (tl.cls = 0 ∧ tl.tag = 24)

/-- Contents of the ASN.1 string types; the alphabets of PrintableString, T61String and GeneralString are not checked. -/
def StringContents (env : AsnEnv) (kind : Nat) (s content : Bytes) : Prop :=
  ((kind = 19 ∨ kind = 20 ∨ kind = 27) ∧ s = content) ∨
  (kind = 18 ∧ s = content ∧ ∀ c ∈ content, (48 ≤ c.toNat ∧ c.toNat ≤ 57) ∨ c = 32) ∨
  (kind = 22 ∧ s = content ∧ ∀ c ∈ content, c.toNat < 128) ∨
  (kind = 12 ∧ s = content ∧ env.utf8Valid content = true) ∨
  (kind = 30 ∧ ∃ units, s = env.utf16 units ∧
    (content = (units.map (fun u => [UInt8.ofNat (u / 256), UInt8.ofNat (u % 256)])).flatten ∧ (∀ u ∈ units, u < 65536) ∧
      (units.getLast? ≠ some 0) ∨
     content = (units.map (fun u => [UInt8.ofNat (u / 256), UInt8.ofNat (u % 256)])).flatten ++ [0, 0] ∧ (∀ u ∈ units, u < 65536)))

/-- BIT STRING contents (X.690 8.6, 11.2): number of unused bits, then the bytes; the unused bits are zero. -/
def BitContents (v : BitStr) (content : Bytes) : Prop :=
  ∃ p : UInt8, content = p :: v.bytes ∧ p.toNat < 8 ∧ v.bitLength + p.toNat = v.bytes.length * 8 ∧
    ((p :: v.bytes).getLast (by simp)).toNat % 2 ^ p.toNat = 0

/-- Numbers below 2^31 in base 128, at most five digits each (leading zero digits are accepted). -/
inductive ArcOctets : List Nat → Bytes → Prop
  | nil : ArcOctets [] []
  | cons {n : Nat} {ns : List Nat} {p r : Bytes} : Base128 n p → n < 2 ^ 31 → p.length ≤ 5 → ArcOctets ns r → ArcOctets (n :: ns) (p ++ r)

/-- OBJECT IDENTIFIER contents (X.690 8.19): the first two arcs in one number, then the others. -/
def OidContents (oid : List Nat) (content : Bytes) : Prop :=
  ∃ a b arcs, oid = a :: b :: arcs ∧ a ≤ 2 ∧ (a < 2 → b < 40) ∧ ArcOctets ((a * 40 + b) :: arcs) content

/-- Contents of the primitive types. -/
def PrimContents (env : AsnEnv) (fp : FP) (tl : TagLen) (content full : Bytes) : (t : Ty) → t.interp → Prop
  | .rawValue, v => v = (⟨tl.cls, tl.tag, tl.isCompound, content, full⟩ : RawVal)
  | .oid, v => OidContents v content
  | .bits, v => BitContents v content
  | .time, v => (isGeneralized fp tl ∧ env.genTime content = some v) ∨ (¬ isGeneralized fp tl ∧ env.utcTime content = some v)
  | .enumerated, v => MinimalInt content ∧ twos content = v ∧ IsInt32 v
  | .flag, v => v = true
  | .bigInt, v => ∃ i, v = some i ∧ MinimalInt content ∧ twos content = i
  | .bool, v => (v = true ∧ content = [255]) ∨ (v = false ∧ content = [0])
  | .int, v => MinimalInt content ∧ twos content = v ∧ IsInt64 v
  | .int32, v => MinimalInt content ∧ twos content = v ∧ IsInt32 v
  | .octets, v => v = content
  | .str, v => StringContents env (stringKind fp tl) v content
  | _, _ => False

/-- The value of an absent optional field: the default of the tag string for integers, otherwise the zero value. -/
def AbsentValue (fp : FP) : (t : Ty) → t.interp → Prop
  | .int, v => v = fp.dflt.getD 0
  | .enumerated, v => v = fp.dflt.getD 0
  | .int32, v => v = wrap32 (fp.dflt.getD 0)
  | t, v => v = t.zero

/-- A value of unknown type (`interface{}`): strings, integers, bit strings, object identifiers, times and octet strings are
    decoded, everything else is skipped. -/
def AnyContents (env : AsnEnv) (tl : TagLen) (content : Bytes) (v : Option AnyVal) : Prop :=
  if tl.isCompound = true ∨ tl.cls ≠ 0 then v = none
  else if tl.tag ∈ [12, 18, 19, 20, 22, 30] then ∃ s, v = some (.str s) ∧ StringContents env tl.tag s content
  else if tl.tag = 2 then ∃ i, v = some (.int i) ∧ MinimalInt content ∧ twos content = i ∧ IsInt64 i
  else if tl.tag = 3 then ∃ s, v = some (.bits s) ∧ BitContents s content
  else if tl.tag = 6 then ∃ o, v = some (.oid o) ∧ OidContents o content
  else if tl.tag = 23 then ∃ i, v = some (.time i) ∧ env.utcTime content = some i
  else if tl.tag = 24 then ∃ i, v = some (.time i) ∧ env.genTime content = some i
  else if tl.tag = 4 then v = some (.octets content)
  else v = none

/-- A sequence of elements without anything before, between or after them. -/
inductive SeqOf {α : Type} (P : α → Bytes → Bytes → Prop) : List α → Bytes → Prop
  | nil : SeqOf P [] []
  | cons {v : α} {vs : List α} {b rest : Bytes} : b ≠ [] → P v b rest → SeqOf P vs rest → SeqOf P (v :: vs) b

/-- The value of a flag that is set. -/
def FlagIsSet : (t : Ty) → t.interp → Prop
  | .flag, v => v = true
  | _, _ => False

/-- A primitive field: present, absent, or a flag given by an empty explicit wrapper. -/
def PrimReads (env : AsnEnv) (t : Ty) (fp : FP) (v : t.interp) (b rest : Bytes) : Prop :=
  (∃ tl inner, Located t fp b tl inner rest ∧ PrimContents env fp tl inner (b.take (b.length - rest.length)) t v) ∨
  (Absent t fp b ∧ AbsentValue fp t v ∧ rest = b) ∨
  (t = .flag ∧ FlagIsSet t v ∧ fp.explicit = true ∧ ∃ hdr tl, b = hdr ++ rest ∧ rest ≠ [] ∧ DerHeader tl hdr ∧ Wrapper fp tl ∧ tl.length = 0)

mutual
/-- The grammar of fields. -/
def Reads (env : AsnEnv) : (t : Ty) → FP → t.interp → Bytes → Bytes → Prop
  | .any, fp, v, b, rest =>
    (b = [] ∧ fp.optional = true ∧ v = none ∧ rest = []) ∨
    ∃ hdr tl inner, b = hdr ++ inner ++ rest ∧ DerHeader tl hdr ∧ inner.length = tl.length ∧ AnyContents env tl inner v
  | .struct raw fs, fp, v, b, rest =>
    (∃ tl inner, Located (.struct raw fs) fp b tl inner rest ∧ ReadsAll env fs v.2 inner ∧
      v.1 = if raw then b.take (b.length - rest.length) else []) ∨
    (Absent (.struct raw fs) fp b ∧ v = (([] : Bytes), fs.zero) ∧ rest = b)
  | .slice isSET elem, fp, v, b, rest =>
    (∃ tl inner, Located (.slice isSET elem) fp b tl inner rest ∧ elem ≠ .any ∧ SeqOf (Reads env elem {}) v inner) ∨
    (Absent (.slice isSET elem) fp b ∧ v = [] ∧ rest = b)
  | t, fp, v, b, rest => PrimReads env t fp v b rest

/-- The fields of a struct, in order. Bytes after the last field are ignored. -/
def ReadsAll (env : AsnEnv) : (fs : Fields) → fs.interp → Bytes → Prop
  | .nil, _, _ => True
  | .cons tag t fs, v, b => ∃ rest, Reads env t (parseFP tag) v.1 b rest ∧ ReadsAll env fs v.2 rest
end

end Apk
