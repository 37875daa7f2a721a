import Verif.Spec.Pkcs7
import Verif.Model.Marshal
/-!
# Writing and reading back

Which values survive being written and read, and what "the same value" means. Reading is described by the grammar `Reads` of
`Spec/Der`, which does not know about writing.
-/
namespace Apk

/-- Related element by element. -/
inductive ListRel {α β : Type} (R : α → β → Prop) : List α → List β → Prop
  | nil : ListRel R [] []
  | cons {a : α} {b : β} {as : List α} {bs : List β} : R a b → ListRel R as bs → ListRel R (a :: as) (b :: bs)

/-- The same element; the copy of its encoding (`FullBytes`) is not compared. -/
def SameRaw (v w : RawVal) : Prop := w.cls = v.cls ∧ w.tag = v.tag ∧ w.isCompound = v.isCompound ∧ w.bytes = v.bytes

mutual
/-- The same value. Copies of encodings kept in it (`FullBytes` of a RawValue, a leading RawContent) are not compared. If sets are
    sorted, the elements of a SET OF may come in another order; `isSet` says that the field is one. -/
def Same (sorted : Bool) : (t : Ty) → (isSet : Bool) → t.interp → t.interp → Prop
  | .rawValue, _, v, w => SameRaw v w
  | .struct _ fs, _, v, w => SameAll sorted fs v.2 w.2
  | .slice isSET elem, isSet, v, w =>
    ∃ u : List elem.interp, (if (sorted && (isSet || isSET)) = true then List.Perm u v else u = v) ∧ ListRel (Same sorted elem false) u w
  | _, _, v, w => v = w
/-- The same fields. -/
def SameAll (sorted : Bool) : (fs : Fields) → fs.interp → fs.interp → Prop
  | .nil, _, _ => True
  | .cons tag t fs, v, w => Same sorted t (parseFP tag).set v.1 w.1 ∧ SameAll sorted fs v.2 w.2
end

/-- Tag string parameters that are written as they are read: tags in range; `private` neither with `explicit` (it is read as context
    specific) nor with `application` (the two directions disagree about which of them counts). -/
def FP.Symmetric (fp : FP) : Prop :=
  (∀ n, fp.tag = some n → 0 ≤ n ∧ n < 2 ^ 31) ∧ (fp.priv = true → fp.explicit = false ∧ fp.application = false)

/-- An implicit tag replaces the universal one, so that the kind of string or time is not written. -/
def FP.hidesKind (fp : FP) : Prop := fp.explicit = false ∧ fp.tag ≠ none

/-- Values of the primitive types that are read back as they were written. -/
def LeafFits (env : AsnEnv) (menv : MarEnv) (mp : MP) : (t : Ty) → t.interp → Prop
  | .oid, v => ValidOid v
  | .bits, v => BitContents v (UInt8.ofNat (8 * v.bytes.length - v.bitLength) :: v.bytes)
  | .time, v => ∀ tag b, menv.timeBytes (decide (mp.timeType = 24)) v = some (tag, b) →
      (tag = 23 ∧ env.utcTime b = some v) ∨ (tag = 24 ∧ ¬ mp.hidesKind ∧ env.genTime b = some v)
  | .enumerated, v => IsInt32 v
  | .int32, v => IsInt32 v
  | .int, v => IsInt64 v
  | .flag, v => v = true
  | .str, v => (mp.stringType = 12 → env.utf8Valid v = true) ∧ menv.utf8Valid v = env.utf8Valid v ∧ (mp.stringType ∈ [0, 12, 18, 19, 22])
  | _, _ => True

/-- A RawValue is written without regard to the tag string, so it must have the header that is expected; if it has a copy of its
    encoding, that must be its encoding. -/
def RawFits (fp : FP) (v : RawVal) (rest : Bytes) : Prop :=
  ((v.full = [] ∧ v.cls < 4 ∧ v.tag < 2 ^ 31) ∨ Elem v.cls v.tag v.isCompound v.bytes v.full) ∧
  (fp.explicit = false → ∀ n, fp.tag = some n → v.cls = fp.cls ∧ (v.tag : Int) = n) ∧
  (fp.explicit = true → v.cls = (if fp.application then 1 else 2) ∧ some (v.tag : Int) = fp.tag ∧ (v.bytes = [] ∨ v.isCompound = true) ∧
    (v.bytes ≠ [] ∨ rest ≠ []))

/-- Dynamic values of an `interface{}`. -/
def AnyFits (env : AsnEnv) (menv : MarEnv) (mp : MP) : AnyVal → Prop
  | .str s => LeafFits env menv mp .str s ∧ Ty.omits mp .str s = false
  | .int i => LeafFits env menv mp .int i ∧ Ty.omits mp .int i = false
  | .bits b => LeafFits env menv mp .bits b ∧ Ty.omits mp .bits b = false
  | .oid o => LeafFits env menv mp .oid o ∧ Ty.omits mp .oid o = false
  | .time t => LeafFits env menv mp .time t ∧ Ty.omits mp .time t = false
  | .octets b => LeafFits env menv mp .octets b ∧ Ty.omits mp .octets b = false

/-- All elements of a list. -/
def AllOf {α : Type} (P : α → Prop) : List α → Prop
  | [] => True
  | v :: vs => P v ∧ AllOf P vs

mutual
/-- The value can be read back when it is written before `rest`. A value that is left out needs a field that is optional and whose
    place `rest` cannot be mistaken for. -/
def Fits (env : AsnEnv) (menv : MarEnv) : (t : Ty) → MP → t.interp → Bytes → Prop
  | .any, mp, v, _ => mp.tag = none ∧ ∃ a, v = some a ∧ AnyFits env menv mp a
  | .rawValue, mp, v, rest =>
    if Ty.omits mp .rawValue v then Absent .rawValue mp.toFP rest else RawFits mp.toFP v rest
  | .struct raw fs, mp, v, rest =>
    if Ty.omits mp (.struct raw fs) v then Absent (.struct raw fs) mp.toFP rest
    else mp.Symmetric ∧
      if raw = true ∧ v.1 ≠ [] then ∃ hdr tl content, v.1 = hdr ++ content ∧ DerHeader tl hdr ∧ ReadsAll env fs v.2 content
      else FitsAll env menv fs v.2
  | .slice isSET elem, mp, v, rest =>
    if Ty.omits mp (.slice isSET elem) v then Absent (.slice isSET elem) mp.toFP rest
    else mp.Symmetric ∧ elem ≠ .any ∧ AllOf (fun x => ∀ r, Fits env menv elem {} x r) v
  | t, mp, v, rest =>
    if Ty.omits mp t v then Absent t mp.toFP rest else mp.Symmetric ∧ LeafFits env menv mp t v
/-- The fields of a struct can be read back: each before the encodings of the later ones. -/
def FitsAll (env : AsnEnv) (menv : MarEnv) : (fs : Fields) → fs.interp → Prop
  | .nil, _ => True
  | .cons tag t fs, v => (∀ rest, makeFields menv fs v.2 = .ok rest → Fits env menv t (parseMP tag) v.1 rest) ∧ FitsAll env menv fs v.2
end

/-- Any number of elements in DER, one after the other. -/
def DerSeq (b : Bytes) : Prop := ∃ ts, DerEncs ts b

/-- A RawValue that is written in DER: the copy of its encoding is DER, or, without one, the contents of a constructed element are. -/
def RawDer (v : RawVal) : Prop := (v.full ≠ [] ∧ DerSeq v.full) ∨ (v.full = [] ∧ (v.isCompound = true → DerSeq v.bytes))

mutual
/-- What is written as it is (RawValue, RawContent) is DER; tags in tag strings are not negative. -/
def DerParts : (t : Ty) → MP → t.interp → Prop
  | .rawValue, _, v => RawDer v
  | .struct raw fs, mp, v => (∀ n, mp.tag = some n → 0 ≤ n) ∧
      if raw = true ∧ v.1 ≠ [] then ∃ hdr tl content, v.1 = hdr ++ content ∧ DerHeader tl hdr ∧ DerSeq content else DerPartsAll fs v.2
  | .slice _ elem, mp, v => (∀ n, mp.tag = some n → 0 ≤ n) ∧ AllOf (DerParts elem {}) v
  | _, mp, _ => ∀ n, mp.tag = some n → 0 ≤ n
/-- The same for all fields of a struct. -/
def DerPartsAll : (fs : Fields) → fs.interp → Prop
  | .nil, _ => True
  | .cons tag t fs, v => DerParts t (parseMP tag) v.1 ∧ DerPartsAll fs v.2
end

end Apk
