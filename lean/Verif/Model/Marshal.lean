import Verif.Model.Unmarshal
/-!
# Marshalling of ASN.1 structures (internal/asn1andr/marshal.go:314-350, :454-750)

The same typed universe as `Unmarshal` (`Ty`, `Fields`, `Ty.interp`). `encoding/asn1` of the standard library, which pkcs7.go uses
to write, is the same code except that the elements of a SET OF are sorted (marshal.go:551-555 is commented out in this fork);
`sortSets` selects between the two. The `encoder` values of the code are replaced by the bytes they write.
-/
namespace Apk

/-- `fieldParameters` with the two members that only matter for marshalling (common.go:75-89). -/
structure MP extends FP where
  timeType : Nat := 0
  omitEmpty : Bool := false
deriving DecidableEq, Repr

/-- common.go:104-107 `generalized`, `utc`: the last one counts. -/
def timeTypeStep (n : Nat) (part : Bytes) : Nat :=
  if part = b!"generalized" then 24 else if part = b!"utc" then 23 else n

/-- common.go:94-145 `parseFieldParameters`, all members. -/
def parseMP (s : Bytes) : MP :=
  { toFP := parseFP s, timeType := (splitByte 44 s).foldl timeTypeStep 0, omitEmpty := (splitByte 44 s).any (fun p => decide (p = b!"omitempty")) }

/-- What marshalling depends on besides the value. -/
structure MarEnv where
  /-- `false`: internal/asn1andr, `true`: encoding/asn1 -/
  sortSets : Bool
  /-- utf8.ValidString -/
  utf8Valid : Bytes → Bool
  /-- marshal.go:373-452 for a time given as Unix seconds (in the location of the value): tag and contents; `true`: a
      GeneralizedTime is asked for. Instantiated with `encodeTime` (Model/Time). -/
  timeBytes : Bool → Int → Option (Nat × Bytes)

/-- Error sites of `makeField` and `makeBody`. -/
inductive MErr where
  | nilValue          -- marshal.go:594
  | timeType          -- marshal.go:643
  | stringType        -- marshal.go:647
  | notUtf8           -- marshal.go:659
  | setKind           -- marshal.go:675
  | printableString   -- marshal.go:323
  | ia5String         -- marshal.go:333
  | numericString     -- marshal.go:343
  | emptyInteger      -- marshal.go:200
  | oid               -- marshal.go:307
  | time              -- marshal.go:398, :407
deriving DecidableEq, Repr

/-- asn1.go:434-455 `isPrintable` with `rejectAmpersand`. -/
def isPrintableByte (asterisk : Bool) (b : UInt8) : Bool :=
  decide (97 ≤ b.toNat ∧ b.toNat ≤ 122) || decide (65 ≤ b.toNat ∧ b.toNat ≤ 90) || decide (48 ≤ b.toNat ∧ b.toNat ≤ 57) ||
  decide (39 ≤ b.toNat ∧ b.toNat ≤ 41) || decide (43 ≤ b.toNat ∧ b.toNat ≤ 47) || decide (b = 32) || decide (b = 58) || decide (b = 61) ||
  decide (b = 63) || (asterisk && decide (b = 42))

/-- Go `==` or `reflect.DeepEqual` of two values (marshal.go:609, :620). -/
def eqv {α : Type} [DecidableEq α] (a b : α) : Bool := decide (a = b)

mutual
/-- `reflect.DeepEqual(v, zero)` (marshal.go:620); a nil slice and an empty one are not told apart. -/
def Ty.isZero : (t : Ty) → t.interp → Bool
  | .rawValue, v => eqv (α := RawVal) v {}
  | .oid, v => eqv (α := List Nat) v ([])
  | .bits, v => eqv (α := BitStr) v ⟨[], 0⟩
  | .time, v => eqv (α := Int) v (zeroTime)
  | .enumerated, v => eqv (α := Int) v (0)
  | .flag, v => eqv (α := Bool) v (false)
  | .bigInt, v => eqv (α := Option Int) v (none)
  | .bool, v => eqv (α := Bool) v (false)
  | .int, v => eqv (α := Int) v (0)
  | .int32, v => eqv (α := Int) v (0)
  | .octets, v => eqv (α := Bytes) v ([])
  | .str, v => eqv (α := Bytes) v ([])
  | .any, v => eqv (α := Option AnyVal) v (none)
  | .struct _ fs, v => decide (v.1 = []) && fs.isZero v.2
  | .slice _ _, v => List.isEmpty v
/-- All fields of a struct have their zero values. -/
def Fields.isZero : (fs : Fields) → fs.interp → Bool
  | .nil, _ => true
  | .cons _ t fs, v => t.isZero v.1 && fs.isZero v.2
end

/-- marshal.go:601: an empty slice (byte slices and object identifiers are slices). -/
def Ty.isEmptySlice : (t : Ty) → t.interp → Bool
  | .oid, v => eqv (α := List Nat) v ([])
  | .octets, v => eqv (α := Bytes) v ([])
  | .slice _ _, v => List.isEmpty v
  | _, _ => false

/-- marshal.go:605-612: an integer equal to the default; `SetInt` wraps for `int32`. -/
def Ty.isDefault (dflt : Int) : (t : Ty) → t.interp → Bool
  | .int, v => eqv (α := Int) v (dflt)
  | .enumerated, v => eqv (α := Int) v (dflt)
  | .int32, v => eqv (α := Int) v (wrap32 dflt)
  | _, _ => false

/-- marshal.go:601-623: nothing is written for this value. -/
def Ty.omits (mp : MP) (t : Ty) (v : t.interp) : Bool :=
  (mp.omitEmpty && t.isEmptySlice v) ||
  (mp.optional && match mp.dflt with
    | some d => t.isDefault d v
    | none => t.isZero v)

/-- marshal.go:251-276 `appendTagAndLength` with a tag from a tag string, which may be negative: `b |= uint8(t.tag)`. -/
def encodeHeader (cls : Nat) (tag : Int) (length : Nat) (compound : Bool) : Bytes :=
  if tag < 0 then (UInt8.ofNat (cls % 4 * 64 + (if compound then 32 else 0)) ||| UInt8.ofNat (tag % 256).toNat) :: encodeLength length
  else encodeTagAndLength ⟨cls, tag.toNat, length, compound⟩

/-- marshal.go:697-732: the header for the body, or the header and a wrapper. -/
def tagged (mp : MP) (tag : Int) (compound : Bool) (body : Bytes) : Bytes :=
  match mp.tag with
  | none => encodeHeader 0 tag body.length compound ++ body
  | some n =>
    let cls := if mp.application then 1 else if mp.priv then 3 else 2
    if mp.explicit then
      let inner := encodeHeader 0 tag body.length compound ++ body
      encodeHeader cls n inner.length true ++ inner
    else encodeHeader cls n body.length compound ++ body

/-- marshal.go:642-648: string and time types on other fields; `tag` is the universal tag of the type. -/
def checkParams (mp : MP) (tag : Int) : Except MErr Unit :=
  if mp.timeType ≠ 0 ∧ tag ≠ 23 then .error .timeType
  else if mp.stringType ≠ 0 ∧ tag ≠ 19 then .error .stringType
  else .ok ()

/-- marshal.go:673-678. -/
def setTag (mp : MP) (tag : Int) : Except MErr Int :=
  if mp.set then (if tag ≠ 16 then .error .setKind else .ok 17) else .ok tag

/-- marshal.go:651-665: the tag of a string. A byte that is not printable or not ASCII asks for UTF8String. -/
def stringTag (env : MarEnv) (mp : MP) (s : Bytes) : Except MErr Int :=
  if mp.stringType = 0 then
    (if s.all (isPrintableByte false) then .ok 19 else if env.utf8Valid s then .ok 12 else .error .notUtf8)
  else .ok mp.stringType

/-- marshal.go:314-350 and :558-568: the contents of a string. UTF8String is not checked. -/
def stringBody (mp : MP) (s : Bytes) : Except MErr Bytes :=
  if mp.stringType = 22 then (if s.all (fun c => decide (c.toNat < 128)) then .ok s else .error .ia5String)
  else if mp.stringType = 19 then (if s.all (isPrintableByte true) then .ok s else .error .printableString)
  else if mp.stringType = 18 then (if s.all isNumericByte then .ok s else .error .numericString)
  else .ok s

/-- The steps common to all types but `asn1.RawValue` and `interface{}` (marshal.go:601-734): `tag0` universal tag of the type, `tag`
    the tag for the value, `body` its contents given the tag. -/
def fieldTagged (mp : MP) (omitted : Bool) (tag0 : Int) (compound : Bool) (tag : Except MErr Int) (body : Int → Except MErr Bytes) : Except MErr Bytes :=
  if omitted then .ok []
  else do
    checkParams mp tag0
    let t ← tag
    let t ← setTag mp t
    let b ← body t
    return tagged mp t compound b

/-- marshal.go:625-637: `asn1.RawValue`. The tag string is not looked at. -/
def rawBytes (v : RawVal) : Bytes :=
  if v.full ≠ [] then v.full else encodeTagAndLength ⟨v.cls, v.tag, v.bytes.length, v.isCompound⟩ ++ v.bytes

/-- marshal.go:373-409, :468-473, :667-669: tag and contents of a time. -/
def timeOf (env : MarEnv) (mp : MP) (t : Int) : Except MErr (Nat × Bytes) :=
  match env.timeBytes (decide (mp.timeType = 24)) t with
  | none => .error .time
  | some r => .ok r

/-- marshal.go:592-734 for the primitive types. In the code an invalid `set` on a time is reported before a time that cannot be
    written. -/
def makePrim (env : MarEnv) (mp : MP) : (t : Ty) → t.interp → Except MErr Bytes
  | .rawValue, v => if Ty.omits mp .rawValue v then .ok [] else .ok (rawBytes v)
  | .oid, v => fieldTagged mp (Ty.omits mp .oid v) 6 false (.ok 6) (fun _ =>
      match encodeOid v with
      | .error _ => .error .oid
      | .ok b => .ok b)
  | .bits, v => fieldTagged mp (Ty.omits mp .bits v) 3 false (.ok 3) (fun _ => .ok (encodeBitString v))
  | .time, v => fieldTagged mp (Ty.omits mp .time v) 23 false
      (if mp.set then .ok 23 else (timeOf env mp v).map (fun r => (r.1 : Int))) (fun _ => (timeOf env mp v).map Prod.snd)
  | .enumerated, v => fieldTagged mp (Ty.omits mp .enumerated v) 10 false (.ok 10) (fun _ => .ok (encodeInt64 v))
  | .flag, v => fieldTagged mp (Ty.omits mp .flag v) 1 false (.ok 1) (fun _ => .ok [])
  | .bigInt, v => fieldTagged mp (Ty.omits mp .bigInt v) 2 false (.ok 2) (fun _ =>
      match (v : Option Int) with
      | none => .error .emptyInteger
      | some i => .ok (encodeBigInt i))
  | .bool, v => fieldTagged mp (Ty.omits mp .bool v) 1 false (.ok 1) (fun _ => .ok (encodeBool v))
  | .int, v => fieldTagged mp (Ty.omits mp .int v) 2 false (.ok 2) (fun _ => .ok (encodeInt64 v))
  | .int32, v => fieldTagged mp (Ty.omits mp .int32 v) 2 false (.ok 2) (fun _ => .ok (encodeInt64 v))
  | .octets, v => fieldTagged mp (Ty.omits mp .octets v) 4 false (.ok 4) (fun _ => .ok v)
  | .str, v => fieldTagged mp (Ty.omits mp .str v) 19 false (stringTag env mp v) (fun _ => stringBody mp v)
  | _, _ => .error .nilValue

/-- marshal.go:597-599: an `interface{}` is written like the value in it. -/
def makeAny (env : MarEnv) (mp : MP) : Option AnyVal → Except MErr Bytes
  | none => .error .nilValue
  | some (.str s) => makePrim env mp .str s
  | some (.int i) => makePrim env mp .int i
  | some (.bits b) => makePrim env mp .bits b
  | some (.oid o) => makePrim env mp .oid o
  | some (.time t) => makePrim env mp .time t
  | some (.octets b) => makePrim env mp .octets b

/-- marshal.go:454-460 `stripTagAndLength`. -/
def stripHeader (b : Bytes) : Bytes :=
  match parseTagAndLength b with
  | .error _ => b
  | .ok (_, rest) => rest

/-- marshal.go:535-548: the elements of a slice, each without parameters. -/
def makeElems {α : Type} (f : α → Except MErr Bytes) : List α → Except MErr (List Bytes)
  | [] => .ok []
  | v :: vs => do
    let b ← f v
    let bs ← makeElems f vs
    return b :: bs

mutual
/-- marshal.go:592-734 `makeField` with :462-572 `makeBody`. -/
def makeField (env : MarEnv) : (t : Ty) → MP → t.interp → Except MErr Bytes
  | .any, mp, v => makeAny env mp v
  | .struct raw fs, mp, v => fieldTagged mp (Ty.omits mp (.struct raw fs) v) 16 true (.ok 16) (fun _ =>
      if raw && decide (v.1 ≠ []) then .ok (stripHeader v.1) else makeFields env fs v.2)
  | .slice isSET elem, mp, v => fieldTagged mp (Ty.omits mp (.slice isSET elem) v) (if isSET then 17 else 16) true (.ok (if isSET then 17 else 16))
      (fun tag => (makeElems (makeField env elem {}) v).map
        (fun bs => if env.sortSets && decide (tag = 17) then encodeSet bs else bs.flatten))
  | t, mp, v => makePrim env mp t v

/-- marshal.go:515-527: the fields of a struct, in order. -/
def makeFields (env : MarEnv) : (fs : Fields) → fs.interp → Except MErr Bytes
  | .nil, _ => .ok []
  | .cons tag t fs, v => do
    let b ← makeField env t (parseMP tag) v.1
    let bs ← makeFields env fs v.2
    return b ++ bs
end

/-- marshal.go:736-750 `Marshal`. -/
def marshal (env : MarEnv) (t : Ty) (v : t.interp) : Except MErr Bytes := makeField env t (parseMP []) v

end Apk
