import Verif.Model.Asn1
import Verif.Model.V1
/-!
# Unmarshalling of ASN.1 structures (internal/asn1andr/asn1.go:341-1107, common.go:75-183)

The code is driven by Go reflection. The model makes the reflected type explicit: `Ty` describes the Go types the function
supports, `Fields` the fields of a struct with their `asn1:"..."` tag strings, and `Ty.interp` is the Lean type of the Go
values. The result of `parseField` is the value after the call (fields filled before an error keep their values: some
callers ignore the error) together with the error or the bytes after the parsed element. Byte slices are read from the
front: `offset` is replaced by the suffix starting at it.
-/
namespace Apk

mutual
/-- The Go types supported by `parseField`. `struct raw fs`: `raw` says that the first field is an `asn1.RawContent`, `fs` are
    the other fields. `slice isSET elem`: `isSET` says that the type name ends in `SET`. Structs have exported fields only
    (asn1.go:941-946 cannot fail for the types of this program). -/
inductive Ty where
  | rawValue | oid | bits | time | enumerated | flag | bigInt | bool | int | int32 | octets | str | any
  | struct (raw : Bool) (fs : Fields)
  | slice (isSET : Bool) (elem : Ty)

/-- Struct fields: tag string and type. -/
inductive Fields where
  | nil
  | cons (tag : Bytes) (t : Ty) (rest : Fields)
end

/-- `asn1.RawValue`. -/
structure RawVal where
  cls : Nat := 0
  tag : Nat := 0
  isCompound : Bool := false
  bytes : Bytes := []
  full : Bytes := []
deriving DecidableEq, Repr

/-- The dynamic values stored in an `interface{}` (asn1.go:708-738). -/
inductive AnyVal where
  | str (s : Bytes) | int (i : Int) | bits (b : BitStr) | oid (o : List Nat) | time (t : Int) | octets (b : Bytes)
deriving DecidableEq, Repr

mutual
/-- The Go values of a type. `*big.Int` may be nil. -/
def Ty.interp : Ty → Type
  | .rawValue => RawVal
  | .oid => List Nat
  | .bits => BitStr
  | .time => Int
  | .enumerated => Int
  | .flag => Bool
  | .bigInt => Option Int
  | .bool => Bool
  | .int => Int
  | .int32 => Int
  | .octets => Bytes
  | .str => Bytes
  | .any => Option AnyVal
  | .struct _ fs => Bytes × fs.interp
  | .slice _ t => List t.interp
/-- The values of the fields of a struct. -/
def Fields.interp : Fields → Type
  | .nil => Unit
  | .cons _ t fs => t.interp × fs.interp
end

/-- `time.Time{}` (January 1, year 1) in seconds relative to the Unix epoch. -/
def zeroTime : Int := -62135596800

mutual
/-- The zero value of a type. -/
def Ty.zero : (t : Ty) → t.interp
  | .rawValue => ({} : RawVal)
  | .oid => ([] : List Nat)
  | .bits => (⟨[], 0⟩ : BitStr)
  | .time => zeroTime
  | .enumerated => (0 : Int)
  | .flag => false
  | .bigInt => (none : Option Int)
  | .bool => false
  | .int => (0 : Int)
  | .int32 => (0 : Int)
  | .octets => ([] : Bytes)
  | .str => ([] : Bytes)
  | .any => (none : Option AnyVal)
  | .struct _ fs => (([] : Bytes), fs.zero)
  | .slice _ _ => []
/-- The zero values of the fields of a struct. -/
def Fields.zero : (fs : Fields) → fs.interp
  | .nil => ()
  | .cons _ t fs => (t.zero, fs.zero)
end

/-- `fieldParameters` (common.go:75-89). `omitEmpty` and `timeType` only matter for marshalling and are left out. -/
structure FP where
  optional : Bool := false
  explicit : Bool := false
  application : Bool := false
  priv : Bool := false
  dflt : Option Int := none
  tag : Option Int := none
  stringType : Nat := 0
  set : Bool := false
deriving DecidableEq, Repr

/-- strconv.ParseInt(s, 10, 64) and strconv.Atoi (64-bit int). -/
def goParseInt64 (s : Bytes) : Option Int :=
  match s with
  | [] => none
  | c :: ds =>
    if c = 45 then (digitsVal ds).bind (fun n => if n ≤ 9223372036854775808 then some (-(n : Int)) else none)
    else (digitsVal (if c = 43 then ds else c :: ds)).bind (fun n => if n < 9223372036854775808 then some (n : Int) else none)

/-- common.go:95-142, one comma separated part. -/
def fpStep (fp : FP) (part : Bytes) : FP :=
  if part = b!"optional" then { fp with optional := true }
  else if part = b!"explicit" then { fp with explicit := true, tag := some (fp.tag.getD 0) }
  else if part = b!"generalized" then fp
  else if part = b!"utc" then fp
  else if part = b!"ia5" then { fp with stringType := 22 }
  else if part = b!"printable" then { fp with stringType := 19 }
  else if part = b!"numeric" then { fp with stringType := 18 }
  else if part = b!"utf8" then { fp with stringType := 12 }
  else if hasPrefix part (b!"default:") then
    match goParseInt64 (part.drop 8) with
    | none => fp
    | some i => { fp with dflt := some i }
  else if hasPrefix part (b!"tag:") then
    match goParseInt64 (part.drop 4) with
    | none => fp
    | some i => { fp with tag := some i }
  else if part = b!"set" then { fp with set := true }
  else if part = b!"application" then { fp with application := true, tag := some (fp.tag.getD 0) }
  else if part = b!"private" then { fp with priv := true, tag := some (fp.tag.getD 0) }
  else fp

/-- common.go:94-145 `parseFieldParameters`. -/
def parseFP (s : Bytes) : FP := (splitByte 44 s).foldl fpStep {}

/-- Error sites of `parseField`, `parseSequenceOf` and the string and time parsers. -/
inductive UE where
  | sequenceTruncated     -- asn1.go:691
  | dataTruncated         -- asn1.go:704, :856
  | explicitNoChild       -- asn1.go:759
  | explicitZeroLength    -- asn1.go:772
  | explicitMismatch      -- asn1.go:784
  | tagMismatch           -- asn1.go:851
  | unknownElem           -- asn1.go:617
  | seqTagMismatch        -- asn1.go:642
  | seqTruncated          -- asn1.go:646
  | numericString         -- asn1.go:391
  | ia5String             -- asn1.go:464
  | utf8String            -- asn1.go:486
  | bmpString             -- asn1.go:497
  | stringKind            -- asn1.go:1005
  | time                  -- asn1.go:350-357, :373-379
  | prim (e : AE)
deriving DecidableEq, Repr

/-- Parts of the Go standard library used by `parseField`. All theorems quantify over them. -/
structure AsnEnv where
  /-- utf8.Valid -/
  utf8Valid : Bytes → Bool
  /-- string(utf16.Decode(units)) as UTF-8 bytes -/
  utf16 : List Nat → Bytes
  /-- asn1.go:341-365 parseUTCTime: Unix seconds -/
  utcTime : Bytes → Option Int
  /-- asn1.go:369-382 parseGeneralizedTime -/
  genTime : Bytes → Option Int

/-- asn1.go:398-401 `isNumeric`. -/
def isNumericByte (b : UInt8) : Bool := decide (48 ≤ b.toNat ∧ b.toNat ≤ 57) || decide (b = 32)

/-- asn1.go:505-509: the UTF-16 code units of a BMPString with an even number of bytes. -/
def bmpUnits : Bytes → List Nat
  | x :: y :: r => (x.toNat * 256 + y.toNat) :: bmpUnits r
  | _ => []

/-- asn1.go:495-512 `parseBMPString`: a terminating pair of zero bytes is dropped. -/
def parseBMP (env : AsnEnv) (b : Bytes) : Except UE Bytes :=
  if b.length % 2 ≠ 0 then .error .bmpString
  else .ok (env.utf16 (bmpUnits (if decide (2 ≤ b.length) && decide (b.drop (b.length - 2) = [0, 0]) then b.take (b.length - 2) else b)))

/-- asn1.go:388-489 and :982-1006: the contents of a string of the universal type `ut`. PrintableString (19), T61String (20)
    and GeneralString (27) are not checked. -/
def parseStr (env : AsnEnv) (ut : Int) (b : Bytes) : Except UE Bytes :=
  if ut = 19 then .ok b
  else if ut = 18 then (if b.all isNumericByte then .ok b else .error .numericString)
  else if ut = 22 then (if b.all (fun c => decide (c.toNat < 128)) then .ok b else .error .ia5String)
  else if ut = 20 then .ok b
  else if ut = 12 then (if env.utf8Valid b then .ok b else .error .utf8String)
  else if ut = 27 then .ok b
  else if ut = 30 then parseBMP env b
  else .error .stringKind

/-- `getUniversalType` (common.go:149-183): matchAny, tag, isCompound; `none` for a type it does not know. -/
def Ty.univ : Ty → Option (Bool × Int × Bool)
  | .rawValue => some (true, -1, false)
  | .oid => some (false, 6, false)
  | .bits => some (false, 3, false)
  | .time => some (false, 23, false)
  | .enumerated => some (false, 10, false)
  | .flag => some (false, 1, false)
  | .bigInt => some (false, 2, false)
  | .bool => some (false, 1, false)
  | .int => some (false, 2, false)
  | .int32 => some (false, 2, false)
  | .octets => some (false, 4, false)
  | .str => some (false, 19, false)
  | .any => none
  | .struct _ _ => some (false, 16, true)
  | .slice isSET _ => some (false, if isSET then 17 else 16, true)

/-- The string tags of asn1.go:631 and :803. -/
def isStringTag (t : Nat) : Bool := t = 22 || t = 27 || t = 20 || t = 12 || t = 18 || t = 30

/-- What `parseField` does after reading the header (asn1.go:749-860). `absent`: the tags do not match, it is an optional
    element. `flagSet`: an explicit tag without contents sets a flag. -/
inductive Hdr where
  | fail (e : UE)
  | absent
  | flagSet (rest : Bytes)
  | content (ut : Int) (t : TagLen) (inner rest : Bytes)
deriving DecidableEq, Repr

/-- asn1.go:796-860: expected class and tag, then the contents. `b` are the bytes after the header `t`. -/
def matchHeader (matchAny : Bool) (tag0 : Int) (compound : Bool) (fp : FP) (t : TagLen) (b : Bytes) : Hdr :=
  let ut1 : Int :=
    if tag0 = 19 then
      (if t.cls = 0 then (if isStringTag t.tag then (t.tag : Int) else tag0)
       else if fp.stringType ≠ 0 then (fp.stringType : Int) else tag0)
    else tag0
  let ut2 : Int := if ut1 = 23 ∧ t.tag = 24 ∧ t.cls = 0 then 24 else ut1
  let ut : Int := if fp.set then 17 else ut2
  let implicit := !fp.explicit && fp.tag.isSome
  let cls := if implicit then (if fp.priv then 3 else if fp.application then 1 else 2) else 0
  let tag := if implicit then fp.tag.getD 0 else ut
  if (!(matchAny && !implicit) && (decide (t.cls ≠ cls) || decide ((t.tag : Int) ≠ tag))) || (!matchAny && decide (t.isCompound ≠ compound)) then
    (if fp.optional then .absent else .fail .tagMismatch)
  else if b.length < t.length then .fail .dataTruncated
  else .content ut t (b.take t.length) (b.drop t.length)

/-- asn1.go:749-860 for a field of a type other than `interface{}` on non-empty input. `isRaw`, `isFlag`: the field type is
    `asn1.RawValue`, `asn1.Flag`. The explicit tag is dereferenced without a check (common.go:87-88). -/
def fieldHeader (u : Bool × Int × Bool) (isRaw isFlag : Bool) (fp : FP) (b : Bytes) : Go Hdr :=
  match parseTagAndLength b with
  | .error e => .ok (.fail (.prim e))
  | .ok (t, b1) =>
    if fp.explicit then
      if b1 = [] then .ok (.fail .explicitNoChild)
      else if t.cls = (if fp.application then 1 else 2) then
        match fp.tag with
        | none => .error .nilDeref
        | some tag =>
          if (t.tag : Int) = tag ∧ (t.length = 0 ∨ t.isCompound = true) then
            if isRaw then .ok (matchHeader u.1 u.2.1 u.2.2 fp t b1)
            else if 0 < t.length then
              match parseTagAndLength b1 with
              | .error e => .ok (.fail (.prim e))
              | .ok (t2, b2) => .ok (matchHeader u.1 u.2.1 u.2.2 fp t2 b2)
            else if isFlag then .ok (.flagSet b1)
            else .ok (.fail .explicitZeroLength)
          else .ok (if fp.optional then .absent else .fail .explicitMismatch)
      else .ok (if fp.optional then .absent else .fail .explicitMismatch)
    else .ok (matchHeader u.1 u.2.1 u.2.2 fp t b1)

/-- asn1.go:696-747: an element of type `interface{}`; unknown and constructed elements are skipped. -/
def parseAny (env : AsnEnv) (b : Bytes) : Go (Option AnyVal × Except UE Bytes) :=
  match parseTagAndLength b with
  | .error e => .ok (none, .error (.prim e))
  | .ok (t, b1) =>
    if b1.length < t.length then .ok (none, .error .dataTruncated)
    else
      let inner := b1.take t.length
      let rest := b1.drop t.length
      if t.isCompound || decide (t.cls ≠ 0) then .ok (none, .ok rest)
      else if t.tag = 19 ∨ t.tag = 18 ∨ t.tag = 22 ∨ t.tag = 20 ∨ t.tag = 12 ∨ t.tag = 30 then
        match parseStr env t.tag inner with
        | .error e => .ok (none, .error e)
        | .ok s => .ok (some (.str s), .ok rest)
      else if t.tag = 2 then
        match parseInt64 inner with
        | .error e => .ok (none, .error (.prim e))
        | .ok i => .ok (some (.int i), .ok rest)
      else if t.tag = 3 then
        match parseBitString inner with
        | .error e => .ok (none, .error (.prim e))
        | .ok i => .ok (some (.bits i), .ok rest)
      else if t.tag = 6 then
        match parseOid inner with
        | .error p => .error p
        | .ok (.error e) => .ok (none, .error (.prim e))
        | .ok (.ok o) => .ok (some (.oid o), .ok rest)
      else if t.tag = 23 ∨ t.tag = 24 then
        match (if t.tag = 23 then env.utcTime inner else env.genTime inner) with
        | none => .ok (none, .error .time)
        | some i => .ok (some (.time i), .ok rest)
      else if t.tag = 4 then .ok (some (.octets inner), .ok rest)
      else .ok (none, .ok rest)

/-- asn1.go:621-651: the first pass over the elements of a sequence counts them and checks their headers. The fuel is the
    number of bytes, every element has at least two. -/
def countElems (u : Bool × Int × Bool) : Nat → Bytes → Except UE Nat
  | 0, _ => .ok 0
  | fuel + 1, b =>
    if b = [] then .ok 0
    else match parseTagAndLength b with
      | .error e => .error (.prim e)
      | .ok (t, b1) =>
        let tag := if isStringTag t.tag then 19 else if t.tag = 24 ∨ t.tag = 23 then 23 else t.tag
        if !u.1 && (decide (t.cls ≠ 0) || decide (t.isCompound ≠ u.2.2) || decide ((tag : Int) ≠ u.2.1)) then .error .seqTagMismatch
        else if b1.length < t.length then .error .seqTruncated
        else match countElems u fuel (b1.drop t.length) with
          | .error e => .error e
          | .ok n => .ok (n + 1)

/-- asn1.go:652-661: the second pass parses the elements. -/
def seqElems {α : Type} (f : Bytes → Go (α × Except UE Bytes)) : Nat → Bytes → Go (Except UE (List α))
  | 0, _ => .ok (.ok [])
  | n + 1, b =>
    match f b with
    | .error p => .error p
    | .ok (_, .error e) => .ok (.error e)
    | .ok (v, .ok rest) =>
      match seqElems f n rest with
      | .error p => .error p
      | .ok (.error e) => .ok (.error e)
      | .ok (.ok vs) => .ok (.ok (v :: vs))

/-- The result of a primitive parser stored on success only. -/
def setOnOk {α β : Type} (zero : β) (rest : Bytes) (wrap : α → β) : Except AE α → Go (β × Except UE Bytes)
  | .error e => .ok (zero, .error (.prim e))
  | .ok v => .ok (wrap v, .ok rest)

/-- asn1.go:1018-1042 `setDefaultValue` for an optional field: a default is only stored in integers. -/
def Ty.withDefault (fp : FP) : (t : Ty) → t.interp
  | .int => (fp.dflt.getD 0 : Int)
  | .enumerated => (fp.dflt.getD 0 : Int)
  | .int32 => (wrap32 (fp.dflt.getD 0) : Int)
  | t => t.zero

/-- asn1.go:862-1013 without the recursive cases: storing contents of a primitive type. `full` is `bytes[initOffset:offset]`. -/
def primContent (env : AsnEnv) (ut : Int) (tl : TagLen) (inner rest full : Bytes) : (t : Ty) → Go (t.interp × Except UE Bytes)
  | .rawValue => .ok ((⟨tl.cls, tl.tag, tl.isCompound, inner, full⟩ : RawVal), .ok rest)
  | .oid =>
    match parseOid inner with
    | .error p => .error p
    | .ok r => setOnOk ([] : List Nat) rest id r
  | .bits => setOnOk (⟨[], 0⟩ : BitStr) rest id (parseBitString inner)
  | .time =>
    match (if ut = 23 then env.utcTime inner else env.genTime inner) with
    | none => .ok (zeroTime, .error .time)
    | some i => .ok (i, .ok rest)
  | .enumerated => setOnOk (0 : Int) rest id (parseInt32 inner)
  | .flag => .ok (true, .ok rest)
  | .bigInt => setOnOk (none : Option Int) rest some (parseBigInt inner)
  | .bool => setOnOk false rest id (parseBool inner)
  | .int => setOnOk (0 : Int) rest id (parseInt64 inner)
  | .int32 => setOnOk (0 : Int) rest id (parseInt32 inner)
  | .octets => .ok (inner, .ok rest)
  | .str =>
    match parseStr env ut inner with
    | .error e => .ok (([] : Bytes), .error e)
    | .ok s => .ok (s, .ok rest)
  | t => .ok (t.zero, .error .unknownElem)

/-- asn1.go:862-1013 given the contents of a field: `prim` for primitive types, `fields` for structs, `elems` for slices. -/
def Hdr.run {α : Type} (zero dflt : α) (setFlag : α) (b : Bytes) (k : Int → TagLen → Bytes → Bytes → Bytes → Go (α × Except UE Bytes)) :
    Hdr → Go (α × Except UE Bytes)
  | .fail e => .ok (zero, .error e)
  | .absent => .ok (dflt, .ok b)
  | .flagSet rest => .ok (setFlag, .ok rest)
  | .content ut t inner rest => k ut t inner rest (b.take (b.length - rest.length))

/-- The part of `parseField` (asn1.go:684-860) common to all types but `interface{}`; `k` stores the contents. -/
def fieldWith {α : Type} (u : Bool × Int × Bool) (isRaw isFlag : Bool) (zero dflt setFlag : α) (fp : FP) (b : Bytes)
    (k : Int → TagLen → Bytes → Bytes → Bytes → Go (α × Except UE Bytes)) : Go (α × Except UE Bytes) :=
  if b = [] then .ok (if fp.optional then (dflt, .ok []) else (zero, .error .sequenceTruncated))
  else match fieldHeader u isRaw isFlag fp b with
    | .error p => .error p
    | .ok h => h.run zero dflt setFlag b k

/-- asn1.go:969-981 with :614-662: the contents of a slice; the slice is only set on success. -/
def sliceContent {α : Type} (u : Option (Bool × Int × Bool)) (f : Bytes → Go (α × Except UE Bytes)) (inner rest : Bytes) :
    Go (List α × Except UE Bytes) :=
  match u with
  | none => .ok ([], .error .unknownElem)
  | some u =>
    match countElems u inner.length inner with
    | .error e => .ok ([], .error e)
    | .ok n =>
      match seqElems f n inner with
      | .error p => .error p
      | .ok (.error e) => .ok ([], .error e)
      | .ok (.ok vs) => .ok (vs, .ok rest)

/-- asn1.go:938-968: the contents of a struct, from the result of its fields; a leading `RawContent` field gets the whole element
(also when a field fails). -/
def structContent {α : Type} (raw : Bool) (full rest : Bytes) : Go (α × Option UE) → Go ((Bytes × α) × Except UE Bytes)
  | .error p => .error p
  | .ok (v, none) => .ok ((if raw then full else [], v), .ok rest)
  | .ok (v, some e) => .ok ((if raw then full else [], v), .error e)

/-- The field type is `asn1.RawValue` (asn1.go:763). -/
def Ty.isRaw : Ty → Bool
  | .rawValue => true
  | _ => false

/-- The field type is `asn1.Flag` (asn1.go:771). -/
def Ty.isFlag : Ty → Bool
  | .flag => true
  | _ => false

/-- asn1.go:775: `v.SetBool(true)`. -/
def Ty.flagOn : (t : Ty) → t.interp
  | .flag => true
  | t => t.zero

/-- asn1.go:684-1014 for the primitive types. -/
def parsePrim (env : AsnEnv) (t : Ty) (fp : FP) (b : Bytes) : Go (t.interp × Except UE Bytes) :=
  match t.univ with
  | none => .ok (t.zero, .error .unknownElem)
  | some u => fieldWith u t.isRaw t.isFlag t.zero (t.withDefault fp) t.flagOn fp b
      (fun ut tl inner rest full => primContent env ut tl inner rest full t)

mutual
/-- asn1.go:684-1014 `parseField`. -/
def parseField (env : AsnEnv) : (t : Ty) → FP → Bytes → Go (t.interp × Except UE Bytes)
  | .any, fp, b =>
    if b = [] then .ok (none, if fp.optional then .ok [] else .error .sequenceTruncated) else parseAny env b
  | .struct raw fs, fp, b =>
    fieldWith (false, 16, true) false false (([] : Bytes), fs.zero) (([] : Bytes), fs.zero) (([] : Bytes), fs.zero) fp b
      (fun _ _ inner rest full => structContent raw full rest (parseFields env fs inner))
  | .slice isSET elem, fp, b =>
    fieldWith (false, if isSET then 17 else 16, true) false false [] [] [] fp b
      (fun _ _ inner rest _ => sliceContent elem.univ (parseField env elem {}) inner rest)
  | t, fp, b => parsePrim env t fp b

/-- asn1.go:954-964: the fields of a struct, in order; stops at the first error. -/
def parseFields (env : AsnEnv) : (fs : Fields) → Bytes → Go (fs.interp × Option UE)
  | .nil, _ => .ok ((), none)
  | .cons tag t fs, b =>
    match parseField env t (parseFP tag) b with
    | .error p => .error p
    | .ok (v, .error e) => .ok ((v, fs.zero), some e)
    | .ok (v, .ok rest) =>
      match parseFields env fs rest with
      | .error p => .error p
      | .ok (vs, r) => .ok ((v, vs), r)
end

/-- asn1.go:1103-1107 `Unmarshal` into a zero value: the value (also on error) and the error or the rest. -/
def unmarshalRaw (env : AsnEnv) (t : Ty) (b : Bytes) : Go (t.interp × Except UE Bytes) := parseField env t (parseFP []) b

end Apk
