import Verif.Model.Base
/-! # BER to DER conversion (fullsailor/pkcs7/ber.go) -/
namespace Apk

/-- Error sites of ber.go; `fuel` is an artefact of the model, proved unreachable (`ber2der_no_fuel`). -/
inductive BE where
  | empty            -- :57
  | lengthTooLong    -- :164
  | lengthNegative   -- :167
  | lengthExceeds    -- :188
  | indefinitePrim   -- :195
  | format           -- :242 (isIndefiniteTermination)
  | fuel
deriving DecidableEq, Repr

/-- An `asn1Object`: `asn1Primitive` (ber.go:36-40; its `length` field is always `len(content)`) or `asn1Structured`
    (ber.go:14-17). -/
inductive Asn1 where
  | prim (tag content : Bytes)
  | con (tag : Bytes) (kids : List Asn1)
deriving Repr

/-- ber.go:92-99 `lengthLength`, on fuel (an `int` has at most 8 bytes; fuel `i + 1` is enough for any value). -/
def lengthLengthAux : Nat → Nat → Nat
  | 0, _ => 1
  | fuel + 1, i => if 255 < i then lengthLengthAux fuel (i / 256) + 1 else 1

/-- ber.go:92-99 `lengthLength`. -/
def lengthLength (i : Nat) : Nat := lengthLengthAux i i

/-- ber.go:81-92, the loop of `marshalLongLength`: bytes `i >> (n-1)*8`, ..., `i`. -/
def longLength (i : Nat) : Nat → Bytes
  | 0 => []
  | n + 1 => UInt8.ofNat (i / 256 ^ n) :: longLength i n

/-- ber.go:115-133 `encodeLength` (`0x80 | byte(l)` is written as a sum, `l ≤ 8`). -/
def encodeLength (n : Nat) : Bytes :=
  if 128 ≤ n then UInt8.ofNat (128 + lengthLength n) :: longLength n (lengthLength n)
  else [UInt8.ofNat n]

mutual
/-- ber.go:19-34 and :43-55 `EncodeTo`. -/
def Asn1.encode : Asn1 → Bytes
  | .prim tag content => tag ++ encodeLength content.length ++ content
  | .con tag kids => tag ++ encodeLength (Asn1.encodeAll kids).length ++ Asn1.encodeAll kids
/-- ber.go:22-27, the loop over the children. -/
def Asn1.encodeAll : List Asn1 → Bytes
  | [] => []
  | o :: os => Asn1.encode o ++ Asn1.encodeAll os
end

/-- ber.go:145-150: the continuation bytes of a high tag number; indexing past the end panics. -/
def readHighTag : Bytes → Go (Bytes × Bytes)
  | [] => .error .indexOutOfRange
  | y :: r =>
    if 128 ≤ y.toNat then
      match readHighTag r with
      | .error p => .error p
      | .ok (t, r') => .ok (y :: t, r')
    else .ok ([y], r)

/-- ber.go:140-152: the tag bytes and what follows. `b & 0x1F` is `b % 32`. -/
def readTag : Bytes → Go (Bytes × Bytes)
  | [] => .error .indexOutOfRange
  | b :: r =>
    if b.toNat % 32 = 31 then
      match readHighTag r with
      | .error p => .error p
      | .ok (t, r') => .ok (b :: t, r')
    else .ok ([b], r)

/-- ber.go:176-179: `n` big-endian length bytes; indexing past the end panics. -/
def readBE : Nat → Bytes → Nat → Go (Nat × Bytes)
  | 0, r, acc => .ok (acc, r)
  | _ + 1, [], _ => .error .indexOutOfRange
  | n + 1, c :: r, acc => readBE n r (acc * 256 + c.toNat)

/-- ber.go:161-186: the length (`none` for the indefinite form) and what follows. -/
def readLength : Bytes → Go (Except BE (Option Nat × Bytes))
  | [] => .error .indexOutOfRange
  | l :: r =>
    if 128 < l.toNat then
      let nb := l.toNat % 128
      if 4 < nb then .ok (.error .lengthTooLong)
      else match r with
        | [] => .error .indexOutOfRange
        | c :: r' =>
          if nb = 4 ∧ 127 < c.toNat then .ok (.error .lengthNegative)
          else
            match (if c.toNat = 0 then readBE (nb - 1) r' 0 else readBE nb r 0) with
            | .error p => .error p
            | .ok (n, rest) => .ok (.ok (some n, rest))
    else if l.toNat = 128 then .ok (.ok (none, r))
    else .ok (.ok (some l.toNat, r))

/-- ber.go:154 `kind := b & 0x20`: the constructed bit of the first tag byte. -/
def constructed : Bytes → Bool
  | [] => false
  | b :: _ => b.toNat / 32 % 2 = 1

mutual
/-- ber.go:135-242 `readObject` on the bytes from `offset` to the end of the buffer: the object and the bytes after its
    end. The loop of ber.go:204-225 is `readKids`. -/
def readObject : Nat → Bytes → Go (Except BE (Asn1 × Bytes))
  | 0, _ => .ok (.error .fuel)
  | fuel + 1, b =>
    match readTag b with
    | .error p => .error p
    | .ok (tag, b1) =>
      match readLength b1 with
      | .error p => .error p
      | .ok (.error e) => .ok (.error e)
      | .ok (.ok (none, b2)) =>
        if constructed tag then
          match readKids fuel b2 none with
          | .error p => .error p
          | .ok (.error e) => .ok (.error e)
          | .ok (.ok (kids, rest)) => .ok (.ok (.con tag kids, rest.drop 2))
        else .ok (.error .indefinitePrim)
      | .ok (.ok (some n, b2)) =>
        if b2.length < n then .ok (.error .lengthExceeds)
        else if constructed tag then
          match readKids fuel b2 (some (b2.length - n)) with
          | .error p => .error p
          | .ok (.error e) => .ok (.error e)
          | .ok (.ok (kids, _)) => .ok (.ok (.con tag kids, b2.drop n))
        else .ok (.ok (.prim tag (b2.take n), b2.drop n))
/-- ber.go:204-225: the children. `some k`: stop when at most `k` bytes are left (definite form; a child may run past the
    end of its parent); `none`: stop before two zero bytes, looked for only after a child was read. -/
def readKids : Nat → Bytes → Option Nat → Go (Except BE (List Asn1 × Bytes))
  | 0, _, _ => .ok (.error .fuel)
  | fuel + 1, b, some k =>
    if k < b.length then
      match readObject fuel b with
      | .error p => .error p
      | .ok (.error e) => .ok (.error e)
      | .ok (.ok (o, rest)) =>
        match readKids fuel rest (some k) with
        | .error p => .error p
        | .ok (.error e) => .ok (.error e)
        | .ok (.ok (os, rest')) => .ok (.ok (o :: os, rest'))
    else .ok (.ok ([], b))
  | fuel + 1, b, none =>
    match readObject fuel b with
    | .error p => .error p
    | .ok (.error e) => .ok (.error e)
    | .ok (.ok (o, rest)) =>
      if rest.length < 2 then .ok (.error .format)
      else if rest.take 2 = [0, 0] then .ok (.ok ([o], rest))
      else
        match readKids fuel rest none with
        | .error p => .error p
        | .ok (.error e) => .ok (.error e)
        | .ok (.ok (os, rest')) => .ok (.ok (o :: os, rest'))
end

/-- ber.go:57-77 `ber2der`. Bytes after the first object are ignored. Exhaustion of the Go stack on very deep nesting is
    not modelled. -/
def ber2der (ber : Bytes) : Go (Except BE Bytes) :=
  if ber = [] then .ok (.error .empty)
  else match readObject (ber.length + 1) ber with
    | .error p => .error p
    | .ok (.error e) => .ok (.error e)
    | .ok (.ok (o, _)) => .ok (.ok o.encode)

end Apk
