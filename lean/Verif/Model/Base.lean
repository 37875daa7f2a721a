/-!
# Bytes, little-endian integers, readers, panics and errors

Everything here models the small part of the Go standard library that the repository uses
(`encoding/binary`, `bytes.Buffer`) together with `signingblock/utils.go:20-37`.
-/
namespace Apk

/-- A Go `[]byte` (contents only). -/
abbrev Bytes := List UInt8

/-- Little-endian value of a byte string (`encoding/binary.LittleEndian`). -/
def leNat : Bytes → Nat
  | [] => 0
  | b :: bs => b.toNat + 256 * leNat bs

/-- `n` little-endian bytes of `v mod 256^n` (`LittleEndian.PutUint16/32/64`). -/
def leBytes : Nat → Nat → Bytes
  | 0, _ => []
  | n + 1, v => UInt8.ofNat (v % 256) :: leBytes n (v / 256)

/-- Conversion `int32(x)` of an unsigned value: wraps modulo 2^32 into the signed range. -/
def toI32 (n : Nat) : Int :=
  let m := n % 4294967296
  if m < 2147483648 then (m : Int) else (m : Int) - 4294967296

/-- Wrap an arbitrary integer into the `int32` range (Go integer arithmetic). -/
def wrap32 (i : Int) : Int := toI32 (i % 4294967296).toNat

/-- Conversion `int64(x)` of an unsigned value. -/
def toI64 (n : Nat) : Int :=
  let m := n % 18446744073709551616
  if m < 9223372036854775808 then (m : Int) else (m : Int) - 18446744073709551616

/-- `math.MaxInt32`. -/
def maxInt32 : Int := 2147483647

/-- `binary.LittleEndian.Uint16(b[off:])`; callers guarantee the bounds. -/
def u16At (b : Bytes) (off : Nat) : Nat := leNat ((b.drop off).take 2)
/-- `binary.LittleEndian.Uint32(b[off:])`; callers guarantee the bounds. -/
def u32At (b : Bytes) (off : Nat) : Nat := leNat ((b.drop off).take 4)
/-- `binary.LittleEndian.Uint64(b[off:])`; callers guarantee the bounds. -/
def u64At (b : Bytes) (off : Nat) : Nat := leNat ((b.drop off).take 8)

/-- The slice `b[lo:lo+n]` of a byte string. -/
def slice (b : Bytes) (lo n : Nat) : Bytes := (b.drop lo).take n

/-- Run-time panics of the Go program (only the kinds the modelled code can raise). -/
inductive Panic where
  | typeAssertion      -- `x.(*T)` on a value of another dynamic type
  | indexOutOfRange
  | sliceOutOfRange
  | nilDeref
  | explicit           -- a `panic(...)` statement
  | unhandledHash      -- crypto.Hash.New on an unavailable / zero hash
deriving DecidableEq, Repr

/-- A Go call: a panic or a normal return. -/
abbrev Go := Except Panic

deriving instance DecidableEq for Except

/-- Why reading a length-prefixed slice failed (signingblock/utils.go:20-37). -/
inductive LPErr where
  | tooShort   -- fewer than 4 bytes remain
  | negative   -- length < 0 as int32
  | tooLong    -- length exceeds the remaining bytes
deriving DecidableEq, Repr

/-- signingblock/utils.go:20-37 `getLenghtPrefixedSlice`: returns the field and the rest of the buffer. -/
def rdLP (b : Bytes) : Except LPErr (Bytes × Bytes) :=
  if b.length < 4 then .error .tooShort
  else
    let len := toI32 (leNat (b.take 4))
    let rest := b.drop 4
    if len < 0 then .error .negative
    else if len > (rest.length : Int) then .error .tooLong
    else .ok (rest.take len.toNat, rest.drop len.toNat)

/-- `binary.Read(buf, LittleEndian, &x)` for a 32-bit `x`: the raw unsigned value and the rest,
    `none` when fewer than 4 bytes remain (io.EOF / io.ErrUnexpectedEOF). -/
def rdU32 (b : Bytes) : Option (Nat × Bytes) :=
  if b.length < 4 then none else some (leNat (b.take 4), b.drop 4)

/-- `binary.Read(buf, LittleEndian, &x)` for a 64-bit `x`. -/
def rdU64 (b : Bytes) : Option (Nat × Bytes) :=
  if b.length < 8 then none else some (leNat (b.take 8), b.drop 8)

/-- Fuelled form of `lpSplit`. -/
def lpSplitAux : Nat → Bytes → List Bytes × Option LPErr
  | 0, _ => ([], none)
  | fuel + 1, b =>
    if b = [] then ([], none)
    else match rdLP b with
      | .error e => ([], some e)
      | .ok (x, rest) =>
        let r := lpSplitAux fuel rest
        (x :: r.1, r.2)

/-- The loop `for buf.Len() > 0 { item, err := getLenghtPrefixedSlice(buf); if err != nil {...; return}; body(item) }`
    used throughout the package (e.g. schemev2.go:28-38, signer.go:163-170): the items in order and, when the buffer
    does not end on an item boundary, the framing error met after the last item.  Each item consumes at least four
    bytes, so fuel `length + 1` is never exhausted. -/
def lpSplit (b : Bytes) : List Bytes × Option LPErr := lpSplitAux (b.length + 1) b

/-- A loop over items whose body may stop early (`return` inside the loop). The Boolean is `true` when the loop ran to
    its end. -/
def foldGo {σ α : Type} (step : σ → α → Go (σ × Bool)) : σ → List α → Go (σ × Bool)
  | s, [] => .ok (s, true)
  | s, a :: as => do
    let (s', continue_) ← step s a
    if continue_ then foldGo step s' as else .ok (s', false)

/-- Go map lookup on an association list (first match; `mset` keeps keys unique). -/
def mget {κ ν : Type} [DecidableEq κ] (m : List (κ × ν)) (k : κ) : Option ν :=
  (m.find? (fun p => decide (p.1 = k))).map (·.2)

/-- Go map assignment `m[k] = v`: overwrite in place or append. -/
def mset {κ ν : Type} [DecidableEq κ] (m : List (κ × ν)) (k : κ) (v : ν) : List (κ × ν) :=
  match m with
  | [] => [(k, v)]
  | p :: ps => if p.1 = k then (k, v) :: ps else p :: mset ps k v

/-- Go map `delete(m, k)`. -/
def mdel {κ ν : Type} [DecidableEq κ] (m : List (κ × ν)) (k : κ) : List (κ × ν) :=
  m.filter (fun p => decide (p.1 ≠ k))

open Lean in
/-- Byte string literal: `b!"abc"` is the list of the UTF-8 bytes of the literal. -/
macro "b!" s:str : term => do
  let bs := s.getString.toUTF8.toList
  let elems ← bs.mapM (fun b => `($(quote b.toNat)))
  `(([$(elems.toArray),*] : List UInt8))

end Apk
