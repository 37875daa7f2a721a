import Verif.Spec.Bytes
/-! # Specification of the container layout: EOCD record, APK Signing Block, ID-value pairs

Everything is stated by decomposing the file into concatenated pieces, independently of the scanning code. -/
namespace Apk

/-- The file ends with a ZIP end-of-central-directory record whose comment has `c` bytes: `file = pre ++ rec`. -/
structure EocdRecord (file pre rec : Bytes) (c : Nat) : Prop where
  split : file = pre ++ rec
  len : rec.length = 22 + c
  small : c ≤ 65535
  magic : rec.take 4 = [0x50, 0x4b, 0x05, 0x06]
  comment : (rec.drop 20).take 2 = leBytes 2 c

/-- The record names a central directory `[cdOff, cdOff+cdSize)` that ends exactly where the record starts. -/
structure CdBefore (pre rec : Bytes) (cdOff cdSize : Nat) : Prop where
  off : (rec.drop 16).take 4 = leBytes 4 cdOff
  offLt : cdOff < 2 ^ 32
  size : (rec.drop 12).take 4 = leBytes 4 cdSize
  sizeLt : cdSize < 2 ^ 32
  nonEmptyGap : cdOff < pre.length
  adjacent : cdOff + cdSize = pre.length

/-- "APK Sig Block 42". -/
def sigBlockMagic : Bytes :=
  [0x41, 0x50, 0x4b, 0x20, 0x53, 0x69, 0x67, 0x20, 0x42, 0x6c, 0x6f, 0x63, 0x6b, 0x20, 0x34, 0x32]

/-- An APK Signing Block around a pair area: size, pairs, size, magic. -/
def sigBlock (area : Bytes) : Bytes :=
  leBytes 8 (area.length + 24) ++ area ++ leBytes 8 (area.length + 24) ++ sigBlockMagic

/-- One ID-value pair. -/
def encPair (p : Nat × Bytes) : Bytes := leBytes 8 (4 + p.2.length) ++ leBytes 4 p.1 ++ p.2

/-- A sequence of pairs. -/
def encPairs (ps : List (Nat × Bytes)) : Bytes := (ps.map encPair).flatten

/-- A pair that fits the format. -/
def PairOK (p : Nat × Bytes) : Prop := p.1 < 2 ^ 32 ∧ 4 + p.2.length ≤ 2147483647

/-- The value of the last pair with the given id. -/
def lastVal (ps : List (Nat × Bytes)) (id : Nat) : Option Bytes :=
  (ps.reverse.find? (fun p => decide (p.1 = id))).map (·.2)

/-- Ids whose blocks are used for verification at a given maximum SDK version. -/
def usedId (id : Nat) (maxSdk : Int) : Prop :=
  (id = 0x7109871a ∧ 24 ≤ maxSdk) ∨ (id = 0xf05368c0 ∧ 28 ≤ maxSdk) ∨ (id = 0x1b93ad61 ∧ 33 ≤ maxSdk)
    ∨ id = 0x6dff800d

/-- Ids whose blocks are reported as extra blocks: everything except padding, frosting, the source stamp and the
    scheme blocks in use (but the v3 block is also kept when v3.1 is supported). -/
def extraId (id : Nat) (maxSdk : Int) : Prop :=
  id ≠ 0x42726577 ∧ id ≠ 0x2146444e ∧ id ≠ 0x6dff800d ∧
  ((id = 0x7109871a → maxSdk < 24) ∧ (id = 0xf05368c0 → maxSdk < 28 ∨ 33 ≤ maxSdk) ∧ (id = 0x1b93ad61 → maxSdk < 33))

instance (id : Nat) (m : Int) : Decidable (usedId id m) := by unfold usedId; infer_instance
instance (id : Nat) (m : Int) : Decidable (extraId id m) := by unfold extraId; infer_instance

/-- A pair area the format allows: a concatenation of well-formed pairs whose last pair is not an empty value of a kind
    that gets read (only verity padding may be empty at the very end). -/
def PairArea (area : Bytes) (ps : List (Nat × Bytes)) : Prop :=
  area = encPairs ps ∧ (∀ p ∈ ps, PairOK p) ∧ (∀ p, ps.getLast? = some p → p.2 = [] → p.1 = 0x42726577)

/-- The values of the frosting pairs, in order. -/
def frostingValues (ps : List (Nat × Bytes)) : List Bytes :=
  (ps.filter (fun p => decide (p.1 = 0x2146444e))).map (·.2)

/-- The end-of-central-directory record with the shortest comment. -/
def ShortestEocd (file pre rec : Bytes) (c : Nat) : Prop :=
  EocdRecord file pre rec c ∧ ∀ c' < c, ∀ pre' rec', ¬ EocdRecord file pre' rec' c'

/-- A ZIP64 end-of-central-directory locator (20 bytes, "PK\x06\x07") stands right before the record. -/
def Zip64Before (pre : Bytes) : Prop :=
  20 ≤ pre.length ∧ (pre.drop (pre.length - 20)).take 4 = [0x50, 0x4b, 0x06, 0x07]

/-- An APK with a signing block: `head`, signing block around `area`, central directory `cd`, EOCD record `rec`. -/
structure ApkLayout (file head area cd rec : Bytes) : Prop where
  split : file = head ++ sigBlock area ++ cd ++ rec
  eocd : ∃ c, ShortestEocd file (head ++ sigBlock area ++ cd) rec c
  cdRef : CdBefore (head ++ sigBlock area ++ cd) rec (head ++ sigBlock area).length cd.length
  noZip64 : ¬ Zip64Before (head ++ sigBlock area ++ cd)
  areaSize : area.length + 24 ≤ 2147483647 - 8

end Apk
