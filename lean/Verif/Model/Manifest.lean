import Verif.Model.Stamp
/-! # JAR manifest and signature file parser (manifest.go) -/
namespace Apk

/-- Error sites of manifest.go. -/
inductive ME where
  | headerStructure   -- :142
  | attrName          -- :147
  | nul               -- :174
  | entryNotNamed     -- :99
  | duplicateEntry    -- :121
  | readFailed        -- :41, :57, :70 (open or read failure, no readable copy)
deriving DecidableEq, Repr

/-- Attributes: a Go `map[string]string`. -/
abbrev Attrs := List (Bytes × Bytes)

/-- `manifest` (manifest.go:24-30). -/
structure Manifest where
  rawData : Bytes := []
  main : Attrs := []
  entries : List (Bytes × Attrs) := []
  chunks : List (Bytes × Bytes) := []
  mainEnd : Nat := 0
deriving DecidableEq, Repr

/-- manifest.go:217-219: the bytes allowed in a name. -/
def nameByte (c : UInt8) : Bool :=
  (97 ≤ c.toNat && c.toNat ≤ 122) || (65 ≤ c.toNat && c.toNat ≤ 90) || c.toNat = 95 || c.toNat = 45 ||
    (48 ≤ c.toNat && c.toNat ≤ 57)

/-- manifest.go:210-224 `isValidName`. -/
def isValidName (n : Bytes) : Bool := n.length ≠ 0 && n.length ≤ 70 && n.all nameByte

/-- `strings.ToLower` of one ASCII byte. -/
def lowerByte (c : UInt8) : UInt8 := if 65 ≤ c.toNat ∧ c.toNat ≤ 90 then UInt8.ofNat (c.toNat + 32) else c

/-- `strings.ToLower` of an ASCII string (only applied to valid names in manifest.go:155). -/
def lower (n : Bytes) : Bytes := n.map lowerByte

/-- manifest.go:203-205: the last piece of the value; `len = last - mark` (`none` when `last < mark`). -/
def finishValue (value seg : Bytes) (len : Option Nat) : Bytes :=
  match len with
  | none => value
  | some k => value ++ seg.take k

/-- manifest.go:163-206, the value loop. `rest` is `data[pos:]`, `seg` is `data[mark:pos]`, `len` is `last - mark`, with
    `none` for a negative difference: taking `data[mark:last]` then panics (:189). Returns the value, `data[pos:]` and
    the number of line breaks. -/
def readValue : Bytes → Bytes → Bytes → Option Nat → Nat → Bool → Go (Except ME (Bytes × Bytes × Nat))
  | [], value, seg, len, clb, _ => .ok (.ok (finishValue value seg len, [], clb))
  | c :: rest, value, seg, len, clb, lastCr =>
    if c = 0 then .ok (.error .nul)
    else if c = 10 then readValue rest value (seg ++ [c]) len (if lastCr then clb else clb + 1) false
    else if c = 13 then readValue rest value (seg ++ [c]) len (clb + 1) true
    else if c = 32 ∧ clb = 1 then
      match len with
      | none => .error .sliceOutOfRange
      | some k => readValue rest (value ++ seg.take k) [] none 0 lastCr
    else if 1 ≤ clb then .ok (.ok (finishValue value seg len, c :: rest, clb))
    else readValue rest value (seg ++ [c]) (some (seg.length + 1)) clb lastCr

/-- manifest.go:136-161: everything up to the first ':' and what follows it. -/
def splitColon : Bytes → Option (Bytes × Bytes)
  | [] => none
  | c :: rest => if c = 58 then some ([], rest) else (splitColon rest).map (fun p => (c :: p.1, p.2))

/-- Result of `readHeader`: name and value if `singleBlock`, the rest of the data and the line break counter. -/
structure Header where
  attr : Option (Bytes × Bytes)
  rest : Bytes
  clb : Nat
deriving DecidableEq, Repr

/-- manifest.go:130-208 `readHeader` on `data[pos:]`. The check at :141 is off by one, so a ':' as the last byte makes the
    index expression panic. -/
def readHeader (rest : Bytes) (clb : Nat) : Go (Except ME Header) :=
  if 1 < clb then .ok (.ok ⟨none, rest, 0⟩)
  else match splitColon rest with
    | none => .ok (.ok ⟨none, [], 0⟩)
    | some (name, after) =>
      match after with
      | [] => .error .indexOutOfRange
      | c :: body =>
        if c ≠ 32 then .ok (.error .headerStructure)
        else if !isValidName name then .ok (.error .attrName)
        else match readValue body [] [] (some 0) 0 false with
          | .error p => .error p
          | .ok (.error e) => .ok (.error e)
          | .ok (.ok (v, r, n)) => .ok (.ok ⟨if 0 < n then some (lower name, v) else none, r, n⟩)

/-- manifest.go:77-85 and :109-117: headers until the section ends, stored into a map. Every header consumes at least two
    bytes, so fuel `length + 1` is never exhausted. -/
def readAttrs : Nat → Bytes → Nat → Attrs → Go (Except ME (Attrs × Bytes × Nat))
  | 0, rest, clb, m => .ok (.ok (m, rest, clb))
  | fuel + 1, rest, clb, m =>
    match readHeader rest clb with
    | .error p => .error p
    | .ok (.error e) => .ok (.error e)
    | .ok (.ok h) =>
      match h.attr with
      | none => .ok (.ok (m, h.rest, h.clb))
      | some (n, v) => readAttrs fuel h.rest h.clb (mset m n v)

/-- The attribute name "name" (manifest.go:16). -/
def attrName : Bytes := b!"name"

/-- manifest.go:89-126: the sections. `rest` is `data[mark:]` as well as `data[pos:]` at the start of a section when chunks
    are recorded. -/
def readSections (withChunks : Bool) : Nat → Bytes → Nat → Manifest → Go (Except ME Manifest)
  | 0, _, _, m => .ok (.ok m)
  | fuel + 1, rest, clb, m =>
    match readHeader rest clb with
    | .error p => .error p
    | .ok (.error e) => .ok (.error e)
    | .ok (.ok h) =>
      match h.attr with
      | none => .ok (.ok m)
      | some (n, v) =>
        if n ≠ attrName then .ok (.error .entryNotNamed)
        else
          let entry := (mget m.entries v).getD []
          match readAttrs (h.rest.length + 1) h.rest h.clb entry with
          | .error p => .error p
          | .ok (.error e) => .ok (.error e)
          | .ok (.ok (entry', rest', clb')) =>
            let m' := { m with entries := mset m.entries v entry' }
            if withChunks then
              if (mget m.chunks v).isSome then .ok (.error .duplicateEntry)
              else readSections withChunks fuel rest' clb'
                { m' with chunks := mset m.chunks v (rest.take (rest.length - rest'.length)) }
            else readSections withChunks fuel rest' clb' m'

/-- manifest.go:76-128 `parse`. -/
def parseManifestData (withChunks : Bool) (data : Bytes) : Go (Except ME Manifest) :=
  match readAttrs (data.length + 1) data 0 [] with
  | .error p => .error p
  | .ok (.error e) => .ok (.error e)
  | .ok (.ok (main, rest, clb)) =>
    readSections withChunks (rest.length + 1) rest clb
      { rawData := data, main := main, mainEnd := data.length - rest.length }

/-- manifest.go:46-73: the first copy of the file that can be read and parsed. -/
def parseAttempts (withChunks : Bool) : List (Option Bytes) → ME → Go (Except ME Manifest)
  | [], last => .ok (.error last)
  | none :: as, _ => parseAttempts withChunks as .readFailed
  | some data :: as, _ =>
    match parseManifestData withChunks data with
    | .error p => .error p
    | .ok (.error e) => parseAttempts withChunks as e
    | .ok (.ok m) => .ok (.ok m)

/-- manifest.go:40-73 `parseManifest`. -/
def parseManifest (f : ZFile) (withChunks : Bool) : Go (Except ME Manifest) :=
  if f.openOk then parseAttempts withChunks f.attempts .readFailed else .ok (.error .readFailed)

end Apk
