import Verif.Model.Base
/-! # Specification of length-prefixed encodings (independent of the parsers) -/
namespace Apk

/-- A length-prefixed field: 4-byte little-endian length, then the bytes. -/
def lp (x : Bytes) : Bytes := leBytes 4 x.length ++ x

/-- A sequence of length-prefixed fields. -/
def lpSeq (xs : List Bytes) : Bytes := (xs.map lp).flatten

/-- A field that can be length-prefixed (its length fits a non-negative int32). -/
def Small (x : Bytes) : Prop := x.length < 2 ^ 31

instance (x : Bytes) : Decidable (Small x) := inferInstanceAs (Decidable (_ < _))

end Apk
