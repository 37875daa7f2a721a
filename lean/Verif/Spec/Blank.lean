import Verif.Spec.Der
import Verif.Spec.Time
/-! # The values of optional fields that are not there -/
namespace Apk.Spec

mutual
/-- The Go zero value of a type: numbers are 0, truth values false, pointers and interfaces nil, texts, byte strings and lists
    empty, the time is midnight UTC of January 1 of the year 1, and the fields of a struct are blank. -/
def Blank : (t : Ty) → t.interp → Prop
  | .rawValue, v => v.cls = 0 ∧ v.tag = 0 ∧ v.isCompound = false ∧ v.bytes = [] ∧ v.full = []
  | .oid, v => v = []
  | .bits, v => v.bytes = [] ∧ v.bitLength = 0
  | .time, v => v = unixUtc ⟨1, 1, 1, 0, 0, 0⟩
  | .enumerated, v => v = (0 : Int)
  | .flag, v => v = false
  | .bigInt, v => v = none
  | .bool, v => v = false
  | .int, v => v = (0 : Int)
  | .int32, v => v = (0 : Int)
  | .octets, v => v = []
  | .str, v => v = []
  | .any, v => v = none
  | .struct _ fs, v => v.1 = [] ∧ BlankAll fs v.2
  | .slice _ _, v => v = []
/-- Every field of a struct is blank. -/
def BlankAll : (fs : Fields) → fs.interp → Prop
  | .nil, _ => True
  | .cons _ t fs, v => Blank t v.1 ∧ BlankAll fs v.2
end

end Apk.Spec
