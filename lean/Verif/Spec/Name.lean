import Verif.Spec.V1
/-! # Specification of the comparison of distinguished names -/
namespace Apk

/-- An ASCII letter in lower case; other bytes as they are. -/
def lowerAscii (c : UInt8) : UInt8 := if 65 ≤ c.toNat ∧ c.toNat ≤ 90 then UInt8.ofNat (c.toNat + 32) else c

/-- What is assumed of the conversion to lower case (`strings.ToLower`): ASCII characters are converted one by one and separate
    the rest of the text, and the only ASCII characters that it makes out of others are letters (as of the Kelvin sign). -/
structure LowerCase (lower : Bytes → Bytes) : Prop where
  nil : lower [] = []
  ascii : ∀ a c b, c.toNat < 128 → lower (a ++ c :: b) = lower a ++ lowerAscii c :: lower b
  fresh : ∀ s, ∀ c ∈ lower s, c.toNat < 128 → c ∈ s ∨ (97 ≤ c.toNat ∧ c.toNat ≤ 122)

/-- Every special character is replaced by a backslash, and a leading `#` is preceded by one. -/
def escaped (v : Bytes) : Bytes :=
  (if v.head? = some 35 then [92] else []) ++ v.map (fun c => if c ∈ b!"\"\\,+<>;" then 92 else c)

/-- Spaces before a space or at the end are dropped. -/
def squeeze : Bytes → Bytes
  | [] => []
  | c :: t => if c = 32 ∧ (t = [] ∨ t.head? = some 32) then squeeze t else c :: squeeze t

/-- What counts of a value of a name: without outer and repeated spaces, special characters alike, in lower case. -/
def plainValue (lower : Bytes → Bytes) (v : Bytes) : Bytes := lower (squeeze ((escaped v).dropWhile (fun c => c = 32)))

/-- Two lists of values that are alike. -/
def SameValues (lower : Bytes → Bytes) (a b : List Bytes) : Prop := a.map (plainValue lower) = b.map (plainValue lower)

/-- Two optional values (absent when empty) that are alike. -/
def SameValue (lower : Bytes → Bytes) (a b : Bytes) : Prop := (a = [] ↔ b = []) ∧ plainValue lower a = plainValue lower b

/-- Two names that are alike, field by field. -/
structure AlikeNames (lower : Bytes → Bytes) (a b : PName) : Prop where
  country : SameValues lower a.country b.country
  org : SameValues lower a.org b.org
  orgUnit : SameValues lower a.orgUnit b.orgUnit
  locality : SameValues lower a.locality b.locality
  province : SameValues lower a.province b.province
  street : SameValues lower a.street b.street
  postal : SameValues lower a.postal b.postal
  commonName : SameValue lower a.commonName b.commonName
  serialNo : SameValue lower a.serialNo b.serialNo

/-- The values of the attribute in the name, in order (those that are strings). -/
def valuesOf (oid : List Nat) (r : RawRdns) : List Bytes := r.flatten.filterMap (fun p => if p.1 = oid then p.2 else none)

/-- The last value of the attribute, empty if there is none. -/
def lastValue (oid : List Nat) (r : RawRdns) : Bytes := (valuesOf oid r).getLast?.getD []

end Apk
