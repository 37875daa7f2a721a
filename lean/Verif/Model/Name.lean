import Verif.Model.Types
/-! # Distinguished names: crypto/x509/pkix (external, modelled) and the canonical form of schemev1.go:911-1000 -/
namespace Apk

/-- `pkix.RDNSequence` as decoded: object identifier and value; `none` for a value that is not a string. -/
abbrev RawRdns := List (List (List Nat × Option Bytes))

/-- `pkix.RDNSequence` as built by `ToRDNSequence`: all values are strings. -/
abbrev Rdns := List (List (List Nat × Bytes))

/-- crypto/x509/pkix `FillFromRDNSequence`, one attribute. -/
def fillAttr (n : PName) : List Nat × Option Bytes → PName
  | ([2, 5, 4, 3], some v) => { n with commonName := v }
  | ([2, 5, 4, 5], some v) => { n with serialNo := v }
  | ([2, 5, 4, 6], some v) => { n with country := n.country ++ [v] }
  | ([2, 5, 4, 7], some v) => { n with locality := n.locality ++ [v] }
  | ([2, 5, 4, 8], some v) => { n with province := n.province ++ [v] }
  | ([2, 5, 4, 9], some v) => { n with street := n.street ++ [v] }
  | ([2, 5, 4, 10], some v) => { n with org := n.org ++ [v] }
  | ([2, 5, 4, 11], some v) => { n with orgUnit := n.orgUnit ++ [v] }
  | ([2, 5, 4, 17], some v) => { n with postal := n.postal ++ [v] }
  | _ => n

/-- crypto/x509/pkix `FillFromRDNSequence`. -/
def fillName (r : RawRdns) : PName := r.flatten.foldl fillAttr {}

/-- crypto/x509/pkix `appendRDNs`: one RDN with all the values. -/
def rdnOf (oid : List Nat) (values : List Bytes) : Rdns :=
  if values = [] then [] else [values.map (fun v => (oid, v))]

/-- crypto/x509/pkix `ToRDNSequence`. -/
def PName.rdns (n : PName) : Rdns :=
  rdnOf [2, 5, 4, 6] n.country ++ rdnOf [2, 5, 4, 10] n.org ++ rdnOf [2, 5, 4, 11] n.orgUnit ++
    rdnOf [2, 5, 4, 7] n.locality ++ rdnOf [2, 5, 4, 8] n.province ++ rdnOf [2, 5, 4, 9] n.street ++
    rdnOf [2, 5, 4, 17] n.postal ++
    (if n.commonName = [] then [] else rdnOf [2, 5, 4, 3] [n.commonName]) ++
    (if n.serialNo = [] then [] else rdnOf [2, 5, 4, 5] [n.serialNo])

/-- Decimal digits of a number, most significant first; the fuel `n + 1` is never exhausted. -/
def decAux : Nat → Nat → Bytes → Bytes
  | 0, _, acc => acc
  | fuel + 1, n, acc =>
    if n < 10 then UInt8.ofNat (48 + n) :: acc else decAux fuel (n / 10) (UInt8.ofNat (48 + n % 10) :: acc)

/-- `strconv.Itoa` of a natural number. -/
def decBytes (n : Nat) : Bytes := decAux (n + 1) n []

/-- encoding/asn1 `ObjectIdentifier.String`: decimal numbers joined with dots. -/
def dotted : List Nat → Bytes
  | [] => []
  | [a] => decBytes a
  | a :: as => decBytes a ++ 46 :: dotted as

/-- schemev1.go:915-936 `byX501Canonical.Less`. -/
def lessOid : List Nat → List Nat → Bool
  | a :: as, b :: bs =>
    if a < b then true
    else if b < a then false
    else match as, bs with
      | [], _ :: _ => true
      | _ :: _, [] => false
      | as, bs => lessOid as bs
  | _, _ => false

/-- Insertion after all elements that are not greater. -/
def insertAtav (x : List Nat × Bytes) : List (List Nat × Bytes) → List (List Nat × Bytes)
  | [] => [x]
  | y :: ys => if lessOid x.1 y.1 then x :: y :: ys else y :: insertAtav x ys

/-- schemev1.go:946 `sort.Sort(byX501Canonical(atavList))`, as a stable sort. All types within one RDN of a
    `ToRDNSequence` result are equal, so nothing moves (`sort.Sort` itself leaves a list without inversions alone since
    Go 1.19; before that it may permute more than 12 equal elements, which is not modelled). -/
def sortAtav (l : List (List Nat × Bytes)) : List (List Nat × Bytes) := l.foldl (fun acc x => insertAtav x acc) []

/-- schemev1.go:972: the characters that are replaced by a backslash. -/
def isSpecial (c : UInt8) : Bool := c = 34 || c = 92 || c = 44 || c = 43 || c = 60 || c = 62 || c = 59

/-- schemev1.go:964-977: one character of a value; `out` is what was written for this value so far. -/
def canonStep (out : Bytes) (c : UInt8) : Bytes :=
  if c = 32 then (if out = [] ∨ out.getLast? = some 32 then out else out ++ [32])
  else if isSpecial c then out ++ [92]
  else out ++ [c]

/-- schemev1.go:979-983: trailing spaces are removed. -/
def trimEndSpaces (b : Bytes) : Bytes := (b.reverse.dropWhile (fun c => c = 32)).reverse

/-- schemev1.go:951-983: rendering of one value. -/
def canonValue : Bytes → Bytes
  | [] => []
  | c :: v => if c = 35 then trimEndSpaces (v.foldl canonStep [92, 35]) else trimEndSpaces ((c :: v).foldl canonStep [])

/-- Joining with a separator byte. -/
def joinByte (sep : UInt8) : List Bytes → Bytes
  | [] => []
  | [x] => x
  | x :: xs => x ++ sep :: joinByte sep xs

/-- schemev1.go:949-987: one attribute, `oid=value`. -/
def canonAtav (p : List Nat × Bytes) : Bytes := dotted p.1 ++ 61 :: canonValue p.2

/-- schemev1.go:943-998: the RDNs last to first, separated by commas, attributes separated by `+`. The values are always
    strings here, so the default case (:984) does not occur. -/
def canonRdns (r : Rdns) : Bytes := joinByte 44 (r.reverse.map (fun rdn => joinByte 43 ((sortAtav rdn).map canonAtav)))

/-- schemev1.go:938-940 and :999 `pkixCanonical`; `toLower` is `strings.ToLower`. -/
def canonical (toLower : Bytes → Bytes) (n : PName) : Bytes := toLower (canonRdns n.rdns)

end Apk
