import Verif.Model.Utf
import Verif.Model.X509
/-!
# Points of elliptic curves (internal/x509andr/x509.go:1034-1057)

`elliptic.Unmarshal` of the Go standard library on the curves of `namedCurveFromOID` (x509.go:1048; `nistCurve.Unmarshal`, `SetBytes` of
crypto/internal/nistec). Field elements are natural numbers below the prime; the Montgomery forms of nistec are left out.
-/
namespace Apk

/-- Parameters of the curves (crypto/elliptic `initP224` to `initP521`): the length of a coordinate, the prime, B. -/
def curveParams (oid : List Nat) : Option (Nat × Nat × Nat) :=
  if oid = [1,3,132,0,33] then some (28, 26959946667150639794667015087019630673557916260026308143510066298881,
    18958286285566608000408668544493926415504680968679321075787234672564)
  else if oid = [1,2,840,10045,3,1,7] then some (32, 115792089210356248762697446949407573530086143415290314195533631308867097853951,
    41058363725152142129326129780047268409114441015993725554835256314039467401291)
  else if oid = [1,3,132,0,34] then some (48, 39402006196394479212279040100143613805079739270465446667948293404245721771496870329047266088258938001861606973112319,
    27580193559959705877849011840389048093056905856361568521428707301988689241309860865136260764883745107765439761230575)
  else if oid = [1,3,132,0,35] then some (66, 6864797660130609714981900799081393217269435300143305409394463459185543183397656052122559640661454554977296311391480858037121987999716643812574028291115057151,
    1093849038073734274511112390766805569936207598951683748994586394495953116150735016013708737573759623248592132296706313309438452531591012912142327488478985984)
  else none

/-- nistec `polynomial`: x³ - 3x + B in the field of `p` elements. -/
def curvePolynomial (p b x : Nat) : Nat :=
  let y2 := x * x % p * x % p
  let threeX := (x + x) % p
  let threeX := (threeX + x) % p
  let y2 := (y2 + (p - threeX)) % p
  (y2 + b) % p

/-- `nistCurve.Unmarshal` with `SetBytes`: the first byte must be 4, the length that of two coordinates, the coordinates below the prime
    and on the curve. -/
def pointOf (size p b : Nat) : Bytes → Option (Int × Int)
  | [] => none
  | t :: data =>
    if t ≠ 4 then none
    else if data.length ≠ 2 * size then none
    else
      let x := setBytes (data.take size)
      let y := setBytes (data.drop size)
      if p ≤ x then none
      else if p ≤ y then none
      else if y * y % p ≠ curvePolynomial p b x then none
      else some (x, y)

/-- x509.go:1048 `elliptic.Unmarshal(namedCurve, asn1Data)`. -/
def goPoint (curve : List Nat) (data : Bytes) : Option (Int × Int) :=
  match curveParams curve with
  | none => none
  | some (size, p, b) => pointOf size p b data

/-- The parts of the standard library that the parser of certificates uses, as modelled here, in Model/Utf and Model/Time. -/
def goCertEnv (te : TimeEnv) : CertEnv := { goAsnEnv te with point := goPoint }

end Apk
