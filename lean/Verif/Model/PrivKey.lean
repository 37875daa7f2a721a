import Verif.Model.X509
/-!
# Private keys (internal/x509andr/pkcs1.go, pkcs8.go, sec1.go)

Nothing in the module calls these functions; they are modelled as the exported functions of that package. They use encoding/asn1 of the standard
library, which is a parameter here, as are the operations of crypto/rsa and crypto/elliptic. Integers that encoding/asn1 has decoded are not nil.
-/
namespace Apk

/-- pkcs1.go:14-34 `pkcs1PrivateKey`, `pkcs1AdditionalRSAPrime` (prime, exponent, coefficient). -/
structure Pkcs1Fields where
  version : Int
  n : Int
  e : Int
  d : Int
  p : Int
  q : Int
  dp : Option Int
  dq : Option Int
  qinv : Option Int
  extra : List (Int × Int × Int)
deriving DecidableEq

/-- pkcs8.go:17-22 `pkcs8`: the algorithm, the bytes of its parameters and the key. -/
structure Pkcs8Fields where
  version : Int
  algo : List Nat
  params : Bytes
  key : Bytes
deriving DecidableEq

/-- sec1.go:24-29 `ecPrivateKey`; an absent identifier is empty. -/
structure EcFields where
  version : Int
  key : Bytes
  curve : List Nat
  point : Bytes
deriving DecidableEq

/-- crypto/rsa `PrivateKey`. -/
structure RsaPriv where
  n : Int
  e : Int
  d : Int
  primes : List Int
deriving DecidableEq

/-- crypto/rsa `PrecomputedValues`: the last part is `CRTValues` (exponent, coefficient). -/
structure RsaPre where
  dp : Option Int
  dq : Option Int
  qinv : Option Int
  crt : List (Int × Int)

/-- crypto/ecdsa `PrivateKey`; the curve is given by its identifier (`none`: any other curve). -/
structure EcPriv where
  curve : Option (List Nat)
  d : Int
  x : Int
  y : Int
deriving DecidableEq

/-- encoding/asn1, crypto/rsa and crypto/elliptic. `Unmarshal` returns what follows the value. -/
structure KeyEnv where
  unPkcs1 : Bytes → Option (Pkcs1Fields × Bytes)
  unPkcs8 : Bytes → Option (Pkcs8Fields × Bytes)
  unEc : Bytes → Option (EcFields × Bytes)
  unOid : Bytes → Option (List Nat × Bytes)
  marPkcs1 : Pkcs1Fields → Option Bytes
  marEc : EcFields → Option Bytes
  validate : RsaPriv → Bool
  precompute : RsaPriv → RsaPre
  baseMult : List Nat → Bytes → Int × Int
  marPoint : List Nat → Int → Int → Bytes

/-- Errors of the functions of this file. -/
inductive KeyErr where
  | asn1            -- pkcs1.go:51, pkcs8.go:29, sec1.go:62
  | trailing        -- pkcs1.go:49
  | version         -- pkcs1.go:55, sec1.go:65
  | notPositive     -- pkcs1.go:59
  | prime           -- pkcs1.go:74
  | invalid         -- pkcs1.go:82
  | algorithm       -- pkcs8.go:53
  | curve           -- sec1.go:40, :75
  | value           -- sec1.go:81
  | length          -- sec1.go:93
  | marshal         -- sec1.go:47: an error of asn1.Marshal
deriving DecidableEq

/-- pkcs1.go:45-89 `ParsePKCS1PrivateKey`. -/
def parsePkcs1 (env : KeyEnv) (der : Bytes) : Except KeyErr RsaPriv :=
  match env.unPkcs1 der with
  | none => .error .asn1
  | some (f, rest) =>
    if rest.length > 0 then .error .trailing
    else if f.version > 1 then .error .version
    else if f.n ≤ 0 ∨ f.d ≤ 0 ∨ f.p ≤ 0 ∨ f.q ≤ 0 then .error .notPositive
    else if f.extra.any (fun a => decide (a.1 ≤ 0)) then .error .prime
    else
      let key : RsaPriv := ⟨f.n, f.e, f.d, f.p :: f.q :: f.extra.map (·.1)⟩
      if env.validate key then .ok key else .error .invalid

/-- pkcs1.go:114-118: the loop over the precomputed values; `primes` are those from the third. -/
def additionalPrimes : List (Int × Int) → List Int → Go (List (Int × Int × Int))
  | [], _ => .ok []
  | _ :: _, [] => .error .indexOutOfRange
  | v :: crt, p :: primes =>
    match additionalPrimes crt primes with
    | .error e => .error e
    | .ok l => .ok ((p, v.1, v.2) :: l)

/-- pkcs1.go:92-121 `MarshalPKCS1PrivateKey`: an error of asn1.Marshal is ignored. -/
def marshalPkcs1 (env : KeyEnv) (key : RsaPriv) : Go Bytes :=
  let pre := env.precompute key
  let version := if key.primes.length > 2 then 1 else 0
  match key.primes with
  | p :: q :: more =>
    match additionalPrimes pre.crt more with
    | .error e => .error e
    | .ok extra => .ok ((env.marPkcs1 ⟨version, key.n, key.e, key.d, p, q, pre.dp, pre.dq, pre.qinv, extra⟩).getD [])
  | _ => .error .indexOutOfRange

/-- `curve.Params().N` of crypto/elliptic for the curves of x509.go:509-521 `namedCurveFromOID`. -/
def curveOrder (oid : List Nat) : Option Nat :=
  if oid = [1,3,132,0,33] then some 26959946667150639794667015087019625940457807714424391721682722368061
  else if oid = [1,2,840,10045,3,1,7] then some 115792089210356248762697446949407573529996955224135760342422259061068512044369
  else if oid = [1,3,132,0,34] then some
    39402006196394479212279040100143613805079739270465446667946905279627659399113263569398956308152294913554433653942643
  else if oid = [1,3,132,0,35] then some
    6864797660130609714981900799081393217269435300143305409394463459185543183397655394245057746333217197532963996371363321113864768612440380340372808892707005449
  else none

/-- `(N.BitLen()+7)/8`, the number of bytes of the order. -/
def orderSize (n : Nat) : Nat := (natBytes n).length

/-- sec1.go:90-95: leading zeros are removed until the key is not longer than the order. -/
def stripKey (size : Nat) : Bytes → Except KeyErr Bytes
  | [] => .ok []
  | b :: key => if (b :: key).length > size then (if b ≠ 0 then .error .length else stripKey size key) else .ok (b :: key)

/-- sec1.go:100: `copy(dst[len(dst)-len(src):], src)` into `size` zeros. -/
def padLeft (size : Nat) (src : Bytes) : Go Bytes :=
  if size < src.length then .error .sliceOutOfRange else .ok (List.replicate (size - src.length) 0 ++ src)

/-- sec1.go:59-105 `parseECPrivateKey`; `named` is the identifier from the container. -/
def parseEcWith (env : KeyEnv) (named : Option (List Nat)) (der : Bytes) : Go (Except KeyErr EcPriv) :=
  match env.unEc der with
  | none => .ok (.error .asn1)
  | some (f, _) =>
    if f.version ≠ 1 then .ok (.error .version)
    else
      let oid := named.getD f.curve
      match curveOrder oid with
      | none => .ok (.error .curve)
      | some n =>
        let k := setBytes f.key
        if k ≥ n then .ok (.error .value)
        else match stripKey (orderSize n) f.key with
          | .error e => .ok (.error e)
          | .ok key => match padLeft (orderSize n) key with
            | .error p => .error p
            | .ok padded => .ok (.ok ⟨some oid, k, (env.baseMult oid padded).1, (env.baseMult oid padded).2⟩)

/-- sec1.go:32-34 `ParseECPrivateKey`. -/
def parseEc (env : KeyEnv) (der : Bytes) : Go (Except KeyErr EcPriv) := parseEcWith env none der

/-- sec1.go:37-53 `MarshalECPrivateKey`; `big.Int.Bytes` is the shortest representation of the absolute value. -/
def marshalEc (env : KeyEnv) (key : EcPriv) : Go (Except KeyErr Bytes) :=
  match key.curve with
  | none => .ok (.error .curve)
  | some oid =>
    match curveOrder oid with
    | none => .ok (.error .curve)
    | some n =>
      match padLeft (orderSize n) (natBytes key.d.natAbs) with
      | .error p => .error p
      | .ok padded => match env.marEc ⟨1, padded, oid, env.marPoint oid key.x key.y⟩ with
        | none => .ok (.error .marshal)
        | some b => .ok (.ok b)

/-- What `ParsePKCS8PrivateKey` returns. -/
inductive PrivKey where
  | rsa (k : RsaPriv)
  | ec (k : EcPriv)
deriving DecidableEq

/-- pkcs8.go:40-44: the identifier in the parameters, if there is one. -/
def containerCurve (env : KeyEnv) (params : Bytes) : Option (List Nat) := (env.unOid params).map (·.1)

/-- pkcs8.go:26-55 `ParsePKCS8PrivateKey`. The errors of the key inside are passed on with a prefix. -/
def parsePkcs8 (env : KeyEnv) (der : Bytes) : Go (Except KeyErr PrivKey) :=
  match env.unPkcs8 der with
  | none => .ok (.error .asn1)
  | some (f, _) =>
    if f.algo = [1,2,840,113549,1,1,1] then .ok ((parsePkcs1 env f.key).map .rsa)
    else if f.algo = [1,2,840,10045,2,1] then
      match parseEcWith env (containerCurve env f.params) f.key with
      | .error p => .error p
      | .ok r => .ok (r.map .ec)
    else .ok (.error .algorithm)

end Apk
