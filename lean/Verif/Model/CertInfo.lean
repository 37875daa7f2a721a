import Verif.Model.Types
/-! # Choosing and describing a certificate (certinfo.go, `PkixNameToString` of signingblock/utils.go) -/
namespace Apk

/-! ## sort.Sort -/

/-- A sorting algorithm for a given length, as `sort.Sort` sees its data: it can compare two positions, swap two positions,
    and stop. (The Go library's algorithm is one such tree for every length; which one is not modelled, except for short
    slices, see `insertionSort`.) -/
inductive SortProg where
  | done
  | swap (i j : Nat) (k : SortProg)
  | less (i j : Nat) (k : Bool → SortProg)

/-- certinfo.go:31 `Swap` on a slice: both positions have to exist. -/
def swapAt {α : Type} (l : List α) (i j : Nat) : Go (List α) :=
  match l[i]?, l[j]? with
  | some a, some b => .ok ((l.set i b).set j a)
  | _, _ => .error .indexOutOfRange

/-- Running a sorting algorithm on a slice. `less t a b` answers the `t`-th comparison. -/
def SortProg.run {α : Type} (less : Nat → α → α → Go Bool) : SortProg → Nat → List α → Go (List α)
  | .done, _, l => .ok l
  | .swap i j k, t, l =>
    match swapAt l i j with
    | .error p => .error p
    | .ok l' => k.run less t l'
  | .less i j k, t, l =>
    match l[i]?, l[j]? with
    | some a, some b =>
      match less t a b with
      | .error p => .error p
      | .ok r => (k r).run less (t + 1) l
    | _, _ => .error .indexOutOfRange

/-- The inner loop of the Go library's insertion sort: `for j := i; j > a && data.Less(j, j-1); j-- { data.Swap(j, j-1) }`. -/
def insertionInner (k : SortProg) : Nat → SortProg
  | 0 => k
  | j + 1 => .less (j + 1) j (fun b => if b then .swap (j + 1) j (insertionInner k j) else k)

/-- The outer loop, with the number of remaining rounds: `for i := a + 1; i < b; i++`. -/
def insertionOuter : Nat → Nat → SortProg
  | 0, _ => .done
  | r + 1, i => insertionInner (insertionOuter r (i + 1)) i

/-- What `sort.Sort` does with up to 12 elements (Go's `sort.insertionSort`). -/
def insertionSort (n : Nat) : SortProg := insertionOuter (n - 1) 1

/-! ## PickBestApkCert -/

/-- Go `bytes.Compare(a, b) > 0`. -/
def bytesGreater : Bytes → Bytes → Bool
  | [], _ => false
  | _ :: _, [] => true
  | x :: a, y :: b => if x = y then bytesGreater a b else decide (x.toNat > y.toNat)

/-- Go `t.Sub(u)` for times in nanoseconds: saturates at the ends of `int64`. -/
def timeSub (t u : Int) : Int :=
  let d := t - u
  if d > 9223372036854775807 then 9223372036854775807
  else if d < -9223372036854775808 then -9223372036854775808
  else d

/-- certinfo.go:41, 43: the condition under which a certificate is ranked last, as the code has it. -/
def outdated (now : Int) (c : Cert) : Bool := decide (c.notAfter > now) || decide (c.notBefore < now)

/-- certinfo.go:32-55 `Less` after the leaves are known; `now` is the clock at this call. -/
def certLess (now : Int) (ci cj : Cert) : Bool :=
  if ci.sigAlg ≠ cj.sigAlg then decide (ci.sigAlg > cj.sigAlg)
  else if outdated now ci then false
  else if outdated now cj then true
  else if ci.notBefore ≠ cj.notBefore then decide (ci.notBefore > cj.notBefore)
  else if ci.notAfter ≠ cj.notAfter then decide (timeSub ci.notAfter ci.notBefore > timeSub cj.notAfter cj.notBefore)
  else bytesGreater ci.raw cj.raw

/-- certinfo.go:32-33 `Less`: the leaves of the two chains; an empty chain panics. -/
def chainLess (clock : Nat → Int) (t : Nat) (a b : List Cert) : Go Bool :=
  match a, b with
  | ci :: _, cj :: _ => .ok (certLess (clock t) ci cj)
  | _, _ => .error .indexOutOfRange

/-- certinfo.go:59-67 `PickBestApkCert`: the picked certificate (`none` is nil) and the caller's slice afterwards (it is sorted
    in place). `sorter n` is the algorithm of `sort.Sort` for `n` elements, `clock t` the time at the `t`-th comparison. -/
def pickBest (sorter : Nat → SortProg) (clock : Nat → Int) (chains : List (List Cert)) : Go (Option Cert × List (List Cert)) :=
  if chains.length = 0 then .ok (none, chains)
  else match (sorter chains.length).run (chainLess clock) 0 chains with
    | .error p => .error p
    | .ok l =>
      match l with
      | (c :: _) :: _ => .ok (some c, l)
      | _ => .error .indexOutOfRange

/-! ## CertInfo -/

/-- The lower-case hexadecimal digit of a value below 16 (encoding/hex, fmt). -/
def hexDigit (n : Nat) : UInt8 := if n < 10 then UInt8.ofNat (48 + n) else UInt8.ofNat (87 + n)

/-- Go `hex.EncodeToString`. -/
def hexEncode : Bytes → Bytes
  | [] => []
  | b :: bs => hexDigit (b.toNat / 16) :: hexDigit (b.toNat % 16) :: hexEncode bs

/-- Go `strings.Join`. -/
def joinWith (sep : Bytes) : List Bytes → Bytes
  | [] => []
  | [s] => s
  | s :: t :: l => s ++ sep ++ joinWith sep (t :: l)

/-- One field of `PkixNameToString` (utils.go:93-121). -/
def nameField (label : Bytes) (vs : List Bytes) : Bytes :=
  if vs.length ≠ 0 then label ++ joinWith (b!";") vs ++ b!", " else []

/-- signingblock/utils.go:93-121 `PkixNameToString`. -/
def pkixNameToString (n : PName) : Bytes :=
  let buf := nameField (b!"C=") n.country ++ nameField (b!"ST=") n.province ++ nameField (b!"L=") n.locality ++
    nameField (b!"O=") n.org ++ nameField (b!"OU=") n.orgUnit ++
    (if n.commonName.length ≠ 0 then b!"CN=" ++ n.commonName ++ b!", " else [])
  if buf.length ≠ 0 then buf.take (buf.length - 2) else buf

/-- certinfo.go:17-25 `CertInfo`. -/
structure CertDesc where
  md5 : Bytes
  sha1 : Bytes
  sha256 : Bytes
  validFrom : Int
  validTo : Int
  issuer : Bytes
  subject : Bytes
  sigAlg : Bytes
  serial : Int
deriving DecidableEq, Repr

/-- External functions of `Fill`: the hash functions, and the name of a signature algorithm (x509.SignatureAlgorithm.String). -/
structure HashEnv where
  md5 : Bytes → Bytes
  sha1 : Bytes → Bytes
  sha256 : Bytes → Bytes
  algName : Nat → Bytes

/-- certinfo.go:70-91 `NewCertInfo`, `Fill`. -/
def certDesc (h : HashEnv) (c : Cert) : CertDesc :=
  ⟨hexEncode (h.md5 c.raw), hexEncode (h.sha1 c.raw), hexEncode (h.sha256 c.raw), c.notBefore, c.notAfter,
   pkixNameToString c.issuer, pkixNameToString c.subject, h.algName c.sigAlg, c.serial⟩

/-- certinfo.go:59-67: the `CertInfo` returned together with the certificate. -/
def pickBestInfo (h : HashEnv) (sorter : Nat → SortProg) (clock : Nat → Int) (chains : List (List Cert)) :
    Go (Option (CertDesc × Cert) × List (List Cert)) :=
  match pickBest sorter clock chains with
  | .error p => .error p
  | .ok (none, l) => .ok (none, l)
  | .ok (some c, l) => .ok (some (certDesc h c, c), l)

end Apk
