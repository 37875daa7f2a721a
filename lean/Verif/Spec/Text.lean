import Verif.Model.Types
/-! # Specification of the texts in certificate descriptions -/
namespace Apk

/-- The lower-case hexadecimal digits. -/
def hexDigits : Bytes := b!"0123456789abcdef"

/-- Two digits for every byte. -/
def hexText (b : Bytes) : Bytes := b.flatMap (fun x => [hexDigits.getD (x.toNat / 16) 0, hexDigits.getD (x.toNat % 16) 0])

/-- The fields of a name that are shown, in order: label and values. -/
def nameParts (n : PName) : List (Bytes × List Bytes) :=
  [(b!"C", n.country), (b!"ST", n.province), (b!"L", n.locality), (b!"O", n.org), (b!"OU", n.orgUnit),
   (b!"CN", if n.commonName = [] then [] else [n.commonName])]

/-- The text of a name: the fields that have values, as "label=v1;v2", separated by ", ". -/
def nameText (n : PName) : Bytes :=
  (b!", ").intercalate (((nameParts n).filter (fun p => p.2 ≠ [])).map (fun p => p.1 ++ b!"=" ++ (b!";").intercalate p.2))

end Apk
