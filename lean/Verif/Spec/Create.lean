import Verif.Spec.CertFull
import Verif.Model.Create
/-!
# What a certificate written from a template is expected to say

`ExtFields` are the fields of a certificate that come from extensions; a template has the same fields.
-/
namespace Apk

/-- An IPv4 address that is written as an IPv6 address (::ffff:a.b.c.d) is the IPv4 address; other addresses are themselves. -/
def shortAddress (ip : Bytes) : Bytes :=
  if ip.length = 16 ∧ [0, 0, 0, 0, 0, 0, 0, 0, 0, 0, 255, 255] <+: ip then ip.drop 12 else ip

/-- What the certificate says: as the template, with the exceptions that
* only nine bits of the key usage are kept,
* purposes that are given by their identifier and known are listed as known ones, after the others,
* without basic constraints nothing is said about them; a path length 0 that is not marked as such means that there is no limit (-1),
* empty names in name constraints are left out, and without names they are not critical,
* addresses are as short as possible,
* the authority key is the one of the issuer. -/
def templateSays (t : ExtFields) (authorityKeyId : Bytes) : ExtFields where
  keyUsage := t.keyUsage % 512
  unhandled := []
  extKeyUsage := t.extKeyUsage ++ t.unknownExtKeyUsage.filterMap (fun o => keyPurposes.idxOf? o)
  unknownExtKeyUsage := t.unknownExtKeyUsage.filter (fun o => o ∉ keyPurposes)
  basicConstraintsValid := t.basicConstraintsValid
  isCA := t.basicConstraintsValid && t.isCA
  maxPathLen := if t.basicConstraintsValid then (if t.maxPathLen = 0 ∧ t.maxPathLenZero = false then -1 else t.maxPathLen) else 0
  maxPathLenZero := t.basicConstraintsValid && decide (t.maxPathLen = 0) && t.maxPathLenZero
  subjectKeyId := t.subjectKeyId
  authorityKeyId := authorityKeyId
  ocspServer := t.ocspServer
  issuingUrl := t.issuingUrl
  dnsNames := t.dnsNames
  emails := t.emails
  ips := t.ips.map shortAddress
  permittedCritical := decide (t.permitted ≠ [] ∨ t.excluded ≠ []) && t.permittedCritical
  permitted := t.permitted.filter (fun n => n ≠ [])
  excluded := t.excluded.filter (fun n => n ≠ [])
  crlPoints := t.crlPoints
  policies := t.policies

/-- The template without what the extra extensions replace. -/
def ExtFields.unlessIn (t : ExtFields) (extra : List Ext) : ExtFields :=
  let has (id : List Nat) : Prop := id ∈ extra.map Prod.fst
  { t with
    keyUsage := if has [2,5,29,15] then 0 else t.keyUsage
    extKeyUsage := if has [2,5,29,37] then [] else t.extKeyUsage
    unknownExtKeyUsage := if has [2,5,29,37] then [] else t.unknownExtKeyUsage
    basicConstraintsValid := if has [2,5,29,19] then false else t.basicConstraintsValid
    subjectKeyId := if has [2,5,29,14] then [] else t.subjectKeyId
    ocspServer := if has [1,3,6,1,5,5,7,1,1] then [] else t.ocspServer
    issuingUrl := if has [1,3,6,1,5,5,7,1,1] then [] else t.issuingUrl
    dnsNames := if has [2,5,29,17] then [] else t.dnsNames
    emails := if has [2,5,29,17] then [] else t.emails
    ips := if has [2,5,29,17] then [] else t.ips
    policies := if has [2,5,29,32] then [] else t.policies
    permitted := if has [2,5,29,30] then [] else t.permitted
    excluded := if has [2,5,29,30] then [] else t.excluded
    crlPoints := if has [2,5,29,31] then [] else t.crlPoints }

/-- Templates whose contents survive: object identifiers that can be read, a path length of 64 bits, IPv4 or IPv6 addresses, URLs below
    2 GB, and no empty names in critical name constraints. -/
structure TemplateFits (t : ExtFields) : Prop where
  purposes : ∀ o ∈ t.unknownExtKeyUsage, ValidOid o
  policies : ∀ o ∈ t.policies, ValidOid o
  pathLen : IsInt64 t.maxPathLen
  ips : ∀ ip ∈ t.ips, ip.length = 4 ∨ ip.length = 16
  points : ∀ n ∈ t.crlPoints, n.length < 2 ^ 31
  constraints : t.permittedCritical = true → ∀ n ∈ t.permitted ++ t.excluded, n ≠ []

/-- Object identifiers with an encoding; the numbers may be too large to be read (compare `ValidOid`). -/
def WritableOid : List Nat → Prop
  | a :: b :: _ => a ≤ 2 ∧ (a < 2 → b < 40)
  | _ => False

/-- Templates with an encoding. The numbers of purposes are those of `keyPurposes`. -/
structure TemplateWritable (t : ExtFields) : Prop where
  known : ∀ u ∈ t.extKeyUsage, u < keyPurposes.length
  purposes : ∀ o ∈ t.unknownExtKeyUsage, WritableOid o
  policies : ∀ o ∈ t.policies, WritableOid o
  names : ∀ n ∈ t.permitted ++ t.excluded, ∀ c ∈ n, c.toNat < 128

/-- The extensions a template asks for, in the order they are written: identifier, whether there is something to say, whether critical. -/
def wantedExts (t : ExtFields) (authorityKeyId : Bytes) : List (List Nat × Prop × Bool) :=
  [([2,5,29,15], t.keyUsage ≠ 0, true),
   ([2,5,29,37], t.extKeyUsage ≠ [] ∨ t.unknownExtKeyUsage ≠ [], false),
   ([2,5,29,19], t.basicConstraintsValid = true, true),
   ([2,5,29,14], t.subjectKeyId ≠ [], false),
   ([2,5,29,35], authorityKeyId ≠ [], false),
   ([1,3,6,1,5,5,7,1,1], t.ocspServer ≠ [] ∨ t.issuingUrl ≠ [], false),
   ([2,5,29,17], t.dnsNames ≠ [] ∨ t.emails ≠ [] ∨ t.ips ≠ [], false),
   ([2,5,29,32], t.policies ≠ [], false),
   ([2,5,29,30], t.permitted ≠ [] ∨ t.excluded ≠ [], t.permittedCritical),
   ([2,5,29,31], t.crlPoints ≠ [], false)]

open Classical in
/-- Of these, the ones that are written: there is something to say and no extra extension takes their place. -/
noncomputable def writtenExts (t : ExtFields) (authorityKeyId : Bytes) (extra : List Ext) : List (List Nat × Bool) :=
  ((wantedExts t authorityKeyId).filter (fun w => w.2.1 ∧ w.1 ∉ extra.map Prod.fst)).map (fun w => (w.1, w.2.2))

/-- An extension as it is found in a parsed certificate. -/
def Ext.parsed (e : Ext) : Bytes × List Nat × Bool × Bytes × Unit := ([], e.1, e.2.1, e.2.2, ())

end Apk
