import Verif.Model.X509
/-!
# PKCS#7 structures (fullsailor/pkcs7/pkcs7.go:31-240, :1023-1054)

`concreteEnv1` replaces the unmarshalling parameters of the v1 verifier model by these functions.
-/
namespace Apk

/-- pkcs7.go:39-43 `contentInfo`. -/
def contentInfoTy : Ty := .struct false (.cons [] .oid (.cons (b!"explicit,optional,tag:0") .rawValue .nil))
/-- pkcs7.go:95-98 `attribute`. -/
def attributeTy : Ty := .struct false (.cons [] .oid (.cons (b!"set") .rawValue .nil))
/-- pkcs7.go:105-108 `issuerAndSerial`. -/
def iasTy : Ty := .struct false (.cons [] .rawValue (.cons [] .bigInt .nil))
/-- pkcs7.go:126-134 `signerInfo`. -/
def signerInfoTy : Ty :=
  .struct false (.cons (b!"default:1") .int (.cons [] iasTy (.cons [] algIdTy (.cons (b!"optional,tag:0") (.slice false attributeTy)
    (.cons [] algIdTy (.cons [] .octets (.cons (b!"optional,tag:1") (.slice false attributeTy) .nil)))))))
/-- pkix.RevokedCertificate. -/
def revokedTy : Ty := .struct false (.cons [] .bigInt (.cons [] .time (.cons (b!"optional") (.slice false extensionTy) .nil)))
/-- pkix.TBSCertificateList. -/
def tbsCertListTy : Ty :=
  .struct true (.cons (b!"optional,default:0") .int (.cons [] algIdTy (.cons [] rdnsTy (.cons [] .time (.cons (b!"optional") .time
    (.cons (b!"optional") (.slice false revokedTy) (.cons (b!"tag:0,optional,explicit") (.slice false extensionTy) .nil)))))))
/-- pkix.CertificateList. -/
def certListTy : Ty := .struct false (.cons [] tbsCertListTy (.cons [] algIdTy (.cons [] .bits .nil)))
/-- pkcs7.go:71-73 `rawCertificates`. -/
def rawCertsTy : Ty := .struct true .nil
/-- pkcs7.go:62-69 `signedData`. -/
def signedDataTy : Ty :=
  .struct false (.cons (b!"default:1") .int (.cons (b!"set") (.slice false algIdTy) (.cons [] contentInfoTy
    (.cons (b!"optional,tag:0") rawCertsTy (.cons (b!"optional,tag:1") (.slice false certListTy)
    (.cons (b!"set") (.slice false signerInfoTy) .nil))))))
/-- pkcs7.go:81-86 `recipientInfo`. -/
def recipientTy : Ty := .struct false (.cons [] .int (.cons [] iasTy (.cons [] algIdTy (.cons [] .octets .nil))))
/-- pkcs7.go:88-92 `encryptedContentInfo`. -/
def encContentTy : Ty := .struct false (.cons [] .oid (.cons [] algIdTy (.cons (b!"tag:0,optional") .rawValue .nil)))
/-- pkcs7.go:75-79 `envelopedData`. -/
def envelopedTy : Ty := .struct false (.cons [] .int (.cons (b!"set") (.slice false recipientTy) (.cons [] encContentTy .nil)))

/-- One parsed attribute. -/
def P7Attr.of (v : attributeTy.interp) : P7Attr :=
  match v with
  | (_, type, value, ()) => ⟨type, RawVal.bytes value, RawVal.full value⟩

/-- One parsed signer info. The serial number of a parsed signer info is never nil (`signerInfo_serial`). -/
def P7Signer.of (v : signerInfoTy.interp) : P7Signer :=
  match v with
  | (_, _, (_, issuer, serial, ()), digestAlg, attrs, encAlg, encDigest, _, ()) =>
    ⟨RawVal.full issuer, (serial : Option Int).getD 0, (AlgId.of digestAlg).oid, (AlgId.of encAlg).oid, attrs.map P7Attr.of, encDigest⟩

/-- Named view of a (possibly only partly) parsed `signedData`. -/
structure SignedV where
  contentType : List Nat
  content : RawVal
  certs : Bytes
  signers : List P7Signer

/-- The fields of `signedData` that are used. -/
def SignedV.of (v : signedDataTy.interp) : SignedV :=
  match v with
  | (_, _, _, (_, ct, content, ()), (raw, ()), _, signers, ()) => ⟨ct, content, raw, signers.map P7Signer.of⟩

/-- pkcs7.go:211-222 `rawCertificates.Parse`. -/
def parseRawCerts (env : CertEnv) (raw : Bytes) : Go (Option (List Cert)) :=
  if raw = [] then .ok (some [])
  else match unmFirst env.toAsnEnv .rawValue raw with
    | .error p => .error p
    | .ok none => .ok none
    | .ok (some (v, _)) => parseCerts509 env (RawVal.bytes v)

/-- pkcs7.go:185-197: the content; `true`: it could be read. The bytes themselves are not used by the verifier. -/
def contentReadable (env : AsnEnv) (content : RawVal) : Go Bool :=
  if content.bytes = [] then .ok true
  else match unmFirst env .rawValue content.bytes with
    | .error p => .error p
    | .ok none => .ok false
    | .ok (some (v, _)) =>
      if RawVal.isCompound v then
        match unmFirst env .octets (RawVal.bytes v) with
        | .error p => .error p
        | .ok none => .ok false
        | .ok (some _) => .ok true
      else .ok true

/-- pkcs7.go:175-209 `parseSignedData`. The error of `Unmarshal` is ignored (:178), the fields read before it are used. -/
def parseSignedData (env : CertEnv) (data : Bytes) : Go (Option P7) :=
  match unmarshalRaw env.toAsnEnv signedDataTy data with
  | .error p => .error p
  | .ok (v, _) =>
    let sd := SignedV.of v
    match parseRawCerts env sd.certs with
    | .error p => .error p
    | .ok none => .ok none
    | .ok (some certs) =>
      match contentReadable env.toAsnEnv sd.content with
      | .error p => .error p
      | .ok false => .ok none
      | .ok true => .ok (some ⟨certs, sd.signers, sd.contentType⟩)

/-- pkcs7.go:224-233 `parseEnvelopedData`: no certificates, signers or content type. -/
def parseEnveloped (env : CertEnv) (data : Bytes) : Go (Option P7) :=
  match unmFirst env.toAsnEnv envelopedTy data with
  | .error p => .error p
  | .ok none => .ok none
  | .ok (some _) => .ok (some ⟨[], [], []⟩)

/-- pkcs7.go:167-173: dispatch on the content type. -/
def dispatchP7 (env : CertEnv) (oid : List Nat) (content : RawVal) : Go (Option P7) :=
  if oid = [1,2,840,113549,1,7,2] then parseSignedData env content.bytes
  else if oid = [1,2,840,113549,1,7,3] then parseEnveloped env content.bytes
  else .ok none

/-- pkcs7.go:157-174, `Parse` after the conversion to DER. -/
def parseP7Der (env : CertEnv) (der : Bytes) : Go (Option P7) :=
  match unmAll env.toAsnEnv contentInfoTy der with
  | .error p => .error p
  | .ok none => .ok none
  | .ok (some v) => dispatchP7 env v.2.1 v.2.2.1

/-- marshal.go:592-750, one `SignerAttribute`: the type and the encoded value as it was read (`FullBytes`; when it is empty the
    value is encoded from its parts, which does not happen for a parsed attribute). -/
def marshalAttr (a : P7Attr) : Option Bytes :=
  match encodeOid a.type with
  | .error _ => none
  | .ok o => some (tlv 0 true 16 (tlv 0 false 6 o ++ a.full))

/-- The encodings of all elements (marshal.go:535-558). Sorting them is commented out there. -/
def marshalAttrList : List P7Attr → Option Bytes
  | [] => some []
  | a :: as =>
    match marshalAttr a, marshalAttrList as with
    | some x, some xs => some (x ++ xs)
    | _, _ => none

/-- pkcs7.go:1042-1054 `MarshalAuthenticatedAttributes`: the SET, taken out of the SEQUENCE around it by unmarshalling; an
    error of `Unmarshal` is ignored. -/
def marshalAuthAttrs (env : AsnEnv) (attrs : List P7Attr) : Go (Option Bytes) :=
  match marshalAttrList attrs with
  | none => .ok none
  | some body =>
    match unmarshalRaw env .rawValue (tlv 0 true 16 (tlv 0 true 17 body)) with
    | .error p => .error p
    | .ok (v, _) => .ok (some (RawVal.bytes v))

/-- Drop the panic outcome; `unmarshalRaw_total` and the theorems based on it show that there is none. -/
def noPanic {α : Type} : Go (Option α) → Option α
  | .ok r => r
  | .error _ => none

/-- asn1andr.Unmarshal of an RDNSequence, trailing bytes ignored (schemev1.go:666). -/
def rdnsParse (env : AsnEnv) (b : Bytes) : Go (Option RawRdns) :=
  match unmFirst env rdnsTy b with
  | .error p => .error p
  | .ok none => .ok none
  | .ok (some (v, _)) => .ok (some (rdnsOf v))

/-- asn1andr.Unmarshal of an object identifier or a byte slice, trailing bytes ignored (pkcs7.go:1030). -/
def unmValue (env : AsnEnv) (t : Ty) (b : Bytes) : Go (Option t.interp) :=
  match unmFirst env t b with
  | .error p => .error p
  | .ok none => .ok none
  | .ok (some (v, _)) => .ok (some v)

/-- asn1andr.Unmarshal of a struct of two integers (schemev1.go:865, :892); a nil integer is dereferenced. -/
def rsParse (env : AsnEnv) (b : Bytes) : Go (Option (Int × Int × Bytes)) :=
  match unmFirst env rsTy b with
  | .error p => .error p
  | .ok none => .ok none
  | .ok (some (v, rest)) =>
    match (v.2.1 : Option Int), (v.2.2.1 : Option Int) with
    | some r, some s => .ok (some (r, s, rest))
    | _, _ => .error .nilDeref

/-- The environment of the v1 verifier with all unmarshalling done by the modelled code. -/
def concreteEnv1 (ce : CertEnv) (env : Env1) : Env1 :=
  { env with
    parseCertAndr := fun b => (noPanic (parseCert509 ce b)).map Prod.fst
    parsePKIX := fun b => (noPanic (parsePKIXKey ce b)).map Key.pub
    parseP7 := fun der => noPanic (parseP7Der ce der)
    parseRdns := fun b => noPanic (rdnsParse ce.toAsnEnv b)
    unmOid := fun b => noPanic (unmValue ce.toAsnEnv .oid b)
    unmOctets := fun b => noPanic (unmValue ce.toAsnEnv .octets b)
    marshalAttrs := fun l => noPanic (marshalAuthAttrs ce.toAsnEnv l)
    asn1AndrRS := fun b => noPanic (rsParse ce.toAsnEnv b) }

end Apk
