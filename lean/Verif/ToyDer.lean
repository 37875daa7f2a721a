import Verif.ToyJar
import Verif.Model.Pkcs7
/-! # Concrete certificates and signature blocks in DER, for witnesses -/
namespace Apk.Toy

/-- An element with identifier octet `id`. -/
def el (id : UInt8) (c : Bytes) : Bytes :=
  if c.length < 128 then id :: UInt8.ofNat c.length :: c
  else if c.length < 256 then id :: 0x81 :: UInt8.ofNat c.length :: c
  else id :: 0x82 :: UInt8.ofNat (c.length / 256) :: UInt8.ofNat (c.length % 256) :: c

/-- rsaEncryption -/
def oidRsa : Bytes := el 6 [42, 134, 72, 134, 247, 13, 1, 1, 1]
/-- sha1WithRSAEncryption -/
def oidSha1Rsa : Bytes := el 6 [42, 134, 72, 134, 247, 13, 1, 1, 5]
/-- SHA-1 -/
def oidSha1 : Bytes := el 6 [43, 14, 3, 2, 26]
/-- data, signedData, contentType, messageDigest -/
def oidP7 (arc : UInt8) : Bytes := el 6 [42, 134, 72, 134, 247, 13, 1, 7, arc]
/-- PKCS#9 attributes -/
def oidP9 (arc : UInt8) : Bytes := el 6 [42, 134, 72, 134, 247, 13, 1, 9, arc]
/-- NULL parameters. -/
def null : Bytes := [5, 0]

/-- A name with one common name. -/
def dName (cn : Bytes) : Bytes := el 48 (el 49 (el 48 (el 6 [85, 4, 3] ++ el 19 cn)))
/-- An RSA public key with the given modulus octets and exponent 65537. -/
def dSpki (n : Bytes) : Bytes := el 48 (el 48 (oidRsa ++ null) ++ el 3 (0 :: el 48 (el 2 n ++ el 2 [1, 0, 1])))
/-- A self-issued certificate with common name `cn`, serial number 77 and one critical extension that is not known (if asked for). -/
def dCert (cn n : Bytes) : Bytes :=
  el 48 (el 48 (el 0xA0 (el 2 [2]) ++ el 2 [77] ++ el 48 (oidSha1Rsa ++ null) ++ dName cn ++
      el 48 (el 23 (b!"200101000000Z") ++ el 23 (b!"300101000000Z")) ++ dName cn ++ dSpki n) ++
    el 48 (oidSha1Rsa ++ null) ++ el 3 [0, 1, 2, 3])

/-- Times: the first two digits are the year since 2000. -/
def ce : CertEnv where
  utf8Valid _ := true
  utf16 _ := []
  utcTime b := match b with
    | a :: b :: _ => some ((a.toNat : Int) * 10 + b.toNat)
    | _ => none
  genTime _ := none
  point _ _ := none

/-- Signed attributes: content type and message digest. -/
def dAttrs (md : Bytes) : Bytes :=
  el 48 (oidP9 3 ++ el 49 (oidP7 1)) ++ el 48 (oidP9 4 ++ el 49 (el 4 md))

/-- A signer info. -/
def dSigner (cn attrs sig : Bytes) : Bytes :=
  el 48 (el 2 [1] ++ el 48 (dName cn ++ el 2 [77]) ++ el 48 (oidSha1 ++ null) ++ el 0xA0 attrs ++ el 48 (oidRsa ++ null) ++ el 4 sig)
/-- SignedData with one certificate and one signer. -/
def dSigned (cn cert attrs sig : Bytes) : Bytes :=
  el 48 (el 2 [1] ++ el 49 (el 48 (oidSha1 ++ null)) ++ el 48 (oidP7 1) ++ el 0xA0 cert ++ el 49 (dSigner cn attrs sig))
/-- The message. -/
def dMsg (cn cert attrs sig : Bytes) : Bytes := el 48 (oidP7 2 ++ el 0xA0 (dSigned cn cert attrs sig))

/-- The environment of the verifier with the modelled decoders. -/
def derEnv : Env1 := concreteEnv1 ce (env1 [])

end Apk.Toy
