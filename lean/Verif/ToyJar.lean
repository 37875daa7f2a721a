import Verif.Toy
import Verif.ToyApk
import Verif.Model.V1
/-! # Concrete archives with v1 signatures, for witnesses -/
namespace Apk.Toy

/-- Hexadecimal digits. -/
def hexDigit (n : Nat) : UInt8 := if n < 10 then UInt8.ofNat (48 + n) else UInt8.ofNat (87 + n)
/-- Hexadecimal text. -/
def hex (b : Bytes) : Bytes := b.flatMap (fun c => [hexDigit (c.toNat / 16), hexDigit (c.toNat % 16)])
/-- Value of a hexadecimal digit. -/
def unhexDigit (c : UInt8) : Option Nat :=
  if 48 ≤ c.toNat ∧ c.toNat ≤ 57 then some (c.toNat - 48)
  else if 97 ≤ c.toNat ∧ c.toNat ≤ 102 then some (c.toNat - 87) else none
/-- Decoding of hexadecimal text; it plays the role of base64. -/
def unhex : Bytes → Option Bytes
  | [] => some []
  | [_] => none
  | a :: b :: r =>
    match unhexDigit a, unhexDigit b, unhex r with
    | some x, some y, some t => some (UInt8.ofNat (16 * x + y) :: t)
    | _, _, _ => none

/-- A toy signature for `checkSig`. -/
def signAny (k data : Bytes) : Bytes := k ++ leBytes 20 (poly data)

/-- The environment: signature blocks `[4, 1, n]` stand for the `n`-th element of a table. -/
def env1 (tbl : List P7) : Env1 :=
  { env with
    md5 := fun b => leBytes 16 (poly b)
    sha224 := fun b => leBytes 28 (poly b)
    sha224_len := fun _ => leBytes_length _ _
    toLower := lower
    base64 := unhex
    parseP7 := fun d => match d with | [4, 1, n] => tbl[n.toNat]? | _ => none
    parseRdns := fun b => some [[([2, 5, 4, 3], some b)]]
    unmOid := fun b => some (b.map (·.toNat))
    unmOctets := some
    marshalAttrs := fun as => some (as.flatMap (·.full))
    asn1AndrRS := fun s => match s with | a :: b :: r => some (a.toNat, b.toNat, r) | _ => none
    checkSig := fun c _ d s => decide (s = signAny c.key.id d) }

/-- A file with one copy. -/
def file (name data : Bytes) : ZFile := { name := name, readAll := fun _ => some data, attempts := [some data] }

/-- An archive of files with distinct names. -/
def zipOf (fs : List ZFile) : Zip := ⟨fs, fun k => fs.find? (fun f => decide (f.name = k))⟩

theorem zipOf_mem (fs : List ZFile) (k : Bytes) : k ∈ fs.map ZFile.name ↔ ((zipOf fs).file k).isSome := by
  simp only [zipOf, List.find?_isSome, List.mem_map, decide_eq_true_eq]

/-- The archive with an enumeration order of its files. -/
def zip1 (fs : List ZFile) (h : (fs.map ZFile.name).Nodup) : Zip1 :=
  ⟨zipOf fs, fs.map ZFile.name, h, zipOf_mem fs⟩

/-- Enumeration in list order. -/
def ord : Ord1 :=
  ⟨id, fun _ => .refl _, fun _ => id, fun _ _ => .refl _, id, fun _ => .refl _, fun _ => id, fun _ _ => .refl _⟩

/-- Enumeration of the signatures in the opposite order. -/
def ordRev : Ord1 :=
  ⟨List.reverse, fun l => l.reverse_perm, fun _ => List.reverse, fun _ l => l.reverse_perm, List.reverse, fun l => l.reverse_perm,
    fun _ => List.reverse, fun _ l => l.reverse_perm⟩

/-- A self-issued certificate with common name and key `n`. -/
def jcert (n : UInt8) : Cert :=
  { raw := [0xC0, 1, n], spki := [1, n], key := ⟨.rsa, 0, [1, n]⟩, issuer := { commonName := [n] }, subject := { commonName := [n] } }

/-- A signature block with one signer (SHA-1 with RSA) over the signature file. -/
def p7Of (n : UInt8) (sf : Bytes) : P7 :=
  { certs := [jcert n], contentType := [],
    signers := [{ issuer := [n], serial := 0, digestAlg := [1,3,14,3,2,26], encAlg := [1,2,840,113549,1,1,1], attrs := [],
                  encDigest := signAny [1, n] sf }] }

/-- A section of a manifest for a file. -/
def mfSection (name data : Bytes) : Bytes :=
  b!"Name: " ++ name ++ [13, 10] ++ b!"SHA1-Digest: " ++ hex (leBytes 20 (poly data)) ++ [13, 10, 13, 10]

/-- The main section of a manifest. -/
def mfMain : Bytes := b!"Manifest-Version: 1.0" ++ [13, 10, 13, 10]

/-- A manifest for the files. -/
def mfOf (fs : List (Bytes × Bytes)) : Bytes := mfMain ++ (fs.map (fun p => mfSection p.1 p.2)).flatten

/-- A signature file for the manifest of `fs`, with extra main attributes. -/
def sfOf (extra : Bytes) (fs : List (Bytes × Bytes)) : Bytes :=
  b!"Signature-Version: 1.0" ++ [13, 10] ++ extra ++ b!"SHA1-Digest-Manifest: " ++ hex (leBytes 20 (poly (mfOf fs))) ++ [13, 10, 13, 10] ++
    (fs.map (fun p => mfSection p.1 (mfSection p.1 p.2))).flatten

/-- A signed archive: the files, MANIFEST.MF, and one signature A by key 7. -/
def jar (extra : Bytes) (signed files : List (Bytes × Bytes)) : List ZFile :=
  files.map (fun p => file p.1 p.2) ++
    [file (b!"META-INF/MANIFEST.MF") (mfOf signed), file (b!"META-INF/A.SF") (sfOf extra signed), file (b!"META-INF/A.RSA") [4, 1, 0]]

/-- Environment in which block 0 is the signature of key 7. -/
def jarEnv (extra : Bytes) (signed : List (Bytes × Bytes)) : Env1 := env1 [p7Of 7 (sfOf extra signed)]

/-- Summary of an outcome: `none` panic, otherwise whether accepted, and the leaves. -/
def summary1 (r : Go (List (List Cert) × Option V1E)) : Option (Option V1E × List (List Bytes)) :=
  match r with
  | .error _ => none
  | .ok (c, e) => some (e, c.map (fun ch => ch.map Cert.raw))

end Apk.Toy
