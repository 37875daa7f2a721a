import Verif.Spec.Verdict
/-!
# A reference signer

How an APK is signed, after the published description of the signature schemes v2 and v3: an unsigned ZIP consists of the entries,
the central directory and the EOCD record; the signer inserts a signing block before the central directory and corrects the offset
in the EOCD record.
-/
namespace Apk.Sign

/-- An EOCD record; `fields` are the disk numbers and entry counts. -/
def eocd (fields : Bytes) (cdSize cdOff : Nat) (comment : Bytes) : Bytes :=
  [0x50, 0x4b, 0x05, 0x06] ++ fields ++ leBytes 4 cdSize ++ leBytes 4 cdOff ++ (leBytes 2 comment.length ++ comment)

/-- An unsigned ZIP: entries, central directory, and the eight bytes of disk numbers and entry counts and the comment of the EOCD
    record. -/
structure Unsigned where
  head : Bytes
  cd : Bytes
  fields : Bytes
  comment : Bytes

/-- The sections of the unsigned ZIP. -/
def Unsigned.sections (u : Unsigned) : List Bytes := [u.head, u.cd, eocd u.fields u.cd.length u.head.length u.comment]

/-- A ZIP without ZIP64 locator. -/
structure Unsigned.Ok (u : Unsigned) : Prop where
  fields : u.fields.length = 8
  comment : u.comment.length ≤ 65535
  cd : u.cd ≠ []
  noZip64 : (u.cd.drop (u.cd.length - 20)).take 4 ≠ [0x50, 0x4b, 0x06, 0x07]

/-- The ZIP with a signing block that holds the given pairs. -/
def Unsigned.signed (u : Unsigned) (ps : List (Nat × Bytes)) : Bytes :=
  u.head ++ sigBlock (encPairs ps) ++ u.cd ++ eocd u.fields u.cd.length (u.head ++ sigBlock (encPairs ps)).length u.comment

/-- The comment holds no other EOCD record (nothing to check without comment). -/
def Unsigned.Last (u : Unsigned) (ps : List (Nat × Bytes)) : Prop :=
  ∀ c < u.comment.length, ∀ pre rec, ¬ EocdRecord (u.signed ps) pre rec c

/-- Who signs: algorithm, public key, certificates (that of the key first), and the signature function. -/
structure Signer where
  alg : Nat
  pk : Bytes
  certs : List Bytes
  sign : Bytes → Bytes

/-- The algorithm is one of the ten, the certificates are readable, the first one holds the public key, and the signatures are valid. -/
structure Signer.Good (env : Env) (s : Signer) (main : Cert) (more : List Cert) : Prop where
  alg : s.alg ∈ [0x0101, 0x0102, 0x0103, 0x0104, 0x0201, 0x0202, 0x0301, 0x0421, 0x0423, 0x0425]
  certs : s.certs.map env.parseCertAndr = (main :: more).map some
  main : main.spki = s.pk
  valid : ∃ key, env.parsePKIX s.pk = some key ∧ ∀ data, SigValid env key s.alg data (s.sign data)

/-- A signature or digest with its algorithm. -/
def record (alg : Nat) (x : Bytes) : Bytes := leBytes 4 alg ++ lp x

/-- The content digest for an algorithm. -/
def digestFor (env : Env) (u : Unsigned) (alg : Nat) : Bytes := (contentDigest env (algDigest alg) u.sections).getD []

/-- What a v2 signer signs: digests, certificates, attributes. -/
def signedDataV2 (env : Env) (u : Unsigned) (attrs : List Bytes) (s : Signer) : Bytes :=
  lp (lpSeq [record s.alg (digestFor env u s.alg)]) ++ lp (lpSeq s.certs) ++ lp (lpSeq attrs)

/-- A v2 signer: signed data, signatures, public key. -/
def signerV2 (env : Env) (u : Unsigned) (attrs : List Bytes) (s : Signer) : Bytes :=
  lp (signedDataV2 env u attrs s) ++ lp (lpSeq [record s.alg (s.sign (signedDataV2 env u attrs s))]) ++ lp s.pk

/-- What a v3 signer signs: digests, certificates, SDK range, attributes. -/
def signedDataV3 (env : Env) (u : Unsigned) (attrs : List Bytes) (s : Signer) (mn mx : Nat) : Bytes :=
  lp (lpSeq [record s.alg (digestFor env u s.alg)]) ++ lp (lpSeq s.certs) ++ leBytes 4 mn ++ leBytes 4 mx ++ lp (lpSeq attrs)

/-- A v3 signer: signed data, SDK range, signatures, public key. -/
def signerV3 (env : Env) (u : Unsigned) (attrs : List Bytes) (s : Signer) (mn mx : Nat) : Bytes :=
  lp (signedDataV3 env u attrs s mn mx) ++ leBytes 4 mn ++ leBytes 4 mx ++
    lp (lpSeq [record s.alg (s.sign (signedDataV3 env u attrs s mn mx))]) ++ lp s.pk

/-- A block with its signers. -/
def signers (l : List Bytes) : Bytes := lp (lpSeq l)

/-- The attribute of v2 signers that says that there is a v3 block as well. -/
def alsoV3 : Bytes := leBytes 4 0xbeeff00d ++ leBytes 4 3

/-- Signing with v2 only. -/
def pairsV2 (env : Env) (u : Unsigned) (ss : List Signer) : List (Nat × Bytes) := [(idV2, signers (ss.map (signerV2 env u [])))]

/-- Signing with v2 and v3. -/
def pairsV2V3 (env : Env) (u : Unsigned) (s : Signer) : List (Nat × Bytes) :=
  [(idV2, signers [signerV2 env u [alsoV3] s]), (idV3, signers [signerV3 env u [] s 28 2147483647])]

/-- A member of a lineage: the signer, its first certificate and its capabilities. -/
structure Member where
  signer : Signer
  cert : Bytes
  flags : Nat

/-- What the previous member of a lineage signs: the certificate of the next one and the algorithm used. -/
def memberData (prevAlg : Nat) (m : Member) : Bytes := lp m.cert ++ leBytes 4 prevAlg

/-- The entry of a member; the first one is not signed. -/
def memberEntry (prev : Option Member) (m : Member) : Bytes :=
  lp (memberData ((prev.map (·.signer.alg)).getD 0) m) ++ leBytes 4 m.flags ++ leBytes 4 m.signer.alg ++
    lp ((prev.map (fun p => p.signer.sign (memberData p.signer.alg m))).getD [])

/-- The entries of a lineage. -/
def lineageEntries : Option Member → List Member → List Bytes
  | _, [] => []
  | prev, m :: ms => memberEntry prev m :: lineageEntries (some m) ms

/-- The lineage attribute. -/
def lineageAttr (ms : List Member) : Bytes := leBytes 4 0x3ba06f8c ++ (leBytes 4 1 ++ lpSeq (lineageEntries none ms))

/-- The attribute of v3 signers that says where the v3.1 block takes over. -/
def rotationAttr (rot : Nat) : Bytes := leBytes 4 0x559f8b02 ++ leBytes 4 rot

/-- What is read of a member of a lineage. -/
def memberNode (prev : Option Member) (m : Member) (c : Cert) : LNode :=
  { cert := c, parentAlgo := (prev.map (·.signer.alg)).getD 0, algo := m.signer.alg,
    signature := (prev.map (fun p => p.signer.sign (memberData p.signer.alg m))).getD [], flags := m.flags }

/-- What is read of a lineage. -/
def lineageNodes : Option Member → List (Member × Cert) → List LNode
  | _, [] => []
  | prev, (m, c) :: ms => memberNode prev m c :: lineageNodes (some m) ms

/-- A member of a lineage: the certificate is readable and holds the key of the signer. -/
structure Member.Good (env : Env) (m : Member) (c : Cert) : Prop where
  alg : m.signer.alg < 2 ^ 32
  flags : m.flags < 2 ^ 32
  cert : env.parseCertStd m.cert = some c
  valid : ∀ data, SigValid env c.key m.signer.alg data (m.signer.sign data)

/-- Signing after a change of the key: v2 and v3 (up to `rot - 1`) by the old signer, v3.1 (from `rot` on) by the new one with the
    lineage that leads to it. -/
def pairsRotated (env : Env) (u : Unsigned) (old new : Signer) (ms : List Member) (rot : Nat) : List (Nat × Bytes) :=
  [(idV2, signers [signerV2 env u [alsoV3] old]), (idV3, signers [signerV3 env u [rotationAttr rot] old 28 (rot - 1)]),
   (idV31, signers [signerV3 env u [lineageAttr ms] new rot 2147483647])]

end Apk.Sign
