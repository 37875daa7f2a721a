import Verif.Spec.V3
import Verif.Model.Stamp
/-! # Specification of source stamps, independent of the code -/
namespace Apk

/-- One (algorithm, digest) pair as it is signed. -/
def pairMsg (code : Nat) (d : Bytes) : Bytes :=
  leBytes 4 (8 + d.length) ++ leBytes 4 code ++ leBytes 4 d.length ++ d

/-- The pair for a digest that may be absent. -/
def optMsg (code : Nat) : Option Bytes → Bytes
  | none => []
  | some d => pairMsg code d

/-- The message a stamp signs for a set of content digests, given as a partial function: the pairs in order of their
    algorithm codes. -/
def stampMsg (look : CD → Option Bytes) : Bytes :=
  optMsg 1 (look .chunked256) ++ optMsg 2 (look .chunked512) ++ optMsg 3 (look .verity256) ++ optMsg 4 (look .nonChunked256)

/-- First platform whose Java crypto providers support a signature algorithm. -/
def platformOf (a : Nat) : Int :=
  if a ∈ [0x0101, 0x0102] then 23
  else if a ∈ [0x0103, 0x0104, 0x0301, 0x0421, 0x0425] then 1
  else if a ∈ [0x0201, 0x0202, 0x0423] then 11
  else 2147483647

/-- A signature list of a stamp is well formed: records have an algorithm id, those with a supported one a body. -/
def StampSigsWF (recs : List Bytes) : Prop :=
  ∀ rec ∈ recs, 4 ≤ rec.length ∧ (0 < algStrength (recAlg rec) → ∃ s, RecBody rec s)

/-- `s` is the signature for the supported algorithm `a`: the last record with that id. -/
def StampSig (recs : List Bytes) (a : Nat) (s : Bytes) : Prop :=
  0 < algStrength a ∧ ∃ pre rec post, recs = pre ++ rec :: post ∧ recAlg rec = a ∧ RecBody rec s ∧ ∀ x ∈ post, recAlg x ≠ a

/-- `sigs` is a list of signatures by `key` over `msg` that covers the platforms `minSdk … maxSdk`: some signatures
    (`chosen`) are valid, one is understood by the platform `minSdk`, and every signature understood by a platform of the
    range is matched by a chosen one that the same platforms understand and that is at least as strong. -/
def StampSigned (env : Env) (key : PubKey) (minSdk maxSdk : Int) (msg sigs : Bytes) : Prop :=
  ∃ (recs : List Bytes) (chosen : List (Nat × Bytes)), LPList sigs recs ∧ StampSigsWF recs ∧
    (∀ p ∈ chosen, StampSig recs p.1 p.2 ∧ platformOf p.1 ≤ maxSdk ∧ SigValid env key p.1 msg p.2) ∧
    (∀ a s, StampSig recs a s → platformOf a ≤ maxSdk →
      ∃ p ∈ chosen, platformOf p.1 = platformOf a ∧ algStrength a ≤ algStrength p.1) ∧
    ∃ p ∈ chosen, platformOf p.1 ≤ minSdk

/-- Same, without any choice: every signature of maximal strength for its platform is valid. -/
def StampSignedAll (env : Env) (key : PubKey) (minSdk maxSdk : Int) (msg sigs : Bytes) : Prop :=
  ∃ recs, LPList sigs recs ∧ StampSigsWF recs ∧
    (∀ a s, StampSig recs a s → platformOf a ≤ maxSdk →
      (∀ a' s', StampSig recs a' s' → platformOf a' = platformOf a → algStrength a' ≤ algStrength a) →
      SigValid env key a msg s) ∧
    ∃ a s, StampSig recs a s ∧ platformOf a ≤ maxSdk ∧ platformOf a ≤ minSdk

/-- Signature list of one scheme inside the list of schemes: the last one with that scheme id. -/
def StampScheme (schemes : Bytes) (id : Int) (sigs : Bytes) : Prop :=
  ∃ items, LPList schemes items ∧ (∀ x ∈ items, ∃ k s t, x = leBytes 4 k ++ lp s ++ t ∧ k < 2 ^ 32 ∧ Small s) ∧
    ∃ pre k t post, items = pre ++ (leBytes 4 k ++ lp sigs ++ t) :: post ∧ k < 2 ^ 32 ∧ Small sigs ∧ toI32 k = id ∧
      ∀ x ∈ post, toI32 (recAlg x) ≠ id

/-- Attribute ids of a stamp. -/
def stampLineageId : Nat := 0x9d6303f7
/-- Attribute ids of a stamp. -/
def stampTimeId : Nat := 0xe43c5946

/-- A lineage of stamp certificates that ends with `c`. -/
def StampLineageOK (env : Env) (b : Bytes) (c : Cert) (nodes : List LNode) : Prop :=
  ∃ items, b = leBytes 4 1 ++ lpSeq items ∧ (∀ x ∈ items, Small x) ∧ ChainOK env env.parseCertAndr none items nodes ∧
    (nodes.map (·.cert.raw)).Nodup ∧ ∃ last, nodes.getLast? = some last ∧ last.cert.raw = c.raw

/-- A stamp attribute is fine: a lineage ends with the stamp certificate, a time is positive. -/
def StampAttrOK (env : Env) (c : Cert) (attr : Bytes) : Prop :=
  4 ≤ attr.length ∧
  (attrId attr = stampLineageId → ∃ nodes, StampLineageOK env (attr.drop 4) c nodes) ∧
  (attrId attr = stampTimeId → 12 ≤ attr.length ∧ 0 < toI64 (leNat ((attr.drop 4).take 8)))

/-- What is checked of the signed attributes: all are fine, or those before a lineage without nodes are (the library
    stops there). -/
def StampAttrsOK (env : Env) (c : Cert) (data : Bytes) : Prop :=
  ∃ attrs tail, data = lp attrs ++ tail ∧ Small attrs ∧
    ((∃ recs, LPList attrs recs ∧ ∀ x ∈ recs, StampAttrOK env c x) ∨
     ∃ pre x rest, attrs = lpSeq (pre ++ [x]) ++ rest ∧ (∀ y ∈ pre ++ [x], Small y) ∧ (∀ y ∈ pre, StampAttrOK env c y) ∧
       x = leBytes 4 stampLineageId ++ leBytes 4 1)

/-- An attribute of the signed attributes. -/
def HasStampAttr (data x : Bytes) : Prop :=
  ∃ attrs tail pre rest, data = lp attrs ++ tail ∧ Small attrs ∧ attrs = lpSeq (pre ++ [x]) ++ rest ∧ ∀ y ∈ pre ++ [x], Small y

/-- SHA-256 of the JAR manifest (empty when there is none or it cannot be read). -/
def jarManifestDigest (env : Env) (zip : Zip) : Bytes :=
  match zip.file (b!"META-INF/MANIFEST.MF") with
  | none => []
  | some f => match f.readAll 134217728 with
    | none => []
    | some b => env.sha256 b

/-- The content digests a stamp vouches for: those of the signature scheme, or, when there are none, the SHA-256 of the
    JAR manifest. -/
def stampDigests (cd : List (CD × Bytes)) (manifestDigest : Bytes) (t : CD) : Option Bytes :=
  if cd = [] then (if t = .nonChunked256 then some manifestDigest else none)
  else (cd.find? (fun p => decide (p.1 = t))).map (·.2)

/-- The layout of a stamp block: certificate, signed schemes, rest. -/
def StampLayout (block encoded schemes rest : Bytes) : Prop :=
  ∃ tail, block = lp (lp encoded ++ lp schemes ++ rest) ++ tail ∧ Small (lp encoded ++ lp schemes ++ rest) ∧
    Small encoded ∧ Small schemes

/-- The attribute part: signed data and signatures. -/
def StampAttrPart (rest data sigs : Bytes) : Prop := ∃ tail, rest = lp data ++ lp sigs ++ tail ∧ Small data ∧ Small sigs

/-- The scheme id under which a stamp lists the digests of a scheme: v3.1 shares that of v3. -/
def stampSchemeId (schemeId : Nat) : Int := if schemeId = 31 then 3 else schemeId

/-- The content of the ZIP entry `stamp-cert-sha256`. -/
def StampEntry (zip : Zip) (h : Bytes) : Prop :=
  ∃ f, zip.file (b!"stamp-cert-sha256") = some f ∧ f.readAll 65536 = some h ∧ h.length < 65536

/-- A valid stamp by certificate `c` over the digests `look` for scheme `id`. `Signed` is the notion of being signed. -/
def StampValid (env : Env) (Signed : PubKey → Bytes → Bytes → Prop) (zip : Zip) (block : Bytes) (id : Int)
    (look : CD → Option Bytes) (c : Cert) (attrs : Option Bytes) : Prop :=
  ∃ encoded schemes rest sigs, StampLayout block encoded schemes rest ∧ env.parseCertAndr encoded = some c ∧
    StampEntry zip (env.sha256 c.raw) ∧ StampScheme schemes id sigs ∧ Signed c.key (stampMsg look) sigs ∧
    match attrs with
    | none => rest = []
    | some data => rest ≠ [] ∧ ∃ asigs, StampAttrPart rest data asigs ∧ Signed c.key data asigs ∧ StampAttrsOK env c data

end Apk
