import Verif.Model.Block
import Verif.Model.V1
/-! # The package API: Verify, ExtractCerts and the reading of AndroidManifest.xml (apkverifier.go) -/
namespace Apk

/-- A token of the binary XML parser (github.com/avast/apkparser): a start element with the local names and values of its
    attributes, or anything else. -/
inductive XTok where
  | start (name : Bytes) (attrs : List (Bytes × Bytes))
  | other
deriving DecidableEq, Repr

/-- What the external parser does with a file: the tokens it delivers one after the other, and whether it then fails. -/
structure XDoc where
  toks : List XTok
  fails : Bool
deriving DecidableEq, Repr

/-- External functions of the package API, in addition to those of the two verifiers. -/
structure EnvT extends Env1 where
  /-- apkparser.ParseXml on the first copy of a file (the tokens do not depend on the encoder) -/
  axml : ZFile → XDoc

/-- Errors of `getManifestInfo` (apkverifier.go:235, :242, :250). -/
inductive ManE where
  | openFailed | parseFailed | badAttr
deriving DecidableEq, Repr

/-- `sandboxVersionEncoder` (apkverifier.go:178-182). -/
structure SdkInfo where
  min : Int
  target : Int
  sandbox : Int
deriving DecidableEq, Repr

/-- apkverifier.go:222-233 `getAttrIntValue`: `none` is `io.EOF`. -/
def attrInt : List (Bytes × Bytes) → Bytes → Except ManE (Option Int)
  | [], _ => .ok none
  | (n, v) :: as, name =>
    if n = name then
      match goParseInt32 v with
      | none => .error .badAttr
      | some i => .ok (some i)
    else attrInt as name

/-- apkverifier.go:184-216 `EncodeToken`; the Boolean is `ErrEndParsing`. -/
def encodeToken (e : SdkInfo) : XTok → Except ManE (SdkInfo × Bool)
  | .other => .ok (e, false)
  | .start name attrs =>
    if name = b!"manifest" then
      match attrInt attrs (b!"targetSandboxVersion") with
      | .error x => .error x
      | .ok v => .ok ({ e with sandbox := v.getD e.sandbox }, false)
    else if name = b!"uses-sdk" then
      match attrInt attrs (b!"minSdkVersion") with
      | .error x => .error x
      | .ok v =>
        match attrInt attrs (b!"targetSdkVersion") with
        | .error x => .error x
        | .ok w => .ok ({ e with min := v.getD e.min, target := w.getD e.target }, true)
    else .ok (e, false)

/-- apkparser.ParseXml with the encoder: tokens until the encoder ends the parsing or fails; `ErrEndParsing` is not an error. -/
def encodeAll (fails : Bool) : List XTok → SdkInfo → Except ManE SdkInfo
  | [], e => if fails then .error .parseFailed else .ok e
  | t :: ts, e =>
    match encodeToken e t with
    | .error x => .error x
    | .ok (e', true) => .ok e'
    | .ok (e', false) => encodeAll fails ts e'

/-- apkverifier.go:235-256 `getManifestInfo`: only the first copy is parsed; a file without copies gives zeros. -/
def getManifestInfo (env : EnvT) (z : Zip1) : Except ManE SdkInfo :=
  match z.zip.file (b!"AndroidManifest.xml") with
  | none => .ok ⟨1, 0, 1⟩
  | some f =>
    if !f.openOk then .error .openFailed
    else match f.attempts with
      | [] => .ok ⟨0, 0, 0⟩
      | _ :: _ => encodeAll (env.axml f).fails (env.axml f).toks ⟨1, 0, 1⟩

/-- Errors returned by `VerifyWithSdkVersionReader`. -/
inductive TopE where
  | zipOpen              -- :78
  | badRange             -- :98
  | block (e : E)        -- :114
  | sandbox              -- :123
  | targetSdk            -- :125
  | v1 (e : V1E)         -- :129
  | manifest (e : ManE)  -- :138
  | mixedDex             -- :140 ErrMixedDexApkFile
deriving DecidableEq, Repr

/-- `Result` (apkverifier.go:20-25). -/
structure TopRes where
  schemeId : Nat := 0
  certs : List (List Cert) := []
  block : Option VRes := none

/-- apkverifier.go:83-95: the minimal SDK version used, target SDK and sandbox versions, and the manifest error. -/
def sdkFacts (env : EnvT) (z : Zip1) (minSdk maxSdk : Int) : SdkInfo × Option ManE :=
  if minSdk = vAnyMin ∨ requiresSandboxV2 maxSdk = true then
    match getManifestInfo env z with
    | .error e => (⟨minSdk, 0, 0⟩, some e)
    | .ok i => (⟨if minSdk = vAnyMin then i.min else minSdk, i.target, i.sandbox⟩, none)
  else (⟨minSdk, 0, 0⟩, none)

/-- apkverifier.go:121-126. -/
def sandboxError (i : SdkInfo) (maxSdk : Int) (blockErr : Option E) (schemeId : Nat) : Option TopE :=
  if requiresSandboxV2 maxSdk = true ∧ 1 < i.sandbox ∧ (blockErr ≠ none ∨ schemeId < 2) then some .sandbox
  else if 30 ≤ i.target ∧ i.target ≤ maxSdk ∧ schemeId < 2 then some .targetSdk
  else none

/-- `dexHeaderMagic` (apkverifier.go:40). -/
def dexMagic : Nat := 0xa786564

/-- apkverifier.go:104-111: the result after the signing block. -/
def blockPart (out : Outcome) : TopRes :=
  match out.res with
  | none => ⟨1, [], none⟩
  | some r => if isNotFound out.err then ⟨1, [], some r⟩ else ⟨r.core.schemeId, r.core.certs, some r⟩

/-- apkverifier.go:128-144: the result and error after v1 verification. -/
def v1Part (i : SdkInfo) (manErr : Option ManE) (maxSdk : Int) (out : Outcome) (c : List (List Cert)) (e : Option V1E) : TopRes × Option TopE :=
  let b := blockPart out
  let res := { b with certs := if b.certs.length = 0 then c else b.certs }
  match sandboxError i maxSdk out.err b.schemeId with
  | some s => (res, some s)
  | none =>
    match e with
    | some e => (res, some (.v1 e))
    | none =>
      match (if b.schemeId ≠ 1 then manErr else none) with
      | some m => (res, some (.manifest m))
      | none => if out.magic = dexMagic then (res, some .mixedDex) else (res, none)

/-- apkverifier.go:74-145 `VerifyWithSdkVersionReader`; `z` is `none` if the ZIP archive cannot be opened. -/
def verifyTop (env : EnvT) (ord : Ord1) (z : Option Zip1) (file : Bytes) (minSdk maxSdk : Int) : Go (TopRes × Option TopE) :=
  match z with
  | none => .ok ({}, some .zipOpen)
  | some z =>
    let (i, manErr) := sdkFacts env z minSdk maxSdk
    if i.min > maxSdk then .ok ({}, some .badRange)
    else match verifySigningBlock env.toEnv z.zip file i.min maxSdk with
      | .error p => .error p
      | .ok out =>
        match (if isNotFound out.err then none else out.err) with
        | some e => .ok (blockPart out, some (.block e))
        | none =>
          if supportsSigV2 i.min = true ∧ out.err = none then .ok (blockPart out, none)
          else match verifySchemeV1 env.toEnv1 ord z out.err.isNone i.min maxSdk with
            | .error p => .error p
            | .ok (c, e) => .ok (v1Part i manErr maxSdk out c e)

/-- apkverifier.go:47-54 `Verify`. -/
def verifyDefault (env : EnvT) (ord : Ord1) (z : Option Zip1) (file : Bytes) : Go (TopRes × Option TopE) :=
  verifyTop env ord z file vAnyMin vAnyMax

/-- Errors of `ExtractCertsReader`. -/
inductive ExtE where
  | zipOpen | block (e : E) | v1 (e : V1E)
deriving DecidableEq, Repr

/-- apkverifier.go:157-176 `ExtractCertsReader`. -/
def extractTop (env : EnvT) (ord : Ord1) (z : Option Zip1) (file : Bytes) : Go (List (List Cert) × Option ExtE) :=
  match z with
  | none => .ok ([], some .zipOpen)
  | some z =>
    match extractCertsReader env.toEnv file vAnyMax with
    | .error p => .error p
    | .ok (c, e) =>
      if !isNotFound e then .ok (c, e.map .block)
      else match extractCertsV1 env.toEnv1 ord z vAnyMin vAnyMax with
        | .error p => .error p
        | .ok (c1, e1) => .ok (c ++ c1, e1.map .v1)

end Apk
