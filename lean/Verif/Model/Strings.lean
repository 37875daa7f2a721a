import Verif.Model.CertInfo
/-! # Human-readable renderings (schemev3lineage.go, signingblock.go, apilevel/levels.go) -/
namespace Apk

/-- Digits of a number in a base, least significant first, at least one (fmt's `%d` of a non-negative value). The fuel
    `n` is never exhausted. -/
def digitsRev (base : Nat) : Nat → Nat → List Nat
  | 0, n => [n % base]
  | fuel + 1, n => if n < base then [n] else n % base :: digitsRev base fuel (n / base)

/-- fmt `%d`. -/
def fmtDec (i : Int) : Bytes :=
  if i < 0 then 45 :: ((digitsRev 10 i.natAbs i.natAbs).reverse).map hexDigit
  else ((digitsRev 10 i.natAbs i.natAbs).reverse).map hexDigit

/-- fmt `%0wx` of a non-negative value: hexadecimal, at least `w` digits. -/
def fmtHexMin (w n : Nat) : Bytes :=
  (List.replicate (w - (digitsRev 16 n n).length) 0 ++ (digitsRev 16 n n).reverse).map hexDigit

/-- schemev3lineage.go:41-51: the names of the flags that have one, by bit number. -/
def capNames : List (Nat × Bytes) :=
  [(0, b!"InstalledData"), (1, b!"SharedUserId"), (2, b!"Permission"), (3, b!"Rollback"), (4, b!"Auth")]

/-- schemev3lineage.go:41-54: the text for bit `i`. `str` is the `String` method of the type: in the default case
    `fmt.Sprintf("0x%x", mask)` is applied to a value of a type that has that method, and for `%x` package fmt then calls it and
    writes the bytes of the resulting string in hexadecimal. -/
def capText (str : Nat → Option Bytes) (i : Nat) : Option Bytes :=
  match mget capNames i with
  | some s => some s
  | none =>
    match str (2 ^ i) with
    | none => none
    | some s => some (b!"0x" ++ hexEncode s)

/-- schemev3lineage.go:36-55: the loop over the bits. -/
def capTexts (str : Nat → Option Bytes) (c : Nat) : List Nat → Option (List Bytes)
  | [] => some []
  | i :: is =>
    if c.testBit i then
      match capText str i with
      | none => none
      | some s =>
        match capTexts str c is with
        | none => none
        | some l => some (s :: l)
    else capTexts str c is

/-- schemev3lineage.go:34-61 `LineageCertCaps.String`, with at most `depth` nested calls of the method; `none` if that is not enough
    (a call for which no depth is enough does not return: the Go program dies of stack exhaustion). `c` is the 32-bit pattern of the
    flags. -/
def capsEval : Nat → Nat → Option Bytes
  | 0, _ => none
  | depth + 1, c =>
    match capTexts (capsEval depth) c (List.range 31) with
    | none => none
    | some values => some (if values.length ≠ 0 then joinWith (b!"|") values else b!"None")

/-- signingblock.go:46-69: the named block ids (their values: signingblock.go:24-43). -/
def blockIdNames : List (Nat × Bytes) :=
  [(0x504b4453, b!"DependencyMetadata"), (0x71777777, b!"MeituanMetadata"), (0x2b09189e, b!"SourceStampV1 (deprecated)"),
   (0x6dff800d, b!"SourceStampV2"), (0x42726577, b!"VerityPadding"), (0x7109871a, b!"SchemeV2Signature"),
   (0xf05368c0, b!"SchemeV3Signature"), (0x1b93ad61, b!"SchemeV3.1Signature"), (0x2146444e, b!"PlayFrosting")]

/-- signingblock.go:46-69 `BlockId.String`. -/
def blockIdString (id : Nat) : Bytes :=
  match mget blockIdNames id with
  | some s => s
  | none => b!"Unknown (0x" ++ fmtHexMin 8 id ++ b!")"

/-- signingblock/signer.go:56-78: the named signature algorithms (their values: signer.go:17-30). -/
def algoNames : List (Nat × Bytes) :=
  [(0x0101, b!"SigRsaPssWithSha256"), (0x0102, b!"SigRsaPssWithSha512"), (0x0103, b!"SigRsaPkcs1V15WithSha256"),
   (0x0104, b!"SigRsaPkcs1V15WithSha512"), (0x0201, b!"SigEcdsaWithSha256"), (0x0202, b!"SigEcdsaWithSha512"),
   (0x0301, b!"SigDsaWithSha256"), (0x0421, b!"SigVerityRsaPkcs1V15WithSha256"), (0x0423, b!"SigVerityEcdsaWithSha256"),
   (0x0425, b!"SigVerityDsaWithSha256")]

/-- signingblock/signer.go:56-80 `SignatureAlgorithm.String`. -/
def algoString (algo : Nat) : Bytes :=
  match mget algoNames algo with
  | some s => s
  | none => b!"0x" ++ fmtHexMin 4 algo

/-- apilevel/levels.go:70-138: the named levels (their values: levels.go:11-48). -/
def levelNames : List (Int × Bytes) :=
  [(3, b!"V1_5_Cupcake"), (4, b!"V1_6_Donut"), (5, b!"V2_0_Eclair"), (6, b!"V2_0_1_Eclair"), (7, b!"V2_1_Eclair"), (8, b!"V2_2_Froyo"),
   (9, b!"V2_3_Gingerbread"), (10, b!"V2_3_3_Gingerbread"), (11, b!"V3_0_Honeycomb"), (12, b!"V3_1_Honeycomb"), (13, b!"V3_2_Honeycomb"),
   (14, b!"V4_0_1_ICS"), (15, b!"V4_0_3_ICS"), (16, b!"V4_1_JellyBean"), (17, b!"V4_2_JellyBean"), (18, b!"V4_3_JellyBean"),
   (19, b!"V4_4_KitKat"), (21, b!"V5_0_Lollipop"), (22, b!"V5_1_Lollipop"), (23, b!"V6_0_Marshmallow"), (24, b!"V7_0_Nougat"),
   (25, b!"V7_1_Nougat"), (26, b!"V8_0_Oreo"), (27, b!"V8_1_Oreo"), (28, b!"V9_0_Pie"), (29, b!"V10_0_Ten"), (30, b!"V11_0_Eleven"),
   (31, b!"V12_0_S"), (32, b!"V12_1_S_V2"), (33, b!"V13_0_TIRAMISU"), (34, b!"V14_0_UPSIDE_DOWN_CAKE"), (-1, b!"-Infinity"),
   (maxInt32, b!"+Infinity")]

/-- apilevel/levels.go:70-140 `String`. -/
def levelString (level : Int) : Bytes :=
  match mget levelNames level with
  | some s => s
  | none => fmtDec level

end Apk
