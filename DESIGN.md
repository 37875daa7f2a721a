# Formal model of avast/apkverifier in Lean 4

This file was first written before the proofs and is kept current.  Section 5 is the trusted base.

## 1. Layout

* `lean/Verif/Model/*.lean`  – the executable model; every definition cites the file and lines of /repo it models.
* `lean/Verif/Spec/*.lean`   – small independent specifications (encoders, predicates, reference algorithms).
* `lean/Verif/Proofs/*.lean` – helper lemmas.
* `lean/Verif/Props/*.lean`  – the property theorems (named `Cnn_...`) with satisfiability examples next to them.
* `lean/Verif/Toy*.lean`     – a concrete environment, concrete APKs and JARs used in examples and witnesses.
* `MANIFEST.json` maps property ids to theorem names, `seeded/LOG.jsonl` is the mutation log, `AXIOMS.txt` the output of
  `#print axioms` for every claimed theorem (regenerate with `tools/axioms.sh`).

## 2. Modelling decisions

* Bytes are `List UInt8`; a file is a byte list (`Model/Io` models the same functions over a reader whose calls may fail, C79).
* Go `int32`/`int64` values are `Int`/`Nat` with the wrap-around made explicit where the code can reach it.
* A Go `error` return is a value; errors are an enumeration `E` with one constructor per error site (message text is
  not modelled).  A Go panic is the left side of `Go α := Except Panic α`.
* A mutated `*VerificationResult` becomes a value threaded through the functions.
* A Go map is an association list; where the code iterates a map, the iteration order is an explicit argument
  (`Env.mapOrder`, `Env.cdOrder`, `Ord1`, `Zip1.keys`: arbitrary permutations), or a theorem shows the outcome to be
  invariant under permutation.
* Loops `for buf.Len() > 0 { item, err := getLenghtPrefixedSlice(buf) ... }` become `lpSplit` (cut the buffer into items
  and an optional framing error) followed by structural recursion over the items.
* `sort.Slice` on signers, digests and SET elements is an insertion sort (the results are proved to be *the* sorted
  permutation where ties cannot be observed); `sort.Sort` in `PickBestApkCert` is an arbitrary comparison/swap program
  (`SortProg`), because the comparison function there is not an order.
* External libraries are fields of a structure (`Env`, `Env1`, `EnvT`, `HashEnv`) over which every theorem is universally
  quantified: hash functions, x509 parsing, PKIX key parsing, RSA/ECDSA/DSA verification, `asn1.Unmarshal` of signature
  values and of the PKCS#7 structure (the last four are modelled too, in `Model/Unmarshal`, `X509` and `Pkcs7`, and plugged
  in by `concreteEnv1`; C54–C61 are about that instance), base64, lower-casing, the ZIP reader and the binary XML parser.  Only the output
  lengths of the hash functions are assumed.  Cryptographic claims are reductions: "either the files agree or here is an
  explicit collision / a signature the external verification function accepted".
* Recursion is structural or on fuel; where fuel is used, a lemma shows that it is never exhausted or the comment says
  why the bound is reached by no input.

## 3. Properties: model and proof method

Where the code violates a property, the violation is a theorem about a concrete input (`..._witness...`) and the part that
does hold is proved under the suffix `_partial`; the notes in `MANIFEST.json` say what is missing.

| id | model | proof |
|----|-------|-------|
| C01 | `findEocd`, `findEocdMaxCommentSize` over the byte list | loop invariant over comment sizes, soundness + completeness |
| C02 | `verifySigningBlock` | case analysis of the container stage |
| C03 | `findApkSigningBlock` | soundness + completeness against a layout predicate |
| C04, C05 | `parsePairs` | induction over the pair list; classification of malformed input |
| C06, C07 | `pickScheme`, `pickAndVerify` | case analysis |
| C08 | data sources | induction over the source list |
| C09, C10 | `oneMbDigest` with the concrete buffer writes | buffer invariant = spec; injectivity with collision extraction |
| C11, C12 | verity builder with the concrete level offsets | level induction = recursive Merkle spec; collision extraction |
| C13, C14 | `verify`, `verifyIntegrity` | composition of C09–C12 |
| C15 | `parseSignatures`, `compareAlgos` | induction; total preorder via rank function |
| C16–C18 | v2 `verifySigner`, `parseSigners` | iff with a relational spec; induction over signers |
| C19–C22 | v3 `verifySigner`, lineage, `finalizeResult` | as above, insertion sort lemmas |
| C23, C24 | v3.1, fallback | negation by witness + partial positive theorem |
| C25, C27, C28 | whole signing-block verification | case analysis; noninterference by simulation; permutations |
| C26 | all panicking operations are explicit | classification of the causes; four panicking APKs as witnesses |
| C29 | `getLenghtPrefixedSlice` | round trip |
| C30–C32 | source stamp | soundness, permutation invariance, injectivity, witness of tie nondeterminism |
| C33, C34 | frosting | round trip on varints; soundness of `parse`/`verifyApk` |
| C35, C36 | `verifyTop` | iff with a relational spec of the verdict; case analysis |
| C37 | v1 loading and `verify` | soundness of the scan; witness for scheme 3 |
| C38 | `verifyMainManifest` | induction over required paths; witness for AndroidManifest.xml |
| C39 | all v1 map iterations | permutation invariance by induction; witness for panic/error |
| C40, C48, C49 | `parseManifest` and a writer | round trip, partition, classification of panics |
| C41 | `ber2der` | mutual induction over trees; exact grammars of converted and of panicking inputs; witnesses |
| C42, C43 | DER primitives, padding | arithmetic; round trips; witnesses |
| C44 | `PickBestApkCert` | invariants of arbitrary sort programs; witnesses |
| C45 | `ExtractCertsReader` | simulation with `verify` |
| C46 | v1 chain building | termination measure, linkage by induction |
| C47 | `String` methods, `PkixNameToString` | injectivity by digit lemmas and finite tables; divergence by induction on depth |
| C50 | composition of v1 stages | soundness chain: file digest ← manifest ← signature file ← PKCS#7 signature |
| C51 | v1 panics | classification of the causes; witnesses |
| C52 | `getManifestInfo` | iff with a relational spec over token streams |
| C53 | `getMinSdkVersion` over accepted lineages | induction over the lineage; witness for the missing table entry |
| C54 | `parseField` over a type universe `Ty` | mutual induction over types: decoder ⇔ grammar, unambiguity, locality |
| C55, C56 | `Parse`, `parseSignedData` on `Unmarshal` and `ber2der` | composition of C41 and C54; error analysis of partial decodings |
| C57 | decoding of `(r, s)` | C54 at that type |
| C58 | `MarshalAttributes` | encoder correctness and injectivity |
| C59–C61 | `ParseCertificate`, `ParsePKIXPublicKey`, modulus repair | composition with C54; arithmetic on two's complement; totality |
| C62, C63 | all of the v1 scheme | iff with a declarative specification (`Spec/V1Exact`), order independence |
| C64 | `pkixCanonical` | injectivity of the rendering up to `plainValue` |
| C65 | `ParseCertificate`, `ParsePKIXPublicKey` | iff with a declarative specification (`Spec/X509`) over ASN.1 schemas |
| C66 | `pkcs7.Parse` | iff with `Spec/P7Exact`, composed from C41, C54, C56 and C65 |
| C67 | `parseUTCTime`, `parseGeneralizedTime`, `append*Time`; `time.Parse`/`Format` for the three layouts | iff with the texts and a day count (`Spec/Time`), the closed formula for days proved by induction over years and months |
| C68 | `parseUTF8String`, `parseBMPString`; `utf8.Valid`, `utf16.Decode`, `string([]rune)` | iff with Lean's `Char` and `String.utf8EncodeChar` (`Spec/Utf`) |
| C69 | `elliptic.Unmarshal` on the four NIST curves, with `parsePublicKey` | iff with the curve equation over the integers modulo p (`Spec/Curve`); acceptance of every point via C65 |
| C70 | warnings in `verifySigner` (v2, v3), `parseSigners`/`finalizeResult` (v3.1), fallback, frosting | exact list (`Spec/Warnings`) by following the accepted run signer by signer; uniqueness of the list by unique parsing |
| C71 | the whole signing-block path | a reference signer (`Spec/Sign`) written from the description of the schemes; its output is parsed back by the specification (`V2Block`, `V3Block`, lineage), then `verdict_complete` and totality of the accepted run |
| C72 (and C49 exactly) | `parse` of manifest.go | a grammar (`Spec/ManifestExact`) that does not mention the parser; completeness and a case distinction (accepted, panics, error) by induction over lines, attributes and sections |
| C73 | the whole v1 path with the concrete parsers | a reference JAR signer (`Spec/JarSign`) written from the JAR specification and RFC 2315; its manifests are read back by the round trip of C48, its blocks by C55/C66, then completeness of C62 |
| C74 | the package API | C71 and C73 composed through `C35_accepted_iff`; a toy APK with two v1 signers and v2/v3/v3.1 blocks meets all hypotheses |
| C75 | asn1andr/marshal.go over the universe `Ty`, bytes in place of encoders; `sortSets` selects between the fork and encoding/asn1 | induction over types: what `makeField` writes is in the grammar `Reads` (C54), so `C54_accepts_exactly_the_grammar` gives the value back; negations by evaluation; the hand model of the attribute set (C46, C58) is shown to be `Marshal` of its struct |
| C76 | `pkcs7.Parse` with the contents and all fields of the signer infos, `Verify`, `GetOnlySigner`, `UnmarshalSignedAttribute`, signature algorithm selection (fullsailor/pkcs7/x509.go) | iff with `Spec/P7Message` (C54, C56, C65 for the parts; the re-encoding of the attributes through the model of Marshal, C75); examples by evaluation |
| C77 | `NewSignedData`, `AddSigner`, `AddCertificate`, `Detach`, `Finish`, `DegenerateCertificate` on top of the model of Marshal; histories of calls as lists of steps | invariant over the steps; what Marshal writes is DER (C75) and an encoding in the sense of RFC 2315 (`MessageEnc`), which Parse reads (C41, C54, C65, C76); the signed bytes are recomputed from the attributes as read; example by evaluation |
| C78 | `Encrypt`, `Decrypt` with the ciphers as parameters; EnvelopedData of RFC 2315 | the loop over the parts of the ciphertext against `OctetRun`; iff with `Decrypts` in `Spec/Envelope`; what Encrypt writes is DER and an `EnvelopeEnc` (C75, C77), which Parse reads; the exact panics through `unpad` (C43); example by evaluation |
| C79 | the reader as an oracle that may fail at any numbered call (`Model/Io`: the same program with the calls threaded through) | case lemma per function ("as on the file, or failed"), the hashers in lock step against one after the other; acceptance after an unreadable digest through `Verdict` of C13; witnesses for what does not hold |
| C80 | the rest of `parseCertificate`: what is made of each extension, and the conversion to the standard type (`Model/CertFull`) | `Spec/CertFull`: each field as a relation to the last / all extensions of a kind (RFC 5280), on top of the grammar of C54; soundness by induction over the extensions with the fields found so far, completeness from uniqueness of the relation and totality of the parser |
| C81 | nothing new: the verdicts of two runs on different ranges | monotonicity of the specification (`Verdict`) in the range: attributes are looked at from 28 / 33 on, coverage of a range is coverage of its parts, uniqueness of the readings of a block; soundness of the first run and completeness of the second (C06, C13, C17); toy APKs for the limits |
| C82 | certinfo.go `String`, schemev3lineage.go `Dump`, the date arithmetic and the two layouts of Go `time` | the date of a day by the division of 400-year cycles, against days counted one year and one month at a time (Spec/Time); texts of fixed width are told apart part by part; a common name chosen for the ambiguity |
| C83 | internal/x509andr/verify.go, cert_pool.go, `CheckSignatureFrom` in x509.go | chains as paths (Spec/Chain) without pools or caches; soundness by induction on the depth of the search with the cache as invariant; completeness: what was explored without result is closed under the steps that are possible, except for the path; host names by labels |
| C84 | internal/x509andr/pem_decrypt.go | encryption as relation (Spec/Pem: header, derived key, padding, CBC), shown equivalent to success of decryption; uniqueness of plaintext and ciphertext in CBC mode; encryption produces it |
| C85 | internal/x509andr/pkcs1.go, pkcs8.go, sec1.go | decoded fields to keys and back; leading zeros by the value of byte strings; orders of the curves in decimal (model) and hexadecimal (specification) |
| C86 | internal/x509andr/x509.go:628-635, 1492-1754 | the writer of extensions against the parser of them (C79), step by step, by the round trip of C75; what the certificate says is specified as a function of the template |
| C87 | internal/x509andr/x509.go:76-107, 359-395, 1751-1931 | the bytes that `CreateCertificate` writes are read back field by field (round trip of C75; the kept copy of the signed part by its header), then the parser (C79), the extensions (C86) and the checker of signatures (C83) |
| C88 | internal/x509andr/cert_pool.go:21-26, 69-143 | induction over the blocks of the text; the pool by the invariant of C83; equal bytes give equal certificates by C80 |

## 4. Defects of the code found by the proofs

Each is a proved statement about the model (a witness theorem, or visible in the specification).

1. The content digests of a v3.1 block are dropped: a v3.1 signer's digests are never compared with the file (C23).
2. After the fallback from v3 to v2 certificates and lineage of the failed scheme stay in the result (C24).
3. schemev3.go:198 compares a variable with itself: the signed maximal SDK version is not checked (C19).
4. `getMinSdkVersion` lacks `SigRsaPssWithSha256`: a lineage then reports 2147483647 (C53).
5. v1: the contents of AndroidManifest.xml are covered by no digest check (C38).
6. `X-Android-APK-Signed` is only checked for scheme 2 (C37).
7. Panics in manifest.go (C49), ber.go (C41), `verifySignature` of the signing block (C26), schemev1.go (C51),
   `unpad` (C43) and frosting (negative key index, C26).
8. Canonical names are not injective (special characters become a lone backslash, unknown attribute types vanish): names
   that differ there are taken for the same issuer (C64).
9. Source stamp: a missing `stamp-cert-sha256` entry only warns; an empty stamp lineage stops attribute parsing silently;
   ties between signatures are decided by map order (C30, C32).
10. `PickBestApkCert` ranks valid certificates last and its comparison is no order (C44).
11. An unreadable manifest lifts the sandbox/target SDK rules for archives with only a v1 signature; a broken signing
    block counts as absent (C35).
12. The verity digest covers the concatenation of the three sections only, not their boundaries: for entries of 0x054b5000 bytes two files with the same entries and signing block but different central directories are both accepted (C14, `C14_verity_split`).
13. An unknown name in `Digest-Algorithms` ends the check of the main attributes of a signature file (C62).
14. `LineageCertCaps.String` never returns for unknown flags, reachable from accepted APKs (C47).
15. `PkixNameToString` is ambiguous (C47).  DER: non-minimal lengths and base-128 numbers are accepted (C42).
16. RSA moduli encoded as negative INTEGERs whose first octet is 255 are repaired to a wrong number (C60).
17. The length of an explicit tag wrapper is not compared with its contents (C54); (r, s) values are malleable (C57).
18. What a UTCTime of the years 1950 to 1968 with a numeric zone means depends on the time zone of the machine (C67).
19. An APK whose key was changed from platform rot on is rejected for 33 <= maxSdk < rot although Android accepts it by its v3 block there (C71).
20. manifest.go: after a line that ends with a bare CR has been continued, the next LF becomes part of the value instead of ending the line (C72).
21. asn1andr: `Marshal` and `Unmarshal` disagree about explicit private tags, `application` with `private`, invalid UTF-8 in UTF8String, ENUMERATED beyond 32 bits, unset flags, the tags of raw values, and an optional explicit field left out before an empty last field (C75).
22. pkcs7.go `Verify`: the content type is not compared with the attribute, only the first messageDigest attribute counts, and a message with signed attributes can be turned by anyone into one without attributes whose contents are the encoded attributes and that verifies, too (C76). The v1 verifier checks the content type itself.
23. pkcs7.go `Encrypt` and `Decrypt` panic on keys that are not RSA keys, `Decrypt` also on a ciphertext that is not made of whole blocks or whose last byte after decryption is larger than its length; what follows the octet strings of a ciphertext in parts is dropped without an error; the length of the content key is not compared with the algorithm; AES-GCM parameters are not those of RFC 5084 (C78).
24. signingblock.go: `isZip64` answers no when it cannot read, so that a ZIP64 file is not refused; an I/O error while the signing block is located is reported as "signing block not found", which the package API takes for an APK without block and decides by the v1 signature alone; an I/O error during the digests of v3 (v3.1) makes the range below Android 9 fall back to v2 (to v3.1 again, with certificates listed twice) (C79).
25. internal/x509andr: the certificates that verification returns never have extended key usages (`C80_purposes_lost`); the class of the elements in alternative names, revocation lists and authority information is not checked (`C80_class_ignored`); of an extension given twice the last one counts (`C80_last_wins`).
26. signingblock.go: acceptance for a range of platforms does not mean acceptance on each of them: a valid v3 block hides a broken v2 block from a run over Android 7 to 15, although Android 7 looks at nothing else; a v3.1 APK accepted for [24, 35] is rejected for a range ending between 33 and the rotation (`C81_wide_range_hides_rejections`).
27. certinfo.go, schemev3lineage.go: the printed descriptions do not escape names: a subject can move the label of the issuer (`C82_description_ambiguous`), and with line ends in its common name one lineage node is printed like any two (`C82_dump_forged`); `Dump` ends the program for capabilities without names (`C82_dump_dies_iff`), which an accepted lineage may have. The comment of `CertInfo.String` shows another date layout than the code uses.
28. internal/x509andr/verify.go (not called by the verifier): what is found above an intermediate is kept without the path to it, so that with limits on path lengths a valid chain is missed or found depending on the order of the intermediates (`C83_chains_missed`); chains are returned twice (`C83_chain_example`); the purpose −1 admits every chain (`C83_sentinel_accepts`); the exemption for one public key is looked up in the signed certificate (`C83_entrust_child`); a star stands for an empty label (`C83_star_for_nothing`); constraints on names refuse every chain if no name is asked for (`C83_constraints_need_name`).
29. internal/x509andr (not called by the verifier): a wrong password for a PEM block is not always noticed (`C84_wrong_password_undetected`, documented in the code); trailing data is refused after RSA keys but ignored after EC keys and PKCS#8 containers (`C85_trailing`); zero is accepted as EC key and negative versions for RSA (`C85_zero_accepted`); the curve of the container overrides that of the key (`C85_container_wins`); writing an EC key loses the sign of the number and panics for numbers longer than the order (`C85_ec_sign_lost`, `C85_ec_marshal_panics`).
30. internal/x509andr/x509.go, `buildExtensions` (not called by the verifier): key usages beyond the ninth are lost (`C86_usage_lost`); addresses that are not of 4 or 16 bytes, empty names in critical name constraints and object identifiers with numbers beyond 31 bits give certificates that `ParseCertificate` refuses (`C86_wrong_address`, `C86_empty_constraint`, `C86_large_policy`); an unknown number of an extended key usage panics (`C86_unknown_panics`).
31. internal/x509andr/x509.go, `CreateCertificate` (not called by the verifier): MD5WithRSA can be asked for and a certificate is made (`C87_md5_made`), but `checkSignature` never accepts its signature (`C87_signature_verifies`).

## 5. Trusted base

* **Lean's kernel** (4.33.0).  No `native_decide`, no `bv_decide`, no axioms of our own.
* **Axioms.**  Only the standard `propext`, `Classical.choice`, `Quot.sound`; `AXIOMS.txt` lists them per theorem.
* **The model is a faithful transcription of the Go code.**  This is by reading, function by function; it cannot be checked
  here (no Go toolchain).  The semantics of Go built-ins (slices, maps, integer conversion, `bytes.Buffer`,
  `binary.LittleEndian`, `strings`, `strconv.ParseInt`, `fmt` verbs that are used) is transcribed by hand as well.
* **The specifications** in `Spec/` and the statements in `Props/`.

What is modelled, file by file:

| file | modelled | not modelled |
|------|----------|--------------|
| apkverifier.go | all of `VerifyWithSdkVersionReader`, `ExtractCertsReader`, the manifest encoder | opening files by name, the binary XML parser (parameter), error texts |
| certinfo.go | all | clock is an arbitrary sequence |
| manifest.go | all | – |
| schemev1.go | all | error texts and the names they mention |
| signingblock/signingblock.go | all except the convenience wrappers that open files; I/O errors in `Model/Io` | `ExtraBlocks[v3] = nil` in the fallback when there is no v3 block |
| signingblock/datasource.go, verity.go | all; I/O errors in `Model/Io` | the buffer pool |
| signingblock/signer.go, schemev2.go, schemev3.go, schemev31.go, schemev3lineage.go | all | error texts |
| signingblock/sourcestamp.go | all | error texts; times as Unix seconds |
| signingblock/frosting.go | all | the protobuf payload is opaque |
| signingblock/utils.go, verificationresult.go | all that is reachable | – |
| apilevel/levels.go | all | – |
| fullsailor/pkcs7/ber.go | all | stack exhaustion on deep nesting |
| fullsailor/pkcs7/pkcs7.go | `Parse` with the unmarshalling (C55, C56), the marshalling of attributes (C58), `Verify`, `GetOnlySigner`, `UnmarshalSignedAttribute` (C76), the making of signed messages (C77), `Encrypt`, `Decrypt` (C78), `pad`, `unpad` | ciphers, RSA; revocation lists of a message |
| fullsailor/pkcs7/x509.go | `getSignatureAlgorithmFromAI` (C76) | decoding of RSA-PSS parameters by encoding/asn1 |
| internal/asn1andr | `Unmarshal` over a universe of the supported kinds (`Ty`: the reflection on Go types becomes recursion on `Ty`), field tags, primitives; `Marshal` over the same universe (of this fork and, with sorted sets, of encoding/asn1) | character sets and times are parameters of the decoder (`AsnEnv`: `utf8Valid`, `utf16`, `utcTime`, `genTime`); the times are modelled separately (C67), and so are the character sets (C68); `goAsnEnv` puts them together |
| internal/x509andr | `ParseCertificate(s)`, `ParsePKIXPublicKey`, key parsing and repair, all fields of the certificate including the extensions (`Model/CertFull`), `ParseCertificateForGo`; `CheckSignatureFrom`, `Verify`, `VerifyHostname`, certificate pools (`Model/Chain`); encrypted PEM blocks (`Model/Pem`), private keys (`Model/PrivKey`), the extensions of a certificate made from a template (`Model/Create`), making certificates (`Model/CreateCert`), pools from PEM files (`Model/PoolPem`) | elliptic curve point decoding is a parameter (`CertEnv.point`), modelled in `goPoint` (C69); creating requests and revocation lists |

Check against real data: `Props/Real.lean` runs the model (in the kernel) on certificates and signature blocks made with OpenSSL, on the
certificate of `TestAsn1SuperfluousLeadingZeros` and on `META-INF/CERT.RSA` of the test APK of the project; everything recorded agrees
with OpenSSL, including the attributes that are re-marshalled for the signature check. These are tests of the model, not claims.

Further idealisations: memory is unlimited; the ZIP archive as seen by apkparser and the bytes of the file are independent
parameters (the theorems hold for every combination, in particular for the real one); `Zip` reading is deterministic.
