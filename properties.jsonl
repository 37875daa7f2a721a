{"id": "C01", "title": "End-of-central-directory record is located soundly and deterministically", "statement": "Whenever signing-block verification gets past the ZIP footer, the EOCD record it uses starts with the EOCD magic, its comment length field makes the record end exactly at end of file, the central directory it names starts before it and ends exactly where the record starts, and no candidate record with a shorter comment existed; conversely if such a record with the shortest comment exists it is the one used.", "quantifier": "all files of any size (every byte string)", "why_tests_cant": "The candidate scan ranges over 65536 comment lengths and every possible byte content, including comments that embed fake EOCD records; tests sample a handful of APKs.", "anchors": ["signingblock/signingblock.go: findEocd, findEocdMaxCommentSize"]}
{"id": "C02", "title": "Unlocatable or ZIP64 containers are reported as 'signing block not found', never as verified", "statement": "If a file of at least 4 bytes has no usable EOCD record, or has a ZIP64 locator before it, or has no APK Signing Block, VerifySigningBlockReader returns an error recognised by IsSigningBlockNotFoundError, reports no certificates, and does not panic; a file shorter than 4 bytes gives a different error.", "quantifier": "all files, all SDK ranges", "why_tests_cant": "Totality over every malformed container is a universally quantified statement.", "anchors": ["signingblock/signingblock.go: newSigningBlock, findSignatureBlocks, isZip64, IsSigningBlockNotFoundError"]}
{"id": "C03", "title": "APK Signing Block location", "statement": "When a signing block is used, it lies immediately before the central directory, ends with the magic 'APK Sig Block 42', its header and footer size fields agree and equal its length minus 8, and it lies inside the file; and every block laid out that way (with size at most 2^31-1-8) is found.", "quantifier": "all files whose EOCD is located", "why_tests_cant": "Adversarial size fields (64-bit, overflow near 2^31, negative when reinterpreted) cannot be enumerated.", "anchors": ["signingblock/signingblock.go: findApkSigningBlock"]}
{"id": "C04", "title": "ID-value pairs round trip and are partitioned correctly", "statement": "For every list of ID-value pairs with non-empty values, encoding it into a signing block and parsing it back gives exactly: for v2/v3/v3.1 ids supported by the maximum SDK and for the source stamp id, the last value with that id is used for verification; verity padding and frosting are consumed; every other id, every unsupported scheme block, and a v3 block when v3.1 is supported, appears in ExtraBlocks with its last value, and nothing else does.", "quantifier": "all lists of (id, value) pairs, all max SDK versions", "why_tests_cant": "Round trip over unbounded lists of arbitrary ids and values.", "anchors": ["signingblock/signingblock.go: findSignatureBlocks"]}
{"id": "C05", "title": "Malformed pair sequences are rejected without panicking", "statement": "If the pair area of the signing block is not a concatenation of well-formed pairs (length prefix truncated, length below 4 or above 2^31-1, or longer than the remaining data) verification reports a not-found error; parsing always terminates and never reads outside the block.", "quantifier": "all byte strings in the pair area", "why_tests_cant": "Malformed inputs form an infinite adversarial set.", "anchors": ["signingblock/signingblock.go: findSignatureBlocks"]}
{"id": "C06", "title": "Strongest available scheme is chosen", "statement": "Among scheme blocks present and supported by the maximum SDK version, v3.1 is preferred to v3, v3 to v2; without any of them the result is scheme 1 with a not-found error.", "quantifier": "all sets of blocks and all SDK ranges", "why_tests_cant": "Quantifies over all subsets of blocks with arbitrary contents and all 2^64 SDK ranges.", "anchors": ["signingblock/signingblock.go: pickScheme, pickAndVerify", "apilevel/levels.go: SupportsSigV2, SupportsSigV3, SupportsSigV31"]}
{"id": "C07", "title": "Platforms below Android 7 ignore the signing block", "statement": "If the maximum SDK version is below 24, verification of a located signing block reports scheme 1, no certificates and no errors whatever the block contains.", "quantifier": "all files with a well-formed signing block, all max SDK < 24", "why_tests_cant": "For every block content.", "anchors": ["signingblock/signingblock.go: pickAndVerify", "apilevel/levels.go: SupportsSigV2"]}
{"id": "C08", "title": "Chained data source equals the concatenation", "statement": "Reading (offset,size) from the chained view of the three APK sections yields exactly that slice of the concatenation of the sections, and is refused exactly when out of range.", "quantifier": "all section lists, offsets and sizes", "why_tests_cant": "Boundary-crossing reads over arbitrary section sizes including empty sections.", "anchors": ["signingblock/datasource.go: dataSourceChained.writeTo, dataSourceApk.writeTo, dataSourceBytes.writeTo"]}
{"id": "C09", "title": "1 MiB chunk digest equals the APK Signature Scheme v2 specification", "statement": "The computed CHUNKED_SHA256/SHA512 content digest equals H(0x5a || le32(#chunks) || H(0xa5 || le32(len c) || c) for each chunk c) where each section is cut independently into 1 MiB chunks, for every section size; it fails exactly when there are 2^21-1 or more chunks.", "quantifier": "all section contents, any hash function", "why_tests_cant": "Off-by-one at chunk boundaries and buffer offsets for all sizes up to terabytes.", "anchors": ["signingblock/signingblock.go: computeOneMbChunkContentDigests", "signingblock/datasource.go: chunkCount"]}
{"id": "C10", "title": "Chunk digest is binding", "statement": "If two APKs (three sections each) have the same chunked content digest then their sections have the same chunk sequence - hence the same concatenated contents - or an explicit collision of the underlying hash has been exhibited.", "quantifier": "all pairs of section lists", "why_tests_cant": "Injectivity modulo collisions is a statement about all pairs of files.", "anchors": ["signingblock/signingblock.go: computeOneMbChunkContentDigests"]}
{"id": "C11", "title": "Verity digest equals the fs-verity style Merkle root", "statement": "The verity content digest equals root || le64(total size) where root is the salted Merkle root of 4096-byte zero-padded pages of the concatenated sections; no buffer write is out of bounds and no error arises whenever the whole tree is smaller than 2^31 bytes and the first section is page aligned; an unaligned first section or a level of 2^31 bytes or more is an error (the gap between the two, some 254-256 GiB of contents, panics; 32-bit ZIP offsets cannot describe such a file).", "quantifier": "all section contents and sizes", "why_tests_cant": "Level offsets, incomplete pages and paddings depend on size arithmetic for every size.", "anchors": ["signingblock/verity.go: generateTreeRootHash, calculateLevelOffset, digestDataByChunks", "signingblock/signingblock.go: computeVerityContentDigest"]}
{"id": "C12", "title": "Verity digest is binding", "statement": "If two section lists have equal verity digests then their concatenated contents are equal or an explicit collision of the salted page hash has been exhibited.", "quantifier": "all pairs of section lists", "why_tests_cant": "Injectivity over all pairs.", "anchors": ["signingblock/verity.go: generateTreeRootHash"]}
{"id": "C13", "title": "A nil error from v2/v3 verification implies the signed digests match the file", "statement": "If VerifySigningBlockReader returns a nil error with scheme 2 or 3 then at least one content digest was declared by the accepted signers and every declared content digest equals the digest recomputed from the file with the EOCD offset field redirected to the signing block. (Stated also for scheme 31, where it is false for the digests of the v3.1 signers themselves: see C23.)", "quantifier": "all files, all SDK ranges, all crypto implementations", "why_tests_cant": "Integrity must hold for every adversarial file.", "anchors": ["signingblock/signingblock.go: verify, verifyIntegrity, computeContentDigests"]}
{"id": "C14", "title": "Tamper evidence", "statement": "If a file verifies with a nil error under v2/v3, and another file with the same signing block bytes also verifies in the same way, then both have the same bytes before the block, the same central directory and the same EOCD (up to the offset field), or an explicit hash collision is exhibited.", "quantifier": "all pairs of files", "why_tests_cant": "Relational property over all pairs of files.", "anchors": ["signingblock/signingblock.go: VerifySigningBlockReaderWithZip, verifyIntegrity"]}
{"id": "C15", "title": "Strongest supported signature algorithm is the one verified", "statement": "For each signer the signature that is cryptographically checked is the first one of maximal strength (SHA512 chunked > verity > SHA256 chunked) among the supported algorithms listed; unsupported algorithms only cause warnings; no supported signature is an error. The algorithm comparison is a total preorder.", "quantifier": "all signature record lists", "why_tests_cant": "All lists and all 2^32 algorithm ids.", "anchors": ["signingblock/signer.go: parseSignatures, compareAlgos, getDigestType, isSupported"]}
{"id": "C16", "title": "A v2 signer is accepted exactly when it satisfies the v2 specification", "statement": "Processing a v2 signer block records no error iff: the block parses, the selected signature verifies over the exact signed-data bytes under the declared public key, at least one certificate is listed and all parse, the first certificate's SubjectPublicKeyInfo equals the public key, the list of digest algorithms equals the list of signature algorithms, the declared digest agrees with preceding signers, and no stripping-protection attribute is violated.", "quantifier": "all byte strings as signer blocks, all crypto implementations", "why_tests_cant": "An iff over all adversarial inputs.", "anchors": ["signingblock/schemev2.go: verifySigner", "signingblock/signer.go: parseSignatures, parsePublicKey, parseCertificates, parseDigests"]}
{"id": "C17", "title": "Every v2 signer must be valid and certificates are reported per signer in order", "statement": "If v2 verification returns no error then the block is a list of between 1 and 10 signers, every one of them is accepted, and the reported certificate chains are exactly the signers' certificate lists, in order.", "quantifier": "all v2 blocks", "why_tests_cant": "Unbounded numbers of signers; a single bad signer anywhere must be fatal.", "anchors": ["signingblock/schemev2.go: parseSigners, verifySigner", "signingblock/verificationresult.go: certAdder.append"]}
{"id": "C18", "title": "v2 stripping protection", "statement": "If the range includes Android 9+ and an accepted v2 signer declares that the APK was also signed with scheme k (2, 3 or 31), verification under v2 reports no error only if the block of scheme k is present among the extra blocks; unknown k is an error. For maximum SDK below 28 the attribute is ignored.", "quantifier": "all v2 signer attribute lists and extra-block maps", "why_tests_cant": "All attribute lists.", "anchors": ["signingblock/schemev2.go: verifySigner"]}
{"id": "C19", "title": "v3 signer acceptance including signed SDK range", "statement": "A v3 signer is accepted only if the signature covers signed data whose min SDK and max SDK equal the unsigned ones, plus all v2-like conditions. (The max SDK half is false of the code: a signer whose signed max SDK differs from the unsigned one is accepted.)", "quantifier": "all byte strings as v3 signer blocks", "why_tests_cant": "All adversarial signers.", "anchors": ["signingblock/schemev3.go: verifySigner"]}
{"id": "C20", "title": "v3 SDK range coverage", "statement": "If v3 finalisation adds no error, then the signers' SDK ranges, ordered by min SDK, are contiguous and without gaps or overlaps and together cover the requested range clamped to Android 9 (or up to rotation minimum minus one when a v3.1 block is present); the verdict does not depend on the order of signers with distinct minimum SDKs.", "quantifier": "all lists of signers and all requested ranges", "why_tests_cant": "All lists, all int32 values including overflow at MaxInt32.", "anchors": ["signingblock/schemev3.go: finalizeResult"]}
{"id": "C21", "title": "Signing lineage is a certificate chain of trust", "statement": "A lineage reported for a signer is non-empty, has pairwise distinct certificates, every node after the first is signed - over its certificate and declared parent algorithm - by the key of the previous node with the algorithm the previous node declared, and its last node is the signer's certificate.", "quantifier": "all lineage attribute byte strings", "why_tests_cant": "Unbounded chains.", "anchors": ["signingblock/schemev3.go: readSigningCertificateLineage, verifySigner", "signingblock/schemev3lineage.go: getSubLineage"]}
{"id": "C22", "title": "Consolidated lineage extends every signer's lineage", "statement": "If v3 verification reports no error, the reported SigningLineage is one of the signers' lineages and every signer's lineage is a prefix of it; absent iff no signer has one.", "quantifier": "all lists of lineages", "why_tests_cant": "Unbounded lists.", "anchors": ["signingblock/schemev3.go: finalizeResult, consolidateLineages", "signingblock/schemev3lineage.go: Equal"]}
{"id": "C23", "title": "v3.1 certificates are bound to the file", "statement": "If verification succeeds with scheme 3.1, the content digests signed by the v3.1 signers (whose certificates are reported) match the file. (False of the code: with a v3 base block present, the v3.1 signers' digests are never compared with the file; witness proved. What holds is that the v3 base block's digests match and that a missing v3 base block is an error.)", "quantifier": "all files with a v3.1 block", "why_tests_cant": "Adversarial combination of blocks from different APKs.", "anchors": ["signingblock/schemev31.go: parseSigners, finalizeResult", "signingblock/signingblock.go: verify"]}
{"id": "C24", "title": "v3 to v2 fallback only below Android 9, and reported certificates come from the scheme that verified", "statement": "An APK with a v3/v3.1 block whose verification fails is accepted under v2 only if the minimum SDK is below 28 and a v2 block is present; the v3 errors are kept as warnings. The certificates reported after a fallback belong to the v2 signers only. (The last sentence is false of the code: certificates of the failed v3 block stay first in the list; witness proved.)", "quantifier": "all files, all SDK ranges", "why_tests_cant": "All block combinations.", "anchors": ["signingblock/signingblock.go: VerifySigningBlockReaderWithZip"]}
{"id": "C25", "title": "Error result is exactly the last recorded error", "statement": "After blocks have been located, the returned error is nil iff Errors is empty, and otherwise is the last element of Errors; ContainsErrors agrees.", "quantifier": "all files", "why_tests_cant": "All executions.", "anchors": ["signingblock/signingblock.go: VerifySigningBlockReaderWithZip", "signingblock/verificationresult.go: GetLastError, ContainsErrors"]}
{"id": "C26", "title": "Signing-block verification never panics on hostile input", "statement": "For every file the verification returns normally. (False of the code: a signature algorithm that does not fit the public key type, an ECDSA/DSA signature with fewer than two integers or a DSA key with Q longer than 256 bits panics; witnesses proved, and panic-freedom is proved whenever every key/algorithm pair checked fits.)", "quantifier": "all files, all SDK ranges", "why_tests_cant": "Crash freedom over all inputs.", "anchors": ["signingblock/utils.go: verifySignature"]}
{"id": "C27", "title": "Play frosting, source stamp and unknown blocks never influence verdict or certificates", "statement": "Two signing blocks that differ only in frosting, source-stamp, padding and unknown entries, and locate identically, yield the same error, scheme id, certificates, lineage and v3 sub-result (for the scheme part of the verification).", "quantifier": "all pairs of pair lists", "why_tests_cant": "Noninterference is a relational property over all pairs.", "anchors": ["signingblock/signingblock.go: findSignatureBlocks, VerifySigningBlockReaderWithZip"]}
{"id": "C28", "title": "Verdict does not depend on map iteration order", "statement": "The order in which the content digests map is iterated changes neither whether integrity verification reports errors nor the set of errors.", "quantifier": "all digest maps and all iteration orders", "why_tests_cant": "Go randomises map order; tests see a few orders.", "anchors": ["signingblock/signingblock.go: verifyIntegrity, computeContentDigests"]}
{"id": "C29", "title": "Length-prefixed fields round trip and never read out of bounds", "statement": "Reading a length-prefixed slice from an encoding followed by anything returns exactly the encoded bytes and the rest; it fails exactly when fewer than four bytes remain, the length is negative as int32, or exceeds the remaining bytes.", "quantifier": "all byte strings", "why_tests_cant": "All inputs.", "anchors": ["signingblock/utils.go: getLenghtPrefixedSlice"]}
{"id": "C30", "title": "Source stamp is reported valid only if it is", "statement": "If the source-stamp result carries no error and no missing-file warning, and a stamp certificate, the stamp certificate's SHA-256 equals the content of the stamp-cert-sha256 ZIP entry, and a supported signature by the stamp certificate over the digests of the scheme that verified the APK was checked.", "quantifier": "all stamp blocks, content digests and ZIP contents", "why_tests_cant": "All adversarial stamps.", "anchors": ["signingblock/sourcestamp.go: VerifySourceV2Stamp, verifyV2Stamp"]}
{"id": "C31", "title": "Stamped digest encoding is order independent and injective", "statement": "The byte string signed by the stamp for a scheme is a function of the set of (algorithm, digest) pairs only, not of map iteration order, and distinct sets give distinct byte strings.", "quantifier": "all digest maps, all iteration orders", "why_tests_cant": "Permutation invariance and injectivity over all maps.", "anchors": ["signingblock/sourcestamp.go: getSignatureSchemeDigest"]}
{"id": "C32", "title": "Stamp signatures to verify", "statement": "For every SDK in the requested range in which some supported stamp signature is usable, a signature of maximal strength for that platform is verified; if none covers the minimum SDK the stamp is rejected. The choice must not depend on map order (false on ties between algorithms of the same digest type: witness proved).", "quantifier": "all signature maps and ranges", "why_tests_cant": "All maps and orders.", "anchors": ["signingblock/sourcestamp.go: filterSignaturesToVerify"]}
{"id": "C33", "title": "Frosting varint and array parsing", "statement": "Every 32-bit size encoded as protobuf-style varint is decoded back to itself consuming exactly its bytes; decoding never reads beyond the input; more than the allowed continuation bytes is an error; array item lookup returns exactly the requested slice or an error.", "quantifier": "all integers and byte strings", "why_tests_cant": "All encodings.", "anchors": ["signingblock/frosting.go"]}
{"id": "C34", "title": "Frosting is verified only if signed by the known key over the right digests", "statement": "If the frosting result has no error then the signature verifies under one of the pinned keys and the signed digests equal digests of the v2 block and of the file outside the signing block.", "quantifier": "all frosting blocks and files", "why_tests_cant": "All adversarial inputs.", "anchors": ["signingblock/frosting.go: parse, verifyApk"]}
{"id": "C35", "title": "Top-level verdict", "statement": "The top-level Verify returns nil error exactly if the signing block verified with v2+ and all platforms of the range know it, or the block is valid or absent and the v1 (JAR) signature verified, subject to these rules: a readable signing block with a scheme that the newest platform knows but which is invalid is never accepted through v1; a target sandbox version above 1 on Android 8+ requires scheme 2+ and a target SDK of 30+ requires scheme 2+ on Android 11+ (if the manifest can be read); min SDK above max SDK is an error. The scheme and certificates reported are those of the signature that was verified.", "quantifier": "all outcomes of the component verifiers and all parameters", "why_tests_cant": "Decision table with unbounded integers.", "anchors": ["apkverifier.go: Verify, VerifyWithSdkVersionReader"]}
{"id": "C36", "title": "Janus protection", "statement": "A file whose first four bytes are a DEX magic is never accepted through the v1 scheme: only with a valid signing block and a range without platforms that look at the v1 signature. ErrMixedDexApkFile means the signature is otherwise valid.", "quantifier": "all files", "why_tests_cant": "All files.", "anchors": ["apkverifier.go"]}
{"id": "C37", "title": "v1 signature downgrade detection", "statement": "A v1 signature file whose X-Android-APK-Signed attribute lists scheme 2 is rejected for SDK ranges that support v2 when no v2 signature verified. (Scheme 3 in the list is ignored by the code: witness.)", "quantifier": "all attribute values", "why_tests_cant": "All strings.", "anchors": ["schemev1.go"]}
{"id": "C38", "title": "v1 content coverage", "statement": "If v1 verification succeeds every non-directory, non-signature entry of the ZIP is listed in the manifest with a matching digest. (False of the code for AndroidManifest.xml: witness.)", "quantifier": "all ZIPs and manifests", "why_tests_cant": "All archives.", "anchors": ["schemev1.go: verifyMainManifest"]}
{"id": "C39", "title": "v1 verification is independent of map iteration order", "statement": "Whether v1 verification fails does not depend on the order of iterating the signature-file and manifest maps.", "quantifier": "all orders", "why_tests_cant": "Go randomises iteration.", "anchors": ["schemev1.go"]}
{"id": "C40", "title": "Manifest parsing is a partition and round trips", "statement": "Parsing a manifest written by the canonical writer (72-byte continuation lines) returns its sections; the raw chunks used for section digests are a partition of the input; duplicate section names are rejected; attribute lookup is case-insensitive.", "quantifier": "all manifests", "why_tests_cant": "All inputs.", "anchors": ["manifest.go"]}
{"id": "C41", "title": "BER to DER conversion", "statement": "On input that is already definite-length DER the conversion is the identity; on success the output uses only definite, minimal lengths and re-converting it changes nothing; nested indefinite-length values are flattened to the same tree of tags and contents. (False of the code for empty indefinite-length values; truncated headers panic; overlapping children make the output exponentially large: witnesses.)", "quantifier": "all BER byte strings", "why_tests_cant": "All trees of unbounded depth.", "anchors": ["fullsailor/pkcs7/ber.go"]}
{"id": "C42", "title": "DER primitive encoders round trip", "statement": "Length, tag, base-128, OID, int64 and big-integer encoders and the corresponding parsers are mutually inverse on the parsers' accepted canonical forms and never read out of bounds.", "quantifier": "all integers and byte strings", "why_tests_cant": "All values.", "anchors": ["internal/asn1andr/asn1.go", "internal/asn1andr/marshal.go", "internal/asn1andr/common.go"]}
{"id": "C43", "title": "PKCS#7 padding", "statement": "unpad(pad(x)) = x for every x and block size in 1..255, pad output length is a positive multiple of the block size, and unpad rejects every malformed padding. (unpad panics when the pad byte exceeds the data length: witness.)", "quantifier": "all byte strings and block sizes", "why_tests_cant": "All inputs.", "anchors": ["fullsailor/pkcs7/pkcs7.go: pad, unpad"]}
{"id": "C44", "title": "PickBestApkCert", "statement": "For a non-empty list the certificate picked is the leaf of one of the given chains and the caller's slice is only permuted; with one chain it is that chain's leaf; an empty list gives nil; no panic for chains reported by Verify or ExtractCerts. Among certificates with a non-empty validity period the picked one has the largest signature algorithm number (the first such chain for up to 12 chains); the documented preference for certificates that are not expired does not hold (witness), and the pick depends on the order (witness). The returned description belongs to the picked certificate.", "quantifier": "all chain lists, all clocks, all correct sorting algorithms", "why_tests_cant": "All lists, clocks and sorting algorithms.", "anchors": ["certinfo.go: PickBestApkCert, byPreference, Fill"]}
{"id": "C45", "title": "ExtractCerts agrees with verification", "statement": "The certificates returned by ExtractCerts are exactly those Verify reports when no fallback happens, and Extract reports an error whenever signer parsing recorded one; it checks no content digest.", "quantifier": "all files, all SDK ranges", "why_tests_cant": "All files.", "anchors": ["signingblock/signingblock.go: ExtractCertsReader, extractCerts"]}
{"id": "C46", "title": "v1 certificate chain building terminates and is linked", "statement": "The chain built for a v1 signer starts at the signer's certificate, consecutive elements are issuer-linked, every element comes from the PKCS#7 certificate set, and the length is bounded by the set size plus one.", "quantifier": "all certificate sets including cycles", "why_tests_cant": "Cycles and duplicates of any shape.", "anchors": ["schemev1.go"]}
{"id": "C47", "title": "Human readable renderings are faithful", "statement": "Rendering lineage capability flags returns a text that names exactly the flags that are set, and distinct flag sets have distinct texts; distinct block ids, API levels and signature algorithm ids have distinct texts. (False of the code for flag sets with an unknown flag: the method calls itself forever; such flags occur in accepted APKs. False for certificate names: the text is ambiguous.)", "quantifier": "all flag values, ids, levels, names", "why_tests_cant": "2^31 flag sets, all 32-bit ids; non-termination cannot be observed by a test.", "anchors": ["signingblock/schemev3lineage.go: LineageCertCaps.String", "signingblock/signingblock.go: BlockId.String", "apilevel/levels.go: String", "signingblock/signer.go: SignatureAlgorithm.String", "signingblock/utils.go: PkixNameToString"]}
{"id": "C48", "title": "A manifest section's bytes determine its attributes", "statement": "Two manifests, parsed successfully, that contain a byte-identical individual section (the bytes whose digest a signature file covers) give the same attributes to that section's entry, whatever surrounds it; every parsed entry has such a section; the same holds for the main section. So a section digest in a signature file pins the file digests of that entry.", "quantifier": "all pairs of manifest byte strings", "why_tests_cant": "All pairs of documents, any line-ending mix and continuation lines.", "anchors": ["manifest.go: parseManifest, readHeader, addAttribute"]}
{"id": "C49", "title": "Manifest parsing never panics", "statement": "Parsing any manifest bytes returns a result or an error, never a panic. (False of the code: witnesses; the exact inputs that panic are proved: a manifest that ends with the colon of an attribute, or an empty continuation line that is continued.)", "quantifier": "all byte strings", "why_tests_cant": "All inputs.", "anchors": ["manifest.go: readHeader, readValue"]}
{"id": "C50", "title": "Authenticity of v1-signed files", "statement": "Take an archive as a v1 signer produces it, with signature file S, and any other archive that v1 verification accepts and for which it reports a chain whose leaf key made, in that archive, no signature over anything but S. Then every regular file of the second archive outside META-INF, other than AndroidManifest.xml, exists in the first and has the same contents (a readable copy in common), and every file listed in S exists in the second, unless a hash collision between corresponding parts of the two archives can be exhibited. (For signature files written by signtool: provided the manifest has no carriage returns.)", "quantifier": "all pairs of archives, all signature sets, all SDK ranges", "why_tests_cant": "It quantifies over every archive an attacker could build.", "anchors": ["schemev1.go: verify, verifyManifestEntry, verifyFileHash", "manifest.go"]}
{"id": "C51", "title": "v1 verification never panics", "statement": "v1 verification and certificate extraction return a result or an error for every archive, never a panic. (False of the code: witnesses for each of the four causes; the proved part says there are no other causes.)", "quantifier": "all archives, all SDK ranges, all map orders", "why_tests_cant": "All archives.", "anchors": ["schemev1.go: verifySignature, checkSignature", "fullsailor/pkcs7/ber.go", "manifest.go"]}
{"id": "C52", "title": "What Verify reads from AndroidManifest.xml", "statement": "With minimum SDK -1, verification behaves exactly as if given the minSdkVersion of the first uses-sdk element of the first copy of AndroidManifest.xml (1 if absent), and uses that element's targetSdkVersion (0 if absent) and the last targetSandboxVersion declared before it (1 if absent); the values are decimal 32-bit numerals; nothing after that element matters.", "quantifier": "all manifest token streams, all archives, all files", "why_tests_cant": "Token streams of any length.", "anchors": ["apkverifier.go: getManifestInfo, sandboxVersionEncoder"]}
{"id": "C53", "title": "Reported minimum SDK version of a lineage", "statement": "When v3 or v3.1 verification accepts and a signing lineage is reported, the minimum SDK version reported with it is the first platform version on which every signature algorithm used in the lineage is supported, at least Android 9 (28). (False of the code for RSA-PSS with SHA-256, for which 2147483647 is reported: witness; proved for lineages without that algorithm.)", "quantifier": "all files, all lineages of any length, all SDK ranges", "why_tests_cant": "Lineages of any length and every combination of algorithms.", "anchors": ["signingblock/schemev3.go: getMinSdkVersion", "signingblock/signer.go: SignatureAlgorithm.getMinSdkVersion", "signingblock/schemev3lineage.go"]}
{"id": "C54", "title": "The ASN.1 decoder accepts exactly its grammar", "statement": "Unmarshalling any bytes into any supported Go type never panics; it succeeds with a value and a rest exactly when the consumed bytes are an encoding of that value for that type and its field tags (declarative grammar: headers, optional and default fields, implicit and explicit tags, sets, sequences, raw values); the value depends only on the consumed bytes, and no bytes encode two values.", "quantifier": "all types built from the supported kinds, all field tag strings, all byte strings", "why_tests_cant": "All types and all byte strings; unambiguity is about pairs of parses.", "anchors": ["internal/asn1andr/asn1.go: Unmarshal, parseField, parseSequenceOf, parseTagAndLength", "internal/asn1andr/common.go: parseFieldParameters"]}
{"id": "C55", "title": "Signature blocks are read back", "statement": "Parsing a PKCS#7 SignedData message whose certificates parse returns exactly the content type, the certificates in order and the signers (issuer, serial number, algorithms, authenticated attributes, encrypted digest) that the message encodes, for every BER form of the message (indefinite or long lengths) and whatever bytes follow it.", "quantifier": "all messages of the RFC 2315 grammar, all BER forms, all trailing bytes", "why_tests_cant": "Messages of any size with any number of certificates, signers and attributes.", "anchors": ["fullsailor/pkcs7/pkcs7.go: Parse, parseSignedData", "fullsailor/pkcs7/ber.go: ber2der", "internal/asn1andr/asn1.go: Unmarshal"]}
{"id": "C56", "title": "Only well-formed signature blocks have signers", "statement": "Although the decoder's error is ignored when the signed data is parsed, a block with at least one signer, and so every block whose signature is accepted, was decoded without an error: it is an encoding of a SignedData message with those signers and certificates.", "quantifier": "all byte strings", "why_tests_cant": "A claim about the absence of any malformed input that gets through.", "anchors": ["fullsailor/pkcs7/pkcs7.go: parseSignedData", "schemev1.go: verifySignature"]}
{"id": "C57", "title": "Decoding of (EC)DSA signature values", "statement": "A signature value decodes to the integers (r, s) exactly if it is an ASN.1 SEQUENCE starting with the two INTEGERs; so r and s are determined by the bytes. (Finding: the converse fails, every decodable value has further encodings with the same integers because extra elements are ignored.)", "quantifier": "all byte strings, all pairs of integers", "why_tests_cant": "All byte strings and all integers.", "anchors": ["schemev1.go: checkSignature", "internal/asn1andr/asn1.go: parseField"]}
{"id": "C58", "title": "The signed attributes are what is hashed", "statement": "For every decoded signer the attributes that the signature is checked over can be encoded (as a SET OF); the hashed bytes determine the list of attributes, so two signers with the same hashed bytes have the same attributes; attributes that stand in the message in DER are hashed byte for byte as they stand, with the SET tag in front.", "quantifier": "all messages, all pairs of signers", "why_tests_cant": "Lists of attributes of any length; injectivity is about pairs of messages.", "anchors": ["fullsailor/pkcs7/pkcs7.go: MarshalAttributes", "internal/asn1andr/marshal.go"]}
{"id": "C59", "title": "The reported certificate holds the verified key", "statement": "A parsed certificate records exactly its input bytes, its public key is the one in its subject public key info, and an accepted v2 or v3 signer signed its data with the key of the first certificate reported for it (for RSA keys: with a positive modulus).", "quantifier": "all certificates, all signers, all SDK ranges", "why_tests_cant": "All certificates and signers.", "anchors": ["internal/x509andr/x509.go: ParseCertificate, parsePublicKey, ParsePKIXPublicKey", "signingblock/schemev2.go: verifySigner", "signingblock/schemev3.go: verifySigner"]}
{"id": "C60", "title": "Repair of negative RSA moduli", "statement": "An RSA key whose modulus was encoded without the leading zero octet is read as the number its encoder meant; correctly encoded keys are read unchanged. (False of the code exactly for moduli whose first octet is 255, which lose that octet: proved both ways.)", "quantifier": "all moduli of any length", "why_tests_cant": "All integers of any size.", "anchors": ["internal/x509andr/x509.go: parsePublicKey"]}
{"id": "C61", "title": "The certificate and signature parsers never panic", "statement": "Parsing a certificate, a list of certificates, a public key, a PKCS#7 block in DER, a distinguished name or a signature value, and encoding signed attributes, returns a value or an error for every input.", "quantifier": "all byte strings", "why_tests_cant": "All inputs.", "anchors": ["internal/x509andr/x509.go", "internal/asn1andr/asn1.go", "internal/asn1andr/marshal.go", "fullsailor/pkcs7/pkcs7.go"]}
{"id": "C62", "title": "Exactly which archives the v1 scheme accepts", "statement": "v1 verification accepts an archive exactly when: it has one readable MANIFEST.MF; every signature block with a signature file beside it can be read; every such signature is valid (a signer matching a certificate, right digests, right signature, right main attributes or manifest digest); at least one and at most ten signatures count; none announces a scheme that is missing; every file listed in the manifest exists; and every required file has the right digest under the manifest and the same signers as the others. The reported chains are one for each signature that counts.", "quantifier": "all archives whose signature blocks have distinct names, all SDK ranges, all map orders", "why_tests_cant": "An equivalence over all archives: tests can show neither that nothing else is accepted nor that nothing else is required.", "anchors": ["schemev1.go: verifySchemeV1, newSchemeV1, verify, verifyManifestEntry, verifyMainManifest"]}
{"id": "C63", "title": "Extracting v1 certificates", "statement": "ExtractCerts for an archive with a v1 signature reports chains exactly for archives whose manifest and signatures can be read and all of whose signature blocks are signed, one chain for each, without looking at file digests; if verification accepts the archive then extraction succeeds too and reports at least the chains that verification reports.", "quantifier": "all archives whose signature blocks have distinct names, all SDK ranges, all map orders", "why_tests_cant": "Relates two API calls on every archive.", "anchors": ["schemev1.go: extractCerts, verify", "apkverifier.go: ExtractCertsReader"]}
{"id": "C64", "title": "Comparison of distinguished names", "statement": "Issuers and subjects count as equal exactly when the values of country, organization, unit, locality, province, street and postal code are alike in number and order, and the last common name and the last serial number are alike; values are alike when they agree up to letter case, outer and repeated spaces and the special characters \"\\,+<>; . (Finding: names that differ in such a character or in an attribute of another type are not told apart.)", "quantifier": "all pairs of names, any conversion to lower case that treats ASCII characters one by one", "why_tests_cant": "All pairs of names of any length.", "anchors": ["schemev1.go: pkixCanonical, pkixCanonicalSeq, byX501Canonical"]}
{"id": "C65", "title": "Exactly which certificates and public keys are accepted and what is recorded", "statement": "A certificate is accepted exactly when it follows the X.509 grammar with the leniencies of this parser, its key is an RSA, DSA or ECDSA key with admissible numbers (or of an unknown algorithm), its names are names and its extensions can be read; serial number, validity, names, signature algorithm, key, key info and the mark for unhandled critical extensions are then those that it encodes and are determined by the bytes. A public key of the signing block is accepted exactly when it is the key info of an RSA, DSA or ECDSA key. Two keys are the same for the verifier only if all their numbers agree.", "quantifier": "all byte strings; all elliptic curve point decoders and character set predicates", "why_tests_cant": "An equivalence over all byte strings.", "anchors": ["internal/x509andr/x509.go: ParseCertificate, ParseCertificates, parseCertificate, parsePublicKey, ParsePKIXPublicKey, parseSANExtension, getSignatureAlgorithmFromAI"]}
{"id": "C66", "title": "Exactly which signature blocks are accepted and what is recorded", "statement": "A signature file block (META-INF/*.RSA, *.DSA, *.EC) yields signers exactly when its bytes start with a BER value whose DER form is a ContentInfo of type signedData, with nothing after it, whose SignedData can be read with at least one signer, whose certificates are certificates one after the other and whose contents are absent or an octet string; the recorded certificates, signers (issuer, serial number, algorithms, attributes, signature) and content type are then those encoded, and they are determined by the bytes. Every RFC 2315 message with a signer is such a block. A message of type envelopedData is read exactly when it is one and nothing of it is recorded; messages of other types are refused.", "quantifier": "all byte strings", "why_tests_cant": "An equivalence over all byte strings.", "anchors": ["fullsailor/pkcs7/pkcs7.go: Parse, parseSignedData, rawCertificates.Parse, UnmarshalSignedAttribute", "fullsailor/pkcs7/ber.go: ber2der"]}
{"id": "C67", "title": "Times in certificates are read as what they say", "statement": "A UTCTime is accepted exactly if it is YYMMDDhhmm[ss] with Z or +hhmm/-hhmm (not +0000) of a date and time that exist, years 1950 to 2049; a GeneralizedTime exactly if it is YYYYMMDDhhmmss with such a zone. The instant is date and time minus the offset, the same on every machine; a text has one reading; a time that is written is read back as the same instant. The times recorded for a certificate are those of the two time elements in its validity.", "quantifier": "all byte strings, all dates and offsets, all local time zones of the machine", "why_tests_cant": "An equivalence over all byte strings and a round trip over all dates; the effect of the local time zone needs a machine in the right zone.", "anchors": ["internal/asn1andr/asn1.go: parseUTCTime, parseGeneralizedTime", "internal/asn1andr/marshal.go: appendUTCTime, appendGeneralizedTime, appendTimeCommon, outsideUTCRange"]}
{"id": "C68", "title": "Texts in certificates are read as what they say", "statement": "A UTF8String is accepted exactly if it is a sequence of Unicode characters in UTF-8, and recorded as it stands. A BMPString is accepted exactly if its length is even; two zero bytes at its end are dropped, the rest is read as UTF-16 with U+FFFD for every unpaired surrogate, and recorded in UTF-8; a text written in UTF-16 is read back as this text. What is recorded for NumericString, IA5String, UTF8String and BMPString is always text in UTF-8; a text has one reading.", "quantifier": "all byte strings, all sequences of Unicode characters", "why_tests_cant": "An equivalence over all byte strings and a round trip over all texts.", "anchors": ["internal/asn1andr/asn1.go: parseUTF8String, parseBMPString, parseNumericString, parseIA5String, parseT61String"]}
{"id": "C69", "title": "ECDSA keys are points of the curves they name", "statement": "The octets of an ECDSA key are accepted exactly if they are 4 followed by the coordinates, in the length of the prime, of a point of the named curve P-224, P-256, P-384 or P-521; every such point is accepted as a key with these coordinates, and two keys of a curve have the same octets exactly if they are the same point.", "quantifier": "all byte strings, all pairs of integers, the four curves", "why_tests_cant": "An equivalence over all byte strings and all points of four curves.", "anchors": ["internal/x509andr/x509.go: parsePublicKey, namedCurveFromOID, ParsePKIXPublicKey"]}
{"id": "C70", "title": "The warnings of an accepted APK are exactly those its blocks call for", "statement": "When VerifySigningBlock accepts, Warnings consists of one entry for each frosting block that is not valid, followed by the warnings of the signers of the scheme that accepted, in order: one for each signature with an unsupported algorithm, one for each unknown or misplaced attribute, and one if a v3.1 block says where rotation starts and the v3 signer has no attribute for it. For v3.1 these are the warnings of the v3.1 block followed by those of its v3 block, which are also those of the separate v3 result. After a fallback from v3 to v2 the errors of v3 are among the warnings, before those of the v2 signers. Nothing else is a warning, and the warnings of signers and blocks are determined by their bytes.", "quantifier": "all files, all SDK ranges, any number of signers, signatures and attributes", "why_tests_cant": "An exact list for every accepted file with any number of signers and attributes.", "anchors": ["signingblock/schemev2.go: verifySigner", "signingblock/schemev3.go: verifySigner", "signingblock/schemev31.go: parseSigners, finalizeResult", "signingblock/signer.go", "signingblock/signingblock.go: VerifySigningBlockReaderWithZip, findSignatureBlocks"]}
{"id": "C71", "title": "APKs signed according to the published description are accepted", "statement": "Take an unsigned ZIP and a signer whose certificate the library can read and whose signatures are valid for one of the ten algorithms, and sign it the way the description of the schemes says. Signed with v2 by one to ten signers it is accepted for every maxSdk from 24 on with the certificates of the signers in order. Signed with v2 and v3 it is accepted as v2 for maxSdk 24 to 27 and as v3 from 28 on. Signed after a change of key (v2 and v3 by the old signer, v3.1 from platform rot on by the new one, with a signed lineage of any length) it is accepted as v2 or v3 with the old certificates for maxSdk below 33, and as v3.1 with the new certificates and exactly the lineage that was signed from rot on. For 33 <= maxSdk < rot, where Android accepts by v3, the library rejects it. None of these runs panics.", "quantifier": "all ZIP contents, all signers, algorithms and keys, all lineages, all SDK ranges", "why_tests_cant": "Round trip between a signer and the verifier for every content, key, algorithm and lineage length.", "anchors": ["signingblock/signingblock.go: VerifySigningBlockReaderWithZip", "signingblock/schemev2.go", "signingblock/schemev3.go", "signingblock/schemev31.go", "signingblock/schemev3lineage.go", "signingblock/signer.go", "signingblock/utils.go"]}
{"id": "C72", "title": "Exactly which manifests are accepted and what they mean", "statement": "A manifest or signature file is accepted exactly if it is a run of attributes followed by named sections by a grammar of lines, continuation lines and blank lines (with no two sections of the same name in the main manifest), and the result is exactly what the grammar says: the last value of every attribute by lower-case name, the entries by name, the bytes of each section and the end of the main section. Values are read in one way only. The grammar has one irregularity: after a line that ends with a bare CR has been continued, the next LF is part of the value.", "quantifier": "all byte strings, main manifests and signature files", "why_tests_cant": "An equivalence over all byte strings.", "anchors": ["manifest.go: parse, readHeader, isValidName"]}
{"id": "C73", "title": "Archives with a JAR (v1) signature made according to the specification are accepted", "statement": "Take any set of files with distinct one-line names, none of them a file of a signature, with an Android manifest or a bundle configuration among them. Write MANIFEST.MF with a digest of every file (SHA-1 or SHA-256/384/512; lines of at most 70 bytes), and for each of one to ten signers a signature file with digests of the manifest, optionally of its main attributes, and of its sections, and an RFC 2315 block in any BER form whose signature, over the signature file or over authenticated attributes, is valid. Then the v1 verification accepts, for every SDK range in which some platform knows the digest algorithm, in every order of the archive's directory and of map iteration, and reports exactly one chain per signer; if X-Android-APK-Signed lists scheme 2 a signing block has to be there.", "quantifier": "all sets of files, contents, digest algorithms, numbers of signers, keys, block encodings, orders and SDK ranges", "why_tests_cant": "Round trip between a signer and the verifier for every archive and every iteration order.", "anchors": ["schemev1.go: verifySchemeV1", "manifest.go: parse", "fullsailor/pkcs7/pkcs7.go: Parse", "fullsailor/pkcs7/ber.go: ber2der"]}
{"id": "C74", "title": "Correctly signed APKs are accepted by the package", "statement": "For every SDK range, given or taken from the manifest: an APK that is signed with v2, with v2 and v3, or with v2, v3 and v3.1 after a change of key, and that is also signed with v1 if the range includes a platform before Android 7, is accepted by VerifyReader, with the scheme and the certificates of the newest scheme that the maximal platform knows; for ranges that end before Android 7 with the chains of the v1 signers. An APK that is signed with v1 only is accepted unless its manifest asks for more (sandbox version, target SDK) or its signature files say that there is a v2 signature. (After a change of key the range has to end before Android 13 or reach the platform of the change: C71.)", "quantifier": "all archives, signers, keys and SDK ranges", "why_tests_cant": "Composition of both verifiers for every signed archive and range.", "anchors": ["apkverifier.go: VerifyWithSdkVersionReader", "schemev1.go: verifySchemeV1", "signingblock/signingblock.go: VerifySigningBlockReaderWithZip"]}
{"id": "C75", "title": "What is marshalled is read back", "statement": "For every type built from the kinds that asn1andr supports (object identifiers, bit strings, times, integers, flags, big integers, strings, octet strings, raw values, interface{}, structs with tag strings, slices and sets): if Marshal writes a value, Unmarshal reads the encoding back as the same value and hands back exactly the bytes after it, provided that the tag strings mean the same in both directions, that fields that are left out cannot be mistaken for what follows them and that the values are in the range the reader accepts. Values with the same encoding are the same value. The same holds for encoding/asn1, except that the elements of a SET OF may come back in another order. Where the two directions disagree (explicit private tags, application with private, UTF8String contents, ENUMERATED beyond 32 bits, unset flags, tags of raw values, an explicit field left out before an empty last field) there are concrete values that are written and not read back. The attributes of a signer are written in the order in which they were read. What is written is DER (if the parts copied as they are, are) and ber2der leaves it unchanged.", "quantifier": "all types over the supported kinds, all values of them and all bytes that follow", "why_tests_cant": "Writer and reader are two recursive programs over types; a round trip test fixes one type and one value.", "anchors": ["internal/asn1andr/marshal.go: Marshal, makeField, makeBody", "internal/asn1andr/asn1.go: Unmarshal", "internal/asn1andr/common.go: parseFieldParameters", "fullsailor/pkcs7/pkcs7.go: MarshalAuthenticatedAttributes"]}
{"id": "C76", "title": "What pkcs7.Parse and Verify accept", "statement": "pkcs7.Parse on a SignedData yields the contents, certificates, signer infos (all fields) and content type that the bytes say, and only then signers; PKCS7.Verify on a parsed message (also after Content was set for a detached signature) succeeds exactly if there are signers and every signer's signature verifies, with the first certificate named by issuer and serial number and the algorithm its identifiers select, over the contents (no attributes) or over the DER SET of its attributes whose first messageDigest attribute is the digest of the contents; GetOnlySigner and UnmarshalSignedAttribute return exactly the named certificate and the first attribute of the type; none of them panics after Parse. Signed attributes bind the contents and are bound by the signed bytes up to order. Not checked: the content type, further messageDigest attributes, and whether signed bytes were meant as attributes or as contents.", "quantifier": "all byte strings, all messages, all contents, all cryptographic primitives, all target types", "why_tests_cant": "The statement is an equivalence over all messages and all signature primitives; tests cover a handful of fixed messages, and the confusion between attributes and contents is a statement about every message that verifies.", "anchors": ["fullsailor/pkcs7/pkcs7.go: Parse, parseSignedData, Verify, verifySignature, marshalAttributes, getCertFromCertsByIssuerAndSerial, getHashForOID, GetOnlySigner, unmarshalAttribute, UnmarshalSignedAttribute", "fullsailor/pkcs7/x509.go: getSignatureAlgorithmFromAI"]}
{"id": "C77", "title": "Signed messages that are made are read and verify", "statement": "Whatever is done between NewSignedData and Finish (any number of AddSigner with RSA keys and attributes of any type, AddCertificate, in any order, with or without Detach at the end): if the certificates and keys belong together and no two certificates have the same issuer and serial number, Parse reads the result back with the data (nothing after Detach), the certificates in order and exactly one signer per AddSigner that names its certificate and has the content type, digest, time and given attributes; Verify succeeds, after Detach once Content is set to the data, and with no contents of another digest. UnmarshalSignedAttribute returns the values that were signed. DegenerateCertificate gives a message with the certificates, no contents and no signers. Keys that are not RSA keys are refused. Any RFC 2315 SignedData is read as what it says. The order in which sort.Sort leaves attributes with equal keys does not matter.", "quantifier": "all data, all sequences of steps, all attributes and types, all certificates and keys, all signature primitives", "why_tests_cant": "A round trip between writer, reader and verifier over all histories of calls and all attribute types.", "anchors": ["fullsailor/pkcs7/pkcs7.go: NewSignedData, AddSigner, AddCertificate, Detach, Finish, signAttributes, marshalAttributes, attributes.ForMarshaling, cert2issuerAndSerial, marshalCertificates, DegenerateCertificate, Parse, Verify, UnmarshalSignedAttribute"]}
{"id": "C78", "title": "Encrypted messages that are made are decrypted by their recipients and by nobody else", "statement": "For any contents and any list of recipients with RSA keys, the result of Encrypt (DES-CBC or AES-128-GCM) is read by Parse and Decrypt returns the contents to each of the recipients; a certificate that is not among the recipients gets an error for any key. Decrypt returns contents exactly if the first recipient info with issuer and serial number of the certificate holds a content key that the private key decrypts, the algorithm is DES, Triple DES or AES in CBC mode (then key, initialization vector, whole blocks and padding are right) or AES in GCM mode with parameters as this package writes them. Exactly when Encrypt and Decrypt panic. Any RFC 2315 EnvelopedData is read as what it says; parameters as in RFC 5084 are refused.", "quantifier": "all contents, recipients, keys, random bytes and ciphers; all messages", "why_tests_cant": "A round trip and an equivalence over all messages, keys and ciphers.", "anchors": ["fullsailor/pkcs7/pkcs7.go: Encrypt, encryptAES128GCM, encryptDESCBC, encryptKey, marshalEncryptedContent, Decrypt, decrypt, selectRecipientForCertificate, unpad, Parse, parseEnvelopedData"]}
{"id": "C79", "title": "I/O errors do not turn a bad signing block into a good one", "statement": "However often and wherever Seek and Read of the given reader fail: if what they deliver is what the file has there and the file is not ZIP64, a signing block that is accepted is also accepted without failures, with the same scheme, certificates, lineage, warnings and stamp, except that for a range that begins before Android 9 a failure while the contents are digested can lead to the result of the second verification (v2, or v3.1 again), which leaves a warning; a frosting block reported as valid is reported so without failures; a package accepted with scheme 2 or later is accepted without failures. Without failures verification and extraction give exactly what they give on the bytes of the file. Not so: the ZIP64 check passes if its read fails, a failure while the signing block is located counts as \"no signing block\" and leaves the verdict to the v1 signature, and a reader that changes its contents in between is not noticed.", "quantifier": "all files, all readers over them with failures at any calls, all SDK ranges, all cryptographic primitives", "why_tests_cant": "It ranges over every combination of calls that can fail; a test injects a few.", "anchors": ["signingblock/signingblock.go: findEocd, findEocdMaxCommentSize, isZip64, findApkSigningBlock, findSignatureBlocks, computeOneMbChunkContentDigests, verifyIntegrity, pickAndVerify, VerifySigningBlockReaderWithZip, ExtractCertsReader", "signingblock/datasource.go: dataSourceApk, dataSourceChained", "signingblock/verity.go: generateTreeRootHash, digestDataByChunks", "signingblock/frosting.go: verifyApk, hashFileSection", "apkverifier.go: VerifyWithSdkVersionReader, ExtractCertsReader"]}
{"id": "C80", "title": "Every field of a returned certificate is what the certificate says", "statement": "The certificate that parsing gives for a byte string has exactly the fields the bytes say, and nothing that is not a certificate gives one: version, raw parts, signature, key algorithm, all extensions in order, key usage bits, basic constraints, alternative names, name constraints, revocation list URLs, key identifiers, purposes, policies, authority URLs, the unhandled critical extensions; of an extension given twice the last one counts, or both where the field collects. The fields the verifier looks at are those of the same certificate. Not so: the certificate that verification returns has no extended key usages at all, and the class of name elements is not looked at.", "quantifier": "all byte strings", "why_tests_cant": "It is about every field of every certificate with every list of extensions.", "anchors": ["internal/x509andr/x509.go: parseCertificate, parseSANExtension, ParseCertificate, ParseCertificateForGo, andrCertToGoCert, extKeyUsageFromOID", "internal/asn1andr/asn1.go: Unmarshal"]}
{"id": "C81", "title": "Narrowing the range of platforms keeps a verdict that rests on the same scheme", "statement": "An APK accepted for the platforms [a, b] through one scheme is accepted, through that scheme and with the same certificates, for every narrower range on which it is still the strongest one: v2 for every range that ends in [24, b] when there is no v3 block or the range ends before Android 9 (certificates left over from a failed v3 disappear); v3 for every range [c, d] with a <= c and 28 <= d <= b; v3.1 for every [c, d] with a <= c, 33 <= d <= b that reaches the first version a v3.1 signer targets, and through its v3 block when it ends in [28, 32] before that version. Not so for other narrower ranges: a valid v3 block hides a v2 block that Android 7 rejects, and a range that ends between Android 13 and the rotation is always rejected.", "quantifier": "all APKs, all pairs of a range and a narrower one, all cryptographic primitives", "why_tests_cant": "It relates two runs for every pair of ranges and every file; a test compares a few.", "anchors": ["signingblock/signingblock.go: VerifySigningBlockReaderWithZip, pickAndVerify, findSignatureBlocks", "signingblock/schemev2.go: verifySigner, parseSigners", "signingblock/schemev3.go: finalizeResult, verifySigner", "signingblock/schemev31.go: finalizeResult"]}
{"id": "C82", "title": "The descriptions of certificates and lineage nodes say what they describe", "statement": "The one-line description of a certificate is its SHA-1 fingerprint, the RFC 3339 texts of the two ends of its validity, its subject and its issuer; the dump of a lineage node has nine lines, with fingerprint, validity in UTC, issuer, subject, the two algorithms, the fingerprint of the signature and the capabilities. Dates and times of day are those of the instants, for every instant, and RFC 3339 texts have one meaning; fingerprint and validity can be read back from every description, subject and issuer if no subject contains the label of the issuer. A writer that fails has been given the beginning of the text. Not so: names are printed as they are, so a name can move the labels, and one lineage node can be printed as any two; printing a lineage node ends the program exactly if it has a capability without a name.", "quantifier": "all certificates, lineage nodes, instants and zones; all writers", "why_tests_cant": "It is about every date over ten thousand years and every name; a test prints a few certificates.", "anchors": ["certinfo.go: CertInfo.String", "signingblock/schemev3lineage.go: V3LineageSigningCertificateNode.Dump, LineageCertCaps.String", "signingblock/utils.go: PkixNameToString"]}
{"id": "C83", "title": "Certificate chains lead to a root, and host names are those of the certificate", "statement": "Certificate.Verify returns only chains that start at the certificate and end at a root, in which every certificate is signed by the next one, names it as its issuer, is valid at the time and admits the name, every intermediate is an authority and admits the number of certificates below it, no certificate occurs twice, and one of the purposes that are asked for is allowed by all of them; it always ends; a certificate that is itself a root is accepted exactly if it is usable; without limits on the length of paths every certificate that has a chain is accepted. VerifyHostname accepts exactly the addresses and names of the certificate: the same labels up to case, or a star as the first. Not so: with a limit, whether a chain is found depends on the order of the intermediates; the purpose -1 admits everything; one exemption is looked up in the wrong certificate; a star also stands for nothing.", "quantifier": "all certificates, roots, intermediates, times, names and purposes; all signature algorithms", "why_tests_cant": "It is about every graph of certificates, with cycles and cross-certificates, and every host name; tests verify a few chains.", "anchors": ["internal/x509andr/verify.go: Certificate.Verify, Certificate.VerifyHostname", "internal/x509andr/cert_pool.go: CertPool.AddCert", "internal/x509andr/x509.go: Certificate.CheckSignatureFrom, Certificate.CheckSignature"]}
{"id": "C84", "title": "Encrypted PEM blocks are decrypted to exactly what was encrypted", "statement": "DecryptPEMBlock returns exactly the data of which the block is the encryption, in CBC mode with RFC 1423 padding, with the cipher and the initialization vector that its header names and the key that is derived from the password; IncorrectPasswordError means exactly that what comes out is not padded. EncryptPEMBlock succeeds exactly with the five ciphers and enough random bytes, and its result decrypts to the data. Neither panics. Not so: a wrong password is not always noticed.", "quantifier": "all blocks, headers, passwords, data and random bytes; all block ciphers that can be inverted, all hash functions", "why_tests_cant": "It is about every length of the data and every header; a test has a few vectors.", "anchors": ["internal/x509andr/pem_decrypt.go: DecryptPEMBlock, EncryptPEMBlock, IsEncryptedPEMBlock"]}
{"id": "C85", "title": "Private keys that are parsed are those that are written", "statement": "ParsePKCS1PrivateKey accepts exactly one value without trailing data, of a known version, with positive numbers that make a valid key. ParseECPrivateKey accepts exactly numbers below the order of one of four curves, however many zeros lead; it never panics. ParsePKCS8PrivateKey accepts exactly containers of these, the curve of the container taking precedence. Keys that MarshalPKCS1PrivateKey and MarshalECPrivateKey write are read back; when they panic is known. Not so: trailing data is ignored except after RSA keys, zero is a key, the sign of a number is lost.", "quantifier": "all inputs, keys, numbers of primes and curves; all decoders that read back what the encoder writes", "why_tests_cant": "It is about every length of the number with its leading zeros and every number of primes; tests have a few keys.", "anchors": ["internal/x509andr/pkcs1.go: ParsePKCS1PrivateKey, MarshalPKCS1PrivateKey", "internal/x509andr/pkcs8.go: ParsePKCS8PrivateKey", "internal/x509andr/sec1.go: ParseECPrivateKey, MarshalECPrivateKey"]}
{"id": "C86", "title": "A certificate says what the template it was made from says", "statement": "The extensions that are written for a template, when a certificate with them is parsed, give back the fields of the template, and what extra extensions replace is left out; which extensions are written, in which order and which are critical is known, as are the templates for which writing fails or panics. A copy made from a certificate that was read says the same as that. Not so: key usages beyond the ninth are lost; addresses of other lengths, empty names in critical name constraints and large object identifiers give certificates that cannot be parsed; an unknown number of a purpose panics.", "quantifier": "all templates, authority keys and extra extensions", "why_tests_cant": "It relates the writer and the parser for all combinations of fields; tests have one template.", "anchors": ["internal/x509andr/x509.go: buildExtensions, marshalSANs, asn1BitLength, reverseBitsInAByte, oidInExtensions, oidFromExtKeyUsage, parseCertificate"]}
{"id": "C87", "title": "A certificate that was made is the certificate that was asked for", "statement": "What CreateCertificate returns, when it is parsed, is a certificate of version 3 with the serial number, times, names, key and extension fields that were asked for, the issuer of the parent and, if the names differ, the authority key of the parent; extra extensions follow, and those of unknown kinds are reported as not handled if they are critical; its algorithm is the one asked for or the default of the signer's key, and its signature is what the signer made of the hash of exactly the part that is said to be signed, with the hash function and padding of that algorithm. With an honest signer the check of the signature under the signer's key succeeds, and an authority with that key has signed it. Not so for MD5: such a certificate is made, but never accepted. Without a signer, a serial number or a suitable algorithm and key nothing is made; unknown purposes and missing hash functions panic.", "quantifier": "all templates, parents, keys and signers", "why_tests_cant": "It relates the writer, the signer, the parser and the checker of signatures for all combinations of fields; tests have a few templates.", "anchors": ["internal/x509andr/x509.go: CreateCertificate, signingParamsForPublicKey, rsaPSSParameters, marshalPublicKey, subjectBytes, ParseCertificate, checkSignature"]}
{"id": "C88", "title": "A pool has exactly the certificates of the PEM files that were read into it", "statement": "Reading a PEM file into a pool adds, in their order, the certificates of exactly those blocks that are called CERTIFICATE, have no headers and have a valid certificate in them, passes over all other blocks without an error or a panic, stops at the end or where no block follows, and reports whether there was a certificate. A pool has each certificate that was added once, the first of equal ones, and its subjects are those of these certificates.", "quantifier": "all texts, decoders of blocks that leave a shorter rest, and pools that were made by adding certificates", "why_tests_cant": "It is about the order and repetition of blocks of every kind in texts of every length.", "anchors": ["internal/x509andr/cert_pool.go: AppendCertsFromPEM, AddCert, contains, Subjects, NewCertPool"]}
