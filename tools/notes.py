PARTIAL = {'C67', 'C60', 'C53', 'C14', 'C19', 'C23', 'C24', 'C26', 'C32', 'C41', 'C43', 'C49', 'C38', 'C51', 'C47'}
NOTAPP = set()
NOTES = {
 'C30': 'Caveats of the code, visible in the statement: a stamp block without a stamp-cert ZIP entry yields only a warning, and a stamp lineage attribute without nodes stops attribute parsing without an error.',
 'C32': 'Order independence is refuted on ties by C32_tie_witness; the coverage and maximality parts are proved.',
 'C33': 'The fifth varint byte may set the sign bit (C33_negative_value).',
 'C34': 'Two size fields are not counted by the code, so the signed part may run over the end of the block by up to ten zero bytes; this is in the specification (FrostBlock).',
 'C05': 'A panic of the frosting parser on a value inside the area is the only other outcome (see C26).',
 'C14': 'Proved up to one explicit exceptional case of the verity digest: it covers only the concatenation of the three sections, so two splits of the same concatenation are not told apart (stated as a disjunct; excluded for files below the size at which it can occur). That case does occur: C14_verity_split proves, for any hash functions, two accepted files with the same entries and signing block and different central directories.',
 'C19': 'The max-SDK half is false of the code (schemev3.go:198 compares a variable with itself): C19_signed_max_sdk_not_checked is the witness; everything else is proved.',
 'C26': 'Refuted for the code: four panicking APKs are proved (C26_witnesses).  C26_panic_needs_misfit_partial bounds the causes: a key or signature that does not fit the declared algorithm of one signer, lineage step or stamp, or a negative varint in a frosting block.',
 'C23': 'Refuted for the code: witness proved.  The weaker facts that hold are the _partial theorems.',
 'C24': 'The last sentence is refuted by a witness; the rest is proved.',
 'C49': 'Refuted for the code by C49_panic_witnesses; C49_panic_iff says exactly which inputs panic.',
 'C41': 'Missing: indefinite-length values without children, which the code misreads (C41_empty_indefinite_misread). C41_exponential_output and C41_child_overruns_parent are further defects found.',
 'C43': 'Rejection of malformed padding is refuted by C43_malformed_padding_witnesses; C43_unpad_iff and C43_unpad_panics_iff say exactly what is accepted and when it panics.',
 'C38': 'Refuted for the contents of AndroidManifest.xml by C38_android_manifest_witness (its digest is never compared); directory entries are not checked either. The partial theorem covers every other regular file outside META-INF.',
 'C37': 'The code looks for scheme 2 only: a signature file that lists only scheme 3 does not count (C37_examples). Signature blocks of the same file name in different folders below META-INF override each other, hence DistinctStems in C37_downgrade_rejected; C37_loaded_signatures is without this assumption.',
 'C39': 'Acceptance and the set of chains are independent of the order; whether a failure is an error or a panic is not (C39_panic_or_error_witness).',
 'C51': 'Refuted for the code by C51_panic_witnesses; the partial theorems bound the causes.',
 'C35': 'Two limits of the rules are proved as witnesses: an unreadable manifest lifts the sandbox and target SDK rules for archives with a v1 signature only (C35_unreadable_manifest_witness), and a signing block that cannot be parsed counts as absent (C35_broken_block_counts_as_absent).',
 'C52': 'The binary XML parser (apkparser) is external: its token stream is a parameter. A manifest file without copies gives zeros instead of the defaults (visible in ManifestSays.no_copy).',
 'C44': 'sort.Sort is any algorithm that compares and swaps positions and sorts when the comparisons are consistent; the insertion sort that Go uses for up to 12 elements is modelled exactly.',
 'C47': 'Refuted for flag sets with an unknown flag (C47_caps_unknown_never_returns, C47_accepted_lineage_cannot_be_rendered) and for names (C47_names_ambiguous); everything else is proved.',
 'C53': 'Refuted for RSA-PSS with SHA-256 by C53_min_sdk_wrong_for_pss_sha256; proved for all other lineages.',
 'C54': 'Character set checks of UTF8String and BMPString contents and the two time formats are parameters of the model. C54_explicit_length_unchecked: the length of an explicit tag wrapper is not compared with its contents; the grammar says so.',
 'C55': 'The hypothesis on certificates is discharged by a concrete message with a concrete certificate (C55_message_example, C59_certificate_example).',
 'C57': 'C57_malleable is a defect: trailing elements inside the SEQUENCE are ignored.',
 'C60': 'The statement is false for moduli with first octet 255 (C60_repair_drops_ff, C60_wrong_modulus); C60_repair_exact says that this is exactly the failing case.',
 'C62': 'An oddity of the code is part of the specification: an unknown name in Digest-Algorithms ends the check of the main attributes (MainAttrsOk).',
 'C64': 'LowerCase is an assumption on strings.ToLower; the ASCII conversion satisfies it (lower_lowerCase).',
 'C65': 'Times, character sets and curve points are parameters, for which goCertEnv gives the models of C67 to C69; the code is more lenient than RFC 5280 in several places that the specification spells out (bytes after PSS parameters, the class of general names, the outer signature algorithm).',
 'C67': 'False of the code for UTCTimes with years 50 to 68 and a numeric zone: they are first taken for 2050 to 2068, and if the offset is the one of the local time zone then, the date a century earlier is evaluated with the rules of the local zone (C67_utc_depends_on_local_zone). All other times: proved in full; for these C67_utc_early_numeric says exactly what is reported.',
 'C68': 'utf8.Valid, utf16.Decode and the conversion of runes to strings of the Go standard library are modelled.',
 'C69': 'elliptic.Unmarshal of the Go standard library (nistec) is modelled with integers modulo the prime.',
 'C71': 'The exception between Android 13 and the rotation platform is a theorem of its own (C71_rotated_rejected_between). Frosting and stamp blocks are not part of the reference signer; verity algorithms need entries that end at a page boundary.',
 'C73': 'Text encoding of digests (base64) and strings.ToLower are parameters with the laws that are needed (TextCode, toLower of the empty string); certificates, blocks and attributes are the concrete parsers of C55 to C66.',
 'C74': 'The archive as read by the ZIP library and the bytes of the file are independent in the model; the theorems hold for every combination. C74_signed_rotated_accepted leaves out the ranges of the defect of C71.',
 'C76': 'Cryptography and the decoding of RSA-PSS parameters by encoding/asn1 are parameters. RawIssuer is re-read from the bytes of the certificate; revocation lists are not kept. For messages without signers only one direction (C76_message_read): a SignedData whose decoding failed half-way is returned by Parse with what was read so far, see C56.',
 'C77': 'Certificates and the keys are given as data that agree with each other (CertAgrees, KeyAgrees, StepOk in Spec/P7Sign.lean); messages and certificates below 2^31 bytes. Errors of Marshal and of the signing primitive are outcomes without a message. time.Now is an argument.',
 'C78': 'RSA, CBC and GCM are parameters with the laws CiphersOk (Spec/Envelope.lean); CryptBlocks fills a slice of the length of its input. rand.Read does not fail, the random bytes are arguments. The issuer of each recipient is one DER element (IssuerOk).',
 'C79': 'A Seek and the Read that depends on it count as one call; calls are numbered in program order. Failures of the ZIP reader (which reads the same file on its own) are in Zip/Zip1: entries that cannot be opened or read. The disagreements are proved by witnesses.',
 'C80': 'Text strings of extensions are compared as bytes; nil and empty slices are the same; `reflect` in andrCertToGoCert is modelled as copying every field but ExtKeyUsage (all other field types convert).',
 'C88': 'Functions of an internal package that nothing in the verifier calls. pem.Decode is a parameter, of which only is assumed that what it leaves is shorter. C88_example meets all hypotheses with every kind of block and a repeated certificate.',
 'C87': 'A function of an internal package that nothing in the verifier calls. Certificates of less than 1 GB; extra extensions only of kinds that the parser does not understand; names that can be read (those of a certificate that was read, by C87_names_of_certificates), readable keys and template fields, and times that are read as they were written. Signing, hashing and points of curves are parameters. Of success only necessary conditions are proved (C87_requires). C87_example meets all hypotheses.',
 'C86': 'Functions of an internal package that nothing in the verifier calls. A template is given by its fields that come from extensions; usages and numbers of purposes are not negative. encoding/asn1 of the standard library is the model of the writer of this fork with sorted sets. C86_example meets all hypotheses with something in every field.',
 'C85': 'Functions of an internal package that nothing calls. They use encoding/asn1 of the standard library, which is a parameter (with what it reads back as hypothesis of the round trips), as are validation and precomputation of RSA keys and the multiplication on curves. C85_example meets all hypotheses.',
 'C84': 'Functions of an internal package that nothing calls. MD5 and the block ciphers are parameters (inverse to each other on blocks: PemEnvOk, met by toyPem_ok); CBC mode, padding, key derivation and header are modelled.',
 'C83': 'Functions of an internal package that the exported API does not call. Signatures, strings.EqualFold, net.ParseIP, the clock and the roots of the system are parameters; errors are not told apart. Soundness for pools in which equal bytes mean equal certificates (C83_parsed_same: parsed certificates). Completeness holds without limits on path lengths (C83_complete_partial) and fails with them (C83_chains_missed).',
 'C82': 'Go time.Format is transcribed by its arithmetic (Model/Calendar); Dump for certificates whose times are in UTC, with years of four digits (C82_four_digit_years says which instants those are).',
 'C81': 'At the level of the signing block; both runs are supposed to return (C26 describes the panics). C81_wide_range_hides_rejections shows the limits.',
 'C75': 'Fits (Spec/Marshal.lean) is the exact list of conditions; for each there is a theorem with a value that is written and not read back when it fails. Copies of encodings (FullBytes, RawContent) are not compared.',
 'C70': 'After a fallback the warnings that the failed v3 verification had added before its errors are not specified (ws0 in SchemeWarnings.fallback).',
 'C66': 'Blocks that are accepted without signers (the error of the decoder is ignored) are outside of the equivalence; the v1 verifier rejects all of them (C56).',
}
