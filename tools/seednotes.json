{
"s18": {
"note": "survives: equivalent. The minimum over the lineage starts at 28, so 27 and 28 give the same reported version; the claim is about the reported version."
},
"v302": {
"note": "survived when first run: nothing constrained the reported minimum SDK version of a lineage. Property C53 was added and proved; with it the mutant is killed (re-run v302).",
"tightened": [
"C53_lineage_min_sdk_partial (new)"
]
},
"t17": {
"note": "changes only which error is reported; the lemmas that state the error stop compiling, acceptance is the same."
},
"c04": {
"note": "survived when first run; killed since (re-run as c04n, c04r) by theorems added or sharpened after it.",
"tightened": [
"C44_description"
]
},
"c07": {
"note": "survived when first run; killed since (re-run as c07n, c07r) by theorems added or sharpened after it.",
"tightened": [
"C44_description"
]
},
"c09": {
"note": "survived when first run; killed since (re-run as c09n, c09r) by theorems added or sharpened after it.",
"tightened": [
"C44_inverted_validity"
]
},
"e03": {
"note": "survived when first run; killed since (re-run as e03n, e03r) by theorems added or sharpened after it.",
"tightened": [
"C41_converted_iff",
"C41_panics_iff",
"C66_file_iff",
"C76_file_iff"
]
},
"j10": {
"note": "survived when first run; killed since (re-run as j10n, j10r) by theorems added or sharpened after it.",
"tightened": [
"C26_package_extract_panic_causes_partial",
"C26_package_panic_causes_partial",
"C37_loaded_signatures",
"C38_accepted_covers_files_partial"
]
},
"j30": {
"note": "survived when first run; killed since (re-run as j30n, j30r) by theorems added or sharpened after it.",
"tightened": [
"C62_accepted_iff",
"C62_example",
"C62_reported_chains",
"C63_verify_then_extract"
]
},
"j49": {
"note": "survived when first run; killed since (re-run as j49n, j49r) by theorems added or sharpened after it.",
"tightened": [
"C63_extracted_chains",
"C63_extracted_iff",
"C63_verify_then_extract"
]
},
"k02": {
"note": "survived when first run; killed since (re-run as k02n, k02r) by theorems added or sharpened after it.",
"tightened": [
"C65_certificate_iff",
"C65_certificate_refused",
"C65_certificate_unique",
"C65_certificates_iff"
]
},
"k08": {
"note": "survived when first run; killed since (re-run as k08n, k08r) by theorems added or sharpened after it.",
"tightened": [
"C65_certificate_iff",
"C65_certificate_refused",
"C65_certificate_unique",
"C65_certificates_iff"
]
},
"k09": {
"note": "survived when first run; killed since (re-run as k09n, k09r) by theorems added or sharpened after it.",
"tightened": [
"C65_certificate_iff",
"C65_certificate_refused",
"C65_certificate_unique",
"C65_certificates_iff"
]
},
"k12": {
"note": "survived when first run; killed since (re-run as k12n, k12r) by theorems added or sharpened after it.",
"tightened": [
"C65_certificate_iff",
"C65_certificate_refused",
"C65_certificate_unique",
"C65_certificates_iff"
]
},
"k13": {
"note": "survived when first run; killed since (re-run as k13n, k13r) by theorems added or sharpened after it.",
"tightened": [
"C65_certificate_iff",
"C65_certificate_refused",
"C65_certificate_unique",
"C65_certificates_iff"
]
},
"k16": {
"note": "survived when first run; killed since (re-run as k16n, k16r) by theorems added or sharpened after it.",
"tightened": [
"C65_certificate_iff",
"C65_certificate_refused",
"C65_certificate_unique",
"C65_certificates_iff"
]
},
"k17": {
"note": "survived when first run; killed since (re-run as k17n, k17r) by theorems added or sharpened after it.",
"tightened": [
"C65_certificate_iff",
"C65_certificate_refused",
"C65_certificate_unique",
"C65_certificates_iff"
]
},
"k18": {
"note": "survived when first run; killed since (re-run as k18n, k18r) by theorems added or sharpened after it.",
"tightened": [
"C65_certificate_iff",
"C65_certificate_refused",
"C65_certificate_unique",
"C65_certificates_iff"
]
},
"k19": {
"note": "survived when first run; killed since (re-run as k19n, k19r) by theorems added or sharpened after it.",
"tightened": [
"C65_certificate_iff",
"C65_certificate_refused",
"C65_certificate_unique",
"C65_certificates_iff"
]
},
"k20": {
"note": "survived when first run; killed since (re-run as k20n, k20r) by theorems added or sharpened after it.",
"tightened": [
"C65_certificate_iff",
"C65_certificate_refused",
"C65_certificate_unique",
"C65_certificates_iff"
]
},
"k22": {
"note": "survived when first run; killed since (re-run as k22n, k22r) by theorems added or sharpened after it.",
"tightened": [
"C65_certificate_iff",
"C65_certificate_refused",
"C65_certificate_unique",
"C65_certificates_iff"
]
},
"k23": {
"note": "survived when first run; killed since (re-run as k23n, k23r) by theorems added or sharpened after it.",
"tightened": [
"C65_certificate_iff",
"C65_certificate_refused",
"C65_certificate_unique",
"C65_certificates_iff"
]
},
"k25": {
"note": "survived when first run; killed since (re-run as k25n, k25r) by theorems added or sharpened after it.",
"tightened": [
"C65_certificate_iff",
"C65_certificate_refused",
"C65_certificate_unique",
"C65_certificates_iff"
]
},
"k30": {
"note": "survived when first run; killed since (re-run as k30n, k30r) by theorems added or sharpened after it.",
"tightened": [
"C65_certificate_iff",
"C65_certificate_refused",
"C65_certificate_unique",
"C65_certificates_iff"
]
},
"q002": {
"note": "survived when first run; killed since (re-run as q002n) by theorems added or sharpened after it.",
"tightened": [
"C35_verify_default"
]
},
"q051": {
"note": "survives: equivalent: the fuel is the length of the text and never runs out."
},
"r001": {
"note": "survived when first run; killed since (re-run as r001n) by theorems added or sharpened after it.",
"tightened": [
"C75_times"
]
},
"r002": {
"note": "survived when first run; killed since (re-run as r002n) by theorems added or sharpened after it.",
"tightened": [
"C75_omitempty"
]
},
"r003": {
"note": "survived when first run; killed since (re-run as r003n) by theorems added or sharpened after it.",
"tightened": [
"C75_strings",
"C75_strings_example"
]
},
"r004": {
"note": "survived when first run; killed since (re-run as r004n) by theorems added or sharpened after it.",
"tightened": [
"C75_strings",
"C75_strings_example"
]
},
"r078": {
"note": "survived when first run; killed since (re-run as r078n) by theorems added or sharpened after it.",
"tightened": [
"C77_detached",
"C77_example",
"C77_example_detached",
"C77_signed_message"
]
},
"r095": {
"note": "survived when first run; killed since (re-run as r095n) by theorems added or sharpened after it.",
"tightened": [
"C78_envelope_read",
"C78_example",
"C78_roundtrip"
]
},
"u02": {
"note": "survived when first run; killed since (re-run as u02n, u02r) by theorems added or sharpened after it.",
"tightened": [
"C54_fields",
"C54_tag_string_examples",
"C54_tag_strings"
]
},
"u04": {
"note": "survived when first run; killed since (re-run as u04n, u04r) by theorems added or sharpened after it.",
"tightened": [
"C54_fields",
"C54_tag_string_examples",
"C54_tag_strings"
]
},
"wc03": {
"note": "survives: equivalent: the comparison is only reached when both certificates end before they begin (the defect of C44), so the differences are never positive."
},
"wj03": {
"note": "survived when first run; killed since (re-run as wj03n) by theorems added or sharpened after it.",
"tightened": [
"C37_downgrade_rejected",
"C37_loaded_signatures",
"C62_accepted_iff",
"C62_example"
]
},
"wn01": {
"note": "survives: equivalent for every claim: names are only compared in this form, and any fixed order of the attributes gives the same equalities."
},
"x01": {
"note": "survived when first run; killed since (re-run as x01n, x01r) by theorems added or sharpened after it.",
"tightened": [
"C64_not_told_apart",
"C64_parsed_names_iff",
"C64_same_name_iff"
]
},
"x02": {
"note": "survived when first run; killed since (re-run as x02n) by theorems added or sharpened after it.",
"tightened": [
"C64_not_told_apart",
"C64_parsed_names_iff",
"C64_same_name_iff"
]
},
"x03": {
"note": "survived when first run; killed since (re-run as x03n, x03r) by theorems added or sharpened after it.",
"tightened": [
"C64_not_told_apart",
"C64_parsed_names_iff",
"C65_certificate_iff",
"C65_certificate_refused"
]
},
"x04": {
"note": "survived when first run; killed since (re-run as x04n, x04r) by theorems added or sharpened after it.",
"tightened": [
"C64_not_told_apart",
"C64_parsed_names_iff",
"C64_same_name_iff"
]
},
"x05": {
"note": "survived when first run; killed since (re-run as x05n, x05r) by theorems added or sharpened after it.",
"tightened": [
"C64_not_told_apart",
"C64_parsed_names_iff",
"C64_same_name_iff"
]
},
"za02": {
"note": "survives: equivalent: the slots never run out (unreachable branch)."
},
"za03": {
"note": "survives: equivalent: 80 gives arcs 2 and 0 in both branches."
},
"za04": {
"note": "survived when first run; killed since (re-run as za04r) by theorems added or sharpened after it.",
"tightened": [
"C42_oid_encodable_iff"
]
},
"zdg3": {
"note": "survives: equivalent: at an offset equal to the length the source writes nothing either way."
},
"zdg3n": {
"note": "survives: equivalent: at an offset equal to the length the source writes nothing either way."
},
"zna3": {
"note": "survived when first run; killed since (re-run as zna3n) by theorems added or sharpened after it.",
"tightened": [
"C64_type_text_example"
]
},
"zna4": {
"note": "survived when first run; killed since (re-run as zna4r) by theorems added or sharpened after it.",
"tightened": [
"C64_type_order"
]
},
"zna9": {
"note": "survived when first run; killed since (re-run as zna9r) by theorems added or sharpened after it.",
"tightened": [
"C64_type_text_example"
]
},
"zp03": {
"note": "survived when first run; killed since (re-run as zp03r) by theorems added or sharpened after it.",
"tightened": [
"C66_enveloped_examples",
"C66_enveloped_iff"
]
},
"zp04": {
"note": "survived when first run; killed since (re-run as zp04r) by theorems added or sharpened after it.",
"tightened": [
"C66_enveloped_iff"
]
},
"zsg3": {
"note": "survived when first run; killed since (re-run as zsg3r) by theorems added or sharpened after it.",
"tightened": [
"C70_base_block",
"C70_warnings"
]
},
"zst4": {
"note": "survived when first run; killed since (re-run as zst4r) by theorems added or sharpened after it.",
"tightened": [
"C47_block_id_text"
]
},
"zun1": {
"note": "survived when first run; killed since (re-run as zun1r) by theorems added or sharpened after it.",
"tightened": [
"C54_absent_example"
]
},
"zun3": {
"note": "survived when first run; killed since (re-run as zun3r) by theorems added or sharpened after it.",
"tightened": [
"C54_absent_example",
"C54_absent_is_blank"
]
},
"aa024": {
"note": "survives: equivalent: at the end of the window there is no room, and what is written is never empty."
},
"u26": {
"note": "survives: control without a change."
},
"u47": {
"note": "survived when first run; killed since (re-run as u47r) by theorems added or sharpened after it.",
"tightened": [
"C54_absent_example",
"C54_absent_is_blank",
"C54_accepts_exactly_the_grammar",
"C54_explicit_length_unchecked"
]
},
"u48": {
"note": "survives: equivalent: types of this kind do not occur in the model."
},
"v06": {
"note": "survives: control: the same minutes."
},
"v50": {
"note": "survived when first run; killed since (re-run as v50r) by theorems added or sharpened after it.",
"tightened": [
"C83_chain_example",
"C83_chains_missed",
"C83_chains_sound",
"C83_complete_example"
]
},
"w37": {
"note": "survives: control: initialisation vectors are as long as blocks."
},
"y15": {
"note": "survives: equivalent: the key is smaller than the order, so that a byte removed while the text is too long is zero."
}
}
