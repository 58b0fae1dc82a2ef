{
 "claims": [
  {
   "property": "C01",
   "status": "proved",
   "theorems": [
    "MlKem.C01_keygen_is_fips203",
    "MlKem.C01_parameter_sets"
   ],
   "note": "Refinement to Spec/Fips203 KeyGen_internal, byte for byte. SeedOk: the XOF streams hold 256 candidates below q (else the code loops, C31)."
  },
  {
   "property": "C02",
   "status": "proved",
   "theorems": [
    "MlKem.C02_encaps_is_fips203",
    "MlKem.C02_encaps_of_canonical"
   ],
   "note": "Keys generated or parsed from any bytes. Keys extracted from parsed decapsulation keys: C50."
  },
  {
   "property": "C03",
   "status": "proved",
   "theorems": [
    "MlKem.C03_decaps_is_fips203",
    "MlKem.C03_decaps_of_held"
   ],
   "note": "Any decapsulation-key bytes, any ciphertext bytes."
  },
  {
   "property": "C04",
   "status": "proved",
   "theorems": [
    "MlKem.C04_decaps_outcome",
    "MlKem.C04_encaps_outcome",
    "MlKem.C04_generate_outcome",
    "MlKem.C04_parse_total",
    "MlKem.C04_serialise_total"
   ],
   "note": "Overflow-checked arithmetic, checked indexing and length checks are explicit panics of the model; returns exactly if the seed can be expanded."
  },
  {
   "property": "C05",
   "status": "proved",
   "theorems": [
    "MlKem.C05_decaps_encaps",
    "MlKem.C05_decaps_encaps_rng"
   ],
   "note": "Sufficient window [-832, 831] for every noise coefficient; the exact window per bit is C06."
  },
  {
   "property": "C06",
   "status": "proved",
   "theorems": [
    "MlKem.C06_decrypt_bit_iff",
    "MlKem.C06_failed_decaps"
   ],
   "note": "Exact: bit b survives iff -832 <= N <= 832 - b."
  },
  {
   "property": "C07",
   "status": "proved",
   "theorems": [
    "MlKem.C07_implicit_rejection"
   ],
   "note": ""
  },
  {
   "property": "C08",
   "status": "proved",
   "theorems": [
    "MlKem.C08_foreign_ciphertext"
   ],
   "note": ""
  },
  {
   "property": "C09",
   "status": "proved",
   "theorems": [
    "MlKem.C09_at_most_one_accepted"
   ],
   "note": ""
  },
  {
   "property": "C10",
   "status": "proved",
   "theorems": [
    "MlKem.C10_mask",
    "MlKem.C10_select",
    "MlKem.C10_select_only"
   ],
   "note": "Mask for all equal-length strings; byte comparison proved for all 256x256 pairs."
  },
  {
   "property": "C11",
   "status": "proved",
   "theorems": [
    "MlKem.C11_ek_roundtrip"
   ],
   "note": "Generated or parsed keys; extracted keys: C50."
  },
  {
   "property": "C12",
   "status": "proved",
   "theorems": [
    "MlKem.C12_dk_roundtrip"
   ],
   "note": ""
  },
  {
   "property": "C13",
   "status": "proved",
   "theorems": [
    "MlKem.C13_dk_canonical",
    "MlKem.C13_ek_canonical"
   ],
   "note": ""
  },
  {
   "property": "C14",
   "status": "proved",
   "theorems": [
    "MlKem.C14_noncanonical_behaves_canonical"
   ],
   "note": ""
  },
  {
   "property": "C15",
   "status": "proved",
   "theorems": [
    "MlKem.C15_stored_hash_used"
   ],
   "note": ""
  },
  {
   "property": "C16",
   "status": "proved",
   "theorems": [
    "MlKem.C16_generated_consistent"
   ],
   "note": ""
  },
  {
   "property": "C17",
   "status": "proved",
   "theorems": [
    "MlKem.C17_dk_eq_iff",
    "MlKem.C17_ek_eq_iff",
    "XWing.C17_mlkem_derived",
    "XWing.C17_xwing_alias",
    "XWing.C17_xwing_ciphertext",
    "XWing.C17_xwing_derived",
    "XWing.C17_xwing_encapsulate",
    "XWing.C17_xwing_public"
   ],
   "note": "Encapsulation keys generated or parsed (the statement is false for keys extracted from decapsulation keys with a wrong hash: C50_extracted_counterexample)."
  },
  {
   "property": "C18",
   "status": "proved",
   "theorems": [
    "MlKem.C18_sizes",
    "MlKem.C18_table3"
   ],
   "note": "C18_sizes is generic in the parameter set, C18_table3 gives the three standard ones."
  },
  {
   "property": "C19",
   "status": "proved",
   "theorems": [
    "MlKem.C19_generate_randomness"
   ],
   "note": ""
  },
  {
   "property": "C20",
   "status": "proved",
   "theorems": [
    "MlKem.C20_encapsulate_randomness"
   ],
   "note": ""
  },
  {
   "property": "C21",
   "status": "proved",
   "theorems": [
    "MlKem.C21_barrett",
    "MlKem.C21_base_case",
    "MlKem.C21_field_ops"
   ],
   "note": ""
  },
  {
   "property": "C22",
   "status": "proved",
   "theorems": [
    "MlKem.C22_ntt",
    "MlKem.C22_ntt_mod"
   ],
   "note": ""
  },
  {
   "property": "C23",
   "status": "proved",
   "theorems": [
    "MlKem.C23_ntt_inverse"
   ],
   "note": ""
  },
  {
   "property": "C24",
   "status": "proved",
   "theorems": [
    "MlKem.C24_inner_product",
    "MlKem.C24_matrix",
    "MlKem.C24_product",
    "MlKem.C24_product_mod"
   ],
   "note": "Against multiplication in Z_q[X]/(X^256+1), with the quotient stated as divisibility in Mathlib's polynomials."
  },
  {
   "property": "C25",
   "status": "proved",
   "theorems": [
    "MlKem.C25_decode",
    "MlKem.C25_decode_vec",
    "MlKem.C25_encode",
    "MlKem.C25_encode_vec",
    "MlKem.C25_ntt_same"
   ],
   "note": ""
  },
  {
   "property": "C26",
   "status": "proved",
   "theorems": [
    "MlKem.C26_decode_encode",
    "MlKem.C26_decode_encode_vec",
    "MlKem.C26_encode_decode",
    "MlKem.C26_encode_decode_12",
    "MlKem.C26_encode_decode_vec"
   ],
   "note": ""
  },
  {
   "property": "C27",
   "status": "proved",
   "theorems": [
    "MlKem.C27_compress",
    "MlKem.C27_decompress",
    "MlKem.C27_no_overflow",
    "MlKem.C27_vec"
   ],
   "note": "Against Mathlib's round on rationals."
  },
  {
   "property": "C28",
   "status": "proved",
   "theorems": [
    "MlKem.C28_compress_decompress",
    "MlKem.C28_decompress_compress",
    "MlKem.C28_width_12"
   ],
   "note": "C28_width_12 shows the bound d < 12 is needed."
  },
  {
   "property": "C29",
   "status": "proved",
   "theorems": [
    "MlKem.C29_cbd",
    "MlKem.C29_range",
    "MlKem.C29_vec"
   ],
   "note": ""
  },
  {
   "property": "C30",
   "status": "proved",
   "theorems": [
    "MlKem.C30_sample"
   ],
   "note": "Against Mathlib's Nat.nth of the accepted positions."
  },
  {
   "property": "C31",
   "status": "proved",
   "theorems": [
    "MlKem.C31_terminates_iff"
   ],
   "note": "The loop is a partial fixpoint; non-termination is the value div."
  },
  {
   "property": "C32",
   "status": "proved",
   "theorems": [
    "MlKem.C32_matrix"
   ],
   "note": ""
  },
  {
   "property": "C33",
   "status": "proved",
   "theorems": [
    "MlKem.C33_flatten",
    "MlKem.C33_inverse",
    "MlKem.C33_unflatten"
   ],
   "note": ""
  },
  {
   "property": "C34",
   "status": "proved",
   "theorems": [
    "MlKem.C34_truncate"
   ],
   "note": ""
  },
  {
   "property": "C35",
   "status": "proved",
   "theorems": [
    "MlKem.C35_drop",
    "MlKem.C35_no_residue",
    "MlKem.C35_xwing_drop"
   ],
   "note": "Memory contents after drop; copies made by the compiler or the allocator are outside the model."
  },
  {
   "property": "C36",
   "status": "proved",
   "theorems": [
    "MlKem.C36_reparse_sequence"
   ],
   "note": ""
  },
  {
   "property": "C37",
   "status": "proved",
   "theorems": [
    "XWing.C37_agree"
   ],
   "note": "X25519 is a parameter; hypotheses: public key = function at the base point, and commutativity."
  },
  {
   "property": "C38",
   "status": "proved",
   "theorems": [
    "XWing.C38_decaps",
    "XWing.C38_encaps",
    "XWing.C38_keygen"
   ],
   "note": "Key generation, encapsulation and decapsulation against Spec/XWing."
  },
  {
   "property": "C39",
   "status": "proved",
   "theorems": [
    "XWing.C39_ciphertext_roundtrip",
    "XWing.C39_public_canonical",
    "XWing.C39_public_roundtrip",
    "XWing.C39_secret_roundtrip"
   ],
   "note": ""
  },
  {
   "property": "C40",
   "status": "proved",
   "theorems": [
    "XWing.C40_randomness"
   ],
   "note": ""
  },
  {
   "property": "C41",
   "status": "proved",
   "theorems": [
    "XWing.C41_determined"
   ],
   "note": ""
  },
  {
   "property": "C42",
   "status": "proved",
   "theorems": [
    "XWing.C42_collision",
    "XWing.C42_unambiguous"
   ],
   "note": "Both theorems name the hashed strings."
  },
  {
   "property": "C43",
   "status": "proved",
   "theorems": [
    "XWing.C43_implicit_rejection"
   ],
   "note": ""
  },
  {
   "property": "C44",
   "status": "proved",
   "theorems": [
    "Dhkem.C44_agree",
    "Dhkem.C44_elliptic"
   ],
   "note": "Generic in the group; the commutativity hypothesis is proved for every commutative group and so for every Weierstrass curve."
  },
  {
   "property": "C45",
   "status": "proved",
   "theorems": [
    "Dhkem.C45_decapsulate",
    "Dhkem.C45_ephemeral",
    "Dhkem.C45_recipient_independent"
   ],
   "note": ""
  },
  {
   "property": "C46",
   "status": "proved",
   "theorems": [
    "Dhkem.C46_derived",
    "Dhkem.C46_equality",
    "Dhkem.C46_transparent",
    "Dhkem.C46_x25519_equal"
   ],
   "note": ""
  },
  {
   "property": "C47",
   "status": "proved",
   "theorems": [
    "MlKem.History.C47_agree",
    "MlKem.History.C47_agree_encodings",
    "MlKem.History.C47_decaps",
    "MlKem.History.C47_encaps",
    "MlKem.History.C47_encaps_extracted",
    "MlKem.History.C47_no_panic",
    "MlKem.History.C47_stable"
   ],
   "note": "Histories of unbounded length over any number of keys, including dropped ones; for a key taken out of a decapsulation key the encapsulation is FIPS 203's with the hash stored there (C50)."
  },
  {
   "property": "C48",
   "status": "proved",
   "theorems": [
    "MlKem.C48_cbd_table_2",
    "MlKem.C48_cbd_table_3",
    "MlKem.C48_tables"
   ],
   "note": "Complete tables."
  },
  {
   "property": "C49",
   "status": "proved",
   "theorems": [
    "MlKem.C49_short_keys_never_fail"
   ],
   "note": ""
  },
  {
   "property": "C50",
   "status": "proved",
   "theorems": [
    "MlKem.C50_extracted_counterexample",
    "MlKem.C50_extracted_encaps",
    "MlKem.C50_extracted_roundtrip_iff"
   ],
   "note": "Includes a counterexample: equal encodings, different keys."
  },
  {
   "property": "C51",
   "status": "proved",
   "theorems": [
    "MlKem.History.C51_ml_kem",
    "XWing.C51_x_wing",
    "XWing.History.C51_x_wing_history"
   ],
   "note": "Whole histories for ML-KEM and for X-Wing, and per call for X-Wing."
  },
  {
   "property": "C52",
   "status": "proved",
   "theorems": [
    "MlKem.C52_cbd_count",
    "MlKem.C52_cbd_probability"
   ],
   "note": "Counting form and probability form."
  },
  {
   "property": "C53",
   "status": "proved",
   "theorems": [
    "MlKem.C53_appendix_b",
    "MlKem.C53_count",
    "MlKem.C53_ends",
    "MlKem.C53_uniform"
   ],
   "note": "`Determines b f`: every continuation of the bytes b samples f."
  },
  {
   "property": "C54",
   "status": "proved",
   "theorems": [
    "MlKem.C54_generated",
    "MlKem.C54_key_binds",
    "MlKem.C54_needs_hash"
   ],
   "note": "Collisions are stated on explicit inputs, not as existence."
  },
  {
   "property": "C55",
   "status": "proved",
   "theorems": [
    "MlKem.C55_ciphertexts_differ",
    "MlKem.C55_keys_differ"
   ],
   "note": ""
  },
  {
   "property": "C56",
   "status": "proved",
   "theorems": [
    "XWing.C56_secret_binds"
   ],
   "note": ""
  },
  {
   "property": "C57",
   "status": "proved",
   "theorems": [
    "XWing.History.C57_agree",
    "XWing.History.C57_decaps",
    "XWing.History.C57_no_panic",
    "XWing.History.C57_stable"
   ],
   "note": ""
  },
  {
   "property": "C58",
   "status": "proved",
   "theorems": [
    "XWing.C58_short_keys_never_fail"
   ],
   "note": ""
  },
  {
   "property": "C59",
   "status": "proved",
   "theorems": [
    "MlKem.C59_decaps",
    "MlKem.C59_encaps",
    "MlKem.C59_keygen",
    "MlKem.C59_parse",
    "XWing.C59_decapsulate",
    "XWing.C59_encapsulate",
    "XWing.C59_public_key"
   ],
   "note": "Quantifies over pairs of SHA-3 implementations, so it speaks of the code and not of a trace the model would have to produce."
  },
  {
   "property": "C60",
   "status": "proved",
   "theorems": [
    "MlKem.C60_decaps",
    "MlKem.C60_distinct",
    "MlKem.C60_encaps",
    "MlKem.C60_keygen",
    "MlKem.C60_parameter_sets",
    "MlKem.C60_roles",
    "XWing.C60_decapsulate",
    "XWing.C60_encapsulate",
    "XWing.C60_public_key"
   ],
   "note": ""
  },
  {
   "property": "C61",
   "status": "proved",
   "theorems": [
    "MlKem.C61_ml_kem_1024",
    "MlKem.C61_ml_kem_512",
    "MlKem.C61_ml_kem_768",
    "XWing.C61_xwing"
   ],
   "note": "Hash outputs are uniform tables; this is not a statement about the fixed function SHA-3. The numbers are upper bounds for every matrix, weaker than the estimates FIPS 203 quotes for random matrices."
  },
  {
   "property": "C62",
   "status": "proved",
   "theorems": [
    "MlKem.History.C62_derandomised",
    "MlKem.History.C62_ml_kem",
    "XWing.History.C62_xwing"
   ],
   "note": ""
  },
  {
   "property": "C63",
   "status": "proved",
   "theorems": [
    "MlKem.C63_pair",
    "MlKem.C63_pairs",
    "MlKem.C63_parsed_dk",
    "MlKem.C63_parsed_ek",
    "XWing.C63_xwing",
    "XWing.C63_xwing_parsed"
   ],
   "note": ""
  },
  {
   "property": "C64",
   "status": "proved",
   "theorems": [
    "MlKem.C64_as_bytes",
    "MlKem.C64_cache_lines",
    "MlKem.C64_cache_lines_512",
    "MlKem.C64_cache_lines_senders",
    "MlKem.C64_decapsulate",
    "MlKem.C64_decapsulate_reads",
    "MlKem.C64_decapsulate_shows",
    "MlKem.C64_encapsulate",
    "MlKem.C64_encapsulate_shows",
    "MlKem.C64_from_bytes",
    "MlKem.C64_from_bytes_shows",
    "MlKem.C64_generate",
    "MlKem.C64_generate_shows",
    "MlKem.C64_noise_shows",
    "MlKem.C64_reduce_shows",
    "MlKem.C64_same_function",
    "XWing.C64_xwing_cache_lines",
    "XWing.C64_xwing_decapsulate",
    "XWing.C64_xwing_decapsulate_reads",
    "XWing.C64_xwing_decapsulate_shows",
    "XWing.C64_xwing_encapsulate",
    "XWing.C64_xwing_encapsulate_shows",
    "XWing.C64_xwing_same_function"
   ],
   "note": ""
  },
  {
   "property": "C65",
   "status": "proved",
   "theorems": [
    "Dhkem.C65_x25519_kem",
    "Rfc7748.C65_commutes",
    "Rfc7748.C65_multiplies",
    "Rfc7748.C65_small_order",
    "XWing.C65_agree",
    "XWing.C65_failure",
    "XWing.C65_histories_agree",
    "XWing.C65_short_keys_never_fail",
    "XWing.C65_small_order_accepted"
   ],
   "note": ""
  },
  {
   "property": "C66",
   "status": "proved",
   "theorems": [
    "MlKem.C66_chosen_ciphertext",
    "MlKem.C66_one_key"
   ],
   "note": ""
  },
  {
   "property": "C67",
   "status": "proved",
   "theorems": [
    "MlKem.C67_games",
    "MlKem.C67_one_way"
   ],
   "note": ""
  },
  {
   "property": "C68",
   "status": "proved",
   "theorems": [
    "MlKem.C68_secure"
   ],
   "note": ""
  },
  {
   "property": "C69",
   "status": "proved",
   "theorems": [
    "XWing.C69_hybrid"
   ],
   "note": ""
  },
  {
   "property": "C70",
   "status": "proved",
   "theorems": [
    "XWing.C70_secure"
   ],
   "note": ""
  },
  {
   "property": "C71",
   "status": "proved",
   "theorems": [
    "XWing.C71_insider",
    "XWing.C71_questions",
    "XWing.C71_rfc7748"
   ],
   "note": ""
  },
  {
   "property": "C72",
   "status": "proved",
   "theorems": [
    "Dhkem.C72_agree",
    "Dhkem.C72_every_key",
    "Dhkem.C72_never_degenerate",
    "Dhkem.C72_prime_order",
    "Dhkem.C72_valid_keys"
   ],
   "note": ""
  },
  {
   "property": "C73",
   "status": "proved",
   "theorems": [
    "Dhkem.C73_raw_secrets",
    "Dhkem.C73_same_key_iff",
    "Dhkem.C73_same_secret_iff",
    "Dhkem.C73_two_secrets"
   ],
   "note": ""
  },
  {
   "property": "C74",
   "status": "proved",
   "theorems": [
    "Dhkem.C74_x25519_decapsulate",
    "Dhkem.C74_x25519_encapsulate",
    "Dhkem.C74_x25519_honest",
    "Rfc7748.C74_commutes",
    "Rfc7748.C74_honest",
    "Rfc7748.C74_stays_large",
    "Rfc7748.C74_zero_iff",
    "XWing.C74_xwing_accepted",
    "XWing.C74_xwing_honest"
   ],
   "note": ""
  },
  {
   "property": "C75",
   "status": "proved",
   "theorems": [
    "Dhkem.C75_x25519_same_for_all",
    "Dhkem.C75_x25519_same_key",
    "Rfc7748.C75_few_keys",
    "Rfc7748.C75_public_keys",
    "Rfc7748.C75_same_for_all",
    "Rfc7748.C75_shared"
   ],
   "note": ""
  },
  {
   "property": "C76",
   "status": "proved",
   "theorems": [
    "Dhkem.C76_agree",
    "Dhkem.C76_decap",
    "Dhkem.C76_encap",
    "Dhkem.C76_infinity",
    "Dhkem.C76_x25519_decap",
    "Dhkem.C76_x25519_encap",
    "Dhkem.HpkeTest.C76_extraction",
    "Dhkem.HpkeTest.C76_vector"
   ],
   "note": ""
  },
  {
   "property": "C77",
   "status": "proved",
   "theorems": [
    "Dhkem.C77_binds",
    "Dhkem.C77_negated",
    "Dhkem.C77_x25519_binds"
   ],
   "note": ""
  },
  {
   "property": "C78",
   "status": "proved",
   "theorems": [
    "Threads.C78_alone",
    "Threads.C78_explained",
    "Threads.C78_linearizable",
    "Threads.C78_once",
    "Threads.C78_schedules"
   ],
   "note": "That an unfinished call has no effect on other threads is part of the model, justified by the signatures."
  },
  {
   "property": "C79",
   "status": "proved",
   "theorems": [
    "Threads.C79_dhkem",
    "Threads.C79_ml_kem_agree",
    "Threads.C79_ml_kem_agree_det",
    "Threads.C79_ml_kem_decaps",
    "Threads.C79_ml_kem_no_panic",
    "Threads.C79_ml_kem_stable",
    "Threads.C79_x_wing_agree",
    "Threads.C79_x_wing_agree_rfc7748",
    "Threads.C79_x_wing_decaps",
    "Threads.C79_x_wing_no_panic",
    "Threads.C79_x_wing_stable"
   ],
   "note": "dhkem: both adapters have the same text; the API of Model/Threads.lean uses EcdhKem's."
  },
  {
   "property": "C80",
   "status": "proved",
   "theorems": [
    "MlKem.C80_decaps",
    "MlKem.C80_decaps_parsed",
    "MlKem.C80_encaps",
    "MlKem.C80_encapsulate",
    "MlKem.C80_generate",
    "MlKem.C80_keygen",
    "MlKem.C80_parts"
   ],
   "note": ""
  },
  {
   "property": "C81",
   "status": "proved",
   "theorems": [
    "MlKem.C81_one_way",
    "MlKem.C81_randomised",
    "MlKem.C81_secure"
   ],
   "note": ""
  },
  {
   "property": "C82",
   "status": "proved",
   "theorems": [
    "MlKem.C82_pseudorandom"
   ],
   "note": ""
  },
  {
   "property": "C83",
   "status": "proved",
   "theorems": [
    "MlKem.C83_anonymous"
   ],
   "note": ""
  },
  {
   "property": "C84",
   "status": "proved",
   "theorems": [
    "XWing.C84_secure"
   ],
   "note": ""
  },
  {
   "property": "C85",
   "status": "proved",
   "theorems": [
    "MlKem.C85_ml_kem_1024",
    "MlKem.C85_ml_kem_512",
    "MlKem.C85_ml_kem_768",
    "XWing.C85_xwing",
    "XWing.C85_xwing_rfc7748"
   ],
   "note": ""
  },
  {
   "property": "C86",
   "status": "proved",
   "theorems": [
    "MlKem.C86_anonymous",
    "MlKem.C86_correct",
    "MlKem.C86_loud",
    "MlKem.C86_pseudorandom",
    "MlKem.C86_secure",
    "XWing.C86_xwing"
   ],
   "note": ""
  },
  {
   "property": "C87",
   "status": "proved",
   "theorems": [
    "MlKem.Mem.C87_cover",
    "MlKem.Mem.C87_flatten",
    "MlKem.Mem.C87_unflatten",
    "MlKem.Mem.C87_unflattenRef"
   ],
   "note": ""
  },
  {
   "property": "C88",
   "status": "proved",
   "theorems": [
    "Sessions.C88_ml_kem_1024",
    "Sessions.C88_ml_kem_512",
    "Sessions.C88_ml_kem_768",
    "Sessions.C88_xwing",
    "Sessions.C88_xwing_rfc7748"
   ],
   "note": ""
  },
  {
   "property": "C89",
   "status": "proved",
   "theorems": [
    "MlKem.C89_anonymous",
    "MlKem.C89_pseudorandom",
    "MlKem.C89_secure"
   ],
   "note": ""
  },
  {
   "property": "C90",
   "status": "proved",
   "theorems": [
    "XWing.C90_secure"
   ],
   "note": ""
  },
  {
   "property": "C91",
   "status": "proved",
   "theorems": [
    "XWing.C91_insider",
    "XWing.C91_questions",
    "XWing.C91_rfc7748"
   ],
   "note": ""
  },
  {
   "property": "C92",
   "status": "proved",
   "theorems": [
    "MlKem.C92_anonymous"
   ],
   "note": ""
  },
  {
   "property": "C93",
   "status": "proved",
   "theorems": [
    "XWing.C93_anonymous"
   ],
   "note": ""
  },
  {
   "property": "C94",
   "status": "proved",
   "theorems": [
    "Dhkem.C94_curve",
    "Dhkem.C94_curve_anonymous",
    "Dhkem.C94_curve_many",
    "Dhkem.C94_raw",
    "Dhkem.C94_raw_x25519",
    "Dhkem.C94_x25519",
    "Dhkem.C94_x25519_anonymous",
    "Dhkem.C94_x25519_many"
   ],
   "note": ""
  },
  {
   "property": "C95",
   "status": "proved",
   "theorems": [
    "Cargo.C95_features",
    "Dhkem.C95_curve_erased",
    "Dhkem.C95_dhkem_moved",
    "Dhkem.C95_dhkem_same",
    "Dhkem.C95_x25519_erased",
    "Dhkem.C95_x25519_left",
    "MlKem.Locals.C95_ml_kem_decapsulate",
    "MlKem.Locals.C95_ml_kem_encapsulate",
    "MlKem.Locals.C95_ml_kem_generate",
    "MlKem.Locals.C95_ml_kem_recover",
    "XWing.Locals.C95_same",
    "XWing.Locals.C95_xwing_decapsulate",
    "XWing.Locals.C95_xwing_encapsulate",
    "XWing.Locals.C95_xwing_generate",
    "XWing.Locals.C95_xwing_recover"
   ],
   "note": ""
  },
  {
   "property": "C96",
   "status": "proved",
   "theorems": [
    "MlKem.Debug.C96_debug_faithful",
    "MlKem.Debug.C96_debug_reveals"
   ],
   "note": ""
  },
  {
   "property": "C97",
   "status": "proved",
   "theorems": [
    "MlKem.Compare.C97_equal",
    "MlKem.Compare.C97_recover"
   ],
   "note": ""
  },
  {
   "property": "C98",
   "status": "proved",
   "theorems": [
    "MlKem.C98_ml_kem",
    "MlKem.C98_ml_kem_random",
    "MlKem.C98_parameter_sets",
    "XWing.C98_xwing",
    "XWing.C98_xwing_random"
   ],
   "note": ""
  },
  {
   "property": "C99",
   "status": "proved",
   "theorems": [
    "Dhkem.C99_dhkem",
    "MlKem.C99_same_message",
    "MlKem.C99_same_state",
    "MlKem.C99_visible",
    "XWing.C99_xwing"
   ],
   "note": ""
  }
 ]
}