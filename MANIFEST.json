{
 "claims": [
  {
   "property": "C01",
   "status": "proved",
   "theorems": [
    "Zerocaf.Props.C01_add"
   ],
   "note": ""
  },
  {
   "property": "C02",
   "status": "proved",
   "theorems": [
    "Zerocaf.Props.C02_sub"
   ],
   "note": ""
  },
  {
   "property": "C03",
   "status": "proved",
   "theorems": [
    "Zerocaf.Props.C03_neg"
   ],
   "note": ""
  },
  {
   "property": "C04",
   "status": "proved",
   "theorems": [
    "Zerocaf.Props.C04_mul"
   ],
   "note": ""
  },
  {
   "property": "C05",
   "status": "proved",
   "theorems": [
    "Zerocaf.Props.C05_square"
   ],
   "note": ""
  },
  {
   "property": "C06",
   "status": "proved",
   "theorems": [
    "Zerocaf.Props.C06_half"
   ],
   "note": ""
  },
  {
   "property": "C07",
   "status": "proved",
   "theorems": [
    "Zerocaf.Props.C07_half_without_mod",
    "Zerocaf.Props.C07_odd_is_rounded"
   ],
   "note": "Proved as floor division; the documented panic on odd input does not exist in the code, which C07_odd_is_rounded records."
  },
  {
   "property": "C08",
   "status": "proved",
   "theorems": [
    "Zerocaf.Props.C08_pow"
   ],
   "note": ""
  },
  {
   "property": "C09",
   "status": "proved",
   "theorems": [
    "Zerocaf.Props.C09_inverse",
    "Zerocaf.Props.C09_inverse_zero"
   ],
   "note": ""
  },
  {
   "property": "C10",
   "status": "proved",
   "theorems": [
    "Zerocaf.Props.C10_div",
    "Zerocaf.Props.C10_div_zero"
   ],
   "note": ""
  },
  {
   "property": "C11",
   "status": "proved",
   "theorems": [
    "Zerocaf.Props.C11_legendre",
    "Zerocaf.Props.C11_zero"
   ],
   "note": "legendre_symbol(0) is 1 although the documentation promises 0 (C11_zero)."
  },
  {
   "property": "C12",
   "status": "proved",
   "theorems": [
    "Zerocaf.Props.C12_mod_sqrt"
   ],
   "note": ""
  },
  {
   "property": "C13",
   "status": "proved",
   "theorems": [
    "Zerocaf.Props.C13_signs_opposite",
    "Zerocaf.Props.C13_sign_documentation_false"
   ],
   "note": "The two signs give opposite roots (proved). The documented meaning of the sign is false; C13_sign_documentation_false is the witness."
  },
  {
   "property": "C14",
   "status": "proved",
   "theorems": [
    "Zerocaf.Props.C14_sqrt_ratio_i"
   ],
   "note": ""
  },
  {
   "property": "C15",
   "status": "proved",
   "theorems": [
    "Zerocaf.Props.C15_inv_sqrt"
   ],
   "note": ""
  },
  {
   "property": "C16",
   "status": "proved",
   "theorems": [
    "Zerocaf.Props.C16_is_positive",
    "Zerocaf.Props.C16_exactly_one",
    "Zerocaf.Props.C16_zero_positive"
   ],
   "note": ""
  },
  {
   "property": "C17",
   "status": "proved",
   "theorems": [
    "Zerocaf.Props.C17_cmp"
   ],
   "note": ""
  },
  {
   "property": "C18",
   "status": "proved",
   "theorems": [
    "Zerocaf.Props.C18_to_bytes",
    "Zerocaf.Props.C18_from_bytes",
    "Zerocaf.Props.C18_roundtrip"
   ],
   "note": ""
  },
  {
   "property": "C19",
   "status": "proved",
   "theorems": [
    "Zerocaf.Props.C19_eq",
    "Zerocaf.Props.C19_eq_canon",
    "Zerocaf.Props.C19_not_normalised"
   ],
   "note": ""
  },
  {
   "property": "C20",
   "status": "proved",
   "theorems": [
    "Zerocaf.Props.C20_from_unsigned"
   ],
   "note": ""
  },
  {
   "property": "C21",
   "status": "proved",
   "theorems": [
    "Zerocaf.Props.C21_two_pow_k_field",
    "Zerocaf.Props.C21_two_pow_k_scalar"
   ],
   "note": ""
  },
  {
   "property": "C22",
   "status": "proved",
   "theorems": [
    "Zerocaf.Props.C22_field_uniform_on_range",
    "Zerocaf.Props.C22_scalar_uniform_on_range",
    "Zerocaf.Props.C22_random_field",
    "Zerocaf.Props.C22_random_scalar",
    "Zerocaf.Props.C22_not_uniform",
    "Zerocaf.Props.C22_range"
   ],
   "note": "Canonicity for every generator output, the proof that part of the range is never produced, and exact uniformity on the range that is."
  },
  {
   "property": "C23",
   "status": "proved",
   "theorems": [
    "Zerocaf.Props.C23_roundtrip",
    "Zerocaf.Props.C23_noncanonical_panics",
    "Zerocaf.Props.C23_by_reference"
   ],
   "note": "Relative to the documented contract of the two curve25519-dalek constructors (Model/External.lean)."
  },
  {
   "property": "C24",
   "status": "proved",
   "theorems": [
    "Zerocaf.Props.C24_window",
    "Zerocaf.Props.C24_conversions",
    "Zerocaf.Props.C24_from_y",
    "Zerocaf.Props.C24_ristretto_valid",
    "Zerocaf.Props.C24_uniform",
    "Zerocaf.Props.C24_random",
    "Zerocaf.Props.C24_field",
    "Zerocaf.Props.C24_field_loops",
    "Zerocaf.Props.C24_scalar",
    "Zerocaf.Props.C24_scalar_pow"
   ],
   "note": "Field, scalar and point layer; the remaining point functions (addition, multiplication, equality, encodings) are in C89, whose results are the same for every configuration."
  },
  {
   "property": "C25",
   "status": "proved",
   "theorems": [
    "Zerocaf.Props.C25_add"
   ],
   "note": ""
  },
  {
   "property": "C26",
   "status": "proved",
   "theorems": [
    "Zerocaf.Props.C26_sub",
    "Zerocaf.Props.C26_neg"
   ],
   "note": ""
  },
  {
   "property": "C27",
   "status": "proved",
   "theorems": [
    "Zerocaf.Props.C27_mul",
    "Zerocaf.Props.C27_square"
   ],
   "note": ""
  },
  {
   "property": "C28",
   "status": "proved",
   "theorems": [
    "Zerocaf.Props.C28_half",
    "Zerocaf.Props.C28_half_without_mod",
    "Zerocaf.Props.C28_shr"
   ],
   "note": ""
  },
  {
   "property": "C29",
   "status": "proved",
   "theorems": [
    "Zerocaf.Props.C29_pow"
   ],
   "note": ""
  },
  {
   "property": "C30",
   "status": "proved",
   "theorems": [
    "Zerocaf.Props.C30_from_bytes",
    "Zerocaf.Props.C30_to_bytes",
    "Zerocaf.Props.C30_roundtrip"
   ],
   "note": ""
  },
  {
   "property": "C31",
   "status": "proved",
   "theorems": [
    "Zerocaf.Props.C31_into_bits"
   ],
   "note": ""
  },
  {
   "property": "C32",
   "status": "proved",
   "theorems": [
    "Zerocaf.Props.C32_naf"
   ],
   "note": ""
  },
  {
   "property": "C33",
   "status": "proved",
   "theorems": [
    "Zerocaf.Props.C33_window_naf",
    "Zerocaf.Props.C33_width_six_wrong"
   ],
   "note": "Widths 2 to 5 proved; width 6 refuted by a concrete scalar."
  },
  {
   "property": "C34",
   "status": "proved",
   "theorems": [
    "Zerocaf.Props.C34_width_one",
    "Zerocaf.Props.C34_width_zero"
   ],
   "note": ""
  },
  {
   "property": "C35",
   "status": "proved",
   "theorems": [
    "Zerocaf.Props.C35_from_i8",
    "Zerocaf.Props.C35_minus_128_debug",
    "Zerocaf.Props.C35_minus_128_release"
   ],
   "note": ""
  },
  {
   "property": "C36",
   "status": "proved",
   "theorems": [
    "Zerocaf.Props.C36_mod_2_pow_k",
    "Zerocaf.Props.C36_truncates",
    "Zerocaf.Props.C36_wide_debug",
    "Zerocaf.Props.C36_wide_release"
   ],
   "note": ""
  },
  {
   "property": "C37",
   "status": "proved",
   "theorems": [
    "Zerocaf.Props.C37_add",
    "Zerocaf.Props.C37_law",
    "Zerocaf.Props.C37_valid_iff"
   ],
   "note": ""
  },
  {
   "property": "C38",
   "status": "proved",
   "theorems": [
    "Zerocaf.Props.C38_group",
    "Zerocaf.Props.C38_assoc",
    "Zerocaf.Props.C38_comm_zero_neg"
   ],
   "note": ""
  },
  {
   "property": "C39",
   "status": "proved",
   "theorems": [
    "Zerocaf.Props.C39_extended",
    "Zerocaf.Props.C39_projective"
   ],
   "note": ""
  },
  {
   "property": "C40",
   "status": "proved",
   "theorems": [
    "Zerocaf.Props.C40_extended",
    "Zerocaf.Props.C40_projective",
    "Zerocaf.Props.C40_affine_ristretto"
   ],
   "note": ""
  },
  {
   "property": "C41",
   "status": "proved",
   "theorems": [
    "Zerocaf.Props.C41_projective_add",
    "Zerocaf.Props.C41_identities",
    "Zerocaf.Props.C41_conversions",
    "Zerocaf.Props.C41_unique"
   ],
   "note": ""
  },
  {
   "property": "C42",
   "status": "proved",
   "theorems": [
    "Zerocaf.Props.C42_extended",
    "Zerocaf.Props.C42_projective",
    "Zerocaf.Props.C42_affine"
   ],
   "note": ""
  },
  {
   "property": "C43",
   "status": "proved",
   "theorems": [
    "Zerocaf.Props.C43_affine_valid"
   ],
   "note": ""
  },
  {
   "property": "C44",
   "status": "proved",
   "theorems": [
    "Zerocaf.Props.C44_projective_valid",
    "Zerocaf.Props.C44_extended_ignores_T",
    "Zerocaf.Props.C44_accepts_invalid",
    "Zerocaf.Props.C44_zero_eq_panics"
   ],
   "note": "Exact with nonzero Z; the failing part (T ignored, all-zero tuple accepted) is proved with witnesses."
  },
  {
   "property": "C45",
   "status": "proved",
   "theorems": [
    "Zerocaf.Props.C45_extended",
    "Zerocaf.Props.C45_projective",
    "Zerocaf.Props.C45_ristretto",
    "Zerocaf.Props.C45_top_bits"
   ],
   "note": "Every scalar below 2^256, which covers every value obtainable from 32 bytes; C45_top_bits shows the bound is needed."
  },
  {
   "property": "C46",
   "status": "proved",
   "theorems": [
    "Zerocaf.Props.C46_add",
    "Zerocaf.Props.C46_mul",
    "Zerocaf.Props.C46_neg_sub",
    "Zerocaf.Props.C46_injective"
   ],
   "note": ""
  },
  {
   "property": "C47",
   "status": "proved",
   "theorems": [
    "Zerocaf.Props.C47_basepoint"
   ],
   "note": ""
  },
  {
   "property": "C48",
   "status": "proved",
   "theorems": [
    "Zerocaf.Props.C48_extended",
    "Zerocaf.Props.C48_projective_ristretto",
    "Zerocaf.Props.C48_wrong"
   ],
   "note": "The documented claim fails from 2^249 on; C48_wrong proves it for every such canonical scalar."
  },
  {
   "property": "C49",
   "status": "proved",
   "theorems": [
    "Zerocaf.Props.C49_naf"
   ],
   "note": ""
  },
  {
   "property": "C50",
   "status": "proved",
   "theorems": [
    "Zerocaf.Props.C50_observed",
    "Zerocaf.Props.C50_only_width_two_observed",
    "Zerocaf.Props.C50_exact",
    "Zerocaf.Props.C50_wrong_class",
    "Zerocaf.Props.C50_width_two",
    "Zerocaf.Props.C50_width_three_wrong",
    "Zerocaf.Props.C50_all_widths",
    "Zerocaf.Props.C50_any_width",
    "Zerocaf.Props.C50_only_width_two"
   ],
   "note": "Width 2 correct for all scalars; C50_all_widths states what widths 2 to 5 really compute; C50_exact says for exactly which scalars that is n*B, and C50_wrong_class names half of the odd scalars as wrong. Other widths are C83."
  },
  {
   "property": "C51",
   "status": "proved",
   "theorems": [
    "Zerocaf.Props.C51_cofactor",
    "Zerocaf.Props.C51_pow_two",
    "Zerocaf.Props.C51_pow_two_panics"
   ],
   "note": ""
  },
  {
   "property": "C52",
   "status": "proved",
   "theorems": [
    "Zerocaf.Props.C52_projective",
    "Zerocaf.Props.C52_extended"
   ],
   "note": ""
  },
  {
   "property": "C53",
   "status": "proved",
   "theorems": [
    "Zerocaf.Props.C53_roundtrip",
    "Zerocaf.Props.C53_roundtrip_fails",
    "Zerocaf.Props.C53_witnesses"
   ],
   "note": "Round trip for y < 2^252; its failure for every y >= 2^252 is proved, with (0,-1) as witness."
  },
  {
   "property": "C54",
   "status": "proved",
   "theorems": [
    "Zerocaf.Props.C54_exact",
    "Zerocaf.Props.C54_count",
    "Zerocaf.Props.C54_ignored_bits",
    "Zerocaf.Props.C54_distinct",
    "Zerocaf.Props.C54_identity_signs"
   ],
   "note": ""
  },
  {
   "property": "C55",
   "status": "proved",
   "theorems": [
    "Zerocaf.Props.C55_decompress"
   ],
   "note": ""
  },
  {
   "property": "C56",
   "status": "proved",
   "theorems": [
    "Zerocaf.Props.C56_curve_order"
   ],
   "note": ""
  },
  {
   "property": "C57",
   "status": "proved",
   "theorems": [
    "Zerocaf.Props.C57_table",
    "Zerocaf.Props.C57_bad_entry_equal",
    "Zerocaf.Props.C57_coset4"
   ],
   "note": "The second entry is never a curve point; the other three are as documented."
  },
  {
   "property": "C58",
   "status": "proved",
   "theorems": [
    "Zerocaf.Props.C58_eq_iff",
    "Zerocaf.Props.C58_torsion",
    "Zerocaf.Props.C58_equivalence",
    "Zerocaf.Props.C58_representatives"
   ],
   "note": ""
  },
  {
   "property": "C59",
   "status": "proved",
   "theorems": [
    "Zerocaf.Props.C59_decode_encode"
   ],
   "note": ""
  },
  {
   "property": "C60",
   "status": "proved",
   "theorems": [
    "Zerocaf.Props.C60_encode_decode",
    "Zerocaf.Props.C60_encode_total"
   ],
   "note": ""
  },
  {
   "property": "C61",
   "status": "proved",
   "theorems": [
    "Zerocaf.Props.C61_encoding_identifies"
   ],
   "note": ""
  },
  {
   "property": "C62",
   "status": "proved",
   "theorems": [
    "Zerocaf.Props.C62_rejects",
    "Zerocaf.Props.C62_total"
   ],
   "note": ""
  },
  {
   "property": "C63",
   "status": "proved",
   "theorems": [
    "Zerocaf.Props.C63_decode_valid",
    "Zerocaf.Props.C63_decode_exact"
   ],
   "note": ""
  },
  {
   "property": "C64",
   "status": "proved",
   "theorems": [
    "Zerocaf.Props.C64_elligator",
    "Zerocaf.Props.C64_mod_p"
   ],
   "note": "Every element with limbs below 2^52, which covers every value read from 32 bytes."
  },
  {
   "property": "C65",
   "status": "proved",
   "theorems": [
    "Zerocaf.Props.C65_from_uniform_bytes",
    "Zerocaf.Props.C65_new_random_point",
    "Zerocaf.Props.C65_sum_of_halves"
   ],
   "note": ""
  },
  {
   "property": "C66",
   "status": "proved",
   "theorems": [
    "Zerocaf.Props.C66_ops_respect",
    "Zerocaf.Props.C66_mul_respects",
    "Zerocaf.Props.C66_ops"
   ],
   "note": "Every scalar below 2^256, which covers all canonical scalars and all values read from bytes."
  },
  {
   "property": "C67",
   "status": "proved",
   "theorems": [
    "Zerocaf.Props.C67_classes",
    "Zerocaf.Props.C67_discrete_log",
    "Zerocaf.Props.C67_decodable_count"
   ],
   "note": ""
  },
  {
   "property": "C68",
   "status": "proved",
   "theorems": [
    "Zerocaf.Props.C68_is_valid",
    "Zerocaf.Props.C68_one_per_class",
    "Zerocaf.Props.C68_rejects_decoded"
   ],
   "note": "C68_rejects_decoded is the witness: decoding the published base point encoding gives a point that is_valid rejects."
  },
  {
   "property": "C69",
   "status": "proved",
   "theorems": [
    "Zerocaf.Props.C69_edwards_encode",
    "Zerocaf.Props.C69_edwards_decode",
    "Zerocaf.Props.C69_ristretto_encode",
    "Zerocaf.Props.C69_ristretto_decode",
    "Zerocaf.Props.C69_identity"
   ],
   "note": ""
  },
  {
   "property": "C70",
   "status": "proved",
   "theorems": [
    "Zerocaf.Props.C70_table"
   ],
   "note": ""
  },
  {
   "property": "C71",
   "status": "proved",
   "theorems": [
    "Zerocaf.Props.C71_montgomery_eq",
    "Zerocaf.Props.C71_not_mod_p"
   ],
   "note": "Equality of bytes for all inputs; the documented equality mod p fails for 0 and p."
  },
  {
   "property": "C72",
   "status": "proved",
   "theorems": [
    "Zerocaf.Props.C72_random_point",
    "Zerocaf.Props.C72_one_sign"
   ],
   "note": "Relative to rand 0.7 `gen_range(0u8, 1u8)` being always 0 (half-open range). Non-termination is only possible while no drawn y belongs to a point. The probability of drawing on for ever is zero (C99)."
  },
  {
   "property": "C73",
   "status": "proved",
   "theorems": [
    "Zerocaf.Props.C73_record_is_faithful",
    "Zerocaf.Props.C73_field",
    "Zerocaf.Props.C73_scalar",
    "Zerocaf.Props.C73_release",
    "Zerocaf.Props.C73_equality",
    "Zerocaf.Props.C73_points",
    "Zerocaf.Props.C73_pow",
    "Zerocaf.Props.C73_legendre",
    "Zerocaf.Props.C73_inverse",
    "Zerocaf.Props.C73_edwards_equality",
    "Zerocaf.Props.C73_double_and_add",
    "Zerocaf.Props.C73_ltr_bin_mul"
   ],
   "note": "Control flow only: Model/Leak.lean records every branch, loop test and overflow check, and C73_record_is_faithful shows that forgetting the record gives the model. Instruction timing, caches, the compiler and the inside of subtle are outside."
  },
  {
   "property": "C74",
   "status": "proved",
   "theorems": [
    "Zerocaf.Props.C74_neg_compressed",
    "Zerocaf.Props.C74_neg_compressed_panics"
   ],
   "note": ""
  },
  {
   "property": "C75",
   "status": "proved",
   "theorems": [
    "Zerocaf.Props.C75_scalar_add",
    "Zerocaf.Props.C75_scalar_mul",
    "Zerocaf.Props.C75_scalar_sub_neg",
    "Zerocaf.Props.C75_points",
    "Zerocaf.Props.C75_no_zero_divisors"
   ],
   "note": ""
  },
  {
   "property": "C76",
   "status": "proved",
   "theorems": [
    "Zerocaf.Props.C76_key_agreement",
    "Zerocaf.Props.C76_public_keys_distinct"
   ],
   "note": ""
  },
  {
   "property": "C77",
   "status": "proved",
   "theorems": [
    "Zerocaf.Props.C77_torsion_breaks_add",
    "Zerocaf.Props.C77_subgroup_add",
    "Zerocaf.Props.C77_witnesses"
   ],
   "note": ""
  },
  {
   "property": "C78",
   "status": "proved",
   "theorems": [
    "Zerocaf.Props.C78_clears_torsion",
    "Zerocaf.Props.C78_kernel"
   ],
   "note": ""
  },
  {
   "property": "C79",
   "status": "proved",
   "theorems": [
    "Zerocaf.Props.C79_compress_injective"
   ],
   "note": ""
  },
  {
   "property": "C80",
   "status": "proved",
   "theorems": [
    "Zerocaf.Props.C80_rfc_map",
    "Zerocaf.Props.C80_roots",
    "Zerocaf.Props.C80_unique",
    "Zerocaf.Props.C80_sign"
   ],
   "note": ""
  },
  {
   "property": "C81",
   "status": "proved",
   "theorems": [
    "Zerocaf.Props.C81_fibres",
    "Zerocaf.Props.C81_image"
   ],
   "note": ""
  },
  {
   "property": "C82",
   "status": "proved",
   "theorems": [
    "Zerocaf.Props.C82_add",
    "Zerocaf.Props.C82_sub",
    "Zerocaf.Props.C82_neg",
    "Zerocaf.Props.C82_neg_wrong",
    "Zerocaf.Props.C82_multiples",
    "Zerocaf.Props.C82_residues"
   ],
   "note": ""
  },
  {
   "property": "C83",
   "status": "proved",
   "theorems": [
    "Zerocaf.Props.C83_wrapped",
    "Zerocaf.Props.C83_wrapped_wrong",
    "Zerocaf.Props.C83_zero",
    "Zerocaf.Props.C83_wrapped_panics",
    "Zerocaf.Props.C83_wrapped_eighths",
    "Zerocaf.Props.C83_width_six",
    "Zerocaf.Props.C83_width_seven",
    "Zerocaf.Props.C83_wrong",
    "Zerocaf.Props.C83_width_seven_debug",
    "Zerocaf.Props.C83_panics",
    "Zerocaf.Props.C83_width_eight_release"
   ],
   "note": ""
  },
  {
   "property": "C84",
   "status": "proved",
   "theorems": [
    "Zerocaf.Props.C84_moduli",
    "Zerocaf.Props.C84_halves",
    "Zerocaf.Props.C84_curve",
    "Zerocaf.Props.C84_reduced"
   ],
   "note": ""
  },
  {
   "property": "C85",
   "status": "proved",
   "theorems": [
    "Zerocaf.Props.C85_from_slice",
    "Zerocaf.Props.C85_eq",
    "Zerocaf.Props.C85_index",
    "Zerocaf.Props.C85_default"
   ],
   "note": ""
  },
  {
   "property": "C86",
   "status": "proved",
   "theorems": [
    "Zerocaf.Props.C86_unimplemented"
   ],
   "note": ""
  },
  {
   "property": "C87",
   "status": "proved",
   "theorems": [
    "Zerocaf.Props.C87_example_point",
    "Zerocaf.Props.C87_example_scalar",
    "Zerocaf.Props.C87_documented_orders",
    "Zerocaf.Props.C87_documented_division"
   ],
   "note": ""
  },
  {
   "property": "C90",
   "status": "proved",
   "theorems": [
    "Zerocaf.Props.C90_base52",
    "Zerocaf.Props.C90_reduce"
   ],
   "note": ""
  },
  {
   "property": "C88",
   "status": "proved",
   "theorems": [
    "Zerocaf.Props.C88_montgomery",
    "Zerocaf.Props.C88_weierstrass",
    "Zerocaf.Props.C88_elliptic",
    "Zerocaf.Props.C88_order",
    "Zerocaf.Props.C88_base",
    "Zerocaf.Props.C88_operations",
    "Zerocaf.Props.C88_equality"
   ],
   "note": ""
  },
  {
   "property": "C89",
   "status": "proved",
   "theorems": [
    "Zerocaf.Props.C89_extended_ops",
    "Zerocaf.Props.C89_projective_ops",
    "Zerocaf.Props.C89_multiplication",
    "Zerocaf.Props.C89_affine",
    "Zerocaf.Props.C89_equality",
    "Zerocaf.Props.C89_projective_equality",
    "Zerocaf.Props.C89_valid",
    "Zerocaf.Props.C89_compress",
    "Zerocaf.Props.C89_ristretto",
    "Zerocaf.Props.C89_decoders"
   ],
   "note": ""
  },
  {
   "property": "C91",
   "status": "proved",
   "theorems": [
    "Zerocaf.Props.C91_unique",
    "Zerocaf.Props.C91_window",
    "Zerocaf.Props.C91_naf",
    "Zerocaf.Props.C91_minimal",
    "Zerocaf.Props.C91_at_most_binary"
   ],
   "note": ""
  },
  {
   "property": "C92",
   "status": "proved",
   "theorems": [
    "Zerocaf.Props.C92_min_entropy",
    "Zerocaf.Props.C92_reaches_almost_all",
    "Zerocaf.Props.C92_single"
   ],
   "note": ""
  },
  {
   "property": "C93",
   "status": "proved",
   "theorems": [
    "Zerocaf.Props.C93_prime_order_group"
   ],
   "note": ""
  },
  {
   "property": "C94",
   "status": "proved",
   "theorems": [
    "Zerocaf.Props.C94_schnorr_complete",
    "Zerocaf.Props.C94_schnorr_unique",
    "Zerocaf.Props.C94_schnorr_extract",
    "Zerocaf.Props.C94_elgamal",
    "Zerocaf.Props.C94_pedersen",
    "Zerocaf.Props.C94_pedersen_hiding"
   ],
   "note": ""
  },
  {
   "property": "C95",
   "status": "proved",
   "theorems": [
    "Zerocaf.Props.C95_operator",
    "Zerocaf.Props.C95_left_to_right",
    "Zerocaf.Props.C95_signed",
    "Zerocaf.Props.C95_operations_reveal_scalar",
    "Zerocaf.Props.C95_extended",
    "Zerocaf.Props.C95_projective"
   ],
   "note": ""
  },
  {
   "property": "C96",
   "status": "proved",
   "theorems": [
    "Zerocaf.Props.C96_almost_inverse",
    "Zerocaf.Props.C96_coprime",
    "Zerocaf.Props.C96_zero",
    "Zerocaf.Props.C96_script",
    "Zerocaf.Props.C96_script_not_inverse",
    "Zerocaf.Props.C96_phase1",
    "Zerocaf.Props.C96_phase1_wrong"
   ],
   "note": ""
  },
  {
   "property": "C97",
   "status": "proved",
   "theorems": [
    "Zerocaf.Props.C97_all_roots"
   ],
   "note": ""
  },
  {
   "property": "C98",
   "status": "proved",
   "theorems": [
    "Zerocaf.Props.C98_round_trip",
    "Zerocaf.Props.C98_not_library_limbs",
    "Zerocaf.Props.C98_small",
    "Zerocaf.Props.C98_point"
   ],
   "note": ""
  },
  {
   "property": "C99",
   "status": "proved",
   "theorems": [
    "Zerocaf.Props.C99_distribution",
    "Zerocaf.Props.C99_waiting",
    "Zerocaf.Props.C99_y_count",
    "Zerocaf.Props.C99_low_y_count",
    "Zerocaf.Props.C99_found_count",
    "Zerocaf.Props.C99_termination",
    "Zerocaf.Props.C99_returns_almost_surely",
    "Zerocaf.Props.C99_uniform",
    "Zerocaf.Props.C99_undecodable_count",
    "Zerocaf.Props.C99_decodable_count"
   ],
   "note": ""
  },
  {
   "property": "C100",
   "status": "proved",
   "theorems": [
    "Zerocaf.Props.C100_field_mul",
    "Zerocaf.Props.C100_scalar_mul",
    "Zerocaf.Props.C100_add",
    "Zerocaf.Props.C100_normalise",
    "Zerocaf.Props.C100_sub_zero",
    "Zerocaf.Props.C100_eq_ignores",
    "Zerocaf.Props.C100_wrong"
   ],
   "note": ""
  },
  {
   "property": "C101",
   "status": "proved",
   "theorems": [
    "Zerocaf.Props.C101_field",
    "Zerocaf.Props.C101_scalar"
   ],
   "note": ""
  },
  {
   "property": "C102",
   "status": "proved",
   "theorems": [
    "Zerocaf.Props.C102_twist_order",
    "Zerocaf.Props.C102_embedding_degree",
    "Zerocaf.Props.C102_rho",
    "Zerocaf.Props.C102_discriminant",
    "Zerocaf.Props.C102_trace",
    "Zerocaf.Props.C102_small_orders",
    "Zerocaf.Props.C102_ladder_elligator",
    "Zerocaf.Props.C102_derivation"
   ],
   "note": ""
  },
  {
   "property": "C103",
   "status": "proved",
   "theorems": [
    "Zerocaf.Props.C103_base_choice",
    "Zerocaf.Props.C103_paper_choice",
    "Zerocaf.Props.C103_paper_order",
    "Zerocaf.Props.C103_paper_equation",
    "Zerocaf.Props.C103_paper_to_montgomery",
    "Zerocaf.Props.C103_paper_scaling",
    "Zerocaf.Props.C103_paper_smooth",
    "Zerocaf.Props.C103_worked_examples",
    "Zerocaf.Props.C103_worked_multiples",
    "Zerocaf.Props.C103_wrong_hex"
   ],
   "note": ""
  },
  {
   "property": "C104",
   "status": "proved",
   "theorems": [
    "Zerocaf.Props.C104_ed_add",
    "Zerocaf.Props.C104_proj_add",
    "Zerocaf.Props.C104_ed_mul",
    "Zerocaf.Props.C104_proj_mul",
    "Zerocaf.Props.C104_ed_rest",
    "Zerocaf.Props.C104_proj_rest",
    "Zerocaf.Props.C104_ristretto_valid",
    "Zerocaf.Props.C104_aff",
    "Zerocaf.Props.C104_z_multiple",
    "Zerocaf.Props.C104_neg",
    "Zerocaf.Props.C104_ed_sub",
    "Zerocaf.Props.C104_neg_wrong",
    "Zerocaf.Props.C104_ristretto_compress",
    "Zerocaf.Props.C104_from_y"
   ],
   "note": ""
  },
  {
   "property": "C105",
   "status": "proved",
   "theorems": [
    "Zerocaf.Props.C105_add",
    "Zerocaf.Props.C105_sub",
    "Zerocaf.Props.C105_neg",
    "Zerocaf.Props.C105_pow",
    "Zerocaf.Props.C105_pow_right",
    "Zerocaf.Props.C105_pow_wrong",
    "Zerocaf.Props.C105_pow_wrong_two",
    "Zerocaf.Props.C105_window",
    "Zerocaf.Props.C105_window_wrong",
    "Zerocaf.Props.C105_naf",
    "Zerocaf.Props.C105_naf_mul",
    "Zerocaf.Props.C105_order",
    "Zerocaf.Props.C105_agree"
   ],
   "note": ""
  },
  {
   "property": "C106",
   "status": "proved",
   "theorems": [
    "Zerocaf.Props.C106_extended_add",
    "Zerocaf.Props.C106_extended_sub",
    "Zerocaf.Props.C106_extended_double",
    "Zerocaf.Props.C106_projective_add",
    "Zerocaf.Props.C106_projective_sub",
    "Zerocaf.Props.C106_projective_double",
    "Zerocaf.Props.C106_conversions",
    "Zerocaf.Props.C106_extended_operator",
    "Zerocaf.Props.C106_projective_operator",
    "Zerocaf.Props.C106_left_to_right",
    "Zerocaf.Props.C106_signed"
   ],
   "note": ""
  },
  {
   "property": "C107",
   "status": "proved",
   "theorems": [
    "Zerocaf.Props.C107_record_is_faithful",
    "Zerocaf.Props.C107_naf",
    "Zerocaf.Props.C107_signed_multiplication",
    "Zerocaf.Props.C107_window_digits",
    "Zerocaf.Props.C107_window",
    "Zerocaf.Props.C107_window_hides",
    "Zerocaf.Props.C107_window_multiplication",
    "Zerocaf.Props.C107_scalar_power"
   ],
   "note": ""
  },
  {
   "property": "C108",
   "status": "proved",
   "theorems": [
    "Zerocaf.Props.C108_record_is_faithful",
    "Zerocaf.Props.C108_mod_sqrt",
    "Zerocaf.Props.C108_sqrt_ratio",
    "Zerocaf.Props.C108_edwards_compress",
    "Zerocaf.Props.C108_ristretto_compress",
    "Zerocaf.Props.C108_representative",
    "Zerocaf.Props.C108_decompress",
    "Zerocaf.Props.C108_elligator",
    "Zerocaf.Props.C108_uniform_bytes"
   ],
   "note": ""
  },
  {
   "property": "C109",
   "status": "proved",
   "theorems": [
    "Zerocaf.Props.C109_field_order",
    "Zerocaf.Props.C109_scalar_order",
    "Zerocaf.Props.C109_element_equality",
    "Zerocaf.Props.C109_equality_order",
    "Zerocaf.Props.C109_equality_order_fails",
    "Zerocaf.Props.C109_affine_equality",
    "Zerocaf.Props.C109_extended_equality",
    "Zerocaf.Props.C109_projective_equality",
    "Zerocaf.Props.C109_ristretto_equality",
    "Zerocaf.Props.C109_ristretto_not_transitive",
    "Zerocaf.Props.C109_compressed_equality"
   ],
   "note": ""
  },
  {
   "property": "C110",
   "status": "proved",
   "theorems": [
    "Zerocaf.Props.C110_record_is_faithful",
    "Zerocaf.Props.C110_fixed",
    "Zerocaf.Props.C110_fixed_release",
    "Zerocaf.Props.C110_pow2",
    "Zerocaf.Props.C110_projective_equality",
    "Zerocaf.Props.C110_ristretto_valid",
    "Zerocaf.Props.C110_new_from_y",
    "Zerocaf.Props.C110_decompress",
    "Zerocaf.Props.C110_random_point",
    "Zerocaf.Props.C110_compress",
    "Zerocaf.Props.C110_negate_encoding"
   ],
   "note": ""
  },
  {
   "property": "C111",
   "status": "proved",
   "theorems": [
    "Zerocaf.Props.C111_orders",
    "Zerocaf.Props.C111_order_counts",
    "Zerocaf.Props.C111_multiples",
    "Zerocaf.Props.C111_weak_encoding",
    "Zerocaf.Props.C111_small_order_encodings",
    "Zerocaf.Props.C111_projects",
    "Zerocaf.Props.C111_cofactor_first",
    "Zerocaf.Props.C111_scalar_cofactor",
    "Zerocaf.Props.C111_ristretto"
   ],
   "note": ""
  },
  {
   "property": "C112",
   "status": "proved",
   "theorems": [
    "Zerocaf.Props.C112_numbers",
    "Zerocaf.Props.C112_encodings",
    "Zerocaf.Props.C112_points",
    "Zerocaf.Props.C112_alternate",
    "Zerocaf.Props.C112_types",
    "Zerocaf.Props.C112_finer",
    "Zerocaf.Props.C112_index_panics",
    "Zerocaf.Props.C112_index"
   ],
   "note": ""
  },
  {
   "property": "C113",
   "status": "proved",
   "theorems": [
    "Zerocaf.Props.C113_field_pow",
    "Zerocaf.Props.C113_scalar_pow",
    "Zerocaf.Props.C113_mul",
    "Zerocaf.Props.C113_inverse",
    "Zerocaf.Props.C113_inverse_one",
    "Zerocaf.Props.C113_roots",
    "Zerocaf.Props.C113_digits"
   ],
   "note": ""
  },
  {
   "property": "C114",
   "status": "proved",
   "theorems": [
    "Zerocaf.Props.C114_ristretto_sub",
    "Zerocaf.Props.C114_power",
    "Zerocaf.Props.C114_legendre",
    "Zerocaf.Props.C114_mod_sqrt",
    "Zerocaf.Props.C114_sqrt_ratio",
    "Zerocaf.Props.C114_edwards_compress",
    "Zerocaf.Props.C114_edwards_decompress",
    "Zerocaf.Props.C114_equality",
    "Zerocaf.Props.C114_is_valid",
    "Zerocaf.Props.C114_ristretto_compress",
    "Zerocaf.Props.C114_ristretto_decompress",
    "Zerocaf.Props.C114_from_uniform_bytes",
    "Zerocaf.Props.C114_window"
   ],
   "note": ""
  },
  {
   "property": "C115",
   "status": "proved",
   "theorems": [
    "Zerocaf.Props.C115_programs",
    "Zerocaf.Props.C115_builds",
    "Zerocaf.Props.C115_observable",
    "Zerocaf.Props.C115_specified",
    "Zerocaf.Props.C115_distinguish"
   ],
   "note": ""
  },
  {
   "property": "C116",
   "status": "proved",
   "theorems": [
    "Zerocaf.Props.C116_record_is_faithful",
    "Zerocaf.Props.C116_observation",
    "Zerocaf.Props.C116_outcome",
    "Zerocaf.Props.C116_silent",
    "Zerocaf.Props.C116_record_sees"
   ],
   "note": ""
  },
  {
   "property": "C117",
   "status": "proved",
   "theorems": [
    "Zerocaf.Props.C117_egcd",
    "Zerocaf.Props.C117_modinv",
    "Zerocaf.Props.C117_modinv_negative",
    "Zerocaf.Props.C117_modular_sqrt",
    "Zerocaf.Props.C117_modular_sqrt_nonsquare",
    "Zerocaf.Props.C117_mult",
    "Zerocaf.Props.C117_mult_negative",
    "Zerocaf.Props.C117_expand2",
    "Zerocaf.Props.C117_expand2_moduli",
    "Zerocaf.Props.C117_weierstrass",
    "Zerocaf.Props.C117_weierstrass_printed",
    "Zerocaf.Props.C117_derivation",
    "Zerocaf.Props.C117_find_basepoint"
   ],
   "note": ""
  },
  {
   "property": "C118",
   "status": "proved",
   "theorems": [
    "Zerocaf.Props.C118_record_is_faithful",
    "Zerocaf.Props.C118_order",
    "Zerocaf.Props.C118_is_positive",
    "Zerocaf.Props.C118_scalar_decoding",
    "Zerocaf.Props.C118_scalar_decoding_small",
    "Zerocaf.Props.C118_random",
    "Zerocaf.Props.C118_montgomery"
   ],
   "note": ""
  },
  {
   "property": "C119",
   "status": "proved",
   "theorems": [
    "Zerocaf.Props.C119_scalar_distance",
    "Zerocaf.Props.C119_field_distance",
    "Zerocaf.Props.C119_one_time_pad",
    "Zerocaf.Props.C119_pedersen",
    "Zerocaf.Props.C119_blind_point",
    "Zerocaf.Props.C119_schnorr_zero_knowledge",
    "Zerocaf.Props.C119_blinded_evaluation"
   ],
   "note": ""
  },
  {
   "property": "C120",
   "status": "proved",
   "theorems": [
    "Zerocaf.Props.C120_complete",
    "Zerocaf.Props.C120_hides_owner",
    "Zerocaf.Props.C120_extract",
    "Zerocaf.Props.C120_reuse",
    "Zerocaf.Props.C120_pretend",
    "Zerocaf.Props.C120_verifier"
   ],
   "note": ""
  },
  {
   "property": "C121",
   "status": "proved",
   "theorems": [
    "Zerocaf.Props.C121_arithmetic",
    "Zerocaf.Props.C121_onto",
    "Zerocaf.Props.C121_on_curve",
    "Zerocaf.Props.C121_sum",
    "Zerocaf.Props.C121_mul",
    "Zerocaf.Props.C121_member",
    "Zerocaf.Props.C121_inclusion"
   ],
   "note": ""
  },
  {
   "property": "C122",
   "status": "proved",
   "theorems": [
    "Zerocaf.Props.C122_digits",
    "Zerocaf.Props.C122_sum",
    "Zerocaf.Props.C122_no_panic",
    "Zerocaf.Props.C122_naf_panic",
    "Zerocaf.Props.C122_panic",
    "Zerocaf.Props.C122_naf_mul",
    "Zerocaf.Props.C122_window_mul"
   ],
   "note": ""
  },
  {
   "property": "C123",
   "status": "proved",
   "theorems": [
    "Zerocaf.Props.C123_primes",
    "Zerocaf.Props.C123_form",
    "Zerocaf.Props.C123_safe",
    "Zerocaf.Props.C123_accepts",
    "Zerocaf.Props.C123_unverified"
   ],
   "note": ""
  },
  {
   "property": "C124",
   "status": "proved",
   "theorems": [
    "Zerocaf.Props.C124_tests_pass",
    "Zerocaf.Props.C124_count",
    "Zerocaf.Props.C124_random_tests_pass",
    "Zerocaf.Props.C124_commented_out",
    "Zerocaf.Props.C124_commented_out_prefix"
   ],
   "note": ""
  },
  {
   "property": "C125",
   "status": "proved",
   "theorems": [
    "Zerocaf.Props.C125_parse",
    "Zerocaf.Props.C125_numeral_unique",
    "Zerocaf.Props.C125_u64",
    "Zerocaf.Props.C125_split52",
    "Zerocaf.Props.C125_split51",
    "Zerocaf.Props.C125_join52",
    "Zerocaf.Props.C125_join51",
    "Zerocaf.Props.C125_round_trip",
    "Zerocaf.Props.C125_bytes",
    "Zerocaf.Props.C125_radix",
    "Zerocaf.Props.C125_point",
    "Zerocaf.Props.C125_reduction",
    "Zerocaf.Props.C125_main",
    "Zerocaf.Props.C125_phase1",
    "Zerocaf.Props.C125_phase1_text"
   ],
   "note": ""
  },
  {
   "property": "C126",
   "status": "proved",
   "theorems": [
    "Zerocaf.Props.C126_round_trip_iff",
    "Zerocaf.Props.C126_never_itself",
    "Zerocaf.Props.C126_same_parity",
    "Zerocaf.Props.C126_equal_encode_equal",
    "Zerocaf.Props.C126_at_most_two",
    "Zerocaf.Props.C126_value",
    "Zerocaf.Props.C126_collision",
    "Zerocaf.Props.C126_rejected",
    "Zerocaf.Props.C126_sums",
    "Zerocaf.Props.C126_multiples",
    "Zerocaf.Props.C126_valid_guard",
    "Zerocaf.Props.C126_twice_as_many",
    "Zerocaf.Props.C126_half"
   ],
   "note": ""
  },
  {
   "property": "C127",
   "status": "proved",
   "theorems": [
    "Zerocaf.Props.C127_field_element",
    "Zerocaf.Props.C127_inverse_script",
    "Zerocaf.Props.C127_inverse_zero",
    "Zerocaf.Props.C127_inverse_committed",
    "Zerocaf.Props.C127_root_script",
    "Zerocaf.Props.C127_root_committed"
   ],
   "note": ""
  },
  {
   "property": "C128",
   "status": "proved",
   "theorems": [
    "Zerocaf.Props.C128_recover",
    "Zerocaf.Props.C128_hiding",
    "Zerocaf.Props.C128_check",
    "Zerocaf.Props.C128_binding",
    "Zerocaf.Props.C128_bad_encoding",
    "Zerocaf.Props.C128_accepted",
    "Zerocaf.Props.C128_threshold",
    "Zerocaf.Props.C128_additive"
   ],
   "note": ""
  },
  {
   "property": "C129",
   "status": "proved",
   "theorems": [
    "Zerocaf.Props.C129_complete",
    "Zerocaf.Props.C129_extract",
    "Zerocaf.Props.C129_sound",
    "Zerocaf.Props.C129_simulated",
    "Zerocaf.Props.C129_batch_complete",
    "Zerocaf.Props.C129_batch_sound"
   ],
   "note": ""
  },
  {
   "property": "C130",
   "status": "proved",
   "theorems": [
    "Zerocaf.Props.C130_bit_complete",
    "Zerocaf.Props.C130_bit_extract",
    "Zerocaf.Props.C130_bit_hiding",
    "Zerocaf.Props.C130_sum",
    "Zerocaf.Props.C130_range_extract",
    "Zerocaf.Props.C130_range_complete"
   ],
   "note": ""
  },
  {
   "property": "C131",
   "status": "proved",
   "theorems": [
    "Zerocaf.Props.C131_complete",
    "Zerocaf.Props.C131_wrong_product",
    "Zerocaf.Props.C131_once",
    "Zerocaf.Props.C131_one_commitment",
    "Zerocaf.Props.C131_extract_opening"
   ],
   "note": ""
  }
 ]
}
