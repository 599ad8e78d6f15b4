{
 "claims": [
  {
   "property": "C01",
   "status": "proved",
   "theorems": [
    "Redox.Props.C01_arith",
    "Redox.Props.C01_ops"
   ],
   "note": ""
  },
  {
   "property": "C02",
   "status": "proved",
   "theorems": [
    "Redox.Props.C02_canonical",
    "Redox.Props.C02_eq"
   ],
   "note": ""
  },
  {
   "property": "C03",
   "status": "proved",
   "theorems": [
    "Redox.Props.C03_div",
    "Redox.Props.C03_div_zero",
    "Redox.Props.C03_div_two"
   ],
   "note": ""
  },
  {
   "property": "C04",
   "status": "proved",
   "theorems": [
    "Redox.Props.C04_mix",
    "Redox.Props.C04_same"
   ],
   "note": ""
  },
  {
   "property": "C05",
   "status": "partial",
   "theorems": [
    "Redox.Props.C05_pow_nat",
    "Redox.Props.C05_pow_int_partial",
    "Redox.Props.C05_zero_base",
    "Redox.Props.C05_refuted"
   ],
   "note": "Proved for nonzero bases and for all natural exponents with ^ &BigUint. Refuted for base 0 with ^ &BigInt: 0^(p-1) = 1 for every p; exact behaviour in C05_zero_base."
  },
  {
   "property": "C06",
   "status": "proved",
   "theorems": [
    "Redox.Props.C06_is_square"
   ],
   "note": ""
  },
  {
   "property": "C07",
   "status": "proved",
   "theorems": [
    "Redox.Props.C07_sqrt",
    "Redox.Props.C07_sqrt_unimplemented"
   ],
   "note": ""
  },
  {
   "property": "C08",
   "status": "partial",
   "theorems": [
    "Redox.Props.C08_sequential_partial",
    "Redox.Props.C08_concurrent_safety",
    "Redox.Props.C08_concurrent_nonoverlapping",
    "Redox.Props.C08_refuted_concurrent",
    "Redox.Props.C08_concurrent_exact",
    "Redox.Props.C08_refuted_warm",
    "Redox.Props.C08_programs_safety",
    "Redox.Props.C08_programs_private",
    "Redox.Props.C08_programs_partial",
    "Redox.Props.C08_programs_progress"
   ],
   "note": "Proved for every single-threaded history. Refuted for overlapping threads: the exclusive borrow is held while computing, so a second thread panics; safety (never a wrong constant) proved for every schedule, also for threads running arbitrary programs on arbitrarily shared fields; threads that do not share fields are isolated, and no thread ever waits for another."
  },
  {
   "property": "C09",
   "status": "proved",
   "theorems": [
    "Redox.Props.C09_sgn0"
   ],
   "note": ""
  },
  {
   "property": "C10",
   "status": "proved",
   "theorems": [
    "Redox.Props.C10_serialize"
   ],
   "note": ""
  },
  {
   "property": "C11",
   "status": "proved",
   "theorems": [
    "Redox.Props.C11_deserialize"
   ],
   "note": ""
  },
  {
   "property": "C12",
   "status": "proved",
   "theorems": [
    "Redox.Props.C12_parse",
    "Redox.Props.C12_empty",
    "Redox.Props.C12_display_parse",
    "Redox.Props.C12_decimal",
    "Redox.Props.C12_text"
   ],
   "note": ""
  },
  {
   "property": "C13",
   "status": "proved",
   "theorems": [
    "Redox.Props.C13_ring",
    "Redox.Props.C13_elt",
    "Redox.Props.C13_mix"
   ],
   "note": ""
  },
  {
   "property": "C14",
   "status": "partial",
   "theorems": [
    "Redox.Props.C14_inv_partial",
    "Redox.Props.C14_refuted"
   ],
   "note": "Refuted: inversion lacks the conjugation. Exact: it is the inverse iff the imaginary part is zero."
  },
  {
   "property": "C15",
   "status": "partial",
   "theorems": [
    "Redox.Props.C15_refuted",
    "Redox.Props.C15_small_exponents_partial"
   ],
   "note": "Refuted: ^ &BigUint, ^ &BigInt and sqrt panic on every input. Only ^2u32 and ^-1i32 work."
  },
  {
   "property": "C16",
   "status": "partial",
   "theorems": [
    "Redox.Props.C16_is_square_partial",
    "Redox.Props.C16_refuted"
   ],
   "note": "Proved for nonzero elements; refuted at zero (answers false)."
  },
  {
   "property": "C17",
   "status": "proved",
   "theorems": [
    "Redox.Props.C17_bytes",
    "Redox.Props.C17_total",
    "Redox.Props.C17_layout"
   ],
   "note": ""
  },
  {
   "property": "C18",
   "status": "partial",
   "theorems": [
    "Redox.Props.C18_sgn0",
    "Redox.Props.C18_antisym_partial",
    "Redox.Props.C18_refuted"
   ],
   "note": "Values proved; antisymmetry characterised exactly and refuted in general."
  },
  {
   "property": "C19",
   "status": "proved",
   "theorems": [
    "Redox.Props.C19_arith",
    "Redox.Props.C19_div",
    "Redox.Props.C19_mix"
   ],
   "note": ""
  },
  {
   "property": "C20",
   "status": "partial",
   "theorems": [
    "Redox.Props.C20_iter_rl",
    "Redox.Props.C20_iter_lr_partial",
    "Redox.Props.C20_refuted_zero"
   ],
   "note": "Proved for nonzero scalars; for zero, iter_lr panics in the debug profile and is empty in release."
  },
  {
   "property": "C21",
   "status": "proved",
   "theorems": [
    "Redox.Props.C21_serialize"
   ],
   "note": ""
  },
  {
   "property": "C22",
   "status": "partial",
   "theorems": [
    "Redox.Props.C22_new_point",
    "Redox.Props.C22_identity",
    "Redox.Props.C22_history_partial",
    "Redox.Props.C22_refuted_normalize",
    "Redox.Props.C22_points"
   ],
   "note": "Proved for every history without normalize of the identity; refuted there: normalize(identity) is (0,0,1), off the curve when b is nonzero."
  },
  {
   "property": "C23",
   "status": "proved",
   "theorems": [
    "Redox.Props.C23_group_law",
    "Redox.Props.C23_laws"
   ],
   "note": ""
  },
  {
   "property": "C24",
   "status": "partial",
   "theorems": [
    "Redox.Props.C24_add_partial",
    "Redox.Props.C24_refuted"
   ],
   "note": "Exact: correct unless P-Q has order two, then (0,0,0) is returned, which is not a point."
  },
  {
   "property": "C25",
   "status": "partial",
   "theorems": [
    "Redox.Props.C25_mul_partial",
    "Redox.Props.C25_mul_odd_order_partial",
    "Redox.Props.C25_refuted_zero"
   ],
   "note": "Proved for every nonzero scalar in both profiles and for the zero scalar in release; refuted for zero in debug (panic). Scalars of another order: C31_weierstrass."
  },
  {
   "property": "C26",
   "status": "proved",
   "theorems": [
    "Redox.Props.C26_integer",
    "Redox.Props.C26_action"
   ],
   "note": ""
  },
  {
   "property": "C27",
   "status": "proved",
   "theorems": [
    "Redox.Props.C27_eq",
    "Redox.Props.C27_unique",
    "Redox.Props.C27_is_zero",
    "Redox.Props.C27_built"
   ],
   "note": ""
  },
  {
   "property": "C28",
   "status": "partial",
   "theorems": [
    "Redox.Props.C28_roundtrip_partial",
    "Redox.Props.C28_refuted_identity"
   ],
   "note": "Proved for every affine point in both formats. Refuted for the identity: encoded as 04 00..00, which decode panics on; 02 00..00 may decode to a different finite point."
  },
  {
   "property": "C29",
   "status": "partial",
   "theorems": [
    "Redox.Props.C29_decode_partial",
    "Redox.Props.C29_panics_iff",
    "Redox.Props.C29_refuted"
   ],
   "note": "Soundness and all error cases proved, exact panic set proved (C29_panics_iff). Refuted: decode panics instead of returning Err."
  },
  {
   "property": "C30",
   "status": "proved",
   "theorems": [
    "Redox.Props.C30_encode",
    "Redox.Props.C30_decode",
    "Redox.Props.C30_refuted_two_torsion"
   ],
   "note": "Proved; the decoder part assumes no two-torsion as in the statement, and is refuted without it."
  },
  {
   "property": "C31",
   "status": "proved",
   "theorems": [
    "Redox.Props.C31_edwards",
    "Redox.Props.C31_montgomery",
    "Redox.Props.C31_weierstrass"
   ],
   "note": "Proved for the three families."
  },
  {
   "property": "C32",
   "status": "partial",
   "theorems": [
    "Redox.Props.C32_double_iff",
    "Redox.Props.C32_group_law_partial",
    "Redox.Props.C32_add_exact_partial",
    "Redox.Props.C32_laws_partial",
    "Redox.Props.C32_eq",
    "Redox.Props.C32_refuted_b"
   ],
   "note": "Proved for b=1 when no point has y=s (the library's two Montgomery curves): addition, negation and equality are those of the group; exact exceptional set given. Refuted for general b: the addition formula ignores b. For every b: doubling any point with y other than zero is right exactly if b=1 (C32_double_iff)."
  },
  {
   "property": "C33",
   "status": "partial",
   "theorems": [
    "Redox.Props.C33_mul_partial",
    "Redox.Props.C33_refuted_zero",
    "Redox.Props.C33_integer_partial"
   ],
   "note": "Proved for every nonzero scalar in both profiles and for zero in release; refuted for zero in debug (panic). Scalars of another order: C31_montgomery."
  },
  {
   "property": "C34",
   "status": "partial",
   "theorems": [
    "Redox.Props.C34_roundtrip_partial",
    "Redox.Props.C34_canonical_partial",
    "Redox.Props.C34_refuted_identity"
   ],
   "note": "Proved for every affine point: round trip and injectivity in both formats. Refuted for the identity: it encodes exactly like (0,0)."
  },
  {
   "property": "C35",
   "status": "partial",
   "theorems": [
    "Redox.Props.C35_decode_partial",
    "Redox.Props.C35_panics_iff",
    "Redox.Props.C35_refuted"
   ],
   "note": "Soundness and error cases proved with the exact panic set; refuted: decode panics instead of returning Err."
  },
  {
   "property": "C36",
   "status": "proved",
   "theorems": [
    "Redox.Props.C36_group_law",
    "Redox.Props.C36_laws",
    "Redox.Props.C36_eq"
   ],
   "note": ""
  },
  {
   "property": "C37",
   "status": "partial",
   "theorems": [
    "Redox.Props.C37_mul_partial",
    "Redox.Props.C37_refuted_zero",
    "Redox.Props.C37_integer_partial"
   ],
   "note": "Proved for every nonzero scalar in both profiles and for zero in release; refuted for zero in debug (panic). Scalars of another order: C31_edwards."
  },
  {
   "property": "C38",
   "status": "partial",
   "theorems": [
    "Redox.Props.C38_exact_partial",
    "Redox.Props.C38_refuted"
   ],
   "note": "Refuted: is_zero also accepts (0,-1). The exact set it accepts is proved."
  },
  {
   "property": "C39",
   "status": "proved",
   "theorems": [
    "Redox.Props.C39_roundtrip",
    "Redox.Props.C39_injective",
    "Redox.Props.C39_canonical"
   ],
   "note": ""
  },
  {
   "property": "C40",
   "status": "partial",
   "theorems": [
    "Redox.Props.C40_decode_partial",
    "Redox.Props.C40_panics_iff",
    "Redox.Props.C40_refuted"
   ],
   "note": "Soundness and error cases proved with the exact panic set; refuted: decode panics instead of returning Err."
  },
  {
   "property": "C41",
   "status": "proved",
   "theorems": [
    "Redox.Props.C41_new",
    "Redox.Props.C41_map",
    "Redox.Props.C41_normalised",
    "Redox.Props.C41_odd"
   ],
   "note": ""
  },
  {
   "property": "C42",
   "status": "proved",
   "theorems": [
    "Redox.Props.C42_new",
    "Redox.Props.C42_map"
   ],
   "note": ""
  },
  {
   "property": "C43",
   "status": "partial",
   "theorems": [
    "Redox.Props.C43_any_z",
    "Redox.Props.C43_square_z",
    "Redox.Props.C43_refuted_b_ends",
    "Redox.Props.C43_new",
    "Redox.Props.C43_map_partial",
    "Redox.Props.C43_group_partial",
    "Redox.Props.C43_refuted_b",
    "Redox.Props.C43_refuted_square_z"
   ],
   "note": "Proved for every curve with b^2 = 1 and non-square z. Refuted: on every curve with b^2 != 1 all inputs with z*u^2 not in {0,-1} panic (the two exceptional values are settled by C43_refuted_b_ends); for b^2 = 1 and every square z the inputs that panic are exactly those of C43_square_z, and C43_any_z gives the outcome for every z."
  },
  {
   "property": "C44",
   "status": "partial",
   "theorems": [
    "Redox.Props.C44_birational",
    "Redox.Props.C44_isogeny_partial",
    "Redox.Props.C44_edwards25519",
    "Redox.Props.C44_edwards448_partial",
    "Redox.Props.C44_refuted_448"
   ],
   "note": "Edwards25519 proved for every u. Edwards448: proved for every u outside {0,1,-1}; at those three inputs the output is a degenerate non-point (refuted)."
  },
  {
   "property": "C45",
   "status": "partial",
   "theorems": [
    "Redox.Props.C45_get",
    "Redox.Props.C45_push_partial",
    "Redox.Props.C45_push_normalized",
    "Redox.Props.C45_refuted_identity",
    "Redox.Props.C45_refuted_projective",
    "Redox.Props.C45_map",
    "Redox.Props.C45_new"
   ],
   "note": "SSWUAB0 map proved for every u; push proved for every normalised affine point (and after normalize for every representative). Refuted: push panics on the identity and on non-normalised representatives such as G+G, because it ignores z."
  },
  {
   "property": "C46",
   "status": "partial",
   "theorems": [
    "Redox.Props.C46_get",
    "Redox.Props.C46_push_partial",
    "Redox.Props.C46_refuted_push",
    "Redox.Props.C46_push_normalized_partial",
    "Redox.Props.C46_refuted_identity",
    "Redox.Props.C46_refuted_projective",
    "Redox.Props.C46_new",
    "Redox.Props.C46_map_partial",
    "Redox.Props.C46_refuted_map"
   ],
   "note": "SSWUAB0 map with z=11 proved for every u except exactly sixteen inputs, on which it is proved to panic; push proved for normalised points outside the kernel, refuted on the kernel, the identity and non-normalised representatives."
  },
  {
   "property": "C47",
   "status": "partial",
   "theorems": [
    "Redox.Props.C47_isomorphism_partial",
    "Redox.Props.C47_no_panic",
    "Redox.Props.C47_roundtrip_partial",
    "Redox.Props.C47_push_hom_partial",
    "Redox.Props.C47_pull_hom_partial",
    "Redox.Props.C47_refuted_push",
    "Redox.Props.C47_refuted_pull",
    "Redox.Props.C47_refuted_hom",
    "Redox.Props.C47_edwards25519_partial"
   ],
   "note": "Proved for all points outside the exceptional pair (0,-1)/(0,0); refuted there: push of (0,-1) is the identity, pull of a non-normalised (0,0) is degenerate."
  },
  {
   "property": "C48",
   "status": "partial",
   "theorems": [
    "Redox.Props.C48_push",
    "Redox.Props.C48_pull_partial",
    "Redox.Props.C48_no_panic",
    "Redox.Props.C48_four_partial",
    "Redox.Props.C48_four_api",
    "Redox.Props.C48_refuted_pull",
    "Redox.Props.C48_edwards448"
   ],
   "note": "push proved for every point; pull proved outside the 2-torsion point (0,0), where it returns a degenerate non-point (refuted); pull after push is multiplication by four."
  },
  {
   "property": "C49",
   "status": "proved",
   "theorems": [
    "Redox.Props.C49_weierstrass",
    "Redox.Props.C49_montgomery",
    "Redox.Props.C49_edwards"
   ],
   "note": ""
  },
  {
   "property": "C50",
   "status": "proved",
   "theorems": [
    "Redox.Props.C50_prime_order"
   ],
   "note": ""
  },
  {
   "property": "C51",
   "status": "proved",
   "theorems": [
    "Redox.Props.C51_weierstrass",
    "Redox.Props.C51_montgomery",
    "Redox.Props.C51_edwards"
   ],
   "note": "Zero scalars: release profile only, because P*0 panics with overflow checks on (C25, C33, C37)."
  },
  {
   "property": "C52",
   "status": "proved",
   "theorems": [
    "Redox.Props.C52_weierstrass",
    "Redox.Props.C52_montgomery",
    "Redox.Props.C52_edwards",
    "Redox.Props.C52_named_weierstrass",
    "Redox.Props.C52_named_montgomery",
    "Redox.Props.C52_named_edwards"
   ],
   "note": "Multiples of the order as scalars: release profile only. Expressions with an invalid new_point are shown to panic."
  },
  {
   "property": "C53",
   "status": "proved",
   "theorems": [
    "Redox.Props.C53_new_point",
    "Redox.Props.C53_history",
    "Redox.Props.C53_points",
    "Redox.Props.C53_normalize_identity"
   ],
   "note": ""
  },
  {
   "property": "C54",
   "status": "partial",
   "theorems": [
    "Redox.Props.C54_history_any_partial",
    "Redox.Props.C54_refuted_normalize",
    "Redox.Props.C54_new_point",
    "Redox.Props.C54_history",
    "Redox.Props.C54_points",
    "Redox.Props.C54_degenerate"
   ],
   "note": "Refuted as stated on curves with square d: normalize of a point at infinity leaves the curve. Proved for every history on complete curves (C54_history, which covers all curves of the library) and, for arbitrary coefficients, with that single exception (C54_history_any_partial)."
  },
  {
   "property": "C55",
   "status": "proved",
   "theorems": [
    "Redox.Props.C55_p256",
    "Redox.Props.C55_p384",
    "Redox.Props.C55_p521",
    "Redox.Props.C55_secp256k1",
    "Redox.Props.C55_secp256k1_3iso",
    "Redox.Props.C55_bls12381g1",
    "Redox.Props.C55_bls12381g1_11iso",
    "Redox.Props.C55_curve25519",
    "Redox.Props.C55_curve448",
    "Redox.Props.C55_edwards25519",
    "Redox.Props.C55_edwards448"
   ],
   "note": "The two isogenous curves SECP256K1_3ISO and BLS12381G1_11ISO have no published base point; for them the theorem compares the other constants."
  },
  {
   "property": "C56",
   "status": "partial",
   "theorems": [
    "Redox.Props.C56_div_partial",
    "Redox.Props.C56_div_zero",
    "Redox.Props.C56_refuted",
    "Redox.Props.C56_predicates"
   ],
   "note": "Division proved correct exactly when the numerator is zero or the denominator is real, and refuted for every other pair (the computed inverse is that of the conjugate); division by zero returns zero. The predicates and assignments are proved."
  },
  {
   "property": "C57",
   "status": "partial",
   "theorems": [
    "Redox.Props.C57_literals",
    "Redox.Props.C57_parse",
    "Redox.Props.C57_no_comma",
    "Redox.Props.C57_display",
    "Redox.Props.C57_refuted",
    "Redox.Props.C57_roundtrip_partial"
   ],
   "note": "Exactly the accepted strings and their values are proved (C57_literals; \",\" is accepted and is zero). The round trip is refuted for every element (Display prints \"a+i*b\"); what does round-trip is the pair of printed coordinates joined by a comma."
  },
  {
   "property": "C58",
   "status": "partial",
   "theorems": [
    "Redox.Props.C58_weierstrass_partial",
    "Redox.Props.C58_montgomery",
    "Redox.Props.C58_edwards",
    "Redox.Props.C58_bls_iso_refuted"
   ],
   "note": "Proved for ten curves in both profiles; refuted for BLS12381G1_11ISO with a point of order 121: its get_cofactor() does not clear the cofactor."
  },
  {
   "property": "C59",
   "status": "partial",
   "theorems": [
    "Redox.Props.C59_weierstrass_partial",
    "Redox.Props.C59_montgomery",
    "Redox.Props.C59_edwards",
    "Redox.Props.C59_bls_refuted",
    "Redox.Props.C59_bls_iso_refuted"
   ],
   "note": "Proved for nine curves; refuted for BLS12381G1 (the exact count (1-x)^2/3 * r is proved; get_cofactor() is the effective cofactor 1-x) and for BLS12381G1_11ISO."
  },
  {
   "property": "C60",
   "status": "proved",
   "theorems": [
    "Redox.Props.C60_refused",
    "Redox.Props.C60_accepted",
    "Redox.Props.C60_static"
   ],
   "note": "Proved for both field types and for scalars (numerators)."
  },
  {
   "property": "C61",
   "status": "proved",
   "theorems": [
    "Redox.Props.C61_prime",
    "Redox.Props.C61_quad",
    "Redox.Props.C61_from"
   ],
   "note": "Proved for every modulus at least 2."
  },
  {
   "property": "C62",
   "status": "proved",
   "theorems": [
    "Redox.Props.C62_literals"
   ],
   "note": "Proved: the accepted strings are given by an explicit grammar with their values; the grammar admits odd forms such as \"--5\" and \"-0x+F_f\" because the inner parser takes a second sign."
  },
  {
   "property": "C63",
   "status": "proved",
   "theorems": [
    "Redox.Props.C63_scalar",
    "Redox.Props.C63_text"
   ],
   "note": "Proved for every modulus."
  },
  {
   "property": "C64",
   "status": "partial",
   "theorems": [
    "Redox.Props.C64_field",
    "Redox.Props.C64_curve",
    "Redox.Props.C64_curve_refuted",
    "Redox.Props.C64_point_partial",
    "Redox.Props.C64_refuted",
    "Redox.Props.C64_names",
    "Redox.Props.C64_text_field",
    "Redox.Props.C64_text_curve",
    "Redox.Props.C64_text_point"
   ],
   "note": "Exact texts proved (C64_text_field, C64_text_curve, C64_text_point; decimal is Lean's own Nat.toDigits 10). Fields and names proved; curves over one field: the text determines the two coefficients. Points: equal texts exactly when the stored projective coordinates coincide (partial). Refuted as stated: curves over different fields can print alike, and G+G and its normalised form are == but print differently in all three families."
  },
  {
   "property": "C65",
   "status": "partial",
   "theorems": [
    "Redox.Props.C65_sswu",
    "Redox.Props.C65_svdw",
    "Redox.Props.C65_ell2",
    "Redox.Props.C65_hash_weierstrass",
    "Redox.Props.C65_hash_montgomery",
    "Redox.Props.C65_hash_edwards_partial"
   ],
   "note": "Proved for twelve maps; EDWARDS448 excludes the inputs 0, 1 and -1, which have no proper image (C44_refuted_448). The isogeny-based map to BLS12381G1 is treated in C46 (sixteen panicking inputs)."
  },
  {
   "property": "C66",
   "status": "partial",
   "theorems": [
    "Redox.Props.C66_weierstrass_partial",
    "Redox.Props.C66_identity_refuted",
    "Redox.Props.C66_edwards",
    "Redox.Props.C66_montgomery_partial",
    "Redox.Props.C66_montgomery_identity_refuted",
    "Redox.Props.C66_montgomery_malleable_refuted"
   ],
   "note": "Edwards proved for all points; Weierstrass and Montgomery proved for all points except the identity, where the property is refuted on every named curve; uniqueness of the accepted string is refuted at (0,0) on the Montgomery curves."
  },
  {
   "property": "C67",
   "status": "partial",
   "theorems": [
    "Redox.Props.C67_secp256k1",
    "Redox.Props.C67_secp256k1_add_partial",
    "Redox.Props.C67_secp256k1_mul_partial",
    "Redox.Props.C67_bls12381g1",
    "Redox.Props.C67_bls12381g1_add_partial",
    "Redox.Props.C67_bls12381g1_mul_partial"
   ],
   "note": "The map on the groups is proved to be a homomorphism without exception (injective and onto; kernel of order eleven). For push itself representatives are normalised first and the identity, and for BLS12-381 the kernel, are excluded because push panics there (C45, C46)."
  },
  {
   "property": "C68",
   "status": "proved",
   "theorems": [
    "Redox.Props.C68_points",
    "Redox.Props.C68_clear"
   ],
   "note": "Proved: both counts exactly; eleven times the cofactor clears on BLS12381G1_11ISO."
  },
  {
   "property": "C69",
   "status": "partial",
   "theorems": [
    "Redox.Props.C69_isogeny",
    "Redox.Props.C69_push_add",
    "Redox.Props.C69_push_mul_partial",
    "Redox.Props.C69_pull_add_partial",
    "Redox.Props.C69_pull_mul_partial",
    "Redox.Props.C69_push_pull_partial"
   ],
   "note": "The homomorphisms, kernels and compositions on the groups are proved without exception, and push(P+Q) == push(P)+push(Q) for all points and representatives. For pull the point (0,0) is excluded, where pull returns (0:0:0:0) (C48_refuted_pull); the zero scalar panics in debug builds (C33, C37)."
  },
  {
   "property": "C70",
   "status": "proved",
   "theorems": [
    "Redox.Props.C70_fibres",
    "Redox.Props.C70_image",
    "Redox.Props.C70_curve25519",
    "Redox.Props.C70_curve448"
   ],
   "note": "Proved for every curve with B = 1 and p = 3 mod 4 or 5 mod 8 (B different from 1 is C43's refutation) and counted on both named curves."
  },
  {
   "property": "C71",
   "status": "proved",
   "theorems": [
    "Redox.Props.C71_sswu",
    "Redox.Props.C71_sswu_order_two",
    "Redox.Props.C71_svdw",
    "Redox.Props.C71_svdw_order_two",
    "Redox.Props.C71_named_sswu",
    "Redox.Props.C71_named_svdw",
    "Redox.Props.C71_secp256k1",
    "Redox.Props.C71_bls12381g1"
   ],
   "note": "Proved for all accepted Z and all points; points of order two, where the sign of u does not matter, have their own bounds. For BLS12381G1 Z = 11, the constant of RFC 9380."
  },
  {
   "property": "C72",
   "status": "partial",
   "theorems": [
    "Redox.Props.C72_weierstrass_partial",
    "Redox.Props.C72_weierstrass_equiv",
    "Redox.Props.C72_weierstrass_congr",
    "Redox.Props.C72_montgomery_partial",
    "Redox.Props.C72_montgomery_equiv",
    "Redox.Props.C72_montgomery_congr",
    "Redox.Props.C72_edwards_partial",
    "Redox.Props.C72_edwards_equiv",
    "Redox.Props.C72_edwards_congr",
    "Redox.Props.C72_refuted_fields",
    "Redox.Props.C72_refuted_transitive"
   ],
   "note": "Equivalence and interchangeability are proved for all genuine points. Refuted: comparing points over different fields panics instead of answering false (proved for all such pairs); the value (0:0:0) that + returns on curves of even order (C24) equals everything, so == is not transitive on values the API returns."
  },
  {
   "property": "C73",
   "status": "partial",
   "theorems": [
    "Redox.Props.C73_weierstrass_partial",
    "Redox.Props.C73_montgomery_partial",
    "Redox.Props.C73_edwards_partial",
    "Redox.Props.C73_expressions_partial",
    "Redox.Props.C73_refuted_zero"
   ],
   "note": "Proved for every expression that does not panic with an arithmetic overflow in the debug build, in particular for every nonzero scalar. Refuted for the zero scalar (P256: G * 0)."
  },
  {
   "property": "C74",
   "status": "partial",
   "theorems": [
    "Redox.Props.C74_rl",
    "Redox.Props.C74_lr_partial",
    "Redox.Props.C74_refuted_zero"
   ],
   "note": "iter_rl proved for all scalars; iter_lr for nonzero scalars or release builds; refuted for the zero scalar in debug builds."
  },
  {
   "property": "C75",
   "status": "partial",
   "theorems": [
    "Redox.Props.C75_weierstrass",
    "Redox.Props.C75_montgomery",
    "Redox.Props.C75_edwards",
    "Redox.Props.C75_generator_weierstrass",
    "Redox.Props.C75_generator_montgomery",
    "Redox.Props.C75_generator_edwards",
    "Redox.Props.C75_refuted"
   ],
   "note": "Proved: the accepted strings are exactly the numbers (decimal p, r, h; decimal, hexadecimal, octal or binary field literals), the curve has exactly these parameters, and get_generator returns (gx, gy) if it satisfies the equation and panics otherwise. Refuted: a composite modulus, a singular curve, the order 0 and, until get_generator is called, a generator off the curve are accepted."
  },
  {
   "property": "C76",
   "status": "proved",
   "theorems": [
    "Redox.Props.C76_fibres",
    "Redox.Props.C76_edwards25519",
    "Redox.Props.C76_edwards448"
   ],
   "note": "The general statement covers every curve and map of the edwards25519 form and every non-square Z. The bound for EDWARDS448 covers all inputs: for 0, 1 and -1 the map returns no point at all (C44_refuted_448)."
  },
  {
   "property": "C77",
   "status": "proved",
   "theorems": [
    "Redox.Props.C77_weierstrass",
    "Redox.Props.C77_montgomery",
    "Redox.Props.C77_edwards"
   ],
   "note": "Secrets that are multiples of the order are left out because they are no secrets: a zero scalar panics in debug builds (C25) and its public key cannot be encoded and decoded (C28)."
  },
  {
   "property": "C78",
   "status": "partial",
   "theorems": [
    "Redox.Props.C78_weierstrass_partial",
    "Redox.Props.C78_montgomery_partial",
    "Redox.Props.C78_edwards_partial"
   ],
   "note": "Partial: in debug builds the scalars must not be zero modulo the order, because multiplying by the zero scalar panics (C25_refuted_zero and its counterparts). In release builds there is no restriction."
  },
  {
   "property": "C79",
   "status": "partial",
   "theorems": [
    "Redox.Props.C79_weierstrass_partial",
    "Redox.Props.C79_weierstrass_accepts_partial",
    "Redox.Props.C79_montgomery_partial",
    "Redox.Props.C79_montgomery_accepts_partial",
    "Redox.Props.C79_edwards_partial",
    "Redox.Props.C79_edwards_accepts_partial"
   ],
   "note": "Partial: in debug builds x, z and t must not be zero modulo the order either, because multiplying by the zero scalar panics (C25_refuted_zero and its counterparts). In release builds there is no restriction on them. C79_*_accepts give the converse as well: for any s not zero modulo the order the comparison accepts exactly if s k = z + t x modulo the order."
  },
  {
   "property": "C80",
   "status": "proved",
   "theorems": [
    "Redox.Props.C80_curve448",
    "Redox.Props.C80_hash_curve448",
    "Redox.Props.C80_edwards448"
   ],
   "note": "The inputs 0, 1 and -1 are left out because on EDWARDS448 the map returns no point for them (C44_refuted_448). For the 25519 curves, where the images are slightly fewer than half of the points, see C102."
  },
  {
   "property": "C81",
   "status": "partial",
   "theorems": [
    "Redox.Props.C81_alive",
    "Redox.Props.C81_freed_partial",
    "Redox.Props.C81_refuted"
   ],
   "note": "Refuted: for moduli that are 5 modulo 8 the cached square root of -1 is an element and owns a clone of the Arc of its own field, so one square root (for instance one decoding on CURVE25519 or EDWARDS25519) makes a reference cycle and the memory is never freed. Every CURVE25519.get() makes a new field, so each curve object used this way leaks. Partial: for all other moduli, and for histories without square roots, the memory is freed."
  },
  {
   "property": "C82",
   "status": "proved",
   "theorems": [
    "Redox.Props.C82_sswuab0",
    "Redox.Props.C82_ell2_none",
    "Redox.Props.C82_ell2_some"
   ],
   "note": ""
  },
  {
   "property": "C83",
   "status": "proved",
   "theorems": [
    "Redox.Props.C83_weierstrass_exact",
    "Redox.Props.C83_weierstrass_laws",
    "Redox.Props.C83_montgomery_exact",
    "Redox.Props.C83_montgomery_laws",
    "Redox.Props.C83_edwards_exact",
    "Redox.Props.C83_edwards_laws",
    "Redox.Props.C83_named_prime",
    "Redox.Props.C83_montgomery_order_two",
    "Redox.Props.C83_edwards_order_two"
   ],
   "note": "Zero scalars are excluded in the debug profile, where multiplying by them panics."
  },
  {
   "property": "C84",
   "status": "proved",
   "theorems": [
    "Redox.Props.C84_invariant",
    "Redox.Props.C84_observers",
    "Redox.Props.C84_exception",
    "Redox.Props.C84_observers_rest"
   ],
   "note": "The theorem names the exceptions; C84_exception exhibits one on P-256."
  },
  {
   "property": "C85",
   "status": "partial",
   "theorems": [
    "Redox.Props.C85_total",
    "Redox.Props.C85_add_partial",
    "Redox.Props.C85_refuted"
   ],
   "note": "Refuted as stated: when (d x1 x2 y1 y2)^2 = 1 the value returned has z = 0 and stands for no point; it can even compare equal with every point of the curve (C85_refuted). Exactly these pairs are affected (C85_add_partial). The curves of the library are complete and have no such pair (C36, C49). Multiplication by zero panics in the debug profile (C37)."
  },
  {
   "property": "C86",
   "status": "proved",
   "theorems": [
    "Redox.Props.C86_weierstrass",
    "Redox.Props.C86_weierstrass_hiding",
    "Redox.Props.C86_montgomery",
    "Redox.Props.C86_montgomery_hiding",
    "Redox.Props.C86_edwards",
    "Redox.Props.C86_edwards_hiding"
   ],
   "note": ""
  },
  {
   "property": "C87",
   "status": "proved",
   "theorems": [
    "Redox.Props.C87_weierstrass",
    "Redox.Props.C87_weierstrass_sound",
    "Redox.Props.C87_weierstrass_complete",
    "Redox.Props.C87_montgomery",
    "Redox.Props.C87_montgomery_sound",
    "Redox.Props.C87_montgomery_complete",
    "Redox.Props.C87_edwards",
    "Redox.Props.C87_edwards_sound",
    "Redox.Props.C87_edwards_complete"
   ],
   "note": ""
  },
  {
   "property": "C88",
   "status": "proved",
   "theorems": [
    "Redox.Props.C88_inverse",
    "Redox.Props.C88_field_iff",
    "Redox.Props.C88_half",
    "Redox.Props.C88_scalar_iff",
    "Redox.Props.C88_one"
   ],
   "note": ""
  },
  {
   "property": "C89",
   "status": "proved",
   "theorems": [
    "Redox.Props.C89_count",
    "Redox.Props.C89_weierstrass",
    "Redox.Props.C89_weierstrass_reveals",
    "Redox.Props.C89_montgomery",
    "Redox.Props.C89_montgomery_reveals",
    "Redox.Props.C89_edwards",
    "Redox.Props.C89_edwards_reveals"
   ],
   "note": ""
  },
  {
   "property": "C90",
   "status": "proved",
   "theorems": [
    "Redox.Props.C90_weierstrass",
    "Redox.Props.C90_weierstrass_eq",
    "Redox.Props.C90_montgomery",
    "Redox.Props.C90_montgomery_eq",
    "Redox.Props.C90_edwards",
    "Redox.Props.C90_edwards_eq"
   ],
   "note": ""
  },
  {
   "property": "C91",
   "status": "partial",
   "theorems": [
    "Redox.Props.C91_sequential_partial",
    "Redox.Props.C91_concurrent_safety",
    "Redox.Props.C91_concurrent_nonoverlapping",
    "Redox.Props.C91_refuted_concurrent",
    "Redox.Props.C91_no_poison",
    "Redox.Props.C91_concurrent_exact",
    "Redox.Props.C91_refuted_warm"
   ],
   "note": "Proved for every single-threaded history, also after panics. Refuted for overlapping threads: the exclusive borrow is held while computing, so a second thread panics; which calls panic is characterised for every schedule, and a wrong constant is never returned."
  },
  {
   "property": "C92",
   "status": "partial",
   "theorems": [
    "Redox.Props.C92_exact",
    "Redox.Props.C92_sound_partial",
    "Redox.Props.C92_normalised_partial",
    "Redox.Props.C92_refuted"
   ],
   "note": "Refuted: representatives with z other than 1 are not reported, for instance (T + G) - G on CURVE25519 with T = (0,0), although it is == to T; and the normalised point at infinity is reported. Exact characterisation: true iff order two and z = 1."
  },
  {
   "property": "C93",
   "status": "proved",
   "theorems": [
    "Redox.Props.C93_is_square_iff",
    "Redox.Props.C93_sqrt_iff"
   ],
   "note": ""
  },
  {
   "property": "C94",
   "status": "proved",
   "theorems": [
    "Redox.Props.C94_weierstrass",
    "Redox.Props.C94_weierstrass_maps",
    "Redox.Props.C94_montgomery",
    "Redox.Props.C94_montgomery_maps",
    "Redox.Props.C94_edwards",
    "Redox.Props.C94_edwards_maps",
    "Redox.Props.C94_check_weierstrass",
    "Redox.Props.C94_check_montgomery",
    "Redox.Props.C94_check_edwards"
   ],
   "note": ""
  },
  {
   "property": "C95",
   "status": "proved",
   "theorems": [
    "Redox.Props.C95_weierstrass",
    "Redox.Props.C95_weierstrass_maps",
    "Redox.Props.C95_montgomery",
    "Redox.Props.C95_montgomery_maps",
    "Redox.Props.C95_edwards",
    "Redox.Props.C95_edwards_maps"
   ],
   "note": ""
  },
  {
   "property": "C96",
   "status": "proved",
   "theorems": [
    "Redox.Props.C96_scalars",
    "Redox.Props.C96_weierstrass",
    "Redox.Props.C96_montgomery",
    "Redox.Props.C96_edwards"
   ],
   "note": ""
  },
  {
   "property": "C97",
   "status": "proved",
   "theorems": [
    "Redox.Props.C97_weierstrass",
    "Redox.Props.C97_montgomery",
    "Redox.Props.C97_edwards"
   ],
   "note": ""
  },
  {
   "property": "C98",
   "status": "proved",
   "theorems": [
    "Redox.Props.C98_weierstrass_encode",
    "Redox.Props.C98_weierstrass_decode",
    "Redox.Props.C98_montgomery_encode",
    "Redox.Props.C98_montgomery_decode"
   ],
   "note": ""
  },
  {
   "property": "C99",
   "status": "proved",
   "theorems": [
    "Redox.Props.C99_weierstrass_order",
    "Redox.Props.C99_weierstrass",
    "Redox.Props.C99_montgomery_order",
    "Redox.Props.C99_montgomery",
    "Redox.Props.C99_edwards_order",
    "Redox.Props.C99_edwards",
    "Redox.Props.C99_named_weierstrass",
    "Redox.Props.C99_named_montgomery",
    "Redox.Props.C99_named_edwards",
    "Redox.Props.C99_curve25519"
   ],
   "note": "C99_curve25519 is the concrete case on CURVE25519 in which the obvious test is wrong and the other one right."
  },
  {
   "property": "C100",
   "status": "partial",
   "theorems": [
    "Redox.Props.C100_weierstrass_exact_partial",
    "Redox.Props.C100_montgomery_exact_partial",
    "Redox.Props.C100_edwards_exact_partial",
    "Redox.Props.C100_refuted_curve25519",
    "Redox.Props.C100_refuted_edwards25519"
   ],
   "note": "Refuted on CURVE25519 and EDWARDS25519 for every clamped secret; the exact condition is proved for every valid curve."
  },
  {
   "property": "C101",
   "status": "proved",
   "theorems": [
    "Redox.Props.C101_weierstrass",
    "Redox.Props.C101_weierstrass_order",
    "Redox.Props.C101_montgomery",
    "Redox.Props.C101_montgomery_order"
   ],
   "note": "Exact in both directions. C25 and C33 are the case without exceptional pairs."
  },
  {
   "property": "C102",
   "status": "proved",
   "theorems": [
    "Redox.Props.C102_curve25519",
    "Redox.Props.C102_edwards25519"
   ],
   "note": "The counterpart of C80, which covers the 448-bit curves, where two elements reach everything."
  },
  {
   "property": "C103",
   "status": "proved",
   "theorems": [
    "Redox.Props.C103_weierstrass",
    "Redox.Props.C103_montgomery",
    "Redox.Props.C103_edwards",
    "Redox.Props.C103_named_weierstrass",
    "Redox.Props.C103_named_montgomery",
    "Redox.Props.C103_named_edwards",
    "Redox.Props.C103_edwards25519"
   ],
   "note": "Zero scalars are excluded in the debug profile, where multiplying by them panics (C25, C33, C37)."
  },
  {
   "property": "C104",
   "status": "proved",
   "theorems": [
    "Redox.Props.C104_sswu",
    "Redox.Props.C104_svdw"
   ],
   "note": "The counterpart of C80 and C102 for the Weierstrass curves. The exact fractions are not elementary; the bounds follow from the numbers of preimages."
  },
  {
   "property": "C105",
   "status": "partial",
   "theorems": [
    "Redox.Props.C105_weierstrass_decode",
    "Redox.Props.C105_weierstrass_secret_partial",
    "Redox.Props.C105_weierstrass_check_partial",
    "Redox.Props.C105_weierstrass_prime",
    "Redox.Props.C105_weierstrass_refuted_zero",
    "Redox.Props.C105_named_prime",
    "Redox.Props.C105_montgomery_decode",
    "Redox.Props.C105_montgomery_secret_partial",
    "Redox.Props.C105_montgomery_check_partial",
    "Redox.Props.C105_montgomery_refuted_zero",
    "Redox.Props.C105_edwards_decode",
    "Redox.Props.C105_edwards_secret_partial",
    "Redox.Props.C105_edwards_check_partial",
    "Redox.Props.C105_edwards_refuted_zero"
   ],
   "note": "Partial: in debug builds a received s that is a multiple of the order makes the check panic (C105_*_refuted_zero); zero scalars are excluded there."
  },
  {
   "property": "C106",
   "status": "proved",
   "theorems": [
    "Redox.Props.C106_weierstrass",
    "Redox.Props.C106_named_prime",
    "Redox.Props.C106_bls12381g1",
    "Redox.Props.C106_montgomery",
    "Redox.Props.C106_named_montgomery",
    "Redox.Props.C106_edwards",
    "Redox.Props.C106_named_edwards"
   ],
   "note": ""
  },
  {
   "property": "C107",
   "status": "proved",
   "theorems": [
    "Redox.Props.C107_weierstrass",
    "Redox.Props.C107_weierstrass_sound",
    "Redox.Props.C107_montgomery",
    "Redox.Props.C107_montgomery_sound",
    "Redox.Props.C107_edwards",
    "Redox.Props.C107_edwards_sound",
    "Redox.Props.C107_edwards_torsion"
   ],
   "note": ""
  },
  {
   "property": "C108",
   "status": "proved",
   "theorems": [
    "Redox.Props.C108_weierstrass_same",
    "Redox.Props.C108_weierstrass",
    "Redox.Props.C108_weierstrass_mul",
    "Redox.Props.C108_weierstrass_cost",
    "Redox.Props.C108_montgomery_same",
    "Redox.Props.C108_montgomery",
    "Redox.Props.C108_montgomery_mul",
    "Redox.Props.C108_montgomery_cost",
    "Redox.Props.C108_edwards_same",
    "Redox.Props.C108_edwards",
    "Redox.Props.C108_edwards_mul",
    "Redox.Props.C108_edwards_cost"
   ],
   "note": "Comparisons, sgn0, cmov and the operations inside BigInt are not recorded: the statement is about calls of field operations, not about time."
  },
  {
   "property": "C109",
   "status": "partial",
   "theorems": [
    "Redox.Props.C109_same",
    "Redox.Props.C109_sswu",
    "Redox.Props.C109_svdw",
    "Redox.Props.C109_ell2",
    "Redox.Props.C109_sswuab0",
    "Redox.Props.C109_edwards448",
    "Redox.Props.C109_edwards25519_partial",
    "Redox.Props.C109_named25519_partial",
    "Redox.Props.C109_refuted_25519"
   ],
   "note": "Proved for all maps except that to edwards25519, where it is refuted for the input 0 and proved for every other input. Comparisons, sgn0, cmov and the operations inside BigInt are not recorded."
  },
  {
   "property": "C110",
   "status": "proved",
   "theorems": [
    "Redox.Props.C110_weierstrass",
    "Redox.Props.C110_weierstrass_binding",
    "Redox.Props.C110_weierstrass_hiding",
    "Redox.Props.C110_montgomery",
    "Redox.Props.C110_montgomery_binding",
    "Redox.Props.C110_montgomery_hiding",
    "Redox.Props.C110_edwards",
    "Redox.Props.C110_edwards_binding",
    "Redox.Props.C110_edwards_hiding"
   ],
   "note": ""
  },
  {
   "property": "C111",
   "status": "proved",
   "theorems": [
    "Redox.Props.C111_weierstrass",
    "Redox.Props.C111_weierstrass_sum",
    "Redox.Props.C111_montgomery",
    "Redox.Props.C111_montgomery_sum",
    "Redox.Props.C111_edwards",
    "Redox.Props.C111_edwards_sum"
   ],
   "note": ""
  },
  {
   "property": "C112",
   "status": "proved",
   "theorems": [
    "Redox.Props.C112_weierstrass",
    "Redox.Props.C112_weierstrass_accepts",
    "Redox.Props.C112_montgomery",
    "Redox.Props.C112_montgomery_accepts",
    "Redox.Props.C112_edwards",
    "Redox.Props.C112_edwards_accepts"
   ],
   "note": "In debug builds responses and challenges that are multiples of the order make verification panic (C105)."
  },
  {
   "property": "C113",
   "status": "proved",
   "theorems": [
    "Redox.Props.C113_weierstrass",
    "Redox.Props.C113_weierstrass_check",
    "Redox.Props.C113_montgomery",
    "Redox.Props.C113_montgomery_check",
    "Redox.Props.C113_edwards",
    "Redox.Props.C113_edwards_check",
    "Redox.Props.C113_hash448",
    "Redox.Props.C113_hash448_bytes"
   ],
   "note": "Describes what the code does with the values of C24, C44, C48 and C101; a user would expect a panic or an error."
  },
  {
   "property": "C114",
   "status": "proved",
   "theorems": [
    "Redox.Props.C114_same",
    "Redox.Props.C114_encode",
    "Redox.Props.C114_weierstrass",
    "Redox.Props.C114_montgomery",
    "Redox.Props.C114_edwards"
   ],
   "note": "Comparisons, sgn0, byte conversions and the operations inside BigInt are not recorded."
  },
  {
   "property": "C115",
   "status": "proved",
   "theorems": [
    "Redox.Props.C115_verify",
    "Redox.Props.C115_sign",
    "Redox.Props.C115_malleable",
    "Redox.Props.C115_nonce_reuse",
    "Redox.Props.C115_recover",
    "Redox.Props.C115_recover_all"
   ],
   "note": "In debug builds a message representative that is a multiple of the order makes verification panic (C25). Hashing a message to z is not part of the library."
  },
  {
   "property": "C116",
   "status": "proved",
   "theorems": [
    "Redox.Props.C116_weierstrass",
    "Redox.Props.C116_weierstrass_sound",
    "Redox.Props.C116_montgomery",
    "Redox.Props.C116_montgomery_sound",
    "Redox.Props.C116_edwards",
    "Redox.Props.C116_edwards_sound"
   ],
   "note": ""
  },
  {
   "property": "C117",
   "status": "proved",
   "theorems": [
    "Redox.Props.C117_weierstrass_decode",
    "Redox.Props.C117_weierstrass_encode",
    "Redox.Props.C117_montgomery_decode",
    "Redox.Props.C117_montgomery_encode",
    "Redox.Props.C117_edwards_decode",
    "Redox.Props.C117_edwards_encode"
   ],
   "note": ""
  },
  {
   "property": "C118",
   "status": "proved",
   "theorems": [
    "Redox.Props.C118_weierstrass",
    "Redox.Props.C118_weierstrass_sound",
    "Redox.Props.C118_weierstrass_simulate",
    "Redox.Props.C118_montgomery",
    "Redox.Props.C118_montgomery_sound",
    "Redox.Props.C118_montgomery_simulate",
    "Redox.Props.C118_edwards",
    "Redox.Props.C118_edwards_sound",
    "Redox.Props.C118_edwards_simulate"
   ],
   "note": ""
  },
  {
   "property": "C119",
   "status": "proved",
   "theorems": [
    "Redox.Props.C119_edwards",
    "Redox.Props.C119_named_edwards",
    "Redox.Props.C119_montgomery",
    "Redox.Props.C119_named_montgomery",
    "Redox.Props.C119_named_prime",
    "Redox.Props.C119_weierstrass",
    "Redox.Props.C119_named_weierstrass"
   ],
   "note": ""
  },
  {
   "property": "C120",
   "status": "proved",
   "theorems": [
    "Redox.Props.C120_prime_ring",
    "Redox.Props.C120_prime",
    "Redox.Props.C120_prime_eq",
    "Redox.Props.C120_quad",
    "Redox.Props.C120_quad_div",
    "Redox.Props.C120_quad_pow",
    "Redox.Props.C120_scalar_ring",
    "Redox.Props.C120_scalar",
    "Redox.Props.C120_scalar_eq"
   ],
   "note": ""
  },
  {
   "property": "C121",
   "status": "proved",
   "theorems": [
    "Redox.Props.C121_weierstrass",
    "Redox.Props.C121_weierstrass_zero",
    "Redox.Props.C121_weierstrass_eq",
    "Redox.Props.C121_montgomery",
    "Redox.Props.C121_montgomery_zero",
    "Redox.Props.C121_montgomery_eq",
    "Redox.Props.C121_edwards",
    "Redox.Props.C121_edwards_zero",
    "Redox.Props.C121_edwards_eq",
    "Redox.Props.C121_weierstrass_log",
    "Redox.Props.C121_montgomery_log",
    "Redox.Props.C121_edwards_log",
    "Redox.Props.C121_weierstrass_bytes",
    "Redox.Props.C121_montgomery_bytes",
    "Redox.Props.C121_edwards_bytes",
    "Redox.Props.C121_named_weierstrass",
    "Redox.Props.C121_named_montgomery",
    "Redox.Props.C121_named_edwards"
   ],
   "note": ""
  },
  {
   "property": "C122",
   "status": "proved",
   "theorems": [
    "Redox.Props.C122_weierstrass",
    "Redox.Props.C122_weierstrass_same",
    "Redox.Props.C122_montgomery",
    "Redox.Props.C122_montgomery_same",
    "Redox.Props.C122_edwards",
    "Redox.Props.C122_edwards_same",
    "Redox.Props.C122_named_weierstrass",
    "Redox.Props.C122_named_montgomery",
    "Redox.Props.C122_named_edwards"
   ],
   "note": "Display and the public normalize are not among the observations: Display shows the stored coordinates (C64), normalize has its own claim (C90)."
  },
  {
   "property": "C123",
   "status": "proved",
   "theorems": [
    "Redox.Props.C123_threads",
    "Redox.Props.C123_prime_field",
    "Redox.Props.C123_scalars"
   ],
   "note": ""
  }
 ]
}