# Axioms of each theorem

Output of `#print axioms` for every theorem of MANIFEST.json, with `import Verif`.
`std` stands for `propext`, `Classical.choice`, `Quot.sound`, the three axioms of Lean itself.

| theorem | axioms |
|---|---|
| `C01_arith` | std |
| `C01_ops` | std |
| `C02_canonical` | std |
| `C02_eq` | std |
| `C03_div` | std |
| `C03_div_zero` | std |
| `C03_div_two` | std |
| `C04_mix` | std |
| `C04_same` | std |
| `C05_pow_nat` | std |
| `C05_pow_int_partial` | std |
| `C05_zero_base` | std |
| `C05_refuted` | std |
| `C06_is_square` | std |
| `C07_sqrt` | std |
| `C07_sqrt_unimplemented` | propext, Quot.sound |
| `C08_sequential_partial` | propext, Quot.sound |
| `C08_concurrent_safety` | propext, Quot.sound |
| `C08_concurrent_nonoverlapping` | propext, Quot.sound |
| `C08_refuted_concurrent` | std |
| `C08_concurrent_exact` | propext, Quot.sound |
| `C08_refuted_warm` | propext, Quot.sound |
| `C08_programs_safety` | propext |
| `C08_programs_private` | propext, Quot.sound |
| `C08_programs_partial` | propext, Quot.sound |
| `C08_programs_progress` | std |
| `C09_sgn0` | std |
| `C10_serialize` | std |
| `C11_deserialize` | std |
| `C12_parse` | std |
| `C12_empty` | propext |
| `C12_display_parse` | std |
| `C12_decimal` | std |
| `C12_text` | std |
| `C13_ring` | std |
| `C13_elt` | std |
| `C13_mix` | propext |
| `C14_inv_partial` | std |
| `C14_refuted` | std |
| `C15_refuted` | propext, Quot.sound |
| `C15_small_exponents_partial` | std |
| `C16_is_square_partial` | std |
| `C16_refuted` | std |
| `C17_bytes` | std |
| `C17_total` | std |
| `C17_layout` | std |
| `C18_sgn0` | std |
| `C18_antisym_partial` | std |
| `C18_refuted` | std |
| `C19_arith` | std |
| `C19_div` | std |
| `C19_mix` | propext, Quot.sound |
| `C20_iter_rl` | std |
| `C20_iter_lr_partial` | std |
| `C20_refuted_zero` | propext, Quot.sound |
| `C21_serialize` | std |
| `C22_new_point` | std |
| `C22_identity` | std |
| `C22_history_partial` | std |
| `C22_refuted_normalize` | std |
| `C22_points` | std |
| `C23_group_law` | std |
| `C23_laws` | std |
| `C24_add_partial` | std |
| `C24_refuted` | none |
| `C25_mul_partial` | std |
| `C25_mul_odd_order_partial` | std |
| `C25_refuted_zero` | std |
| `C26_integer` | std |
| `C26_action` | std |
| `C27_eq` | std |
| `C27_unique` | std |
| `C27_is_zero` | std |
| `C27_built` | std |
| `C28_roundtrip_partial` | std |
| `C28_refuted_identity` | std |
| `C29_decode_partial` | std |
| `C29_panics_iff` | std |
| `C29_refuted` | propext |
| `C30_encode` | std |
| `C30_decode` | std |
| `C30_refuted_two_torsion` | propext |
| `C31_edwards` | propext, Quot.sound |
| `C31_montgomery` | propext, Quot.sound |
| `C31_weierstrass` | propext, Quot.sound |
| `C32_double_iff` | std |
| `C32_group_law_partial` | std |
| `C32_add_exact_partial` | std |
| `C32_laws_partial` | std |
| `C32_eq` | std |
| `C32_refuted_b` | std |
| `C33_mul_partial` | std |
| `C33_refuted_zero` | std |
| `C33_integer_partial` | std |
| `C34_roundtrip_partial` | std |
| `C34_canonical_partial` | std |
| `C34_refuted_identity` | std |
| `C35_decode_partial` | std |
| `C35_panics_iff` | std |
| `C35_refuted` | propext |
| `C36_group_law` | std |
| `C36_laws` | std |
| `C36_eq` | std |
| `C37_mul_partial` | std |
| `C37_refuted_zero` | std |
| `C37_integer_partial` | std |
| `C38_exact_partial` | std |
| `C38_refuted` | std |
| `C39_roundtrip` | std |
| `C39_injective` | std |
| `C39_canonical` | std |
| `C40_decode_partial` | std |
| `C40_panics_iff` | std |
| `C40_refuted` | std |
| `C41_new` | std |
| `C41_map` | std |
| `C41_normalised` | std |
| `C41_odd` | std |
| `C42_new` | std |
| `C42_map` | std |
| `C43_any_z` | std |
| `C43_square_z` | std |
| `C43_refuted_b_ends` | std |
| `C43_new` | std |
| `C43_map_partial` | std |
| `C43_group_partial` | std |
| `C43_refuted_b` | std |
| `C43_refuted_square_z` | std |
| `C44_birational` | std |
| `C44_isogeny_partial` | std |
| `C44_edwards25519` | std |
| `C44_edwards448_partial` | std |
| `C44_refuted_448` | std |
| `C45_get` | std |
| `C45_push_partial` | std |
| `C45_push_normalized` | std |
| `C45_refuted_identity` | std |
| `C45_refuted_projective` | std |
| `C45_map` | std |
| `C45_new` | propext, Quot.sound |
| `C46_get` | std |
| `C46_push_partial` | std |
| `C46_refuted_push` | std |
| `C46_push_normalized_partial` | std |
| `C46_refuted_identity` | std |
| `C46_refuted_projective` | std |
| `C46_new` | propext, Quot.sound |
| `C46_map_partial` | std |
| `C46_refuted_map` | std |
| `C47_isomorphism_partial` | std |
| `C47_no_panic` | std |
| `C47_roundtrip_partial` | std |
| `C47_push_hom_partial` | std |
| `C47_pull_hom_partial` | std |
| `C47_refuted_push` | std |
| `C47_refuted_pull` | std |
| `C47_refuted_hom` | std |
| `C47_edwards25519_partial` | std |
| `C48_push` | std |
| `C48_pull_partial` | std |
| `C48_no_panic` | std |
| `C48_four_partial` | std |
| `C48_four_api` | std |
| `C48_refuted_pull` | std |
| `C48_edwards448` | std |
| `C49_weierstrass` | std |
| `C49_montgomery` | std |
| `C49_edwards` | std |
| `C50_prime_order` | std |
| `C51_weierstrass` | std |
| `C51_montgomery` | std |
| `C51_edwards` | std |
| `C52_weierstrass` | std |
| `C52_montgomery` | std |
| `C52_edwards` | std |
| `C52_named_weierstrass` | std |
| `C52_named_montgomery` | std |
| `C52_named_edwards` | std |
| `C53_new_point` | std |
| `C53_history` | std |
| `C53_points` | std |
| `C53_normalize_identity` | std |
| `C54_history_any_partial` | std |
| `C54_refuted_normalize` | std |
| `C54_new_point` | std |
| `C54_history` | std |
| `C54_points` | std |
| `C54_degenerate` | std |
| `C55_p256` | propext |
| `C55_p384` | propext |
| `C55_p521` | propext |
| `C55_secp256k1` | propext |
| `C55_secp256k1_3iso` | propext |
| `C55_bls12381g1` | propext |
| `C55_bls12381g1_11iso` | propext |
| `C55_curve25519` | propext |
| `C55_curve448` | propext |
| `C55_edwards25519` | propext |
| `C55_edwards448` | propext |
| `C56_div_partial` | std |
| `C56_div_zero` | std |
| `C56_refuted` | std |
| `C56_predicates` | std |
| `C57_literals` | std |
| `C57_parse` | std |
| `C57_no_comma` | propext |
| `C57_display` | std |
| `C57_refuted` | std |
| `C57_roundtrip_partial` | std |
| `C58_weierstrass_partial` | std |
| `C58_montgomery` | std |
| `C58_edwards` | std |
| `C58_bls_iso_refuted` | std |
| `C59_weierstrass_partial` | std |
| `C59_montgomery` | std |
| `C59_edwards` | std |
| `C59_bls_refuted` | std |
| `C59_bls_iso_refuted` | std |
| `C60_refused` | propext, Quot.sound |
| `C60_accepted` | std |
| `C60_static` | none |
| `C61_prime` | std |
| `C61_quad` | std |
| `C61_from` | std |
| `C62_literals` | std |
| `C63_scalar` | std |
| `C63_text` | std |
| `C64_field` | std |
| `C64_curve` | std |
| `C64_curve_refuted` | none |
| `C64_point_partial` | std |
| `C64_refuted` | propext |
| `C64_names` | none |
| `C64_text_field` | std |
| `C64_text_curve` | std |
| `C64_text_point` | std |
| `C65_sswu` | std |
| `C65_svdw` | std |
| `C65_ell2` | std |
| `C65_hash_weierstrass` | std |
| `C65_hash_montgomery` | std |
| `C65_hash_edwards_partial` | std |
| `C66_weierstrass_partial` | std |
| `C66_identity_refuted` | std |
| `C66_edwards` | std |
| `C66_montgomery_partial` | std |
| `C66_montgomery_identity_refuted` | std |
| `C66_montgomery_malleable_refuted` | propext, Quot.sound |
| `C67_secp256k1` | std |
| `C67_secp256k1_add_partial` | std |
| `C67_secp256k1_mul_partial` | std |
| `C67_bls12381g1` | std |
| `C67_bls12381g1_add_partial` | std |
| `C67_bls12381g1_mul_partial` | std |
| `C68_points` | std |
| `C68_clear` | std |
| `C69_isogeny` | std |
| `C69_push_add` | std |
| `C69_push_mul_partial` | std |
| `C69_pull_add_partial` | std |
| `C69_pull_mul_partial` | std |
| `C69_push_pull_partial` | std |
| `C70_fibres` | std |
| `C70_image` | std |
| `C70_curve25519` | std |
| `C70_curve448` | std |
| `C71_sswu` | std |
| `C71_sswu_order_two` | std |
| `C71_svdw` | std |
| `C71_svdw_order_two` | std |
| `C71_named_sswu` | std |
| `C71_named_svdw` | std |
| `C71_secp256k1` | std |
| `C71_bls12381g1` | std |
| `C72_weierstrass_partial` | std |
| `C72_weierstrass_equiv` | std |
| `C72_weierstrass_congr` | std |
| `C72_montgomery_partial` | std |
| `C72_montgomery_equiv` | std |
| `C72_montgomery_congr` | std |
| `C72_edwards_partial` | std |
| `C72_edwards_equiv` | std |
| `C72_edwards_congr` | std |
| `C72_refuted_fields` | propext |
| `C72_refuted_transitive` | none |
| `C73_weierstrass_partial` | std |
| `C73_montgomery_partial` | std |
| `C73_edwards_partial` | std |
| `C73_expressions_partial` | std |
| `C73_refuted_zero` | propext |
| `C74_rl` | std |
| `C74_lr_partial` | std |
| `C74_refuted_zero` | propext |
| `C75_weierstrass` | std |
| `C75_montgomery` | std |
| `C75_edwards` | std |
| `C75_generator_weierstrass` | std |
| `C75_generator_montgomery` | std |
| `C75_generator_edwards` | std |
| `C75_refuted` | propext |
| `C76_fibres` | std |
| `C76_edwards25519` | std |
| `C76_edwards448` | std |
| `C77_weierstrass` | std |
| `C77_montgomery` | std |
| `C77_edwards` | std |
| `C78_weierstrass_partial` | std |
| `C78_montgomery_partial` | std |
| `C78_edwards_partial` | std |
| `C79_weierstrass_partial` | std |
| `C79_weierstrass_accepts_partial` | std |
| `C79_montgomery_partial` | std |
| `C79_montgomery_accepts_partial` | std |
| `C79_edwards_partial` | std |
| `C79_edwards_accepts_partial` | std |
| `C80_curve448` | std |
| `C80_hash_curve448` | std |
| `C80_edwards448` | std |
| `C81_alive` | std |
| `C81_freed_partial` | std |
| `C81_refuted` | std |
| `C82_sswuab0` | std |
| `C82_ell2_none` | none |
| `C82_ell2_some` | std |
| `C83_weierstrass_exact` | std |
| `C83_weierstrass_laws` | std |
| `C83_montgomery_exact` | std |
| `C83_montgomery_laws` | std |
| `C83_edwards_exact` | std |
| `C83_edwards_laws` | std |
| `C83_named_prime` | std |
| `C83_montgomery_order_two` | std |
| `C83_edwards_order_two` | std |
| `C84_invariant` | std |
| `C84_observers` | std |
| `C84_exception` | propext, Quot.sound |
| `C84_observers_rest` | std |
| `C85_total` | std |
| `C85_add_partial` | std |
| `C85_refuted` | std |
| `C86_weierstrass` | std |
| `C86_weierstrass_hiding` | std |
| `C86_montgomery` | std |
| `C86_montgomery_hiding` | std |
| `C86_edwards` | std |
| `C86_edwards_hiding` | std |
| `C87_weierstrass` | std |
| `C87_weierstrass_sound` | std |
| `C87_weierstrass_complete` | std |
| `C87_montgomery` | std |
| `C87_montgomery_sound` | std |
| `C87_montgomery_complete` | std |
| `C87_edwards` | std |
| `C87_edwards_sound` | std |
| `C87_edwards_complete` | std |
| `C88_inverse` | std |
| `C88_field_iff` | std |
| `C88_half` | std |
| `C88_scalar_iff` | std |
| `C88_one` | std |
| `C89_count` | std |
| `C89_weierstrass` | std |
| `C89_weierstrass_reveals` | std |
| `C89_montgomery` | std |
| `C89_montgomery_reveals` | std |
| `C89_edwards` | std |
| `C89_edwards_reveals` | std |
| `C90_weierstrass` | std |
| `C90_weierstrass_eq` | std |
| `C90_montgomery` | std |
| `C90_montgomery_eq` | std |
| `C90_edwards` | std |
| `C90_edwards_eq` | std |
| `C91_sequential_partial` | propext, Quot.sound |
| `C91_concurrent_safety` | propext, Quot.sound |
| `C91_concurrent_nonoverlapping` | propext, Quot.sound |
| `C91_refuted_concurrent` | propext, Quot.sound |
| `C91_no_poison` | propext, Quot.sound |
| `C91_concurrent_exact` | propext, Quot.sound |
| `C91_refuted_warm` | propext, Quot.sound |
| `C92_exact` | std |
| `C92_sound_partial` | std |
| `C92_normalised_partial` | std |
| `C92_refuted` | propext |
| `C93_is_square_iff` | std |
| `C93_sqrt_iff` | std |
| `C94_weierstrass` | propext, Quot.sound |
| `C94_weierstrass_maps` | propext, Quot.sound |
| `C94_montgomery` | propext, Quot.sound |
| `C94_montgomery_maps` | propext, Quot.sound |
| `C94_edwards` | propext, Quot.sound |
| `C94_edwards_maps` | propext, Quot.sound |
| `C94_check_weierstrass` | std |
| `C94_check_montgomery` | std |
| `C94_check_edwards` | std |
| `C95_weierstrass` | propext, Quot.sound |
| `C95_weierstrass_maps` | propext, Quot.sound |
| `C95_montgomery` | propext, Quot.sound |
| `C95_montgomery_maps` | propext, Quot.sound |
| `C95_edwards` | propext, Quot.sound |
| `C95_edwards_maps` | propext, Quot.sound |
| `C96_scalars` | std |
| `C96_weierstrass` | std |
| `C96_montgomery` | std |
| `C96_edwards` | std |
| `C97_weierstrass` | std |
| `C97_montgomery` | std |
| `C97_edwards` | std |
| `C98_weierstrass_encode` | std |
| `C98_weierstrass_decode` | std |
| `C98_montgomery_encode` | std |
| `C98_montgomery_decode` | std |
| `C99_weierstrass_order` | std |
| `C99_weierstrass` | std |
| `C99_montgomery_order` | std |
| `C99_montgomery` | std |
| `C99_edwards_order` | std |
| `C99_edwards` | std |
| `C99_named_weierstrass` | std |
| `C99_named_montgomery` | std |
| `C99_named_edwards` | std |
| `C99_curve25519` | propext |
| `C100_weierstrass_exact_partial` | std |
| `C100_montgomery_exact_partial` | std |
| `C100_edwards_exact_partial` | std |
| `C100_refuted_curve25519` | std |
| `C100_refuted_edwards25519` | std |
| `C101_weierstrass` | std |
| `C101_weierstrass_order` | std |
| `C101_montgomery` | std |
| `C101_montgomery_order` | std |
| `C102_curve25519` | std |
| `C102_edwards25519` | std |
| `C103_weierstrass` | std |
| `C103_montgomery` | std |
| `C103_edwards` | std |
| `C103_named_weierstrass` | std |
| `C103_named_montgomery` | std |
| `C103_named_edwards` | std |
| `C103_edwards25519` | propext |
| `C104_sswu` | std |
| `C104_svdw` | std |
| `C105_weierstrass_decode` | std |
| `C105_weierstrass_secret_partial` | std |
| `C105_weierstrass_check_partial` | std |
| `C105_weierstrass_prime` | std |
| `C105_weierstrass_refuted_zero` | std |
| `C105_named_prime` | std |
| `C105_montgomery_decode` | std |
| `C105_montgomery_secret_partial` | std |
| `C105_montgomery_check_partial` | std |
| `C105_montgomery_refuted_zero` | std |
| `C105_edwards_decode` | std |
| `C105_edwards_secret_partial` | std |
| `C105_edwards_check_partial` | std |
| `C105_edwards_refuted_zero` | std |
| `C106_weierstrass` | std |
| `C106_named_prime` | std |
| `C106_bls12381g1` | std |
| `C106_montgomery` | std |
| `C106_named_montgomery` | std |
| `C106_edwards` | std |
| `C106_named_edwards` | std |
| `C107_weierstrass` | std |
| `C107_weierstrass_sound` | std |
| `C107_montgomery` | std |
| `C107_montgomery_sound` | std |
| `C107_edwards` | std |
| `C107_edwards_sound` | std |
| `C107_edwards_torsion` | std |
| `C108_weierstrass_same` | propext, Quot.sound |
| `C108_weierstrass` | std |
| `C108_weierstrass_mul` | std |
| `C108_weierstrass_cost` | std |
| `C108_montgomery_same` | propext, Quot.sound |
| `C108_montgomery` | std |
| `C108_montgomery_mul` | std |
| `C108_montgomery_cost` | std |
| `C108_edwards_same` | propext, Quot.sound |
| `C108_edwards` | std |
| `C108_edwards_mul` | std |
| `C108_edwards_cost` | std |
| `C109_same` | propext, Quot.sound |
| `C109_sswu` | propext, Quot.sound |
| `C109_svdw` | propext, Quot.sound |
| `C109_ell2` | propext, Quot.sound |
| `C109_sswuab0` | std |
| `C109_edwards448` | propext, Quot.sound |
| `C109_edwards25519_partial` | propext, Quot.sound |
| `C109_named25519_partial` | std |
| `C109_refuted_25519` | propext |
| `C110_weierstrass` | std |
| `C110_weierstrass_binding` | std |
| `C110_weierstrass_hiding` | std |
| `C110_montgomery` | std |
| `C110_montgomery_binding` | std |
| `C110_montgomery_hiding` | std |
| `C110_edwards` | std |
| `C110_edwards_binding` | std |
| `C110_edwards_hiding` | std |
| `C111_weierstrass` | std |
| `C111_weierstrass_sum` | std |
| `C111_montgomery` | std |
| `C111_montgomery_sum` | std |
| `C111_edwards` | std |
| `C111_edwards_sum` | std |
| `C112_weierstrass` | std |
| `C112_weierstrass_accepts` | std |
| `C112_montgomery` | std |
| `C112_montgomery_accepts` | std |
| `C112_edwards` | std |
| `C112_edwards_accepts` | std |
| `C113_weierstrass` | std |
| `C113_weierstrass_check` | std |
| `C113_montgomery` | std |
| `C113_montgomery_check` | std |
| `C113_edwards` | std |
| `C113_edwards_check` | std |
| `C113_hash448` | std |
| `C113_hash448_bytes` | propext, Quot.sound |
| `C114_same` | propext, Quot.sound |
| `C114_encode` | propext, Quot.sound |
| `C114_weierstrass` | std |
| `C114_montgomery` | std |
| `C114_edwards` | std |
| `C115_verify` | std |
| `C115_sign` | std |
| `C115_malleable` | std |
| `C115_nonce_reuse` | std |
| `C115_recover` | std |
| `C115_recover_all` | std |
| `C116_weierstrass` | std |
| `C116_weierstrass_sound` | std |
| `C116_montgomery` | std |
| `C116_montgomery_sound` | std |
| `C116_edwards` | std |
| `C116_edwards_sound` | std |
| `C117_weierstrass_decode` | std |
| `C117_weierstrass_encode` | std |
| `C117_montgomery_decode` | std |
| `C117_montgomery_encode` | std |
| `C117_edwards_decode` | std |
| `C117_edwards_encode` | std |
| `C118_weierstrass` | std |
| `C118_weierstrass_sound` | std |
| `C118_weierstrass_simulate` | std |
| `C118_montgomery` | std |
| `C118_montgomery_sound` | std |
| `C118_montgomery_simulate` | std |
| `C118_edwards` | std |
| `C118_edwards_sound` | std |
| `C118_edwards_simulate` | std |
| `C119_edwards` | std |
| `C119_named_edwards` | std |
| `C119_montgomery` | std |
| `C119_named_montgomery` | std |
| `C119_named_prime` | std |
| `C119_weierstrass` | std |
| `C119_named_weierstrass` | std |
| `C120_prime_ring` | std |
| `C120_prime` | std |
| `C120_prime_eq` | std |
| `C120_quad` | std |
| `C120_quad_div` | std |
| `C120_quad_pow` | std |
| `C120_scalar_ring` | std |
| `C120_scalar` | std |
| `C120_scalar_eq` | std |
| `C121_weierstrass` | std |
| `C121_weierstrass_zero` | std |
| `C121_weierstrass_eq` | std |
| `C121_montgomery` | std |
| `C121_montgomery_zero` | std |
| `C121_montgomery_eq` | std |
| `C121_edwards` | std |
| `C121_edwards_zero` | std |
| `C121_edwards_eq` | std |
| `C121_weierstrass_log` | std |
| `C121_montgomery_log` | std |
| `C121_edwards_log` | std |
| `C121_weierstrass_bytes` | std |
| `C121_montgomery_bytes` | std |
| `C121_edwards_bytes` | std |
| `C121_named_weierstrass` | std |
| `C121_named_montgomery` | std |
| `C121_named_edwards` | std |
| `C122_weierstrass` | std |
| `C122_weierstrass_same` | std |
| `C122_montgomery` | std |
| `C122_montgomery_same` | std |
| `C122_edwards` | std |
| `C122_edwards_same` | std |
| `C122_named_weierstrass` | std |
| `C122_named_montgomery` | std |
| `C122_named_edwards` | std |
| `C123_threads` | std |
| `C123_prime_field` | std |
| `C123_scalars` | std |
