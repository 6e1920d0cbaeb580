{"claims": [
{"property": "C01", "status": "proved", "theorems": ["Crazy.C01_Xoroshiro", "Crazy.C01_Rexoroshiro", "Crazy.C01_Xoshiro", "Crazy.C01_LFG", "Crazy.C01_MT64"], "note": ""},
{"property": "C02", "status": "proved", "theorems": ["Crazy.C02_Xoroshiro", "Crazy.C02_Rexoroshiro", "Crazy.C02_Xoshiro", "Crazy.C02_LFG", "Crazy.C02_MT64"], "note": ""},
{"property": "C03", "status": "proved", "theorems": ["Crazy.C03_Xoroshiro", "Crazy.C03_Rexoroshiro", "Crazy.C03_Xoshiro", "Crazy.C03_LFG", "Crazy.C03_MT64", "Crazy.C03_completes_Xoshiro", "Crazy.C03_completes_Xoroshiro", "Crazy.C03_completes_Rexoroshiro", "Crazy.C03_completes_LFG", "Crazy.C03_completes_MT64"], "note": ""},
{"property": "C04", "status": "proved", "theorems": ["Crazy.C04_LFG", "Crazy.C04_MT64", "Crazy.C04_Rexoroshiro", "Crazy.C04_Xoshiro", "Crazy.C04_Xoroshiro"], "note": ""},
{"property": "C05", "status": "proved", "theorems": ["Crazy.C05_LFG", "Crazy.C05_MT64", "Crazy.C05_Rexoroshiro", "Crazy.C05_Xoshiro", "Crazy.C05_Xoroshiro_skips", "Crazy.C05_Xoroshiro_false"], "note": ""},
{"property": "C06", "status": "proved", "theorems": ["Crazy.C06_LFG", "Crazy.C06_MT64", "Crazy.C06_Rexoroshiro", "Crazy.C06_Xoshiro", "Crazy.C06_Xoroshiro_every_second", "Crazy.C06_Xoroshiro_false"], "note": ""},
{"property": "C07", "status": "proved", "theorems": ["Crazy.C07_reads", "Crazy.C07_short", "Crazy.C07_broken"], "note": ""},
{"property": "C08", "status": "proved", "theorems": ["Crazy.C08_AdaptCrazy", "Crazy.C08_top63", "Crazy.C08_low63", "Crazy.C08_LFG", "Crazy.C08_MT64", "Crazy.C08_Xoroshiro", "Crazy.C08_Rexoroshiro"], "note": ""},
{"property": "C09", "status": "proved", "theorems": ["Crazy.C09_range", "Crazy.C09_zero"], "note": ""},
{"property": "C10", "status": "proved", "theorems": ["Crazy.C10_first_accepted", "Crazy.C10_never", "Crazy.C10_B_exists"], "note": ""},
{"property": "C11", "status": "proved", "theorems": ["Crazy.C11_biased", "Crazy.C11_unbiased_false", "Crazy.C11_nonzero_even"], "note": ""},
{"property": "C12", "status": "proved", "theorems": ["Crazy.C12_half", "Crazy.C12_zero"], "note": ""},
{"property": "C13", "status": "proved", "theorems": ["Crazy.C13_MT64", "Crazy.C13_Xoshiro", "Crazy.C13_Rexoroshiro", "Crazy.C13_Xoroshiro", "Crazy.C13_LFG"], "note": ""},
{"property": "C14", "status": "proved", "theorems": ["Crazy.C14_range", "Crazy.C14_panics", "Crazy.C14_uintn"], "note": ""},
{"property": "C15", "status": "proved", "theorems": ["Crazy.C15_range", "Crazy.C15_panics"], "note": ""},
{"property": "C16", "status": "proved", "theorems": ["Crazy.C16_even", "Crazy.C16_top_byte_cleared", "Crazy.C16_even_below", "Crazy.C16_Big8"], "note": ""},
{"property": "C17", "status": "proved", "theorems": ["Crazy.C17_range", "Crazy.C17_panics"], "note": ""},
{"property": "C18", "status": "proved", "theorems": ["Crazy.C18_biased", "Crazy.C18_small", "Crazy.C18_small_even", "Crazy.C18_never_uniform", "Crazy.C18_always_zero"], "note": ""},
{"property": "C19", "status": "proved", "theorems": ["Crazy.C19_xorCompose", "Crazy.C19_shared"], "note": ""},
{"property": "C20", "status": "proved", "theorems": ["Crazy.C20_selectCompose"], "note": ""},
{"property": "C21", "status": "proved", "theorems": ["Crazy.C21_bijection", "Crazy.C21_copy_LFG", "Crazy.C21_copy_MT64", "Crazy.C21_copy_Xoroshiro", "Crazy.C21_copy_Rexoroshiro", "Crazy.C21_copy_Xoshiro"], "note": ""},
{"property": "C22", "status": "proved", "theorems": ["Crazy.C22_read", "Crazy.C22_documented", "Crazy.C22_uint64_half", "Crazy.C22_last_bit", "Crazy.C22_word_uniform", "Crazy.C22_tail_uniform"], "note": ""},
{"property": "C23", "status": "proved", "theorems": ["Crazy.C23_read64", "Crazy.C23_contract"], "note": ""},
{"property": "C24", "status": "proved", "theorems": ["Crazy.C24_seedIV", "Crazy.C24_prefix", "Crazy.C24_seedInt64", "Crazy.C24_adaptRand64"], "note": ""},
{"property": "C25", "status": "proved", "theorems": ["Crazy.C25_returned", "Crazy.C25_interfaces", "Crazy.C25_source64_roundtrip", "Crazy.C25_seeder_roundtrip", "Crazy.C25_plain_roundtrip"], "note": ""},
{"property": "C26", "status": "proved", "theorems": ["Crazy.C26_source64", "Crazy.C26_Xoshiro"], "note": ""},
{"property": "C27", "status": "proved", "theorems": ["Crazy.C27_adaptCrazy", "Crazy.C27_Xoshiro"], "note": ""},
{"property": "C28", "status": "proved", "theorems": ["Crazy.C28_runes", "Crazy.C28_runes_unique", "Crazy.C28_invalid", "Crazy.C28_randString", "Crazy.C28_panics", "Crazy.C28_alphabet", "Crazy.C28_text", "Crazy.C28_result_text"], "note": ""},
{"property": "C29", "status": "proved", "theorems": ["Crazy.C29_slice", "Crazy.C29_slice_perm", "Crazy.C29_slice_empty", "Crazy.C29_swapper", "Crazy.C29_swapper_slice"], "note": ""},
{"property": "C30", "status": "proved", "theorems": ["Crazy.C30_perm", "Crazy.C30_reachable"], "note": ""},
{"property": "C31", "status": "proved", "theorems": ["Crazy.C31_uniform_iff", "Crazy.C31_slice", "Crazy.C31_swapper"], "note": ""},
{"property": "C32", "status": "proved", "theorems": ["Crazy.Yield.C32_in_order", "Crazy.Yield.C32_monotone", "Crazy.Yield.C32_capacity", "Crazy.Yield.C32_any_mixture", "Crazy.Yield.C32_recv"], "note": ""},
{"property": "C33", "status": "proved", "theorems": ["Crazy.Yield.C33_only_on_quit", "Crazy.Yield.C33_nil_quit", "Crazy.Yield.C33_quit_possible", "Crazy.Yield.C33_quit_possible_top", "Crazy.Yield.C33_after_stop", "Crazy.Yield.C33_one_lost", "Crazy.Yield.C33_crash", "Crazy.Yield.C33_progress", "Crazy.Yield.C33_not_prompt", "Crazy.Yield.C33_close", "Crazy.Yield.C33_send", "Crazy.Yield.C33_nil_over"], "note": ""},
{"property": "C34", "status": "proved", "theorems": ["Crazy.C34_seedInt64", "Crazy.C34_seedInt64_injective", "Crazy.C34_is_seed", "Crazy.C34_cryptoSeeded", "Crazy.C34_cryptoSeeded_panics"], "note": ""},
{"property": "C35", "status": "proved", "theorems": ["Crazy.C35_value", "Crazy.C35_panics", "Crazy.C35_range", "Crazy.C35_even"], "note": ""},
{"property": "C36", "status": "proved", "theorems": ["Crazy.C36_value", "Crazy.C36_panics", "Crazy.C36_range", "Crazy.C36_even"], "note": ""},
{"property": "C37", "status": "proved", "theorems": ["Crazy.C37_formula", "Crazy.C37_bounds", "Crazy.C37_nonpos_low", "Crazy.C37_zero_low", "Crazy.C37_exceeds_high", "Crazy.C37_minus_one_one"], "note": ""},
{"property": "C38", "status": "proved", "theorems": ["Crazy.C38_layer", "Crazy.C38_offset", "Crazy.C38_offset_mirrored", "Crazy.C38_abs", "Crazy.C38_mirrored_bijection", "Crazy.C38_offset_range", "Crazy.C38_twice", "Crazy.C38_no_panic", "Crazy.C38_fast_path"], "note": ""},
{"property": "C39", "status": "proved", "theorems": ["Crazy.C39_expo_fast", "Crazy.C39_normal_fast", "Crazy.C39_expo_wedge", "Crazy.C39_normal_wedge", "Crazy.C39_expo_density", "Crazy.C39_normal_density"], "note": ""},
{"property": "C40", "status": "proved", "theorems": ["Crazy.C40_expo", "Crazy.C40_normal", "Crazy.C40_expoR", "Crazy.C40_normalR"], "note": ""},
{"property": "C41", "status": "proved", "theorems": ["Crazy.C41_tail", "Crazy.C41_nonneg", "Crazy.C41_inf"], "note": ""},
{"property": "C42", "status": "proved", "theorems": ["Crazy.C42_count", "Crazy.C42_not_nan", "Crazy.C42_standard", "Crazy.C42_even", "Crazy.C42_mirror", "Crazy.C42_tail"], "note": ""},
{"property": "C43", "status": "proved", "theorems": ["Crazy.C43_one", "Crazy.C43_many"], "note": ""},
{"property": "C44", "status": "proved", "theorems": ["Crazy.C44_Xoshiro_period", "Crazy.C44_Xoshiro_zero", "Crazy.C44_Xoshiro_visits", "Crazy.C44_Xoshiro_output_period"], "note": ""},
{"property": "C45", "status": "proved", "theorems": ["Crazy.C45_Xoshiro_equidistributed", "Crazy.C45_Xoshiro_never_zeros"], "note": ""},
{"property": "C46", "status": "proved", "theorems": ["Crazy.C46_Xoshiro_Jump", "Crazy.C46_Xoshiro_Jumps"], "note": ""},
{"property": "C47", "status": "proved", "theorems": ["Crazy.C47_Xoshiro_no_overlap", "Crazy.C47_Xoshiro_overlap"], "note": ""},
{"property": "C48", "status": "proved", "theorems": ["Crazy.C48_Xoroshiro_period", "Crazy.C48_Xoroshiro_visits", "Crazy.C48_Xoroshiro_output_period", "Crazy.C48_Rexoroshiro_period", "Crazy.C48_Rexoroshiro_visits", "Crazy.C48_Rexoroshiro_output_period"], "note": ""},
{"property": "C49", "status": "proved", "theorems": ["Crazy.C49_Xoroshiro_equidistributed", "Crazy.C49_Rexoroshiro_equidistributed"], "note": ""},
{"property": "C50", "status": "proved", "theorems": ["Crazy.C50_Xoroshiro_block", "Crazy.C50_Xoroshiro_injective", "Crazy.C50_Xoroshiro_permute", "Crazy.C50_Xoroshiro_padding", "Crazy.C50_Rexoroshiro_block"], "note": ""},
{"property": "C51", "status": "proved", "theorems": ["Crazy.C51_Xoroshiro_zero_dead", "Crazy.C51_Xoshiro_zero_dead", "Crazy.C51_Xoroshiro_alive", "Crazy.C51_Xoroshiro_Seed_alive", "Crazy.C51_Xoroshiro_kill_16", "Crazy.C51_Xoroshiro_kill", "Crazy.C51_Xoshiro_kill", "Crazy.C51_Xoshiro_alive", "Crazy.C51_Xoshiro_Seed_alive", "Crazy.C51_Xoshiro_kill_32"], "note": ""},
{"property": "C52", "status": "proved", "theorems": ["Crazy.C52_Xoshiro_block", "Crazy.C52_Xoshiro_injective", "Crazy.C52_Xoshiro_padding"], "note": ""},
{"property": "C53", "status": "proved", "theorems": ["Crazy.C53_LFG_ignored", "Crazy.C53_LFG_Seed", "Crazy.C53_LFG_live", "Crazy.C53_LFG_one_byte"], "note": ""},
{"property": "C54", "status": "proved", "theorems": ["Crazy.C54_LFG_documented_false", "Crazy.C54_LFG_recurrence"], "note": ""},
{"property": "C55", "status": "proved", "theorems": ["Crazy.C55_LFG_period", "Crazy.C55_LFG_documented_false", "Crazy.C55_LFG_much_shorter"], "note": ""},
{"property": "C56", "status": "proved", "theorems": ["Crazy.C56_LFG_table"], "note": ""},
{"property": "C57", "status": "proved", "theorems": ["Crazy.C57_Xoroshiro", "Crazy.C57_Rexoroshiro", "Crazy.C57_Xoshiro", "Crazy.C57_LFG", "Crazy.C57_MT64", "Crazy.C57_LFG_zeroValue"], "note": ""},
{"property": "C58", "status": "proved", "theorems": ["Crazy.C58_Xoroshiro", "Crazy.C58_Rexoroshiro", "Crazy.C58_Xoshiro", "Crazy.C58_LFG", "Crazy.C58_silent", "Crazy.C58_MT64_error", "Crazy.C58_MT64_no_error", "Crazy.C58_MT64_false", "Crazy.C58_MT64_eof"], "note": ""},
{"property": "C59", "status": "proved", "theorems": ["Crazy.C59_Xoroshiro", "Crazy.C59_Rexoroshiro", "Crazy.C59_Xoshiro", "Crazy.C59_LFG", "Crazy.C59_MT64"], "note": ""},
{"property": "C60", "status": "proved", "theorems": ["Crazy.C60_MT64_reference"], "note": ""},
{"property": "C61", "status": "proved", "theorems": ["Crazy.C61_MT64_period", "Crazy.C61_MT64_period_later", "Crazy.C61_MT64_Seed_alive", "Crazy.C61_MT64_Seed_period", "Crazy.C61_MT64_dead"], "note": ""},
{"property": "C62", "status": "proved", "theorems": ["Crazy.C62_MT64_equidistributed", "Crazy.C62_MT64_equidistributed_zeros", "Crazy.C62_MT64_not_312", "Crazy.C62_MT64_not_623"], "note": ""},
{"property": "C63", "status": "proved", "theorems": ["Crazy.C63_MT64_injective", "Crazy.C63_MT64_same_length", "Crazy.C63_MT64_padding", "Crazy.C63_MT64_collision"], "note": ""},
{"property": "C64", "status": "proved", "theorems": ["Crazy.C64_outputs", "Crazy.C64_read", "Crazy.C64_state"], "note": ""},
{"property": "C65", "status": "proved", "theorems": ["Crazy.C65_Xoshiro", "Crazy.C65_Xoroshiro", "Crazy.C65_Rexoroshiro"], "note": ""},
{"property": "C66", "status": "proved", "theorems": ["Crazy.C66_LFG_reversed_false"], "note": ""},
{"property": "C67", "status": "proved", "theorems": ["Crazy.C67_LFG_unseeded", "Crazy.C67_LFG_SeedIV_alive", "Crazy.C67_LFG_Seed_alive", "Crazy.C67_MT64_SeedIV_alive", "Crazy.C67_MT64_unseeded"], "note": ""},
{"property": "C68", "status": "proved", "theorems": ["Crazy.C68_Xoshiro", "Crazy.C68_Xoroshiro", "Crazy.C68_Rexoroshiro", "Crazy.C68_MT64", "Crazy.C68_LFG"], "note": ""},
{"property": "C69", "status": "proved", "theorems": ["Crazy.C69_Xoshiro", "Crazy.C69_Xoroshiro", "Crazy.C69_Rexoroshiro", "Crazy.C69_MT64", "Crazy.C69_LFG", "Crazy.C69_LFG_seeded"], "note": ""},
{"property": "C70", "status": "proved", "theorems": ["Crazy.C70_exponential", "Crazy.C70_negative", "Crazy.C70_returns"], "note": ""},
{"property": "C71", "status": "proved", "theorems": ["Crazy.C71_normal", "Crazy.C71_returns"], "note": ""},
{"property": "C72", "status": "proved", "theorems": ["Crazy.C72_independent", "Crazy.C72_normals", "Crazy.C72_exponentials"], "note": ""},
{"property": "C73", "status": "proved", "theorems": ["Crazy.C73_exact", "Crazy.C73_uintn", "Crazy.C73_draws", "Crazy.C73_shuffle_any", "Crazy.C73_shuffle", "Crazy.C73_shuffle_biased", "Crazy.C73_randString"], "note": ""},
{"property": "C74", "status": "proved", "theorems": ["Crazy.C74_LFG_period", "Crazy.C74_LFG_exact", "Crazy.C74_LFG_seeded", "Crazy.C74_LFG_Seed", "Crazy.C74_LFG_size"], "note": ""},
{"property": "C75", "status": "proved", "theorems": ["Crazy.C75_Xoroshiro_empty", "Crazy.C75_Xoroshiro", "Crazy.C75_Rexoroshiro", "Crazy.C75_Xoshiro_empty", "Crazy.C75_Xoshiro"], "note": ""},
{"property": "C76", "status": "proved", "theorems": ["Crazy.C76_Xoshiro_first_constant", "Crazy.C76_Xoshiro_Seed_first", "Crazy.C76_Xoshiro_first", "Crazy.C76_Xoshiro_Seed_second", "Crazy.C76_Xoroshiro_Seed_first", "Crazy.C76_Rexoroshiro_Seed_first"], "note": ""},
{"property": "C77", "status": "proved", "theorems": ["Crazy.C77_selectCompose_given", "Crazy.C77_xorCompose", "Crazy.C77_selectCompose"], "note": ""},
{"property": "C78", "status": "proved", "theorems": ["Crazy.C78_LFG_outputs", "Crazy.C78_LFG_Seed"], "note": ""},
{"property": "C79", "status": "proved", "theorems": ["Crazy.C79_MT64_empty", "Crazy.C79_MT64_words", "Crazy.C79_MT64_outputs", "Crazy.C79_not_published"], "note": ""},
{"property": "C80", "status": "proved", "theorems": ["Crazy.C80_Xoshiro", "Crazy.C80_Xoroshiro", "Crazy.C80_Rexoroshiro", "Crazy.C80_MT64"], "note": ""},
{"property": "C81", "status": "proved", "theorems": ["Crazy.C81_Xoroshiro", "Crazy.C81_Rexoroshiro", "Crazy.C81_MT64"], "note": ""},
{"property": "C82", "status": "proved", "theorems": ["Crazy.C82_Xoshiro", "Crazy.C82_Xoroshiro", "Crazy.C82_Rexoroshiro", "Crazy.C82_LFG", "Crazy.C82_MT64"], "note": ""},
{"property": "C83", "status": "proved", "theorems": ["Crazy.C83_Xoroshiro_recurrence", "Crazy.C83_Xoroshiro_order", "Crazy.C83_Rexoroshiro_order", "Crazy.C83_Rexoroshiro_recurrence", "Crazy.C83_Xoshiro_order"], "note": ""},
{"property": "C84", "status": "proved", "theorems": ["Crazy.C84_LFG_outputs_stay_small", "Crazy.C84_LFG_saved_small", "Crazy.C84_LFG_zeros", "Crazy.C84_MT64_sparse", "Crazy.C84_MT64_few", "Crazy.C84_MT64_zeros", "Crazy.C84_Xoshiro_zeros", "Crazy.C84_Xoroshiro_zeros", "Crazy.C84_Rexoroshiro_zeros"], "note": ""},
{"property": "C85", "status": "proved", "theorems": ["Crazy.C85_exists", "Crazy.C85_unique", "Crazy.C85_mini", "Crazy.C85_solve", "Crazy.C85_guess", "Crazy.C85_im", "Crazy.C85_im_bits", "Crazy.C85_tables", "Crazy.C85_expo", "Crazy.C85_normal"], "note": ""},
{"property": "C86", "status": "proved", "theorems": ["Crazy.C86_one_draw", "Crazy.C86_Xoshiro", "Crazy.C86_Xoroshiro", "Crazy.C86_Rexoroshiro", "Crazy.C86_MT64", "Crazy.C86_LFG", "Crazy.C86_below"], "note": ""},
{"property": "C87", "status": "proved", "theorems": ["Crazy.C87_LFG", "Crazy.C87_LFG_seeded", "Crazy.C87_LFG_Seed"], "note": ""},
{"property": "C88", "status": "proved", "theorems": ["Crazy.C88_Xoshiro", "Crazy.C88_Xoshiro_every", "Crazy.C88_Xoshiro_coprime", "Crazy.C88_Xoroshiro_bytes", "Crazy.C88_Xoroshiro_coprime", "Crazy.C88_Rexoroshiro_bytes", "Crazy.C88_Rexoroshiro_coprime", "Crazy.C88_MT64"], "note": ""},
{"property": "C89", "status": "proved", "theorems": ["Crazy.C89_exact", "Crazy.C89_near", "Crazy.C89_small"], "note": ""},
{"property": "C90", "status": "proved", "theorems": ["Crazy.C90_64", "Crazy.C90_Uintn_range", "Crazy.C90_Uintn_zero", "Crazy.C90_first_accepted", "Crazy.C90_biased", "Crazy.C90_half", "Crazy.C90_Intn", "Crazy.C90_Big32", "Crazy.C90_Xoshiro", "Crazy.C90_Rexoroshiro", "Crazy.C90_Xoroshiro", "Crazy.C90_MT64", "Crazy.C90_LFG", "Crazy.C90_slice", "Crazy.C90_swapper_slice", "Crazy.C90_randString", "Crazy.C90_helpers", "Crazy.C90_RandString_32_panics", "Crazy.C90_RandString_32", "Crazy.C90_RandString_64_panics", "Crazy.C90_RandString_64", "Crazy.C90_LFG_SeedIV", "Crazy.C90_LFG_SeedIV_64", "Crazy.C90_LFG_SeedIV_32", "Crazy.C90_LFG_SeedIV_panics", "Crazy.C90_LFG_SeedIV_except"], "note": ""},
{"property": "C91", "status": "proved", "theorems": ["Crazy.C91_exponential", "Crazy.C91_normal", "Crazy.C91_uniform"], "note": ""},
{"property": "C92", "status": "proved", "theorems": ["Crazy.C92_uniform", "Crazy.C92_uniforms"], "note": ""},
{"property": "C93", "status": "proved", "theorems": ["Crazy.C93_plain", "Crazy.C93_mirrored", "Crazy.C93_returns", "Crazy.C93_laplace"], "note": ""},
{"property": "C94", "status": "proved", "theorems": ["Crazy.C94_xor_uint64", "Crazy.C94_period", "Crazy.C94_even", "Crazy.C94_Xoroshiro_MT64", "Crazy.C94_Rexoroshiro_MT64", "Crazy.C94_Xoshiro_MT64", "Crazy.C94_LFG_MT64", "Crazy.C94_Xoroshiro_MT64_even", "Crazy.C94_Rexoroshiro_MT64_even", "Crazy.C94_Xoshiro_MT64_even", "Crazy.C94_MT64_MT64", "Crazy.C94_MT64_MT64_period"], "note": ""},
{"property": "C95", "status": "proved", "theorems": ["Crazy.C95_Xoshiro", "Crazy.C95_Xoroshiro", "Crazy.C95_Rexoroshiro", "Crazy.C95_MT64"], "note": ""},
{"property": "C96", "status": "proved", "theorems": ["Crazy.C96_LFG", "Crazy.C96_LFG_seeded", "Crazy.C96_LFG_Seed", "Crazy.C96_LFG_low"], "note": ""},
{"property": "C97", "status": "proved", "theorems": ["Crazy.Yield.C97_each", "Crazy.Yield.C97_in_order", "Crazy.Yield.C97_one_each", "Crazy.Yield.C97_rest", "Crazy.Yield.C97_comes_to_rest", "Crazy.Yield.C97_at_rest", "Crazy.Yield.C97_close_all", "Crazy.Yield.C97_crash", "Crazy.Yield.C97_any_mixture", "Crazy.Yield.C97_stop_any"], "note": ""},
{"property": "C98", "status": "proved", "theorems": ["Crazy.C98_LFG_Xoroshiro", "Crazy.C98_LFG_Rexoroshiro", "Crazy.C98_LFG_Xoshiro", "Crazy.C98_LFG_MT64", "Crazy.C98_Xoroshiro_MT64", "Crazy.C98_Rexoroshiro_MT64", "Crazy.C98_Xoshiro_MT64", "Crazy.C98_coprime", "Crazy.C98_Xoroshiro_Xoshiro", "Crazy.C98_Rexoroshiro_Xoshiro"], "note": ""},
{"property": "C99", "status": "proved", "theorems": ["Crazy.C99_exponential_mean", "Crazy.C99_exponential_square", "Crazy.C99_exponential_variance", "Crazy.C99_normal_mean", "Crazy.C99_normal_square"], "note": ""},
{"property": "C100", "status": "proved", "theorems": ["Crazy.C100_count", "Crazy.C100_slice", "Crazy.C100_swapper", "Crazy.C100_first", "Crazy.C100_last", "Crazy.C100_total", "Crazy.C100_total_place", "Crazy.C100_last_but_one", "Crazy.C100_last_to_first", "Crazy.C100_bounds"], "note": ""},
{"property": "C101", "status": "proved", "theorems": ["Crazy.C101_uintn", "Crazy.C101_uintn_two", "Crazy.C101_exponential_one", "Crazy.C101_normal_one", "Crazy.C101_exponential_average", "Crazy.C101_normal_average", "Crazy.C101_draws", "Crazy.C101_shuffle", "Crazy.C101_randString"], "note": ""},
{"property": "C102", "status": "proved", "theorems": ["Crazy.C102_coprime", "Crazy.C102_MT64_LFG_Xoroshiro", "Crazy.C102_MT64_LFG_Rexoroshiro", "Crazy.C102_MT64_LFG_Xoshiro"], "note": ""},
{"property": "C103", "status": "proved", "theorems": ["Crazy.C103_agrees_with_A", "Crazy.C103_agrees_with_B", "Crazy.C103_agrees_with_S"], "note": ""},
{"property": "C104", "status": "proved", "theorems": ["Crazy.C104_Xoshiro", "Crazy.C104_Xoroshiro", "Crazy.C104_Rexoroshiro", "Crazy.C104_MT64"], "note": ""},
{"property": "C105", "status": "proved", "theorems": ["Crazy.C105_Uniform0_1", "Crazy.C105_Uniform1_2", "Crazy.C105_Uniform"], "note": ""},
{"property": "C106", "status": "proved", "theorems": ["Crazy.C106_Xoshiro", "Crazy.C106_MT64", "Crazy.C106_Xoroshiro_not", "Crazy.C106_Xoroshiro_RNG_not", "Crazy.C106_Rexoroshiro_not"], "note": ""},
{"property": "C107", "status": "proved", "theorems": ["Crazy.C107_Xoroshiro", "Crazy.C107_Rexoroshiro", "Crazy.C107_Xoshiro", "Crazy.C107_MT64", "Crazy.C107_LFG", "Crazy.C107_Xoroshiro_seeded", "Crazy.C107_Rexoroshiro_seeded", "Crazy.C107_Xoshiro_seeded", "Crazy.C107_MT64_seeded", "Crazy.C107_LFG_seeded", "Crazy.C107_LFG_256", "Crazy.C107_lengths"], "note": ""},
{"property": "C108", "status": "proved", "theorems": ["Crazy.C108_Xoshiro", "Crazy.C108_MT64", "Crazy.C108_Rexoroshiro", "Crazy.C108_Xoroshiro"], "note": ""},
{"property": "C109", "status": "proved", "theorems": ["Crazy.C109_LFG_patterns", "Crazy.C109_LFG_patterns_seeded", "Crazy.C109_LFG_bits", "Crazy.C109_LFG_bits_seeded", "Crazy.C109_LFG_all", "Crazy.C109_LFG_six"], "note": ""},
{"property": "C110", "status": "proved", "theorems": ["Crazy.C110_LFG", "Crazy.C110_MT64", "Crazy.C110_Xoroshiro", "Crazy.C110_Rexoroshiro", "Crazy.C110_Xoshiro", "Crazy.C110_Xoshiro_back"], "note": ""},
{"property": "C111", "status": "proved", "theorems": ["Crazy.C111_exponential_MT64", "Crazy.C111_normal_MT64", "Crazy.C111_exponential_Xoshiro", "Crazy.C111_normal_Xoshiro", "Crazy.C111_Xoroshiro", "Crazy.C111_Rexoroshiro"], "note": ""},
{"property": "C112", "status": "proved", "theorems": ["Crazy.C112_MT64", "Crazy.C112_MT64_all", "Crazy.C112_Xoshiro", "Crazy.C112_Xoshiro_all"], "note": ""},
{"property": "C113", "status": "proved", "theorems": ["Crazy.C113_Xoroshiro", "Crazy.C113_Rexoroshiro", "Crazy.C113_Xoroshiro_SeedIV", "Crazy.C113_Xoroshiro_block", "Crazy.C113_Rexoroshiro_SeedIV", "Crazy.C113_Rexoroshiro_block", "Crazy.C113_Xoroshiro_Seed", "Crazy.C113_Rexoroshiro_Seed", "Crazy.C113_Xoroshiro_shift", "Crazy.C113_Rexoroshiro_shift", "Crazy.C113_Xoshiro", "Crazy.C113_Xoshiro_SeedIV", "Crazy.C113_Xoshiro_block", "Crazy.C113_Xoshiro_Seed", "Crazy.C113_Xoshiro_shift", "Crazy.C113_MT64_Seed", "Crazy.C113_MT64_SeedIV", "Crazy.C113_MT64_shift", "Crazy.C113_LFG_Seed", "Crazy.C113_LFG_one_byte"], "note": ""},
{"property": "C114", "status": "proved", "theorems": ["Crazy.C114_Xoroshiro_state", "Crazy.C114_Xoroshiro_output", "Crazy.C114_Xoroshiro_overlap", "Crazy.C114_Xoroshiro_place", "Crazy.C114_Xoshiro_state", "Crazy.C114_Xoshiro_outputs", "Crazy.C114_Xoshiro_overlap", "Crazy.C114_Xoshiro_place", "Crazy.C114_Rexoroshiro_state", "Crazy.C114_Rexoroshiro_output", "Crazy.C114_Rexoroshiro_overlap", "Crazy.C114_Rexoroshiro_place", "Crazy.C114_Xoshiro_exponential", "Crazy.C114_Xoshiro_normal", "Crazy.C114_Xoshiro_uintn", "Crazy.C114_LFG_repeat", "Crazy.C114_LFG_pigeonhole", "Crazy.C114_MT64_repeat", "Crazy.C114_CryptoSeeded"], "note": ""},
{"property": "C115", "status": "proved", "theorems": ["Crazy.Yield.C115_runs", "Crazy.Yield.C115_sends", "Crazy.Yield.C115_stops", "Crazy.Yield.C115_returns", "Crazy.Yield.C115_mean", "Crazy.Yield.C115_tight", "Crazy.Yield.C115_all_runs", "Crazy.Yield.C115_all_sends", "Crazy.Yield.C115_all_stop", "Crazy.Yield.C115_all_mean", "Crazy.Yield.C115_all_tight", "Crazy.Yield.C115_all_selects", "Crazy.Yield.C115_all_selects_tight", "Crazy.Yield.C115_selects"], "note": ""},
{"property": "C116", "status": "proved", "theorems": ["Crazy.C116_MT64", "Crazy.C116_Xoshiro"], "note": ""},
{"property": "C117", "status": "proved", "theorems": ["Crazy.C117_ideal", "Crazy.C117_ways", "Crazy.C117_MT64", "Crazy.C117_never_fair"], "note": ""},
{"property": "C118", "status": "proved", "theorems": ["Crazy.C118_mean", "Crazy.C118_share", "Crazy.C118_exponential", "Crazy.C118_normal", "Crazy.C118_uintn", "Crazy.C118_integral", "Crazy.C118_exponential_mean", "Crazy.C118_normal_mean"], "note": ""},
{"property": "C119", "status": "proved", "theorems": ["Crazy.C119_text", "Crazy.C119_any", "Crazy.C119_guess", "Crazy.C119_collision"], "note": ""},
{"property": "C120", "status": "proved", "theorems": ["Crazy.C120_sets", "Crazy.C120_uintn", "Crazy.C120_exponential", "Crazy.C120_normal", "Crazy.C120_uniform01", "Crazy.C120_uniform"], "note": ""},
{"property": "C121", "status": "proved", "theorems": ["Crazy.C121_read", "Crazy.C121_uint64", "Crazy.C121_uintn", "Crazy.C121_intn", "Crazy.C121_uniform01", "Crazy.C121_exponential", "Crazy.C121_normal", "Crazy.C121_randString", "Crazy.C121_LFG_Seed", "Crazy.C121_LFG_SeedIV"], "note": ""},
{"property": "C122", "status": "proved", "theorems": ["Crazy.C122_Xoroshiro", "Crazy.C122_Rexoroshiro", "Crazy.C122_Xoshiro", "Crazy.C122_Xoshiro_SeedIV", "Crazy.C122_Xoroshiro_SeedIV", "Crazy.C122_Rexoroshiro_SeedIV", "Crazy.C122_limit"], "note": ""},
{"property": "C123", "status": "proved", "theorems": ["Crazy.C123_MT64", "Crazy.C123_MT64_transfer"], "note": ""},
{"property": "C124", "status": "proved", "theorems": ["Crazy.C124_injective", "Crazy.C124_apart", "Crazy.C124_dichotomy", "Crazy.C124_repeat", "Crazy.C124_collision", "Crazy.C124_alive"], "note": ""},
{"property": "C125", "status": "proved", "theorems": ["Crazy.C125_swap", "Crazy.C125_collision"], "note": ""}
]}
