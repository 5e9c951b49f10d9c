{"claims": [
{"property": "C01", "status": "proved", "theorems": ["Ruy.Front.c01_entries", "Ruy.Front.c01_reference_entries", "Ruy.Front.c01_equals_reference", "Ruy.Front.c01_equals_reference_wraparound", "Ruy.Front.c01_returns", "Ruy.Front.c01_result_exists", "Ruy.Front.c01_entries_any_settings", "Ruy.Front.c01_returns_any_settings", "Ruy.Front.c01_overflow_disagreement"], "note": "Front-end, packing, all TrMul variants and the portable kernel together, for every order, stride, kernel layout, packed type and schedule. Also: sufficient conditions under which Mul returns, agreement with wrap-around accumulators, and a proved case where int overflow makes Mul undefined while ReferenceMul returns."},
{"property": "C02", "status": "proved", "theorems": ["Ruy.Front.c02_kernel_layout_irrelevant", "Ruy.Front.c02_nothing_outside"], "note": "Padding is determined by the kernel layout; any two layouts give the same destination memory."},
{"property": "C03", "status": "proved", "theorems": ["Ruy.Front.c02_nothing_outside", "Ruy.Front.c03_overwritten"], "note": "Any scalar type and arithmetic."},
{"property": "C04", "status": "proved", "theorems": ["Ruy.TrMul.c04_one_result", "Ruy.TrMul.c04_no_fault", "Ruy.TrMul.c04_settings_irrelevant", "Ruy.TrMul.c04_plan_ends", "Ruy.Front.c04_mul_settings_irrelevant"], "note": "TrMul with any number of threads, any block map of MakeBlockMap, any interleaving (atomics sequentially consistent; race freedom is c06_no_race/c05_threads_disjoint), any accumulator arithmetic: the complete destination memory is the same as that of the single-threaded loops."},
{"property": "C05", "status": "proved", "theorems": ["Ruy.TrMul.c05_at_most_once", "Ruy.TrMul.c05_exactly_once", "Ruy.TrMul.c05_threads_disjoint", "Ruy.TrMul.c05_counter_bound"], "note": "Invariants of the interleaving model of TrMulTask."},
{"property": "C06", "status": "proved", "theorems": ["Ruy.TrMul.c06_packed_at_most_once", "Ruy.TrMul.c06_packed_before_use", "Ruy.TrMul.c06_finished_means_packed", "Ruy.TrMul.c06_no_race"], "note": "Invariants of the interleaving model; the synchronisation edge is localPacked => status finished (observed with acquire)."},
{"property": "C07", "status": "proved", "theorems": ["Ruy.TrMul.c07_progress_possible", "Ruy.TrMul.c07_progress_bounded", "Ruy.TrMul.c07_fair_executions_finish", "Ruy.TrMul.c07_executions_exist"], "note": "No deadlock, bounded number of progress steps, every fair execution finishes."},
{"property": "C08", "status": "proved", "theorems": ["Ruy.BlockMap.c08_traversal_bijection", "Ruy.BlockMap.c09_map_shape"], "note": "All four traversal orders on 32-bit words; every block map made by MakeBlockMap satisfies the hypotheses (c09_map_shape)."},
{"property": "C09", "status": "proved", "theorems": ["Ruy.BlockMap.c09_map_shape", "Ruy.BlockMap.c09_blocks_tile", "Ruy.BlockMap.c09_each_index_in_one_block"], "note": "For every block map MakeBlockMap returns."},
{"property": "C10", "status": "partial", "theorems": ["Ruy.BlockMap.c10_make_block_map_safe_partial", "Ruy.BlockMap.c10_overflow_working_set", "Ruy.BlockMap.c10_overflow_quotient", "Ruy.BlockMap.c10_overflow_block_count"], "note": "The property is false for large matrices: three concrete overflows are proved. Safety is proved under explicit size bounds."},
{"property": "C100", "status": "proved", "theorems": ["Ruy.Arm32.Cross.c100_x86_aarch64", "Ruy.Arm32.Cross.c100_x86_arm32", "Ruy.Arm32.Cross.c100_aarch64_reference", "Ruy.Arm32.Cross.c100_arm32_reference", "Ruy.Arm32.Cross.c100_integers", "Ruy.Arm32.Cross.c100_bounds"], "note": "InOrder (clamp bounds in order) is needed: c100_bounds shows that the architectures differ otherwise, because x86 kernels apply the upper bound first and ARM kernels the lower one. x86 against ReferenceMul is c97_reference, AArch64 against 32-bit ARM is c99_aarch64. Bounds depend on the depth; from depth 2^23 - 2 on nothing is claimed."},
{"property": "C11", "status": "proved", "theorems": ["Ruy.Pool.c11_no_fault", "Ruy.Pool.c11_exactly_once", "Ruy.Pool.c11_at_most_once", "Ruy.Pool.c11_memory", "Ruy.Pool.c11_trmul_on_pool"], "note": "Interleaving model of ThreadPool, Thread, BlockingCounter and Wait, at the granularity of single atomic, mutex and condition-variable operations (sequentially consistent), any history of calls, spurious wake-ups and time-outs included. Composed with TrMul: c11_trmul_on_pool."},
{"property": "C12", "status": "proved", "theorems": ["Ruy.Pool.c12_worker_not_forgotten", "Ruy.Pool.c12_main_not_forgotten", "Ruy.Pool.c12_no_deadlock", "Ruy.Pool.c12_executions_exist", "Ruy.Pool.c12_fair_executions_finish", "Ruy.Pool.c12_trmul_on_pool"], "note": "Invariants, absence of deadlock, and termination of all fair executions with finitely many spurious wake-ups."},
{"property": "C13", "status": "proved", "theorems": ["Ruy.Pool.c13_size", "Ruy.Pool.c13_reused", "Ruy.Pool.c13_joined"], "note": ""},
{"property": "C14", "status": "proved", "theorems": ["Ruy.Alloc.c14_aligned_disjoint", "Ruy.Alloc.c14_live_is_what_was_returned", "Ruy.Alloc.c14_no_fault"], "note": "All histories and failure patterns; the histories in which a reallocation inside FreeAll failed are excluded here, they are the subject of C17."},
{"property": "C15", "status": "proved", "theorems": ["Ruy.Alloc.c15_repetition_needs_no_system_call", "Ruy.Alloc.c15_one_block_held", "Ruy.Alloc.c15_all_released"], "note": "Requests of the first workload must have been served; FreeAll must not have failed to reallocate."},
{"property": "C16", "status": "proved", "theorems": ["Ruy.Alloc.c16_not_aliasing", "Ruy.Alloc.c16_inside_owned_memory"], "note": ""},
{"property": "C17", "status": "partial", "theorems": ["Ruy.Alloc.c17_null_or_valid_partial", "Ruy.Alloc.c17_null_only_on_failure", "Ruy.Alloc.c17_bogus_pointer"], "note": "The property is false: c17_bogus_pointer is a history in which a failed reallocation in FreeAll leads to a non-null pointer into memory the allocator does not own. Proved for histories in which FreeAll never fails to reallocate."},
{"property": "C18", "status": "partial", "theorems": ["Ruy.Cache.c18_equals_uncached_partial", "Ruy.Cache.c18_entries_partial", "Ruy.Cache.c18_returns_partial", "Ruy.Cache.c18_same_matrix_twice", "Ruy.Cache.c18_same_address"], "note": "The property is false: the key has neither side nor source dimensions (c18_same_matrix_twice, c18_same_address). Proved for all histories in which the key determines the source matrix, any arithmetic; with room for the matrices of one call it also returns."},
{"property": "C19", "status": "partial", "theorems": ["Ruy.Cache.c19_accounting_partial", "Ruy.Cache.c19_reported_cap", "Ruy.Cache.c19_float_drift", "Ruy.Cache.c19_float_over_cap"], "note": "Proved for integer matrices when the system allocator does not fail. False for floating-point matrices: EjectOne subtracts the size of sums that were never added."},
{"property": "C20", "status": "proved", "theorems": ["Ruy.Cache.c20_most_recent_are_kept", "Ruy.Cache.c20_least_recent_ejected", "Ruy.Cache.c20_no_needless_ejection", "Ruy.Cache.c20_order_irrelevant"], "note": "All histories, all failure patterns of the system allocator."},
{"property": "C21", "status": "partial", "theorems": ["Ruy.Cache.c21_buffers_alive_partial", "Ruy.Cache.c21_use_after_free", "Ruy.Cache.c21_default_capacity"], "note": "The property is false: if the matrices of one call do not fit in the cache together, the RHS ejects the LHS in use (general theorem, and a witness with the default capacity). Proved if they fit."},
{"property": "C22", "status": "proved", "theorems": ["Ruy.Cache.c22_no_leak_no_double_free", "Ruy.Cache.c22_present_buffers_alive", "Ruy.Cache.c22_returned_buffers_alive"], "note": "All histories, all failure patterns of the system allocator."},
{"property": "C23", "status": "proved", "theorems": ["Ruy.Cache.c23_decision", "Ruy.Cache.c23_policy_honoured"], "note": "Requests to the cache and prepacked flags are exactly those asked for by the policies, for every history."},
{"property": "C24", "status": "proved", "theorems": ["Ruy.Multiplier.c24_single_rounding", "Ruy.Multiplier.c24_overflow_detected", "Ruy.Multiplier.c24_shift_range", "Ruy.Multiplier.c24_fits", "Ruy.Multiplier.c24_monotone"], "note": "MultiplyByQuantizedMultiplier against rational rounding; every int32 accumulator and multiplier, every shift."},
{"property": "C25", "status": "partial", "theorems": ["Ruy.Simd.c25_neon_partial", "Ruy.Simd.c25_negative_exponent", "Ruy.Simd.c25_overflow"], "note": "Proved for every accumulator if the exponent is negative, otherwise for accumulators that survive the left shift by exponent + 1. False beyond (c25_overflow)."},
{"property": "C26", "status": "partial", "theorems": ["Ruy.Simd.c26_same", "Ruy.Simd.c26_same_column", "Ruy.Simd.c26_negative_multiplier", "Ruy.Simd.c26_within_one_partial", "Ruy.Simd.c26_equal_nonneg", "Ruy.Simd.c26_double_rounding", "Ruy.Simd.c26_overflow"], "note": "Agreement of the three sequences is proved for non-negative multipliers (the documented range), distance at most one if the left shift does not overflow. False beyond (c26_overflow, c26_negative_multiplier)."},
{"property": "C27", "status": "partial", "theorems": ["Ruy.Params.c27_default_is_zero", "Ruy.Params.c27_default_stores_zero_point", "Ruy.Params.c27_largest_multiplier", "Ruy.Params.c27_largest_multiplier_clamped"], "note": "The property is false: the default multiplier is 0 and every entry becomes the zero point (c27_default_stores_zero_point). The value that the comment describes would satisfy it (c27_largest_multiplier_clamped)."},
{"property": "C28", "status": "proved", "theorems": ["Ruy.Front.c28_in_clamp_range", "Ruy.Front.c28_narrowing_exact", "Ruy.Front.c28_clamp_any_arithmetic"], "note": ""},
{"property": "C29", "status": "proved", "theorems": ["Ruy.Front.c29_capacity_suffices", "Ruy.Front.c29_replacement", "Ruy.Front.c29_covers_packed_width", "Ruy.Front.c29_transparent"], "note": "EnsurePerChannelBuffers; out-of-range reads are faults in the model."},
{"property": "C30", "status": "proved", "theorems": ["Ruy.Front.c30_order_irrelevant", "Ruy.Front.c30_order_irrelevant_float"], "note": "Integers unconditionally; any other arithmetic if multiplication commutes and zero points are 0."},
{"property": "C31", "status": "proved", "theorems": ["Ruy.Front.c31_packed_types_irrelevant", "Ruy.Front.c31_uint8_as_int8", "Ruy.Front.c31_xor"], "note": ""},
{"property": "C32", "status": "partial", "theorems": ["Ruy.Mat.c32_plain_offsets", "Ruy.Mat.c32_plain_overflow", "Ruy.Mat.c32_packed_offsets", "Ruy.Mat.c32_packed_shape"], "note": "Proved for matrices whose flat size is representable in int; for larger matrices the offset computation itself overflows (c32_plain_overflow is a concrete 40000x60000 witness)."},
{"property": "C33", "status": "partial", "theorems": ["Ruy.Ctx.c33_mul_uses_best", "Ruy.Ctx.c33_detection", "Ruy.Ctx.c33_path_found_partial", "Ruy.Ctx.c33_selection_irrelevant", "Ruy.Ctx.c33_env_no_path", "Ruy.Ctx.c33_override_unsupported", "Ruy.Ctx.c33_env_not_a_number"], "note": "The choice of the most significant common path is proved, and that results do not depend on it for the portable paths. Disagreements: RUY_PATHS is neither combined with the portable path nor checked against the processor (c33_env_no_path, c33_override_unsupported)."},
{"property": "C34", "status": "partial", "theorems": ["Ruy.Ctx.c34_sticky", "Ruy.Ctx.c34_report_exact", "Ruy.Ctx.c34_internal_hidden", "Ruy.Ctx.c34_none_restores", "Ruy.Ctx.c34_repeatable", "Ruy.Ctx.c34_portable_kept_partial", "Ruy.Ctx.c34_env_loses_portable"], "note": "The portable path is not kept if RUY_PATHS is set (c34_env_loses_portable); the internal variants are not reported (c34_internal_hidden)."},
{"property": "C35", "status": "proved", "theorems": ["Ruy.Ctx.c35_dispatch", "Ruy.Ctx.c35_no_other", "Ruy.Ctx.c35_kernel_of_path", "Ruy.Ctx.c35_fallback_lower", "Ruy.Ctx.c35_declared_path_wrong"], "note": "Also found: the int8 kernel for kAvx declares another path, and the check of that is never instantiated."},
{"property": "C36", "status": "proved", "theorems": ["Ruy.TrMul.c36_thread_count", "Ruy.TrMul.c36_small_problem", "Ruy.TrMul.c36_tentative_count", "Ruy.TrMul.c36_no_threads_rejected", "Ruy.BlockMap.c36_block_map_threads"], "note": "One thread for small problems is a statement about the default strategy; the other one is there to override it. Checks count as stops (debug build)."},
{"property": "C37", "status": "partial", "theorems": ["Ruy.TrMul.c37_simple_loop_eq_block_loop", "Ruy.TrMul.c37_obviously_linear", "Ruy.TrMul.c37_shortcut_linear_partial", "Ruy.TrMul.c37_shortcut_not_linear", "Ruy.TrMul.c04_settings_irrelevant"], "note": "Equality of results is proved. The second half is proved for equal dimensions and false for TrMul: it asks about the source matrices but would make the block map for the packed ones (c37_shortcut_not_linear, 257 x 63 by 63 x 257 int8)."},
{"property": "C38", "status": "partial", "theorems": ["Ruy.Front.c38_empty_stops", "Ruy.Cache.c38_no_entries_untouched", "Ruy.Cache.c38_no_columns", "Ruy.Cache.c38_cached_depth_zero"], "note": "Proved for matrices that are not cached, and for cached ones if the number of rows or columns is zero. With depth 0 and both sides cached, Mul completes and overwrites the destination with what ReferenceMul stores (c38_cached_depth_zero), which contradicts the property as stated."},
{"property": "C39", "status": "partial", "theorems": ["Ruy.Params.c39_getters_partial", "Ruy.Params.c39_other_getters", "Ruy.Params.c39_refused_iff", "Ruy.Params.c39_release_same", "Ruy.Params.c39_release_stale"], "note": "Proved with debug checks: histories that would leave a stale value are refused (c39_refused_iff). Without them a stale value does become visible (c39_release_stale)."},
{"property": "C40", "status": "proved", "theorems": ["Ruy.Tune.c40_explicit", "Ruy.Tune.c40_fresh", "Ruy.Tune.c40_cached", "Ruy.Tune.c40_context", "Ruy.Tune.c40_clock_backwards"], "note": "Histories of a resolver, and of a context with its per-thread resolvers."},
{"property": "C41", "status": "partial", "theorems": ["Ruy.CpuInfo.c41_positive_ordered", "Ruy.CpuInfo.c41_conservative_partial", "Ruy.CpuInfo.c41_returns", "Ruy.CpuInfo.c41_computed_once", "Ruy.CpuInfo.c41_block_map", "Ruy.CpuInfo.c41_fallback_not_conservative", "Ruy.CpuInfo.c41_negative_size", "Ruy.CpuInfo.c41_inverted_levels_stop"], "note": "False when the constants are used instead (c41_fallback_not_conservative) and for caches of 2 GiB or more (c41_negative_size); proved otherwise."},
{"property": "C42", "status": "partial", "theorems": ["Ruy.Fpu.c42_scope_restores", "Ruy.Fpu.c42_worker_restores", "Ruy.Fpu.c42_flushed_in_scope", "Ruy.Fpu.c42_mul_partial", "Ruy.Fpu.c42_mul_control_restored", "Ruy.Fpu.c42_cached_packing_outside", "Ruy.Fpu.c42_other_platform"], "note": "Control bits are always restored. Cached matrices are packed before the scope begins, without flushing, and status bits raised there stay (c42_cached_packing_outside)."},
{"property": "C43", "status": "partial", "theorems": ["Ruy.SizeUtil.c43_floor_log2", "Ruy.SizeUtil.c43_floor_log2_rejects", "Ruy.SizeUtil.c43_ceil_log2", "Ruy.SizeUtil.c43_is_pot", "Ruy.SizeUtil.c43_pot_log2", "Ruy.SizeUtil.c43_round_down_pot", "Ruy.SizeUtil.c43_round_up_pot", "Ruy.SizeUtil.c43_round_up_pot_overflow", "Ruy.SizeUtil.c43_round_down_to_multiple", "Ruy.SizeUtil.c43_round_up_to_multiple_partial", "Ruy.SizeUtil.c43_round_up_to_multiple_overflow"], "note": "size_util.h on w-bit two's complement words (any width, in particular 32 and 64), including rejection of non-positive arguments and overflow of one-argument round_up_pot. The two-argument round_up_pot overflows for values within one modulo of the top of the type even if the result is representable (c43_round_up_to_multiple_overflow)."},
{"property": "C44", "status": "partial", "theorems": ["Ruy.Float.c44_same_data_partial", "Ruy.Float.c44_ieee_up_to_sign_of_zero", "Ruy.Float.c44_returns", "Ruy.Float.c44_disagreement"], "note": "The property is false for negative zeros: the generic packing computes x - 0 + 0 (c44_disagreement). Equality is proved when x - 0 + 0 = x for the source elements, equality up to the sign of zeros for IEEE arithmetics, and both packings return."},
{"property": "C45", "status": "proved", "theorems": ["Ruy.Mul.c45_blocks_eq_whole", "Ruy.Mul.c45_blocks_defined_iff", "Ruy.Mul.c45_touches_own_columns"], "note": "Generic packing (pack.h PackImpl::Run), any accumulator arithmetic."},
{"property": "C46", "status": "proved", "theorems": ["Ruy.Ctx.c46_last_mul_only", "Ruy.Ctx.c46_raised_iff", "Ruy.Ctx.c46_raised_without_buffers"], "note": "Histories of one context; the condition for the portable paths."},
{"property": "C47", "status": "partial", "theorems": ["Ruy.Float.c47_equals_reference_partial", "Ruy.Float.c47_ieee_equals_reference", "Ruy.Float.c47_disagreement"], "note": "Bit equality is proved for any arithmetic satisfying explicit laws, which hold for IEEE style arithmetic with any format, rounding and flush-to-zero. False in general: NaN payloads for row-major destinations (c47_disagreement)."},
{"property": "C48", "status": "proved", "theorems": ["Ruy.Simd.c48_u8", "Ruy.Simd.c48_s8", "Ruy.Simd.c48_s16_partial", "Ruy.Simd.c48_s16_overflow", "Ruy.Simd.c48_x86_partial", "Ruy.Simd.c48_x86_overflow"], "note": "The 8-bit NEON stores, all accumulators. Beyond the property: int16 stores and x86 add the zero point modulo 2^32 before clamping and can end at the opposite bound."},
{"property": "C49", "status": "partial", "theorems": ["Ruy.Simd.Pack.c49_avx2", "Ruy.Simd.Pack.c49_avx", "Ruy.Simd.Pack.c49_avx512_partial", "Ruy.Simd.Pack.c49_avx512_padding", "Ruy.Simd.Row.c49_row_avx2_partial", "Ruy.Simd.Row.c49_row_avx_partial", "Ruy.Simd.Row.c49_row_avx512_partial", "Ruy.Simd.Row.c49_row_padding", "Ruy.Simd.Row.c49_row_null_sums"], "note": "Column-major sources: equality is proved for AVX2 and AVX. For AVX-512 it is proved for all source columns and all sums, and false for padding columns (c49_avx512_padding). Row-major sources: agreement on all source columns and their sums for all three, assuming the exact sums fit 32 bits and packed_stride*cols fits an int; false for padding columns (c49_row_padding)."},
{"property": "C50", "status": "proved", "theorems": ["Ruy.Simd.Kern.c50_lanes", "Ruy.Simd.Kern.c50_agrees", "Ruy.Simd.Kern.c50_reference", "Ruy.Simd.Kern.c50_one_more", "Ruy.Simd.Kern.c50_zero_point", "Ruy.Simd.Kern.c50_stride"], "note": "The inner loops of the AVX2, AVX and AVX-512 kernels (c50_lanes), and, beyond the property, everything those kernels store, single-column kernels included (c50_agrees, c50_reference). c50_one_more, c50_zero_point and c50_stride show where the x86 kernels depart from the generic kernel."},
{"property": "C51", "status": "partial", "theorems": ["Ruy.Cache.c51_cache_out_of_memory", "Ruy.Cache.c51_unserved_aborts_partial"], "note": "False for cached matrices: the null pointer is dereferenced."},
{"property": "C52", "status": "proved", "theorems": ["Ruy.Simd.Flow.c52_any_order", "Ruy.Simd.Flow.c52_same", "Ruy.Simd.Flow.c52_int32", "Ruy.Simd.Flow.c52_quantized", "Ruy.Simd.Flow.c52_simple_loop", "Ruy.Simd.Flow.c52_unpacked"], "note": "Sequential calls. Depth below 2^24, offsets that fit an int, and per-channel buffers rounded up as the front end does are hypotheses (JobOk). c52_quantized inherits the off-by-one rounding of C26."},
{"property": "C53", "status": "proved", "theorems": ["Ruy.Simd.Flow.c53_block_loop", "Ruy.Simd.Flow.c53_threads", "Ruy.Simd.Flow.c53_threads_finish", "Ruy.Simd.Flow.c53_one_result", "Ruy.Simd.Flow.c53_threads_int32"], "note": "Control flow from the interleaving model of C04-C07 (sequentially consistent); a call of RunPack or RunKernel takes effect when it returns, justified by C05 and C06 (overlapping calls access different blocks). Hypotheses as for C52."},
{"property": "C54", "status": "partial", "theorems": ["Ruy.Neon.c54_pairs", "Ruy.Neon.c54_partial", "Ruy.Neon.c54_symmetric", "Ruy.Neon.c54_deterministic", "Ruy.Neon.c54_accumulator", "Ruy.Neon.c54_quantized", "Ruy.Neon.c54_int16"], "note": "Proved for all operands that never have -128 on both sides at two depths k and k + 8 of a group of 16, in particular if one operand never holds -128; false otherwise (c54_int16: the intermediate int16 sum overflows). c54_pairs states what is stored in all cases. Depth at least 16; the semantics of the instructions is trusted."},
{"property": "C55", "status": "proved", "theorems": ["Ruy.Neon.c55_asm", "Ruy.Neon.PackCall.c55_pack", "Ruy.Neon.PackCall.c55_tuning", "Ruy.Neon.PackCall.c55_layout", "Ruy.Neon.PackCall.c55_generic", "Ruy.Neon.PackCall.c55_padding", "Ruy.Neon.PackCall.c55_overflow"], "note": "Hypotheses (Fits): start and end are multiples of 4, rows below 2^31, buffers large enough, and the two products with block_col fit an int (c55_overflow shows what happens otherwise). Agreement with the portable code is c55_generic. The semantics of the instructions is trusted."},
{"property": "C56", "status": "proved", "theorems": ["Ruy.Neon.RowCall.c56_pack", "Ruy.Neon.RowCall.c56_layout", "Ruy.Neon.RowCall.c56_generic_partial", "Ruy.Neon.RowCall.c56_generic_false", "Ruy.Neon.RowCall.c56_padding", "Ruy.Neon.RowCall.c56_order", "Ruy.Neon.RowCall.c56_null_sums", "Ruy.Neon.RowCall.c56_overflow"], "note": "Hypotheses (Fits): start and end are multiples of 4, packed rows a multiple of 16 and below 2^24, buffers large enough, offsets fit an int (c56_overflow shows what happens otherwise), sums not null (c56_null_sums). Source columns as in the property; in columns beyond the source the portable code stores the zero point and this code 0 (c56_generic_false, c56_padding)."},
{"property": "C57", "status": "proved", "theorems": ["Ruy.Neon.c57_same", "Ruy.Neon.c57_pairs", "Ruy.Neon.c57_exact", "Ruy.Neon.c57_tuning"], "note": "The semantics of the instructions is trusted. c57_same needs no hypothesis beyond the run of Kernel8bitNeon, c57_pairs states what is stored under the hypotheses of C54."},
{"property": "C58", "status": "proved", "theorems": ["Ruy.Neon.c58_pairs", "Ruy.Neon.c58_all", "Ruy.Neon.c58_exact", "Ruy.Neon.c58_same"], "note": "The semantics of the instructions is trusted. c58_all and c58_pairs hold for all operands, with the int16 sums of pairs of products of C54; c58_exact is the exact product for operands without two -128 by -128 products in a pair."},
{"property": "C59", "status": "partial", "theorems": ["Ruy.Neon.Flow.c59_any_order", "Ruy.Neon.Flow.c59_same", "Ruy.Neon.Flow.c59_exact_partial", "Ruy.Neon.Flow.c59_symmetric", "Ruy.Neon.Flow.c59_int32", "Ruy.Neon.Flow.c59_quantized", "Ruy.Neon.Flow.c59_simple_loop", "Ruy.Neon.Flow.c59_lost", "Ruy.Neon.Flow.c59_padding_all", "Ruy.Neon.Flow.c59_padding"], "note": "c59_any_order and c59_same hold for all operands; the stored value is the specified one except for two products of smallest values at depths k and k + 8 (c59_lost), as in C54, and except for uint8 operands with zero points 0, which validation accepts and for which padding has the same effect (c59_padding). The left shift of the multiplier must lose no bits (C25)."},
{"property": "C60", "status": "proved", "theorems": ["Ruy.Neon.Flow.c60_block_loop", "Ruy.Neon.Flow.c60_threads", "Ruy.Neon.Flow.c60_threads_finish", "Ruy.Neon.Flow.c60_one_result"], "note": "The value of an entry is that of C59; c60_int32_partial and c60_quantized_partial add when it is the exact one."},
{"property": "C61", "status": "proved", "theorems": ["Ruy.XFloat.c61_any_order", "Ruy.XFloat.c61_same", "Ruy.XFloat.c61_simple_loop", "Ruy.XFloat.c61_block_loop", "Ruy.XFloat.c61_threads", "Ruy.XFloat.c61_threads_finish", "Ruy.XFloat.c61_one_result", "Ruy.XFloat.c61_integers", "Ruy.XFloat.c61_nan", "Ruy.XFloat.c61_nan_reference", "Ruy.XFloat.c61_depth0", "Ruy.XFloat.c61_stride", "Ruy.XFloat.c61_bias"], "note": "Hypotheses (JobOk): sources and packed matrices with int offsets, column-major destination, bias buffers that cover the packed width (C29), strides that are int32 in bytes (c61_stride otherwise), positive depth for AVX-512 (c61_depth0 otherwise). The lane semantics of the intrinsics is trusted; floats and their operations are arbitrary."},
{"property": "C62", "status": "proved", "theorems": ["Ruy.FloatErr.c62_fused", "Ruy.FloatErr.c62_unfused", "Ruy.FloatErr.c62_reference", "Ruy.FloatErr.c62_portable", "Ruy.FloatErr.c62_gamma", "Ruy.FloatErr.c62_binary32", "Ruy.FloatErr.c62_binary32_reference", "Ruy.FloatErr.c62_close", "Ruy.FloatErr.c62_exactOn", "Ruy.FloatErr.c62_binary32_integers", "Ruy.FloatErr.c62_differ", "Ruy.FloatErr.binary32_rounding", "Ruy.FloatErr.binary32_ok"], "note": "Hypotheses: finite inputs, clamp bounds that are not NaN, a sum of magnitudes that cannot overflow; for ReferenceMul inputs that are representable (not denormal if tiny results are flushed). The results are not equal in general (c62_differ). That the processor rounds as binary32 says is trusted."},
{"property": "C63", "status": "proved", "theorems": ["Ruy.Neon.Dot.c63_dotprod", "Ruy.Neon.Dot.c63_deterministic", "Ruy.Neon.Dot.c63_accumulator", "Ruy.Neon.Dot.c63_entry", "Ruy.Neon.dot_words"], "note": "Depth at least 4 (Fits). The semantics of the instructions is trusted. c63_entry goes from the operands to the stored byte for 8-bit destinations whose accumulator fits 32 bits."},
{"property": "C64", "status": "proved", "theorems": ["Ruy.Neon.Dot.c64_x1", "Ruy.Neon.Dot.c64_a55", "Ruy.Neon.Dot.c64_same", "Ruy.Neon.Dot.c64_exact", "Ruy.Neon.Dot.c64_tuning", "Ruy.Neon.dotx_words", "Ruy.Neon.dota_words"], "note": "Depth at least 4 (Fits). The semantics of the instructions is trusted. The two kernels are started as C63."},
{"property": "C65", "status": "proved", "theorems": ["Ruy.Neon.Dot.c65_one_column", "Ruy.Neon.Dot.c65_all", "Ruy.Neon.Dot.c65_same", "Ruy.Neon.Dot.c65_flag", "Ruy.Neon.doto_words"], "note": "Depth at least 4 (Fits). The semantics of the instructions is trusted. c65_flag: without the flag for LHS sums an int32 destination would be stored as uint8; the flag is always set for 8-bit packed matrices."},
{"property": "C66", "status": "proved", "theorems": ["Ruy.Neon.DPack.c66_asm", "Ruy.Neon.DPack.c66_pack", "Ruy.Neon.DPack.c66_tuning", "Ruy.Neon.DPack.c66_layout", "Ruy.Neon.DPack.c66_generic", "Ruy.Neon.DPack.c66_padding", "Ruy.Neon.DPack.c66_overflow", "Ruy.Neon.dpack_words", "Ruy.Neon.dpackA_words"], "note": "Hypotheses (CallFits): start and end are multiples of the block width, rows below 2^31, buffers large enough, and the products with block_col fit an int (c66_overflow shows what happens otherwise). The semantics of the instructions is trusted."},
{"property": "C67", "status": "proved", "theorems": ["Ruy.Neon.DRowCall.c67_asm", "Ruy.Neon.DRowCall.c67_pack", "Ruy.Neon.DRowCall.c67_layout", "Ruy.Neon.DRowCall.c67_generic", "Ruy.Neon.DRowCall.c67_orders", "Ruy.Neon.DRowCall.c67_padding", "Ruy.Neon.DRowCall.c67_null_sums", "Ruy.Neon.DRowCall.c67_overflow", "Ruy.Neon.drow_words"], "note": "Hypotheses (Fits): the column range is nonempty, starts and ends at multiples of 8 and lies within the columns of the source rounded up; sums present; buffers large enough; the products with block_row and start_col fit an int (c67_overflow shows what happens otherwise). The semantics of the instructions is trusted."},
{"property": "C68", "status": "proved", "theorems": ["Ruy.Neon.DFlow.c68_any_order", "Ruy.Neon.DFlow.c68_same", "Ruy.Neon.DFlow.c68_int32", "Ruy.Neon.DFlow.c68_quantized", "Ruy.Neon.DFlow.c68_simple_loop", "Ruy.Neon.DFlow.c68_paths", "Ruy.Neon.DFlow.c68_paths_differ"], "note": "Hypotheses (TaskOk): packed matrices from CreatePackedLayout, depth at least 1, column-major destination, per-channel buffers that cover the packed width (C29), offsets and zero point products that fit int32. Calls are not interleaved (C69 covers threads call by call). The semantics of the instructions is trusted."},
{"property": "C69", "status": "proved", "theorems": ["Ruy.Neon.DFlow.c69_block_loop", "Ruy.Neon.DFlow.c69_threads", "Ruy.Neon.DFlow.c69_threads_finish", "Ruy.Neon.DFlow.c69_one_result", "Ruy.Neon.DFlow.c69_int32", "Ruy.Neon.DFlow.c69_quantized"], "note": "Hypotheses as C68, and destination offsets below 2^31 (DstInts). A call of RunPack or RunKernel is one step, as in C60."},
{"property": "C70", "status": "partial", "theorems": ["Ruy.NeonF.c70_x1", "Ruy.NeonF.c70_a55", "Ruy.NeonF.c70_dotprod_a55", "Ruy.NeonF.c70_generic", "Ruy.NeonF.c70_deterministic", "Ruy.NeonF.c70_shallow", "Ruy.NeonF.c70_complete", "Ruy.NeonF.c70_exact", "Ruy.NeonF.c70_differ", "Ruy.NeonF.c70_depth0"], "note": "Everything but the last sentence is proved, for depth at least 1 (c70_depth0: depth 0 reads beyond an empty matrix). That all four kernels add in the same order is false from depth 8 on (c70_generic, c70_differ); it holds below depth 8 (c70_shallow), and in exact arithmetic the results agree (c70_exact). The semantics of the instructions is trusted."},
{"property": "C71", "status": "proved", "theorems": ["Ruy.NeonF.c71_near", "Ruy.NeonF.c71_binary32", "Ruy.NeonF.c71_tunings", "Ruy.NeonF.c71_clamp", "Ruy.NeonF.c71_integers", "Ruy.NeonF.c71_nan"], "note": "Hypotheses as C70. The processor is assumed to round fused multiply-adds once; FMAX and FMIN return a NaN if an operand is one."},
{"property": "C72", "status": "partial", "theorems": ["Ruy.NeonF.FPack.c72_asm", "Ruy.NeonF.FPack.c72_pack", "Ruy.NeonF.FPack.c72_tuning", "Ruy.NeonF.FPack.c72_layout", "Ruy.NeonF.FPack.c72_memcpy", "Ruy.NeonF.FPack.c72_generic", "Ruy.NeonF.FPack.c72_minus_zero", "Ruy.NeonF.FPack.c72_overflow"], "note": "Everything is proved except agreement with the portable packing, which is false for -0.0 (c72_minus_zero) and proved for elements with x - 0 + 0 = x (c72_generic). Offsets must fit int (c72_overflow otherwise). The semantics of the instructions is trusted."},
{"property": "C73", "status": "partial", "theorems": ["Ruy.NeonF.Flow.c73_any_order", "Ruy.NeonF.Flow.c73_same", "Ruy.NeonF.Flow.c73_shallow", "Ruy.NeonF.Flow.c73_simple_loop", "Ruy.NeonF.Flow.c73_near", "Ruy.NeonF.Flow.c73_binary32", "Ruy.NeonF.Flow.c73_integers", "Ruy.NeonF.Flow.c73_nan", "Ruy.NeonF.Flow.c73_differ"], "note": "Everything but the last sentence is proved. That tunings do not influence the result is false from depth 8 on (c73_differ); it is proved below depth 8 (c73_shallow), for small integers (c73_integers), and if all kernels add in the same order (c73_same). Depth at least 1; the bias covers the packed width (C29); offsets fit int. The semantics of the instructions is trusted."},
{"property": "C74", "status": "partial", "theorems": ["Ruy.NeonF.Flow.c74_block_loop", "Ruy.NeonF.Flow.c74_threads", "Ruy.NeonF.Flow.c74_threads_finish", "Ruy.NeonF.Flow.c74_one_result", "Ruy.NeonF.Flow.c74_shallow", "Ruy.NeonF.Flow.c74_close", "Ruy.NeonF.Flow.c74_differ"], "note": "Everything but the last sentence is proved. The destination can depend on the tunings that threads find, hence on the schedule (c74_differ); with kernels that add in the same order it does not (c74_one_result), nor below depth 8 (c74_shallow); otherwise two results are close (c74_close). A call of RunPack or RunKernel is one step, as in C60."},
{"property": "C75", "status": "proved", "theorems": ["Ruy.Race.c75_no_race", "Ruy.Race.c75_no_failure", "Ruy.Race.c75_progress", "Ruy.Race.c75_packed_once", "Ruy.Race.c75_computed_once", "Ruy.Race.c75_counter", "Ruy.Race.c75_complete", "Ruy.Race.c75_order", "Ruy.Race.c75_float", "Ruy.Race.c75_dot", "Ruy.Race.c75_neon", "Ruy.Race.c75_x86", "Ruy.Race.c75_arm32", "Ruy.Race.c75_arm32_float", "Ruy.Race.c75_x86_float", "Ruy.Race.c75_x86_int16"], "note": "Relative to the axioms of the C++ memory model as written in Verif/Race/Cpp.lean. Initialization of the atomics happens before the tasks (Tasks.Ok); atomics hold natural numbers, c75_counter bounds them. The footprint of a call: RunPack reads a source block and writes the packed block and its sums, RunKernel reads two packed blocks and writes a destination block, Resolve accesses the tuning of its own thread."},
{"property": "C76", "status": "proved", "theorems": ["Ruy.Race.Pool.c76_before", "Ruy.Race.Pool.c76_after", "Ruy.Race.Pool.c76_once", "Ruy.Race.Pool.c76_at_most_once", "Ruy.Race.Pool.c76_only", "Ruy.Race.Pool.c76_no_race", "Ruy.Race.Pool.c76_no_failure", "Ruy.Race.Pool.c76_counter", "Ruy.Race.Pool.c76_joined", "Ruy.Race.Pool.c76_progress"], "note": "Relative to the axioms of the C++ memory model as written in Verif/Race/Cpp.lean. task_ is modelled as a relaxed atomic, and c76_no_race shows its accesses ordered. Mutexes are covered by arbitrary further synchronization edges (Exec.ext). Nobody else accesses the private members of the pool, and Execute is called by one thread (Run.Ok)."},
{"property": "C77", "status": "proved", "theorems": ["Ruy.Race.Pool.c77_no_race", "Ruy.Race.Pool.c77_no_failure", "Ruy.Race.Pool.c77_once", "Ruy.Race.Pool.c77_complete", "Ruy.Race.Pool.c77_order", "Ruy.Race.Pool.c77_float", "Ruy.Race.Pool.c77_dot", "Ruy.Race.Pool.c77_neon", "Ruy.Race.Pool.c77_x86", "Ruy.Race.Pool.c77_arm32", "Ruy.Race.Pool.c77_arm32_float", "Ruy.Race.Pool.c77_x86_float", "Ruy.Race.Pool.c77_x86_int16"], "note": "Relative to the axioms of the C++ memory model as written in Verif/Race/Cpp.lean. Hypotheses about the program (Mul.Ok): the atomics have different addresses, and other writes to them happen before their initialization or after Execute has returned. Footprints as in C75."},
{"property": "C78", "status": "proved", "theorems": ["Ruy.Prof.c78_samples", "Ruy.Prof.c78_ok_iff", "Ruy.Prof.c78_ids", "Ruy.Prof.c78_exists", "Ruy.Prof.c78_roots", "Ruy.Prof.c78_weight", "Ruy.Prof.c78_complete", "Ruy.Prof.c78_sum", "Ruy.Prof.c78_sorted", "Ruy.Prof.c78_depth", "Ruy.Prof.c78_matching", "Ruy.Prof.c78_matching_once", "Ruy.Prof.c78_collapse", "Ruy.Prof.c78_collapse_matching", "Ruy.Prof.c78_profile"], "note": "Relative to the mutexes making Push, Pop and Sample atomic, and to memcpy preserving labels although Label is not trivially copyable. Ids differ as long as there are at most 2^32 stacks."},
{"property": "C79", "status": "partial", "theorems": ["Ruy.Prof.c78_overflow", "Ruy.Prof.c78_ok_iff", "Ruy.Prof.c78_distinct_false", "Ruy.Prof.c78_distinct_partial", "Ruy.Prof.c78_matching_nested", "Ruy.Prof.c78_matching_once"], "note": "False in the code in all three respects; proved where it holds: below 2^31 bytes of samples, without a scope called [other], without nested matching scopes."},
{"property": "C80", "status": "partial", "theorems": ["Ruy.Neon.c80_kernels", "Ruy.Neon.c80_packs", "Ruy.Neon.c80_float", "Ruy.Neon.c80_doto_partial", "Ruy.Neon.c80_doto_wipes", "Ruy.Neon.c80_doto_clobbers", "Ruy.Neon.c80_doto_false"], "note": "False for Kernel8bitNeonDotprod1Col, which changes v20 without declaring it; proved for the 17 other AArch64 programs, and for that one up to v20."},
{"property": "C81", "status": "partial", "theorems": ["Ruy.Arm32.c81_kernel", "Ruy.Arm32.c81_deterministic", "Ruy.Arm32.c81_exact", "Ruy.Arm32.c81_depth0", "Ruy.Arm32.c81_registers", "Ruy.Arm32.c81_clobber_partial", "Ruy.Arm32.c81_overwritten", "Ruy.Arm32.c81_clobber_false"], "note": "The result, memory and sp are proved for every call with depth >= 1. The clobber list is wrong (q11, q14, q15) if the channels are columns, proved complete otherwise."},
{"property": "C82", "status": "partial", "theorems": ["Ruy.Arm32.Pack.c82_asm", "Ruy.Arm32.Pack.c82_registers", "Ruy.Arm32.Pack.c82_pack", "Ruy.Arm32.Pack.c82_layout", "Ruy.Arm32.Pack.c82_memcpy", "Ruy.Arm32.Pack.c82_narrow", "Ruy.Arm32.Pack.c82_overflow", "Ruy.Arm32.Pack.c82_multiply", "Ruy.Arm32.Pack.c82_product"], "note": "Proved where offsets fit an int, which always holds for the RHS (c82_narrow); for the LHS the claim about overflow is false (c82_overflow)."},
{"property": "C83", "status": "partial", "theorems": ["Ruy.Arm8.c83_pairs", "Ruy.Arm8.c83_partial", "Ruy.Arm8.c83_symmetric", "Ruy.Arm8.c83_deterministic", "Ruy.Arm8.c83_accumulator", "Ruy.Arm8.c83_quantized", "Ruy.Arm8.c83_int16", "Ruy.Arm8.c83_raw", "Ruy.Arm8.c83_raw_false", "Ruy.Arm8.c83_registers", "Ruy.Arm8.c83_clobber_false", "Ruy.Arm8.c83_depth0"], "note": "Proved for all jobs with the int16 reduction of pairs (c83_pairs), exact without pairs of -128 (c83_partial), and for int32 destinations only with sums of the LHS. The full claim is false: c83_int16, c83_raw_false, c83_clobber_false."},
{"property": "C84", "status": "partial", "theorems": ["Ruy.Arm8.Pack.c84_asm", "Ruy.Arm8.Pack.c84_pack", "Ruy.Arm8.Pack.c84_layout", "Ruy.Arm8.Pack.c84_generic", "Ruy.Arm8.Pack.c84_padding", "Ruy.Arm8.Pack.c84_offsets", "Ruy.Arm8.Pack.c84_overflow", "Ruy.Arm8.Pack.c84_registers", "Ruy.Arm8.Pack.c84_clobber_false", "Ruy.Arm8.Pack.c84_operand_false", "Ruy.Arm8.Pack.c84_multiply"], "note": "Packing and its composition with the kernel are proved for all calls whose offsets fit an int. The register part is false: c84_clobber_false, c84_operand_false; offsets can overflow: c84_overflow. c84_multiply needs packed LHS entries other than -128 (see c83_int16)."},
{"property": "C85", "status": "partial", "theorems": ["Ruy.Arm8.One.c85_pairs", "Ruy.Arm8.One.c85_partial", "Ruy.Arm8.One.c85_agrees", "Ruy.Arm8.One.c85_multiply", "Ruy.Arm8.One.c85_second", "Ruy.Arm8.One.c85_int16", "Ruy.Arm8.One.c85_raw", "Ruy.Arm8.One.c85_raw_false", "Ruy.Arm8.One.c85_registers", "Ruy.Arm8.One.c85_clobber_false", "Ruy.Arm8.One.c85_depth0"], "note": "Result, agreement with Kernel8bitNeon and independence from the second column are proved for all calls. False as stated for -128 by -128 pairs (c85_int16), int32 without LHS sums (c85_raw_false), q11 (c85_clobber_false)."},
{"property": "C86", "status": "partial", "theorems": ["Ruy.Arm8.Row.c86_four", "Ruy.Arm8.Row.c86_pack", "Ruy.Arm8.Row.c86_layout", "Ruy.Arm8.Row.c86_generic_partial", "Ruy.Arm8.Row.c86_padding", "Ruy.Arm8.Row.c86_order", "Ruy.Arm8.Row.c86_null_sums", "Ruy.Arm8.Row.c86_overflow", "Ruy.Arm8.Row.c86_generic_false"], "note": "Two kernel columns are proved here, four reduce to C56 (c86_four). Agreement with the portable packing holds in the columns of the source; it is false beyond them (c86_generic_false)."},
{"property": "C87", "status": "partial", "theorems": ["Ruy.Arm8.Flow.c87_any_order", "Ruy.Arm8.Flow.c87_same", "Ruy.Arm8.Flow.c87_aarch64", "Ruy.Arm8.Flow.c87_exact_partial", "Ruy.Arm8.Flow.c87_symmetric", "Ruy.Arm8.Flow.c87_int32", "Ruy.Arm8.Flow.c87_quantized", "Ruy.Arm8.Flow.c87_simple_loop", "Ruy.Arm8.Flow.c87_lost", "Ruy.Arm8.Flow.c87_padding_all", "Ruy.Arm8.Flow.c87_padding"], "note": "Stopping, no undefined behaviour, the stored value, independence of the order and agreement with AArch64 are proved for all calls. The stored value is the exact one only without two products of smallest values in one int16 sum; false otherwise (c87_lost, c87_padding)."},
{"property": "C88", "status": "proved", "theorems": ["Ruy.Arm8.Flow.c88_block_loop", "Ruy.Arm8.Flow.c88_threads", "Ruy.Arm8.Flow.c88_threads_finish", "Ruy.Arm8.Flow.c88_one_result", "Ruy.Arm8.Flow.c88_aarch64"], "note": "The value of an entry is that of C87; c88_int32_partial and c88_quantized_partial add when it is the exact one. A call of RunPack or RunKernel is one step, as in C60."},
{"property": "C89", "status": "partial", "theorems": ["Ruy.Arm32.Flow.c89_any_order", "Ruy.Arm32.Flow.c89_same", "Ruy.Arm32.Flow.c89_simple_loop", "Ruy.Arm32.Flow.c89_offsets", "Ruy.Arm32.Flow.c89_overflow", "Ruy.Arm32.Flow.c89_near", "Ruy.Arm32.Flow.c89_binary32", "Ruy.Arm32.Flow.c89_integers", "Ruy.Arm32.Flow.c89_nan", "Ruy.Arm32.Flow.c89_differ", "Ruy.Arm32.Flow.c89_flush", "Ruy.Arm32.Flow.c89_neon", "Ruy.Arm32.Flow.c89_neon_normal", "Ruy.Arm32.Flow.c89_neon_integers", "Ruy.Arm32.Flow.c89_neon_nan", "Ruy.Arm32.Flow.c89_denormal", "Ruy.Arm32.Flow.c89_neon_differ"], "note": "Everything but the last sentence is proved where offsets of packed LHS columns fit an int. Without that packing is undefined (c89_overflow). The error bound holds if no operand is denormal (c89_neon_normal); Advanced SIMD takes denormal operands for zero, and then it can be missed (c89_denormal). That AArch64 leaves the same result is false (c89_neon_differ). c89_near to c89_differ are about arithmetic that does not flush operands. Depth at least 1; the bias covers the packed width (C29). The semantics of the instructions is trusted."},
{"property": "C90", "status": "proved", "theorems": ["Ruy.Arm32.Flow.c90_block_loop", "Ruy.Arm32.Flow.c90_threads", "Ruy.Arm32.Flow.c90_threads_finish", "Ruy.Arm32.Flow.c90_one_result", "Ruy.Arm32.Flow.c90_close", "Ruy.Arm32.Flow.c90_integers", "Ruy.Arm32.Flow.c90_neon_close", "Ruy.Arm32.Flow.c90_neon_integers"], "note": "For multiplications as in C89: depth at least 1, the bias covers the packed width (C29), offsets of packed LHS columns fit an int (TaskOk). A call of RunPack or RunKernel is one step, as in C74."},
{"property": "C91", "status": "partial", "theorems": ["Ruy.Simd.Pack16.c91_agrees_partial", "Ruy.Simd.Pack16.c91_padding"], "note": "Proved for all source columns, all sums and everything outside the columns packed; equality if the zero point is 0, the number of rows is a multiple of 16 or the second half of the last block has a source column. False for padding columns otherwise (c91_padding). Assumes the zero point fits 16 bits and zero point times rows fits 32 bits."},
{"property": "C92", "status": "proved", "theorems": ["Ruy.Simd.Flow16.c92_any_order", "Ruy.Simd.Flow16.c92_same", "Ruy.Simd.Flow16.c92_int32", "Ruy.Simd.Flow16.c92_quantized", "Ruy.Simd.Flow16.c92_simple_loop", "Ruy.Simd.Flow16.c92_row_overflow"], "note": "For multiplications set up as Mul does (JobOk): depth below 2^16, the product of zero points and depth fits 32 bits (C33), per-channel buffers cover the packed width (C29). c92_row_overflow shows why the depth is bounded."},
{"property": "C93", "status": "proved", "theorems": ["Ruy.Simd.Flow16.c93_block_loop", "Ruy.Simd.Flow16.c93_threads", "Ruy.Simd.Flow16.c93_threads_finish", "Ruy.Simd.Flow16.c93_one_result", "Ruy.Simd.Flow16.c93_threads_int32", "Ruy.Simd.Flow16.c93_threads_quantized"], "note": "For multiplications as in C92 (JobOk). A call of RunPack or RunKernel is one step, as in C53."},
{"property": "C94", "status": "proved", "theorems": ["Ruy.Simd.Top.c94_runs", "Ruy.Simd.Top.c94_int32", "Ruy.Simd.Top.c94_quantized", "Ruy.Simd.Top.c94_rest", "Ruy.Simd.Top.c94_paths_int32"], "note": "UserOk: 8-bit values, validated zero points, buffers as documented in mul_params.h, depth below 2^24, product of packed zero points times depth below 2^31. Without the prepacked cache. A call of RunPack or RunKernel is one step, as in C53."},
{"property": "C95", "status": "proved", "theorems": ["Ruy.Simd.Top16.c95_zero", "Ruy.Simd.Top16.c95_runs", "Ruy.Simd.Top16.c95_int32", "Ruy.Simd.Top16.c95_quantized", "Ruy.Simd.Top16.c95_rest", "Ruy.Simd.Top16.c95_paths_int32"], "note": "UserOk: values of their types, zero points accepted by validation, buffers as documented in mul_params.h, depth + 3 below 2^16 (c92_row_overflow shows why). Combinations of types and order that reach the generic kernel are not included. Without the prepacked cache. A call of RunPack or RunKernel is one step, as in C53."},
{"property": "C96", "status": "proved", "theorems": ["Ruy.XFloat.Top.c96_zero", "Ruy.XFloat.Top.c96_runs", "Ruy.XFloat.Top.c96_entries", "Ruy.XFloat.Top.c96_order", "Ruy.XFloat.Top.c96_integers", "Ruy.XFloat.Top.c96_rest", "Ruy.XFloat.Top.c96_one_result"], "note": "UserOk: zero points 0, sizes and 4 times strides that fit in their types, bias buffer as documented in mul_params.h. The float type and its operations are parameters, as in C61; c96_order assumes that factors may be exchanged, which c96_entries and c96_integers do not need. The rejected zero points of c96_zero are a debug assertion. Without the prepacked cache. A call of RunPack or RunKernel is one step, as in C53."},
{"property": "C97", "status": "proved", "theorems": ["Ruy.FloatErr.c97_error", "Ruy.FloatErr.c97_reference", "Ruy.FloatErr.c97_paths", "Ruy.FloatErr.c97_integers", "Ruy.FloatErr.c97_differ"], "note": "Arguments as in C96. Binary32 with rounding to nearest as in C62; S is `mag`, the underflow threshold is `tiny`. c97_reference also needs sources that are representable (not denormal if results are flushed) and a call for which ReferenceMul returns."},
{"property": "C98", "status": "proved", "theorems": ["Ruy.NeonF.Top.c98_zero", "Ruy.NeonF.Top.c98_runs", "Ruy.NeonF.Top.c98_entries", "Ruy.NeonF.Top.c98_rest", "Ruy.NeonF.Top.c98_one_result", "Ruy.NeonF.Top.c98_binary32", "Ruy.NeonF.Top.c98_close", "Ruy.NeonF.Top.c98_integers"], "note": "ArmOk: as UserOk of C96, and strides for which the columns of the last block have int offsets. Tunings are any set U; c98_entries gives each entry the order of additions of some tuning in U. From depth 8 on the result may depend on the tunings (c74_differ). Without the prepacked cache. A call of RunPack or RunKernel is one step, as in C53."},
{"property": "C99", "status": "proved", "theorems": ["Ruy.Arm32.Top.c99_zero", "Ruy.Arm32.Top.c99_runs", "Ruy.Arm32.Top.c99_entries", "Ruy.Arm32.Top.c99_rest", "Ruy.Arm32.Top.c99_one_result", "Ruy.Arm32.Top.c99_binary32", "Ruy.Arm32.Top.c99_aarch64", "Ruy.Arm32.Top.c99_integers", "Ruy.Arm32.Top.c99_differ"], "note": "ArmOk: as UserOk of C96 with eight columns, room for sources, packed matrices, bias and destination in a 32-bit address space, and strides for which the columns of the last block have int offsets (c89_overflow shows what happens otherwise). Values are those of neonOps, which flushes denormals; with denormal operands the bound can be missed (c89_denormal). Without the prepacked cache. A call of RunPack or RunKernel is one step, as in C53."}
]}
