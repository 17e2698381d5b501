# Axioms

Output of `#print axioms` for every theorem named in MANIFEST.json. No axiom is declared in this
development; the three below are those of Lean itself.

## C01

* **propext, Classical.choice, Quot.sound**: `Simdpp.C01_add`, `Simdpp.C01_sub`, `Simdpp.C01_add_long`, `Simdpp.C01_sub_long`
* **propext, Quot.sound**: `Simdpp.C01_add_sub_cancel`

## C02

* **propext, Classical.choice, Quot.sound**: `Simdpp.C02_add_sat`, `Simdpp.C02_sub_sat`, `Simdpp.C02_add_sat_long`, `Simdpp.C02_sub_sat_long`

## C03

* **propext, Classical.choice, Quot.sound**: `Simdpp.C03_mul_lo32`, `Simdpp.C03_mul_lo16_partial`, `Simdpp.C03_mul_hi`, `Simdpp.C03_mull16`, `Simdpp.C03_mull32_unsigned`, `Simdpp.C03_mull32_signed_partial`, `Simdpp.C03_lo_hi`, `Simdpp.C03_mul_lo32_long`, `Simdpp.C03_mul_hi_long`, `Simdpp.C03_mull32_signed_missing`, `Simdpp.C03_mul_lo16_ub`

## C04

* **propext, Classical.choice, Quot.sound**: `Simdpp.C04_add`, `Simdpp.C04_sub`, `Simdpp.C04_add_sat`, `Simdpp.C04_sub_sat`, `Simdpp.C04_min_max`, `Simdpp.C04_cmp`, `Simdpp.C04_avg`, `Simdpp.C04_popcnt`, `Simdpp.C04_mul_hi_mull16`, `Simdpp.C04_mul_lo32`, `Simdpp.C04_mull32`, `Simdpp.C04_neg`, `Simdpp.C04_abs`, `Simdpp.C04_mul_lo16`, `Simdpp.C04_div_p`, `Simdpp.C04_shift_r`, `Simdpp.C04_shift_l`, `Simdpp.C04_shift_in_range`, `Simdpp.C04_shift_r_v`, `Simdpp.C04_shift_l_v`, `Simdpp.C04_reduce`, `Simdpp.C04_reduce_add`, `Simdpp.C04_reduce_add16`, `Simdpp.C04_reduce_mul`, `Simdpp.C04_reduce_add16_exact`, `Simdpp.C04_reduce_mul16`, `Simdpp.C04_reduce_popcnt`, `Simdpp.C04_mul_lo16_long`, `Simdpp.C04_not_universal`
* **propext, Quot.sound**: `Simdpp.C04_long`

## C05

* **propext, Classical.choice, Quot.sound**: `Simdpp.C05_avg`, `Simdpp.C05_avg_trunc`, `Simdpp.C05_avg_long`, `Simdpp.C05_avg_trunc_long`, `Simdpp.C05_avg_vs_trunc`

## C06

* **propext, Classical.choice, Quot.sound**: `Simdpp.C06_min`, `Simdpp.C06_max`, `Simdpp.C06_min_long`, `Simdpp.C06_max_long`, `Simdpp.C06_minmax_exchange`
* **propext, Quot.sound**: `Simdpp.C06_unsupported_rejected`

## C07

* **propext, Classical.choice, Quot.sound**: `Simdpp.C07_neg_partial`, `Simdpp.C07_neg_simd`, `Simdpp.C07_neg_portable_ub`, `Simdpp.C07_neg_portable_ub64`, `Simdpp.C07_abs_partial`, `Simdpp.C07_abs_hw`, `Simdpp.C07_abs_ub`

## C08

* **propext, Classical.choice, Quot.sound**: `Simdpp.C08_popcnt`, `Simdpp.C08_popcnt_long`, `Simdpp.C08_range`

## C09

* **propext, Classical.choice, Quot.sound**: `Simdpp.C09_shift_l`, `Simdpp.C09_shift_l_imm`, `Simdpp.C09_shift_r`, `Simdpp.C09_shift_r_imm`, `Simdpp.C09_shift_l_bit`, `Simdpp.C09_shift_r_bit`, `Simdpp.C09_shift_l_long`, `Simdpp.C09_shift_r_long`, `Simdpp.C09_imm_agrees`

## C10

* **propext, Classical.choice, Quot.sound**: `Simdpp.C10_shift_l`, `Simdpp.C10_shift_r`, `Simdpp.C10_uniform`, `Simdpp.C10_shift_l_long`, `Simdpp.C10_shift_r_long`, `Simdpp.C10_rejects`
* **none**: `Simdpp.C10_int16_avx2`

## C11

* **propext, Classical.choice, Quot.sound**: `Simdpp.C11_div_p_partial`, `Simdpp.C11_full`, `Simdpp.C11_simd`, `Simdpp.C11_den_high_simd`, `Simdpp.C11_portable`, `Simdpp.C11_portable_zero`, `Simdpp.C11_disagree`

## C12

* **propext, Classical.choice, Quot.sound**: `Simdpp.C12_and`, `Simdpp.C12_or`, `Simdpp.C12_xor`, `Simdpp.C12_andnot`, `Simdpp.C12_not`, `Simdpp.C12_deMorgan`, `Simdpp.C12_andnot_eq`, `Simdpp.C12_xor_cancel`, `Simdpp.C12_and_mask`, `Simdpp.C12_andnot_mask`, `Simdpp.C12_and_long`, `Simdpp.C12_or_long`, `Simdpp.C12_xor_long`, `Simdpp.C12_andnot_long`, `Simdpp.C12_not_long`

## C13

* **propext, Classical.choice, Quot.sound**: `Simdpp.C13_cmp_int_partial`, `Simdpp.C13_cmp_int_long_partial`, `Simdpp.C13_cmp_flt`, `Simdpp.C13_cmp_flt_long`, `Simdpp.C13_int_consistent_partial`, `Simdpp.C13_neq_sse2_wrong`, `Simdpp.C13_mask_eq_wide_wrong`, `Simdpp.C13_neq_sse2_exact`, `Simdpp.C13_neq_sse2_right_iff`
* **propext, Quot.sound**: `Simdpp.C13_mask_eq_partial`

## C14

* **propext, Classical.choice, Quot.sound**: `Simdpp.C14_bit_select`, `Simdpp.C14_blend`, `Simdpp.C14_blend_eq_bit_select`, `Simdpp.C14_blend_vm`, `Simdpp.C14_blend_mm`, `Simdpp.C14_blend_vm_long`, `Simdpp.C14_bit_select_long`, `Simdpp.C14_select_gt`

## C15

* **propext, Classical.choice, Quot.sound**: `Simdpp.C15_test_bits_any`, `Simdpp.C15_test_bits_any_long`

## C16

* **propext, Classical.choice, Quot.sound**: `Simdpp.C16_reduce_or`, `Simdpp.C16_reduce_and`, `Simdpp.C16_reduce_max`, `Simdpp.C16_reduce_min`, `Simdpp.C16_reduce_max_rejects`, `Simdpp.C16_reduce_min_rejects`, `Simdpp.C16_reduce_add8`, `Simdpp.C16_reduce_add16`, `Simdpp.C16_reduce_add_wide`, `Simdpp.C16_reduce_add8_exact`, `Simdpp.C16_reduce_add8_rejects`, `Simdpp.C16_reduce_add16_ub`, `Simdpp.C16_reduce_mul16`, `Simdpp.C16_reduce_mul32`, `Simdpp.C16_reduce_mul32_rejects`, `Simdpp.C16_reduce_mul16_ub`, `Simdpp.C16_reduce_mul16_broken`, `Simdpp.C16_reduce_popcnt`, `Simdpp.C16_reduce_popcnt_exact`

## C17

* **propext, Classical.choice, Quot.sound**: `Simdpp.C17_zip_lo`, `Simdpp.C17_zip_hi`, `Simdpp.C17_unzip_lo`, `Simdpp.C17_unzip_hi`, `Simdpp.C17_unzip_zip`, `Simdpp.C17_zip_unzip`

## C18

* **propext, Classical.choice, Quot.sound**: `Simdpp.C18_shuffle4x2_32`, `Simdpp.C18_shuffle2_32`, `Simdpp.C18_permute4_16`, `Simdpp.C18_permute4_32`, `Simdpp.C18_permute2_16`, `Simdpp.C18_permute2_32`, `Simdpp.C18_shuffle2x2_32_partial`, `Simdpp.C18_shuffle2x2_32_wrong`, `Simdpp.C18_permute2_64`, `Simdpp.C18_shuffle1_64`, `Simdpp.C18_shuffle2x2_64_partial`, `Simdpp.C18_shuffle2x2_64_wrong`, `Simdpp.C18_permute4_64`, `Simdpp.C18_permute4_64_pair`, `Simdpp.C18_shuffle4x2_64_partial`, `Simdpp.C18_shuffle4x2_64_wrong`, `Simdpp.C18_shuffle4x2_64_undefined`, `Simdpp.C18_shuffle4x2_64_two`
* **propext, Quot.sound**: `Simdpp.C18_rejects`, `Simdpp.C18_loops_64_undefined`

## C19

* **propext, Classical.choice, Quot.sound**: `Simdpp.C19_move_l`, `Simdpp.C19_move_r`, `Simdpp.C19_align`, `Simdpp.C19_rejects`

## C20

* **propext, Classical.choice, Quot.sound**: `Simdpp.C20_permute_bytes16`, `Simdpp.C20_permute_zbytes16`, `Simdpp.C20_shuffle_bytes16`, `Simdpp.C20_shuffle_zbytes16`
* **propext, Quot.sound**: `Simdpp.C20_rejected`

## C21

* **propext, Classical.choice, Quot.sound**: `Simdpp.C21_shuffle_zbytes16`, `Simdpp.C21_shuffle_bytes16`, `Simdpp.C21_permute_bytes16`, `Simdpp.C21_permute_zbytes16`
* **propext, Quot.sound**: `Simdpp.C21_rejects`
* **propext**: `Simdpp.C21_accepts`

## C22

* **propext, Classical.choice, Quot.sound**: `Simdpp.C22_transpose2`, `Simdpp.C22_transpose4`, `Simdpp.C22_transpose2_twice`, `Simdpp.C22_transpose4_twice`

## C23

* **propext, Classical.choice, Quot.sound**: `Simdpp.C23_extract_partial`, `Simdpp.C23_insert`, `Simdpp.C23_extract_insert_partial`, `Simdpp.C23_rejects`, `Simdpp.C23_splat_n`, `Simdpp.C23_splat`, `Simdpp.C23_extract_msa32_wrong`

## C24

* **propext, Classical.choice, Quot.sound**: `Simdpp.C24_split_long`, `Simdpp.C24_combine_long`, `Simdpp.C24_inverse_long`
* **propext**: `Simdpp.C24_split`
* **propext, Quot.sound**: `Simdpp.C24_combine`, `Simdpp.C24_inverse`

## C25

* **propext, Classical.choice, Quot.sound**: `Simdpp.C25_apply1`, `Simdpp.C25_apply2`, `Simdpp.C25_apply2S`, `Simdpp.C25_apply3`

## C26

* **propext, Classical.choice, Quot.sound**: `Simdpp.C26_load`, `Simdpp.C26_load_u`, `Simdpp.C26_store`, `Simdpp.C26_stream`, `Simdpp.C26_store_u`, `Simdpp.C26_round_trip`, `Simdpp.C26_round_trip_u`, `Simdpp.C26_load_depends`, `Simdpp.C26_load_u_altivec_overread`
* **propext, Quot.sound**: `Simdpp.C26_load_misaligned`, `Simdpp.C26_store_u_float_portable_ub`

## C27

* **propext, Classical.choice, Quot.sound**: `Simdpp.C27_load_packed2`, `Simdpp.C27_load_packed3`, `Simdpp.C27_load_packed4`, `Simdpp.C27_store_packed2_partial`, `Simdpp.C27_store_packed2_wide`, `Simdpp.C27_store_packed3`, `Simdpp.C27_store_packed4`, `Simdpp.C27_round_trip2`, `Simdpp.C27_round_trip3`, `Simdpp.C27_round_trip4`, `Simdpp.C27_load_packed3_same`
* **propext, Quot.sound**: `Simdpp.C27_store_packed2_misaligned`

## C28

* **propext, Classical.choice, Quot.sound**: `Simdpp.C28_store_first`, `Simdpp.C28_store_last`, `Simdpp.C28_store_masked`
* **propext, Quot.sound**: `Simdpp.C28_store_first_needs_block`, `Simdpp.C28_store_first_full_64`

## C29

* **propext, Classical.choice, Quot.sound**: `Simdpp.C29_extend_partial`, `Simdpp.C29_truncate_partial`, `Simdpp.C29_roundtrip_partial`, `Simdpp.C29_ext8_64_overrun`, `Simdpp.C29_ext16_64_misplaced`, `Simdpp.C29_trunc64_8_overrun`, `Simdpp.C29_trunc64_8_misplaced`, `Simdpp.C29_trunc32_8_unset`, `Simdpp.C29_trunc32_8_order`

## C30

* **propext, Classical.choice, Quot.sound**: `Simdpp.C30_round_trip`, `Simdpp.C30_vec_round_trip`, `Simdpp.C30_ops`, `Simdpp.C30_commute`

## C31

* **propext, Classical.choice, Quot.sound**: `Simdpp.C31_extract_bits_any_one_bit_per_lane`, `Simdpp.C31_extract_bits_any_mask`, `Simdpp.C31_extract_bits_any_bytes`, `Simdpp.C31_extract_bits_any_not_portable`, `Simdpp.C31_extract_bits_any_reject`, `Simdpp.C31_extract_bits_any_needs_vl`, `Simdpp.C31_extract_bits`, `Simdpp.C31_extract_bits_32`, `Simdpp.C31_extract_bits_reject`

## C32

* **propext, Classical.choice, Quot.sound**: `Simdpp.C32_neg`, `Simdpp.C32_abs`, `Simdpp.C32_sign`, `Simdpp.C32_copysign`, `Simdpp.C32_values`, `Simdpp.C32_long`

## C33

* **propext, Classical.choice, Quot.sound**: `Simdpp.C33_classify`, `Simdpp.C33_long`

## C34

* **propext, Classical.choice, Quot.sound**: `Simdpp.C34_trunc_float`, `Simdpp.C34_floor_float_partial`, `Simdpp.C34_ceil_float_partial`, `Simdpp.C34_floor_float_wrong`, `Simdpp.C34_trunc_double_partial`, `Simdpp.C34_floor_double_partial`, `Simdpp.C34_ceil_double_partial`, `Simdpp.C34_double_emulation_wrong`, `Simdpp.C34_trunc_double_exact`, `Simdpp.C34_floor_double_exact`, `Simdpp.C34_ceil_double_exact`, `Simdpp.C34_floor_neon64_exact`, `Simdpp.C34_floor_ceil_float_exact`
* **propext, Quot.sound**: `Simdpp.C34_floor_neon64_wrong`

## C35

* **propext, Classical.choice, Quot.sound**: `Simdpp.Sort.C35_asc_key`, `Simdpp.Sort.C35_dec_key`, `Simdpp.Sort.C35_asc2_key`, `Simdpp.Sort.C35_dec2_key`, `Simdpp.Sort.C35_asc_int`, `Simdpp.Sort.C35_dec_int`, `Simdpp.Sort.C35_asc2_int`, `Simdpp.Sort.C35_dec2_int`, `Simdpp.SortLib.C35_lib_asc_int`, `Simdpp.SortLib.C35_lib_dec_int`, `Simdpp.SortLib.C35_lib_asc2_int`, `Simdpp.SortLib.C35_lib_dec2_int`, `Simdpp.SortLib.C35_lib_asc_flt`, `Simdpp.SortLib.C35_lib_dec_flt`, `Simdpp.SortLib.C35_lib_asc2_flt`, `Simdpp.SortLib.C35_lib_dec2_flt`, `Simdpp.SortLib.C35_lib_zeros_not_permuted`

## C36

* **propext, Classical.choice, Quot.sound**: `Simdpp.Dispatch.C36_selects_best`, `Simdpp.Dispatch.C36_aborts_iff`, `Simdpp.Dispatch.C36_not_dominated`
* **propext, Quot.sound**: `Simdpp.Dispatch.C36_total`, `Simdpp.Dispatch.C36_order_independent`

## C37

* **propext, Classical.choice, Quot.sound**: `Simdpp.Dispatch.C37_every_call_best`, `Simdpp.Dispatch.C37_aborts_only_if_none_runnable`, `Simdpp.Dispatch.C37_same_function_always`, `Simdpp.Dispatch.C37_single_thread`
* **propext, Quot.sound**: `Simdpp.Dispatch.C37_stable_after_first_call`, `Simdpp.Dispatch.C37_unsynchronised_first_calls_race`, `Simdpp.Dispatch.C37_ties_may_differ`

## C38

* **propext, Classical.choice, Quot.sound**: `Simdpp.Dispatch.C38_cpuinfo_reports`, `Simdpp.Dispatch.C38_cpuinfo_closed`, `Simdpp.Dispatch.C38_cpuinfo_monotone`, `Simdpp.Dispatch.C38_string_list_reports`, `Simdpp.Dispatch.C38_string_list_closed`, `Simdpp.Dispatch.C38_string_list_monotone`, `Simdpp.Dispatch.C38_string_list_set`, `Simdpp.Dispatch.C38_raw_cpuid_reports`, `Simdpp.Dispatch.C38_raw_cpuid_sound_partial`, `Simdpp.Dispatch.C38_raw_cpuid_hw_sound`, `Simdpp.Dispatch.C38_raw_cpuid_complete`, `Simdpp.Dispatch.C38_raw_cpuid_closed`
* **propext, Quot.sound**: `Simdpp.Dispatch.C38_gcc_builtin_closed`, `Simdpp.Dispatch.C38_gcc_builtin_sound`, `Simdpp.Dispatch.C38_raw_cpuid_faults_without_osxsave`, `Simdpp.Dispatch.C38_raw_cpuid_total`, `Simdpp.Dispatch.C38_raw_cpuid_avx512_unsound`, `Simdpp.Dispatch.C38_raw_cpuid_fma_unsound`

## C39

* **propext, Quot.sound**: `Simdpp.ArchSel.C39_least_closed`, `Simdpp.ArchSel.C39_null_iff`, `Simdpp.ArchSel.C39_cfg_ok`, `Simdpp.ArchSel.C39_namespace_injective`, `Simdpp.ArchSel.C39_list_mode`, `Simdpp.ArchSel.C39_list_truncated`
* **propext**: `Simdpp.ArchSel.C39_rejected_iff`
* **propext, Classical.choice, Quot.sound**: `Simdpp.ArchSel.C39_this_compile_arch`, `Simdpp.ArchSel.C39_version_runnable_iff`

## C40

* **propext, Classical.choice, Quot.sound**: `Simdpp.Alloc.C40_aligned`, `Simdpp.Alloc.C40_in_bounds`, `Simdpp.Alloc.C40_disjoint`, `Simdpp.Alloc.C40_never_bad_free`, `Simdpp.Alloc.C40_dealloc_exact`, `Simdpp.Alloc.C40_no_leak`, `Simdpp.Alloc.C40_oversize_throws`, `Simdpp.Alloc.C40_size_wraps`
* **propext, Quot.sound**: `Simdpp.Alloc.C40_zero_null`

## C41

* **propext, Classical.choice, Quot.sound**: `Simdpp.C41_for_each_partial`, `Simdpp.C41_calls_partial`, `Simdpp.C41_copies_functor`

## C42

* **propext**: `Simdpp.Expr.C42_get_expr2`, `Simdpp.Expr.C42_promote_ok`, `Simdpp.Expr.C42_comm`, `Simdpp.Expr.C42_regroup`, `Simdpp.Expr.C42_assoc`, `Simdpp.Expr.C42_assoc_same`, `Simdpp.Expr.C42_unary`, `Simdpp.Expr.C42_nomask`, `Simdpp.Expr.C42_nomask_usual`, `Simdpp.Expr.C42_nomask_counterexample`, `Simdpp.Expr.C42_nosign`, `Simdpp.Expr.C42_bitwise`, `Simdpp.Expr.C42_bitwise_scalar`, `Simdpp.Expr.C42_uint`, `Simdpp.Expr.C42_uint_scalar`, `Simdpp.Expr.C42_blend`
* **none**: `Simdpp.Expr.C42_regroup_counterexample`, `Simdpp.Expr.C42_nosign_counterexample`, `Simdpp.Expr.C42_uint_counterexample`, `Simdpp.Expr.C42_mask_int_table`

## C43

* **propext, Classical.choice, Quot.sound**: `Simdpp.C43_make_uint`, `Simdpp.C43_make_int`, `Simdpp.C43_make_uint_float`, `Simdpp.C43_make_int_float`, `Simdpp.C43_make_float32`, `Simdpp.C43_make_float64`, `Simdpp.C43_make_zero`, `Simdpp.C43_make_ones`, `Simdpp.C43_scalar`, `Simdpp.C43_scalar_float`, `Simdpp.C43_splat_int`, `Simdpp.C43_splat_float`, `Simdpp.C43_splat_elem`, `Simdpp.C43_splat8_ub`

## C44

* **propext, Classical.choice, Quot.sound**: `Simdpp.C44_clamp_flt`, `Simdpp.C44_clamp`, `Simdpp.C44_clamp_range`, `Simdpp.C44_clamp_idem`, `Simdpp.C44_clamp_long`

## C45

* **propext, Classical.choice, Quot.sound**: `Simdpp.C45_bit_cast`, `Simdpp.C45_round_trip`, `Simdpp.C45_split_combine`, `Simdpp.C45_mask_cast`, `Simdpp.C45_mask_cast_total_partial`
* **propext, Quot.sound**: `Simdpp.C45_mask_cast_neon_rejected`

## C46

* **propext, Classical.choice, Quot.sound**: `Simdpp.C46_int32_to_float64`, `Simdpp.C46_narrow_to_float64`, `Simdpp.C46_narrow_to_float32`, `Simdpp.C46_int32_to_float32`, `Simdpp.C46_uint32_to_float32_partial`, `Simdpp.C46_uint32_to_float32_err`, `Simdpp.C46_uint32_double_rounding`, `Simdpp.C46_float_to_double`, `Simdpp.C46_double_to_float_partial`, `Simdpp.C46_double_to_float_nearest`, `Simdpp.C46_double_to_float_avx512`, `Simdpp.C46_double_to_float_depends_on_length`, `Simdpp.C46_int64_to_float64`, `Simdpp.C46_int64_to_float32`, `Simdpp.C46_int64_double_rounding`, `Simdpp.C46_round_nearest`, `Simdpp.C46_round_overflow`, `Simdpp.C46_double_to_float_vsx`, `Simdpp.C46_double_to_float_vsx_iff`
* **propext, Quot.sound**: `Simdpp.C46_double_to_float_msa_swapped`, `Simdpp.C46_int64_to_float64_missing`

## C47

* **propext, Classical.choice, Quot.sound**: `Simdpp.C47_minmax`, `Simdpp.C47_minmax_long`

## C48

* **propext, Classical.choice, Quot.sound**: `Simdpp.C48_reduce_add`, `Simdpp.C48_reduce_mul`, `Simdpp.C48_reduce_min`, `Simdpp.C48_reduce_max`, `Simdpp.C48_reduce_add_exact`, `Simdpp.C48_reduce_add_order`

## C49

* **propext, Classical.choice, Quot.sound**: `Simdpp.C49_float32_to_int32`, `Simdpp.C49_float64_to_int32_partial`, `Simdpp.C49_float64_to_int64_partial`, `Simdpp.C49_float32_to_int64_partial`, `Simdpp.C49_float_to_int16`, `Simdpp.C49_float_to_int8_partial`, `Simdpp.C49_portable_uint64_undefined`, `Simdpp.C49_float32x8_to_int64_missing`
* **propext, Quot.sound**: `Simdpp.C49_portable_undefined`, `Simdpp.C49_float64_to_uint32_missing`, `Simdpp.C49_float64_to_int64_missing`, `Simdpp.C49_out_of_range_differs`

## C50

* **propext**: `Simdpp.C50_add`, `Simdpp.C50_fmadd_partial`
* **propext, Quot.sound**: `Simdpp.C50_sub`, `Simdpp.C50_mul_altivec_sign`, `Simdpp.C50_fmsub_partial`, `Simdpp.C50_fma_neon64_wrong`, `Simdpp.C50_fmsub_msa_wrong`, `Simdpp.C50_fma_missing`
* **propext, Classical.choice, Quot.sound**: `Simdpp.C50_mul`, `Simdpp.C50_add_nearest`, `Simdpp.C50_mul_nearest`, `Simdpp.C50_fma_nearest`

## C51

* **propext, Classical.choice, Quot.sound**: `Simdpp.C51_load_splat`, `Simdpp.C51_vsx_overread`
* **none**: `Simdpp.C51_reads_element`

## C52

* **propext, Classical.choice, Quot.sound**: `Simdpp.C52_div`, `Simdpp.C52_sqrt`, `Simdpp.C52_long`, `Simdpp.C52_rcp_rh`, `Simdpp.C52_rsqrt_rh`, `Simdpp.C52_div_approx`, `Simdpp.C52_sqrt_approx`, `Simdpp.C52_estimates`, `Simdpp.C52_sqrt_special`, `Simdpp.C52_sqrt_one_neon32`, `Simdpp.C52_div_nearest`, `Simdpp.C52_sqrt_nearest`
* **propext, Quot.sound**: `Simdpp.C52_div_altivec_special`

## C53

* **propext, Classical.choice, Quot.sound**: `Simdpp.C53_log2_positive_partial`, `Simdpp.C53_log2_partial`, `Simdpp.C53_log2_subnormal`, `Simdpp.C53_log2_subnormal_wrong`

## C54

* **propext**: `Simdpp.Expr.C54_types`
* **propext, Classical.choice, Quot.sound**: `Simdpp.C54_program`, `Simdpp.C54_condition`, `Simdpp.C54_eval`, `Simdpp.C54_portable`, `Simdpp.C54_everywhere`

## C55

* **propext, Classical.choice, Quot.sound**: `Simdpp.C55_kernel`

## C56

* **propext, Classical.choice, Quot.sound**: `Simdpp.C56_program`, `Simdpp.C56_condition`, `Simdpp.C56_eval`, `Simdpp.C56_ieee`, `Simdpp.C56_portable`, `Simdpp.C56_kernel`

## C57

* **propext, Quot.sound**: `Simdpp.ArchSel.C57_name_injective`, `Simdpp.ArchSel.C57_slots`
* **propext, Classical.choice, Quot.sound**: `Simdpp.ArchSel.C57_links_iff`, `Simdpp.ArchSel.C57_builds`, `Simdpp.ArchSel.C57_selects`, `Simdpp.ArchSel.C57_aborts`, `Simdpp.ArchSel.C57_null_never_aborts`, `Simdpp.ArchSel.C57_deterministic`

## C58

* **propext, Classical.choice, Quot.sound**: `Simdpp.C58_scalar_bits`, `Simdpp.C58_negative_int`, `Simdpp.C58_and_minus_one`

## C59

* **propext, Classical.choice, Quot.sound**: `Simdpp.C59_program`, `Simdpp.C59_ieee`, `Simdpp.C59_portable`, `Simdpp.C59_kernel`, `Simdpp.C59_weighted_average`, `Simdpp.C59_normalise`

## C60

* **propext, Classical.choice, Quot.sound**: `Simdpp.C60_sum`, `Simdpp.C60_extremum`, `Simdpp.C60_bits`, `Simdpp.C60_float_sum_exact`, `Simdpp.C60_float_extremum`, `Simdpp.C60_dot`, `Simdpp.C60_count`

## C61

* **propext, Classical.choice, Quot.sound**: `Simdpp.CMake.C61_file_names`, `Simdpp.CMake.C61_files`, `Simdpp.CMake.C61_slots`, `Simdpp.CMake.C61_program`, `Simdpp.CMake.C61_dispatch`, `Simdpp.CMake.C61_sixteenth`, `Simdpp.CMake.C61_default_list`, `Simdpp.CMake.C61_default_sensible`, `Simdpp.CMake.C61_default_build`, `Simdpp.CMake.C61_runnable`, `Simdpp.CMake.C61_no_dispatcher`, `Simdpp.CMake.C61_caller_variable_counterexample`, `Simdpp.CMake.C61_both_arm_counterexample`
* **propext, Quot.sound**: `Simdpp.CMake.C61_unknown_ignored`
* **propext**: `Simdpp.CMake.C61_caller_variable_runnable_counterexample`, `Simdpp.CMake.C61_runnable_counterexample`

## C62

* **propext, Classical.choice, Quot.sound**: `Simdpp.C62_bound`, `Simdpp.C62_reduce_add`, `Simdpp.C62_builds_agree`, `Simdpp.C62_reduce_mul`, `Simdpp.C62_array_sum`, `Simdpp.C62_dot`

## C63

* **propext, Classical.choice, Quot.sound**: `Simdpp.C63_kernel`, `Simdpp.C63_kernel_unaligned`, `Simdpp.C63_window`

## C64

* **propext, Classical.choice, Quot.sound**: `Simdpp.C64_kernel`, `Simdpp.C64_swap`

## C65

* **propext, Classical.choice, Quot.sound**: `Simdpp.C65_move_l`, `Simdpp.C65_move_r`, `Simdpp.C65_align`, `Simdpp.C65_unzip`, `Simdpp.C65_extend`, `Simdpp.C65_extend64_wrong`, `Simdpp.C65_shrink`, `Simdpp.C65_f64_f32`, `Simdpp.C65_f64_i32_wrong`, `Simdpp.C65_f64_i32_zero`, `Simdpp.C65_i32_f64_wrong`, `Simdpp.C65_mull`, `Simdpp.C65_mul_hi`, `Simdpp.C65_mul_lo`, `Simdpp.C65_extract_any8`, `Simdpp.C65_extract_any32`, `Simdpp.C65_extract_any16`, `Simdpp.C65_extract_any64`
* **propext, Quot.sound**: `Simdpp.C65_move_reject`, `Simdpp.C65_f32_f64`
* **propext**: `Simdpp.C65_permute2_wrong`, `Simdpp.C65_shuffle2x2_wrong`

## C66

* **propext, Classical.choice, Quot.sound**: `Simdpp.C66_program`, `Simdpp.C66_ieee`, `Simdpp.C66_portable`, `Simdpp.C66_kernel`, `Simdpp.C66_prefix_sum`, `Simdpp.C66_prefix_sum_kernel`, `Simdpp.C66_complex_product`

## C67

* **propext, Classical.choice, Quot.sound**: `Simdpp.C67_cmp_xop_workaround`, `Simdpp.C67_cmp_xop_same`, `Simdpp.C67_shuffle_bytes16_clang`, `Simdpp.C67_shuffle_bytes16_same`, `Simdpp.C67_make_uint64_msvc`, `Simdpp.C67_make_int64_msvc`, `Simdpp.C67_blend_clang`, `Simdpp.C67_load_u_icc`
* **propext**: `Simdpp.C67_cmp_xop_narrow`
* **propext, Quot.sound**: `Simdpp.C67_cmp_xop_lost`

## C68

* **propext, Classical.choice, Quot.sound**: `Simdpp.C68_program`, `Simdpp.C68_condition`, `Simdpp.C68_eval`, `Simdpp.C68_div`, `Simdpp.C68_sqrt`, `Simdpp.C68_sqrt_subnormal`, `Simdpp.C68_div_subnormal`, `Simdpp.C68_div_lost`, `Simdpp.C68_sub_zero`, `Simdpp.C68_trunc`, `Simdpp.C68_floor`, `Simdpp.C68_ceil`, `Simdpp.C68_kernel`, `Simdpp.C68_floor_example`, `Simdpp.C68_reduce_add`, `Simdpp.C68_reduce_mul`, `Simdpp.C68_reduce_min`, `Simdpp.C68_reduce_max`, `Simdpp.C68_reduce_add_exact`, `Simdpp.C68_reduce_add_error`, `Simdpp.C68_reduce_add_lost`, `Simdpp.C68_same`, `Simdpp.C68_portable`, `Simdpp.C68_add_error`, `Simdpp.C68_sub_error`, `Simdpp.C68_mul_error`, `Simdpp.C68_compare`
* **propext, Quot.sound**: `Simdpp.C68_underflow_example`
* **propext**: `Simdpp.C68_trichotomy_example`

## C69

* **propext, Classical.choice, Quot.sound**: `Simdpp.C69_transpose`, `Simdpp.C69_transpose_in_place`, `Simdpp.C69_transpose_twice`

## C70

* **propext, Classical.choice, Quot.sound**: `Simdpp.C70_product`, `Simdpp.C70_integer`, `Simdpp.C70_float`, `Simdpp.C70_portable`, `Simdpp.C70_accuracy`
* **propext, Quot.sound**: `Simdpp.C70_exact`

## C71

* **propext, Classical.choice, Quot.sound**: `Simdpp.C71_loop`, `Simdpp.C71_running_sum_exact`, `Simdpp.C71_filter`, `Simdpp.C71_running_sum_flt`, `Simdpp.C71_running_sum`, `Simdpp.C71_difference`, `Simdpp.C71_round_trip`

## C72

* **propext, Classical.choice, Quot.sound**: `Simdpp.C72_find`, `Simdpp.C72_find_vector`, `Simdpp.C72_memchr`, `Simdpp.C72_strlen`, `Simdpp.C72_mismatch`, `Simdpp.C72_portable`, `Simdpp.C72_find_flt`, `Simdpp.C72_portable_flt`

## C73

* **propext, Classical.choice, Quot.sound**: `Simdpp.C73_program`, `Simdpp.C73_kernel`, `Simdpp.C73_popcount`, `Simdpp.C73_bit_reverse`, `Simdpp.C73_lookup`

## C74

* **propext, Quot.sound**: `Simdpp.C74_disjoint`
* **propext, Classical.choice, Quot.sound**: `Simdpp.C74_ends`, `Simdpp.C74_store_first_exact`, `Simdpp.C74_parallel_for`, `Simdpp.C74_loops`, `Simdpp.C74_loops_end`, `Simdpp.C74_store_first_race`, `Simdpp.C74_store_first_beside`, `Simdpp.C74_store_u_race`
