{
 "claims": [
  {
   "property": "C01",
   "status": "proved",
   "theorems": [
    "Simdpp.C01_add",
    "Simdpp.C01_sub",
    "Simdpp.C01_add_long",
    "Simdpp.C01_sub_long",
    "Simdpp.C01_add_sub_cancel"
   ],
   "note": "All configurations, widths, both signednesses, any vector length."
  },
  {
   "property": "C02",
   "status": "proved",
   "theorems": [
    "Simdpp.C02_add_sat",
    "Simdpp.C02_sub_sat",
    "Simdpp.C02_add_sat_long",
    "Simdpp.C02_sub_sat_long"
   ],
   "note": "All configurations, 8/16-bit, any vector length."
  },
  {
   "property": "C03",
   "status": "partial",
   "theorems": [
    "Simdpp.C03_mul_lo32",
    "Simdpp.C03_mul_lo16_partial",
    "Simdpp.C03_mul_hi",
    "Simdpp.C03_mull16",
    "Simdpp.C03_mull32_unsigned",
    "Simdpp.C03_mull32_signed_partial",
    "Simdpp.C03_lo_hi",
    "Simdpp.C03_mul_lo32_long",
    "Simdpp.C03_mul_hi_long",
    "Simdpp.C03_mull32_signed_missing",
    "Simdpp.C03_mul_lo16_ub"
   ],
   "note": "mul_lo/mul_hi/mull proved for every configuration and length, except two defects proved as such: portable 16-bit mul_lo is undefined when the unsigned product exceeds INT_MAX; signed 32-bit mull does not exist on SSE2..SSSE3, AltiVec without VSX 2.07, AVX512F registers"
  },
  {
   "property": "C04",
   "status": "proved",
   "theorems": [
    "Simdpp.C04_add",
    "Simdpp.C04_sub",
    "Simdpp.C04_add_sat",
    "Simdpp.C04_sub_sat",
    "Simdpp.C04_min_max",
    "Simdpp.C04_cmp",
    "Simdpp.C04_avg",
    "Simdpp.C04_popcnt",
    "Simdpp.C04_mul_hi_mull16",
    "Simdpp.C04_mul_lo32",
    "Simdpp.C04_mull32",
    "Simdpp.C04_neg",
    "Simdpp.C04_abs",
    "Simdpp.C04_mul_lo16",
    "Simdpp.C04_div_p",
    "Simdpp.C04_shift_r",
    "Simdpp.C04_shift_l",
    "Simdpp.C04_shift_in_range",
    "Simdpp.C04_shift_r_v",
    "Simdpp.C04_shift_l_v",
    "Simdpp.C04_reduce",
    "Simdpp.C04_reduce_add",
    "Simdpp.C04_reduce_add16",
    "Simdpp.C04_reduce_mul",
    "Simdpp.C04_reduce_add16_exact",
    "Simdpp.C04_reduce_mul16",
    "Simdpp.C04_reduce_popcnt",
    "Simdpp.C04_long",
    "Simdpp.C04_mul_lo16_long",
    "Simdpp.C04_not_universal"
   ],
   "note": "For each integer operation of the portable build: defined for all operands, or (neg, abs, 16-bit mul_lo, div_p, shifts, signed 16-bit sums and products) the exact set of operands for which it is defined, as an equivalence. C04_not_universal shows that the exceptions exist."
  },
  {
   "property": "C05",
   "status": "proved",
   "theorems": [
    "Simdpp.C05_avg",
    "Simdpp.C05_avg_trunc",
    "Simdpp.C05_avg_long",
    "Simdpp.C05_avg_trunc_long",
    "Simdpp.C05_avg_vs_trunc"
   ],
   "note": "avg/avg_trunc on 8/16/32-bit lanes, signed and unsigned, all configurations, any length."
  },
  {
   "property": "C06",
   "status": "proved",
   "theorems": [
    "Simdpp.C06_min",
    "Simdpp.C06_max",
    "Simdpp.C06_min_long",
    "Simdpp.C06_max_long",
    "Simdpp.C06_minmax_exchange",
    "Simdpp.C06_unsupported_rejected"
   ],
   "note": "All configurations that compile the overload; rejection proved for the others; any length."
  },
  {
   "property": "C07",
   "status": "partial",
   "theorems": [
    "Simdpp.C07_neg_partial",
    "Simdpp.C07_neg_simd",
    "Simdpp.C07_neg_portable_ub",
    "Simdpp.C07_neg_portable_ub64",
    "Simdpp.C07_abs_partial",
    "Simdpp.C07_abs_hw",
    "Simdpp.C07_abs_ub"
   ],
   "note": "neg and abs proved on every SIMD build and on all defined inputs of the portable one; the code's UB on INT_MIN (32/64-bit, portable paths) is proved, so the full claim is false there."
  },
  {
   "property": "C08",
   "status": "proved",
   "theorems": [
    "Simdpp.C08_popcnt",
    "Simdpp.C08_popcnt_long",
    "Simdpp.C08_range"
   ],
   "note": "popcnt of 8/16/32/64-bit lanes, all configurations (portable SWAR, emulation, POPCNT extract/insert, NEON pairwise adds, SAD), any vector length"
  },
  {
   "property": "C09",
   "status": "proved",
   "theorems": [
    "Simdpp.C09_shift_l",
    "Simdpp.C09_shift_l_imm",
    "Simdpp.C09_shift_r",
    "Simdpp.C09_shift_r_imm",
    "Simdpp.C09_shift_l_bit",
    "Simdpp.C09_shift_r_bit",
    "Simdpp.C09_shift_l_long",
    "Simdpp.C09_shift_r_long",
    "Simdpp.C09_imm_agrees"
   ],
   "note": "All configurations, widths, both signednesses, every in-range count, any even base length; immediate and run-time counts agree."
  },
  {
   "property": "C10",
   "status": "proved",
   "theorems": [
    "Simdpp.C10_shift_l",
    "Simdpp.C10_shift_r",
    "Simdpp.C10_uniform",
    "Simdpp.C10_shift_l_long",
    "Simdpp.C10_shift_r_long",
    "Simdpp.C10_rejects",
    "Simdpp.C10_int16_avx2"
   ],
   "note": "8-, 16- and 32-bit lanes (the only ones that exist), every count below the lane width, every configuration and register width, and arrays; where the capability macro is 0 the call does not compile (C10_rejects)"
  },
  {
   "property": "C11",
   "status": "partial",
   "theorems": [
    "Simdpp.C11_div_p_partial",
    "Simdpp.C11_full",
    "Simdpp.C11_simd",
    "Simdpp.C11_den_high_simd",
    "Simdpp.C11_portable",
    "Simdpp.C11_portable_zero",
    "Simdpp.C11_disagree"
   ],
   "note": "8- and 16-bit lanes, every configuration, every precision: quotient of the P low bits when the denominators fit in P bits; for other denominators the vectorised code differs from the documentation and from the portable code (C11_den_high_simd, C11_disagree)"
  },
  {
   "property": "C12",
   "status": "proved",
   "theorems": [
    "Simdpp.C12_and",
    "Simdpp.C12_or",
    "Simdpp.C12_xor",
    "Simdpp.C12_andnot",
    "Simdpp.C12_not",
    "Simdpp.C12_deMorgan",
    "Simdpp.C12_andnot_eq",
    "Simdpp.C12_xor_cancel",
    "Simdpp.C12_and_mask",
    "Simdpp.C12_andnot_mask",
    "Simdpp.C12_and_long",
    "Simdpp.C12_or_long",
    "Simdpp.C12_xor_long",
    "Simdpp.C12_andnot_long",
    "Simdpp.C12_not_long"
   ],
   "note": "All vector kinds, widths, configurations; mask operands; De Morgan etc."
  },
  {
   "property": "C13",
   "status": "partial",
   "theorems": [
    "Simdpp.C13_cmp_int_partial",
    "Simdpp.C13_cmp_int_long_partial",
    "Simdpp.C13_cmp_flt",
    "Simdpp.C13_cmp_flt_long",
    "Simdpp.C13_int_consistent_partial",
    "Simdpp.C13_neq_sse2_wrong",
    "Simdpp.C13_mask_eq_wide_wrong",
    "Simdpp.C13_mask_eq_partial",
    "Simdpp.C13_neq_sse2_exact",
    "Simdpp.C13_neq_sse2_right_iff"
   ],
   "note": "All six relations, ints and floats, all builds, any length, except 64-bit cmp_neq on SSE2 without SSE4.1 where the code is wrong (C13_neq_sse2_wrong; C13_neq_sse2_exact and C13_neq_sse2_right_iff give its result for every input and exactly when it is right) and AVX-512 mask==mask on more than 16 lanes (C13_mask_eq_wide_wrong)."
  },
  {
   "property": "C14",
   "status": "proved",
   "theorems": [
    "Simdpp.C14_bit_select",
    "Simdpp.C14_blend",
    "Simdpp.C14_blend_eq_bit_select",
    "Simdpp.C14_blend_vm",
    "Simdpp.C14_blend_mm",
    "Simdpp.C14_blend_vm_long",
    "Simdpp.C14_bit_select_long",
    "Simdpp.C14_select_gt"
   ],
   "note": "Vector, mask selector and mask/mask/mask forms, all builds, any length."
  },
  {
   "property": "C15",
   "status": "proved",
   "theorems": [
    "Simdpp.C15_test_bits_any",
    "Simdpp.C15_test_bits_any_long"
   ],
   "note": "All builds, any vector length."
  },
  {
   "property": "C16",
   "status": "proved",
   "theorems": [
    "Simdpp.C16_reduce_or",
    "Simdpp.C16_reduce_and",
    "Simdpp.C16_reduce_max",
    "Simdpp.C16_reduce_min",
    "Simdpp.C16_reduce_max_rejects",
    "Simdpp.C16_reduce_min_rejects",
    "Simdpp.C16_reduce_add8",
    "Simdpp.C16_reduce_add16",
    "Simdpp.C16_reduce_add_wide",
    "Simdpp.C16_reduce_add8_exact",
    "Simdpp.C16_reduce_add8_rejects",
    "Simdpp.C16_reduce_add16_ub",
    "Simdpp.C16_reduce_mul16",
    "Simdpp.C16_reduce_mul32",
    "Simdpp.C16_reduce_mul32_rejects",
    "Simdpp.C16_reduce_mul16_ub",
    "Simdpp.C16_reduce_mul16_broken",
    "Simdpp.C16_reduce_popcnt",
    "Simdpp.C16_reduce_popcnt_exact"
   ],
   "note": "all integer reductions on every configuration for every vector length; inputs that overflow int32_t (documented as undefined) and forms that do not compile are excluded by named hypotheses with matching rejection theorems; the AVX-512BW 16-bit array product is refuted (C16_reduce_mul16_broken)"
  },
  {
   "property": "C17",
   "status": "proved",
   "theorems": [
    "Simdpp.C17_zip_lo",
    "Simdpp.C17_zip_hi",
    "Simdpp.C17_unzip_lo",
    "Simdpp.C17_unzip_hi",
    "Simdpp.C17_unzip_zip",
    "Simdpp.C17_zip_unzip"
   ],
   "note": "all element types, register widths, lengths and configurations; both inverse laws"
  },
  {
   "property": "C18",
   "status": "partial",
   "theorems": [
    "Simdpp.C18_shuffle4x2_32",
    "Simdpp.C18_shuffle2_32",
    "Simdpp.C18_permute4_16",
    "Simdpp.C18_permute4_32",
    "Simdpp.C18_permute2_16",
    "Simdpp.C18_permute2_32",
    "Simdpp.C18_shuffle2x2_32_partial",
    "Simdpp.C18_shuffle2x2_32_wrong",
    "Simdpp.C18_rejects",
    "Simdpp.C18_permute2_64",
    "Simdpp.C18_shuffle1_64",
    "Simdpp.C18_shuffle2x2_64_partial",
    "Simdpp.C18_shuffle2x2_64_wrong",
    "Simdpp.C18_permute4_64",
    "Simdpp.C18_permute4_64_pair",
    "Simdpp.C18_shuffle4x2_64_partial",
    "Simdpp.C18_shuffle4x2_64_wrong",
    "Simdpp.C18_shuffle4x2_64_undefined",
    "Simdpp.C18_loops_64_undefined",
    "Simdpp.C18_shuffle4x2_64_two"
   ],
   "note": "16/32/64-bit permute2/permute4/shuffle1/shuffle2/shuffle4x2 proved for every selector tuple on all builds and vectors of any number of registers (64-bit groups of four: 32- and 64-byte registers, and pairs of 16-byte registers). Defective instantiations are characterised exactly and the negation proved: shuffle2x2 (32- and 64-bit mixed selectors on x86/VSX), float64 shuffle4x2 on AVX/AVX-512F, 64-bit loops over more than two registers (out-of-bounds)."
  },
  {
   "property": "C19",
   "status": "proved",
   "theorems": [
    "Simdpp.C19_move_l",
    "Simdpp.C19_move_r",
    "Simdpp.C19_align",
    "Simdpp.C19_rejects"
   ],
   "note": "all element widths, kinds, vector lengths and configurations; boundary shifts 0 and full width included; larger counts rejected"
  },
  {
   "property": "C20",
   "status": "proved",
   "theorems": [
    "Simdpp.C20_permute_bytes16",
    "Simdpp.C20_permute_zbytes16",
    "Simdpp.C20_shuffle_bytes16",
    "Simdpp.C20_shuffle_zbytes16",
    "Simdpp.C20_rejected"
   ],
   "note": "All four byte permutes, all lane types, any vector length, all configurations; x86 without SSSE3/XOP rejects (C20_rejected)."
  },
  {
   "property": "C21",
   "status": "proved",
   "theorems": [
    "Simdpp.C21_shuffle_zbytes16",
    "Simdpp.C21_shuffle_bytes16",
    "Simdpp.C21_permute_bytes16",
    "Simdpp.C21_permute_zbytes16",
    "Simdpp.C21_rejects",
    "Simdpp.C21_accepts"
   ],
   "note": "All ten mask overloads, all legal selector tuples, all four consumers, any length."
  },
  {
   "property": "C22",
   "status": "proved",
   "theorems": [
    "Simdpp.C22_transpose2",
    "Simdpp.C22_transpose4",
    "Simdpp.C22_transpose2_twice",
    "Simdpp.C22_transpose4_twice"
   ],
   "note": "every configuration, lane type, number of registers, including the AVX2 512-bit overloads; 64-bit transpose4 and 8-bit transpose2 are not public"
  },
  {
   "property": "C23",
   "status": "partial",
   "theorems": [
    "Simdpp.C23_extract_partial",
    "Simdpp.C23_insert",
    "Simdpp.C23_extract_insert_partial",
    "Simdpp.C23_rejects",
    "Simdpp.C23_splat_n",
    "Simdpp.C23_splat",
    "Simdpp.C23_extract_msa32_wrong"
   ],
   "note": "extract, insert, splat and the 128-bit splats proved for every width, register class, configuration and vector length; the exception (int64 extract on 32-bit MSA builds: undefined for negative lanes, wrong when bit 31 is set) is proved as C23_extract_msa32_wrong"
  },
  {
   "property": "C24",
   "status": "proved",
   "theorems": [
    "Simdpp.C24_split_long",
    "Simdpp.C24_combine_long",
    "Simdpp.C24_inverse_long",
    "Simdpp.C24_split",
    "Simdpp.C24_combine",
    "Simdpp.C24_inverse"
   ],
   "note": "split and combine are mutually inverse and keep lane order, for wide registers and for vectors of any number of registers"
  },
  {
   "property": "C25",
   "status": "proved",
   "theorems": [
    "Simdpp.C25_apply1",
    "Simdpp.C25_apply2",
    "Simdpp.C25_apply2S",
    "Simdpp.C25_apply3"
   ],
   "note": "Literal model of the vec_array template recursion."
  },
  {
   "property": "C26",
   "status": "proved",
   "theorems": [
    "Simdpp.C26_load",
    "Simdpp.C26_load_u",
    "Simdpp.C26_store",
    "Simdpp.C26_stream",
    "Simdpp.C26_store_u",
    "Simdpp.C26_round_trip",
    "Simdpp.C26_round_trip_u",
    "Simdpp.C26_load_depends",
    "Simdpp.C26_load_u_altivec_overread",
    "Simdpp.C26_load_misaligned",
    "Simdpp.C26_store_u_float_portable_ub"
   ],
   "note": "load, load_u, store, store_u, stream: every kind of lane, vector length, memory content and (suitably aligned) address; footprint, round trip. The extra bytes AltiVec touches are explicit hypotheses and a finding."
  },
  {
   "property": "C27",
   "status": "partial",
   "theorems": [
    "Simdpp.C27_load_packed2",
    "Simdpp.C27_load_packed3",
    "Simdpp.C27_load_packed4",
    "Simdpp.C27_store_packed2_partial",
    "Simdpp.C27_store_packed2_wide",
    "Simdpp.C27_store_packed3",
    "Simdpp.C27_store_packed4",
    "Simdpp.C27_round_trip2",
    "Simdpp.C27_round_trip3",
    "Simdpp.C27_round_trip4",
    "Simdpp.C27_load_packed3_same",
    "Simdpp.C27_store_packed2_misaligned"
   ],
   "note": "load_packed2/3/4 and store_packed3/4 in full: every build, lane kind and width, any number of registers, every memory; store_packed2 in full for 32- and 64-byte registers and for 16-byte registers at addresses that are multiples of 32 (at other documented addresses it is undefined behaviour: C27_store_packed2_misaligned)."
  },
  {
   "property": "C28",
   "status": "proved",
   "theorems": [
    "Simdpp.C28_store_first",
    "Simdpp.C28_store_last",
    "Simdpp.C28_store_masked",
    "Simdpp.C28_store_first_needs_block",
    "Simdpp.C28_store_first_full_64"
   ],
   "note": "store_first, store_last: every n in the documented range; store_masked: 32- and 64-bit lanes (the only ones that exist), every mask."
  },
  {
   "property": "C29",
   "status": "partial",
   "theorems": [
    "Simdpp.C29_extend_partial",
    "Simdpp.C29_truncate_partial",
    "Simdpp.C29_roundtrip_partial",
    "Simdpp.C29_ext8_64_overrun",
    "Simdpp.C29_ext16_64_misplaced",
    "Simdpp.C29_trunc64_8_overrun",
    "Simdpp.C29_trunc64_8_misplaced",
    "Simdpp.C29_trunc32_8_unset",
    "Simdpp.C29_trunc32_8_order"
   ],
   "note": "All to_int/to_uint conversions proved correct for every configuration, width pair and vector length except the five combinations in ConvBroken, which the code gets wrong (C29_ext8_64_overrun, C29_ext16_64_misplaced, C29_trunc64_8_overrun, C29_trunc64_8_misplaced, C29_trunc32_8_unset, C29_trunc32_8_order prove it)."
  },
  {
   "property": "C30",
   "status": "proved",
   "theorems": [
    "Simdpp.C30_round_trip",
    "Simdpp.C30_vec_round_trip",
    "Simdpp.C30_ops",
    "Simdpp.C30_commute"
   ],
   "note": "All mask representations."
  },
  {
   "property": "C31",
   "status": "proved",
   "theorems": [
    "Simdpp.C31_extract_bits_any_one_bit_per_lane",
    "Simdpp.C31_extract_bits_any_mask",
    "Simdpp.C31_extract_bits_any_bytes",
    "Simdpp.C31_extract_bits_any_not_portable",
    "Simdpp.C31_extract_bits_any_reject",
    "Simdpp.C31_extract_bits_any_needs_vl",
    "Simdpp.C31_extract_bits",
    "Simdpp.C31_extract_bits_32",
    "Simdpp.C31_extract_bits_reject"
   ],
   "note": "Every configuration of the modelled instruction sets, all vector types the functions accept; AVX512BW/DQ branches with AVX512VL (without it they do not compile)."
  },
  {
   "property": "C32",
   "status": "proved",
   "theorems": [
    "Simdpp.C32_neg",
    "Simdpp.C32_abs",
    "Simdpp.C32_sign",
    "Simdpp.C32_copysign",
    "Simdpp.C32_values",
    "Simdpp.C32_long"
   ],
   "note": ""
  },
  {
   "property": "C33",
   "status": "proved",
   "theorems": [
    "Simdpp.C33_classify",
    "Simdpp.C33_long"
   ],
   "note": ""
  },
  {
   "property": "C34",
   "status": "partial",
   "theorems": [
    "Simdpp.C34_trunc_float",
    "Simdpp.C34_floor_float_partial",
    "Simdpp.C34_ceil_float_partial",
    "Simdpp.C34_floor_float_wrong",
    "Simdpp.C34_trunc_double_partial",
    "Simdpp.C34_floor_double_partial",
    "Simdpp.C34_ceil_double_partial",
    "Simdpp.C34_double_emulation_wrong",
    "Simdpp.C34_floor_neon64_wrong",
    "Simdpp.C34_trunc_double_exact",
    "Simdpp.C34_floor_double_exact",
    "Simdpp.C34_ceil_double_exact",
    "Simdpp.C34_floor_neon64_exact",
    "Simdpp.C34_floor_ceil_float_exact"
   ],
   "note": "float: trunc right on every pattern and build, floor/ceil on every pattern but \u00b18388607.5 where emulated; double: right on builds with rounding instructions and the portable build (floor except NEON64); the emulations are wrong outside the stated inputs, and the C34_*_exact theorems give for every input exactly when they are right"
  },
  {
   "property": "C35",
   "status": "proved",
   "theorems": [
    "Simdpp.Sort.C35_asc_key",
    "Simdpp.Sort.C35_dec_key",
    "Simdpp.Sort.C35_asc2_key",
    "Simdpp.Sort.C35_dec2_key",
    "Simdpp.Sort.C35_asc_int",
    "Simdpp.Sort.C35_dec_int",
    "Simdpp.Sort.C35_asc2_int",
    "Simdpp.Sort.C35_dec2_int",
    "Simdpp.SortLib.C35_lib_asc_int",
    "Simdpp.SortLib.C35_lib_dec_int",
    "Simdpp.SortLib.C35_lib_asc2_int",
    "Simdpp.SortLib.C35_lib_dec2_int",
    "Simdpp.SortLib.C35_lib_asc_flt",
    "Simdpp.SortLib.C35_lib_dec_flt",
    "Simdpp.SortLib.C35_lib_asc2_flt",
    "Simdpp.SortLib.C35_lib_dec2_flt",
    "Simdpp.SortLib.C35_lib_zeros_not_permuted"
   ],
   "note": "Library-level: every build, signed and unsigned 32-bit lanes, one- and two-vector forms; float lanes without NaN, up to the sign of zeros (counterexample for bit patterns proved)."
  },
  {
   "property": "C36",
   "status": "proved",
   "theorems": [
    "Simdpp.Dispatch.C36_selects_best",
    "Simdpp.Dispatch.C36_aborts_iff",
    "Simdpp.Dispatch.C36_total",
    "Simdpp.Dispatch.C36_order_independent",
    "Simdpp.Dispatch.C36_not_dominated"
   ],
   "note": "every version list, feature set and std::sort outcome"
  },
  {
   "property": "C37",
   "status": "partial",
   "theorems": [
    "Simdpp.Dispatch.C37_every_call_best",
    "Simdpp.Dispatch.C37_aborts_only_if_none_runnable",
    "Simdpp.Dispatch.C37_same_function_always",
    "Simdpp.Dispatch.C37_stable_after_first_call",
    "Simdpp.Dispatch.C37_single_thread",
    "Simdpp.Dispatch.C37_unsynchronised_first_calls_race",
    "Simdpp.Dispatch.C37_ties_may_differ"
   ],
   "note": "all interleavings at the granularity of accesses to the static variable; the variable is not atomic, so unsynchronised first calls are a C++ data race (C37_unsynchronised_first_calls_race); with the documented external synchronisation the claim is proved in full"
  },
  {
   "property": "C38",
   "status": "partial",
   "theorems": [
    "Simdpp.Dispatch.C38_cpuinfo_reports",
    "Simdpp.Dispatch.C38_cpuinfo_closed",
    "Simdpp.Dispatch.C38_cpuinfo_monotone",
    "Simdpp.Dispatch.C38_string_list_reports",
    "Simdpp.Dispatch.C38_string_list_closed",
    "Simdpp.Dispatch.C38_string_list_monotone",
    "Simdpp.Dispatch.C38_string_list_set",
    "Simdpp.Dispatch.C38_gcc_builtin_closed",
    "Simdpp.Dispatch.C38_gcc_builtin_sound",
    "Simdpp.Dispatch.C38_raw_cpuid_reports",
    "Simdpp.Dispatch.C38_raw_cpuid_sound_partial",
    "Simdpp.Dispatch.C38_raw_cpuid_hw_sound",
    "Simdpp.Dispatch.C38_raw_cpuid_complete",
    "Simdpp.Dispatch.C38_raw_cpuid_closed",
    "Simdpp.Dispatch.C38_raw_cpuid_faults_without_osxsave",
    "Simdpp.Dispatch.C38_raw_cpuid_total",
    "Simdpp.Dispatch.C38_raw_cpuid_avx512_unsound",
    "Simdpp.Dispatch.C38_raw_cpuid_fma_unsound"
   ],
   "note": "string list, cpuinfo and gcc builtin proved; raw cpuid proved for SSE2..AVX2; counterexamples for FMA3/FMA4/XOP/AVX-512 (no OS check) and the OSXSAVE fault"
  },
  {
   "property": "C39",
   "status": "proved",
   "theorems": [
    "Simdpp.ArchSel.C39_least_closed",
    "Simdpp.ArchSel.C39_rejected_iff",
    "Simdpp.ArchSel.C39_null_iff",
    "Simdpp.ArchSel.C39_cfg_ok",
    "Simdpp.ArchSel.C39_this_compile_arch",
    "Simdpp.ArchSel.C39_version_runnable_iff",
    "Simdpp.ArchSel.C39_namespace_injective",
    "Simdpp.ArchSel.C39_list_mode",
    "Simdpp.ArchSel.C39_list_truncated"
   ],
   "note": "least closed superset for every request; this_compile_arch exact; list mode: entries after the 14th ignored (C39_list_truncated)"
  },
  {
   "property": "C40",
   "status": "proved",
   "theorems": [
    "Simdpp.Alloc.C40_aligned",
    "Simdpp.Alloc.C40_in_bounds",
    "Simdpp.Alloc.C40_disjoint",
    "Simdpp.Alloc.C40_never_bad_free",
    "Simdpp.Alloc.C40_dealloc_exact",
    "Simdpp.Alloc.C40_no_leak",
    "Simdpp.Alloc.C40_zero_null",
    "Simdpp.Alloc.C40_oversize_throws",
    "Simdpp.Alloc.C40_size_wraps"
   ],
   "note": "all allocation histories whose sizes do not wrap; C40_size_wraps proves the wrap defect"
  },
  {
   "property": "C41",
   "status": "partial",
   "theorems": [
    "Simdpp.C41_for_each_partial",
    "Simdpp.C41_calls_partial",
    "Simdpp.C41_copies_functor"
   ],
   "note": "proved for every function object, length and configuration except int64 vectors on 32-bit MSA builds (where the extract it uses is wrong, C23_extract_msa32_wrong); C41_copies_functor records that data members of the object are reset at each register"
  },
  {
   "property": "C42",
   "status": "proved",
   "theorems": [
    "Simdpp.Expr.C42_get_expr2",
    "Simdpp.Expr.C42_promote_ok",
    "Simdpp.Expr.C42_comm",
    "Simdpp.Expr.C42_regroup",
    "Simdpp.Expr.C42_assoc",
    "Simdpp.Expr.C42_assoc_same",
    "Simdpp.Expr.C42_regroup_counterexample",
    "Simdpp.Expr.C42_unary",
    "Simdpp.Expr.C42_nomask",
    "Simdpp.Expr.C42_nomask_usual",
    "Simdpp.Expr.C42_nomask_counterexample",
    "Simdpp.Expr.C42_nosign",
    "Simdpp.Expr.C42_nosign_counterexample",
    "Simdpp.Expr.C42_bitwise",
    "Simdpp.Expr.C42_bitwise_scalar",
    "Simdpp.Expr.C42_uint",
    "Simdpp.Expr.C42_uint_scalar",
    "Simdpp.Expr.C42_uint_counterexample",
    "Simdpp.Expr.C42_blend",
    "Simdpp.Expr.C42_mask_int_table"
   ],
   "note": "promotion equals an independent specification on all element types; regrouping characterised exactly (it is not free in general)"
  },
  {
   "property": "C43",
   "status": "proved",
   "theorems": [
    "Simdpp.C43_make_uint",
    "Simdpp.C43_make_int",
    "Simdpp.C43_make_uint_float",
    "Simdpp.C43_make_int_float",
    "Simdpp.C43_make_float32",
    "Simdpp.C43_make_float64",
    "Simdpp.C43_make_zero",
    "Simdpp.C43_make_ones",
    "Simdpp.C43_scalar",
    "Simdpp.C43_scalar_float",
    "Simdpp.C43_splat_int",
    "Simdpp.C43_splat_float",
    "Simdpp.C43_splat_elem",
    "Simdpp.C43_splat8_ub"
   ],
   "note": "make_uint, make_int, make_float, make_zero, make_ones, splat and scalar operands; make_float to integer vectors not modelled"
  },
  {
   "property": "C44",
   "status": "proved",
   "theorems": [
    "Simdpp.C44_clamp_flt",
    "Simdpp.C44_clamp",
    "Simdpp.C44_clamp_range",
    "Simdpp.C44_clamp_idem",
    "Simdpp.C44_clamp_long"
   ],
   "note": ""
  },
  {
   "property": "C45",
   "status": "proved",
   "theorems": [
    "Simdpp.C45_bit_cast",
    "Simdpp.C45_round_trip",
    "Simdpp.C45_split_combine",
    "Simdpp.C45_mask_cast",
    "Simdpp.C45_mask_cast_total_partial",
    "Simdpp.C45_mask_cast_neon_rejected"
   ],
   "note": "Vector casts incl. split/combine; mask casts: total except NEON without FLT_SP where the library rejects (proved)."
  },
  {
   "property": "C46",
   "status": "partial",
   "theorems": [
    "Simdpp.C46_int32_to_float64",
    "Simdpp.C46_narrow_to_float64",
    "Simdpp.C46_narrow_to_float32",
    "Simdpp.C46_int32_to_float32",
    "Simdpp.C46_uint32_to_float32_partial",
    "Simdpp.C46_uint32_to_float32_err",
    "Simdpp.C46_uint32_double_rounding",
    "Simdpp.C46_float_to_double",
    "Simdpp.C46_double_to_float_partial",
    "Simdpp.C46_double_to_float_nearest",
    "Simdpp.C46_double_to_float_avx512",
    "Simdpp.C46_double_to_float_depends_on_length",
    "Simdpp.C46_double_to_float_msa_swapped",
    "Simdpp.C46_int64_to_float64",
    "Simdpp.C46_int64_to_float64_missing",
    "Simdpp.C46_int64_to_float32",
    "Simdpp.C46_int64_double_rounding",
    "Simdpp.C46_round_nearest",
    "Simdpp.C46_round_overflow",
    "Simdpp.C46_double_to_float_vsx",
    "Simdpp.C46_double_to_float_vsx_iff"
   ],
   "note": "Nearest-even for every source on every build and length, except: uint32 to float on emulating x86 builds (proved where the result is single-rounded, error bounded otherwise, wrong value exhibited), double to float on AVX-512 beyond four lanes (proved to round towards zero), MSA (halves swapped) and little-endian VSX (takes words the instruction leaves undefined), int64 to float through double (double rounding exhibited)."
  },
  {
   "property": "C47",
   "status": "proved",
   "theorems": [
    "Simdpp.C47_minmax",
    "Simdpp.C47_minmax_long"
   ],
   "note": ""
  },
  {
   "property": "C48",
   "status": "proved",
   "theorems": [
    "Simdpp.C48_reduce_add",
    "Simdpp.C48_reduce_mul",
    "Simdpp.C48_reduce_min",
    "Simdpp.C48_reduce_max",
    "Simdpp.C48_reduce_add_exact",
    "Simdpp.C48_reduce_add_order"
   ],
   "note": "reduce_add/mul/min/max on float32/float64 vectors of every length: a tree whose leaves are the lanes, fixed by build and vector type; min/max of NaN-free lanes are the extremum; integer sums are exact. min/max with NaN lanes: combination tree proved internally, result not specified."
  },
  {
   "property": "C49",
   "status": "partial",
   "theorems": [
    "Simdpp.C49_float32_to_int32",
    "Simdpp.C49_float64_to_int32_partial",
    "Simdpp.C49_float64_to_int64_partial",
    "Simdpp.C49_float32_to_int64_partial",
    "Simdpp.C49_float_to_int16",
    "Simdpp.C49_float_to_int8_partial",
    "Simdpp.C49_portable_undefined",
    "Simdpp.C49_portable_uint64_undefined",
    "Simdpp.C49_float64_to_uint32_missing",
    "Simdpp.C49_float64_to_int64_missing",
    "Simdpp.C49_float32x8_to_int64_missing",
    "Simdpp.C49_out_of_range_differs"
   ],
   "note": "Exact integer part wherever the conversion exists; missing overloads (x86 64-bit, uint32 from double), the portable uint64 cast and broken 32-to-8 lengths are proved as such."
  },
  {
   "property": "C50",
   "status": "partial",
   "theorems": [
    "Simdpp.C50_add",
    "Simdpp.C50_sub",
    "Simdpp.C50_mul",
    "Simdpp.C50_mul_altivec_sign",
    "Simdpp.C50_add_nearest",
    "Simdpp.C50_mul_nearest",
    "Simdpp.C50_fma_nearest",
    "Simdpp.C50_fmadd_partial",
    "Simdpp.C50_fmsub_partial",
    "Simdpp.C50_fma_neon64_wrong",
    "Simdpp.C50_fmsub_msa_wrong",
    "Simdpp.C50_fma_missing"
   ],
   "note": "add, sub, mul: all builds (AltiVec mul up to the sign of a zero product). fmadd/fmsub: builds whose operand order is right; NEON64 (both) and MSA (fmsub) are wrong, builds without FMA have none: proved as counterexamples."
  },
  {
   "property": "C51",
   "status": "proved",
   "theorems": [
    "Simdpp.C51_load_splat",
    "Simdpp.C51_reads_element",
    "Simdpp.C51_vsx_overread"
   ],
   "note": "integer and floating-point vectors of every length; VSX over-read stated"
  },
  {
   "property": "C52",
   "status": "proved",
   "theorems": [
    "Simdpp.C52_div",
    "Simdpp.C52_sqrt",
    "Simdpp.C52_long",
    "Simdpp.C52_rcp_rh",
    "Simdpp.C52_rsqrt_rh",
    "Simdpp.C52_div_approx",
    "Simdpp.C52_sqrt_approx",
    "Simdpp.C52_estimates",
    "Simdpp.C52_div_altivec_special",
    "Simdpp.C52_sqrt_special",
    "Simdpp.C52_sqrt_one_neon32",
    "Simdpp.C52_div_nearest",
    "Simdpp.C52_sqrt_nearest"
   ],
   "note": "div and sqrt exact on every build with the instruction (nearest number proved over the reals); on the builds that refine the processor's estimate, relative error bounds for all operands away from the ends of the range; refinement steps bounded on every build; special values where the approximate builds fail are proved counterexamples outside the claim"
  },
  {
   "property": "C53",
   "status": "partial",
   "theorems": [
    "Simdpp.C53_log2_positive_partial",
    "Simdpp.C53_log2_partial",
    "Simdpp.C53_log2_subnormal",
    "Simdpp.C53_log2_subnormal_wrong"
   ],
   "note": "Proved for all normal numbers and all special values; for subnormal numbers the code returns about -127 instead (C53_log2_subnormal, C53_log2_subnormal_wrong)."
  },
  {
   "property": "C54",
   "status": "proved",
   "theorems": [
    "Simdpp.Expr.C54_types",
    "Simdpp.C54_program",
    "Simdpp.C54_condition",
    "Simdpp.C54_eval",
    "Simdpp.C54_portable",
    "Simdpp.C54_everywhere"
   ],
   "note": "side conditions: operators that do not exist for the element size or build, and portable-build overflow (C02-C14), are preconditions computed from the expression; none for C54_everywhere"
  },
  {
   "property": "C55",
   "status": "proved",
   "theorems": [
    "Simdpp.C55_kernel"
   ],
   "note": "kernel of one output array; aligned, padded arrays; integer expressions of C54"
  },
  {
   "property": "C56",
   "status": "proved",
   "theorems": [
    "Simdpp.C56_program",
    "Simdpp.C56_condition",
    "Simdpp.C56_eval",
    "Simdpp.C56_ieee",
    "Simdpp.C56_portable",
    "Simdpp.C56_kernel"
   ],
   "note": "Bit-exact modulo NaN payloads; div/sqrt only where not computed from estimates (C52), fmadd/fmsub only where right (C50). Compiler contraction of a*b+c on the portable build is not modelled."
  },
  {
   "property": "C57",
   "status": "proved",
   "theorems": [
    "Simdpp.ArchSel.C57_name_injective",
    "Simdpp.ArchSel.C57_links_iff",
    "Simdpp.ArchSel.C57_slots",
    "Simdpp.ArchSel.C57_builds",
    "Simdpp.ArchSel.C57_selects",
    "Simdpp.ArchSel.C57_aborts",
    "Simdpp.ArchSel.C57_null_never_aborts",
    "Simdpp.ArchSel.C57_deterministic"
   ],
   "note": "Whole pipeline: macros, namespace names, linking, collection of versions, selection. Symbol names are modelled as namespace name plus function; processor detection enters through Detected (C38, C46)."
  },
  {
   "property": "C58",
   "status": "proved",
   "theorems": [
    "Simdpp.C58_scalar_bits",
    "Simdpp.C58_negative_int",
    "Simdpp.C58_and_minus_one"
   ],
   "note": "Every case of the statement; the exception (negative scalars of a 32-bit type with 64-bit lanes) is proved as C58_negative_int and C58_and_minus_one."
  },
  {
   "property": "C59",
   "status": "proved",
   "theorems": [
    "Simdpp.C59_program",
    "Simdpp.C59_ieee",
    "Simdpp.C59_portable",
    "Simdpp.C59_kernel",
    "Simdpp.C59_weighted_average",
    "Simdpp.C59_normalise"
   ],
   "note": "side conditions are those of C29, C46, C49, C54, C56 (operators and conversions which do not exist or are wrong on a build, proved there)"
  },
  {
   "property": "C60",
   "status": "proved",
   "theorems": [
    "Simdpp.C60_sum",
    "Simdpp.C60_extremum",
    "Simdpp.C60_bits",
    "Simdpp.C60_float_sum_exact",
    "Simdpp.C60_float_extremum",
    "Simdpp.C60_dot",
    "Simdpp.C60_count"
   ],
   "note": ""
  },
  {
   "property": "C61",
   "status": "proved",
   "theorems": [
    "Simdpp.CMake.C61_file_names",
    "Simdpp.CMake.C61_files",
    "Simdpp.CMake.C61_slots",
    "Simdpp.CMake.C61_program",
    "Simdpp.CMake.C61_dispatch",
    "Simdpp.CMake.C61_sixteenth",
    "Simdpp.CMake.C61_default_list",
    "Simdpp.CMake.C61_default_sensible",
    "Simdpp.CMake.C61_default_build",
    "Simdpp.CMake.C61_runnable",
    "Simdpp.CMake.C61_unknown_ignored",
    "Simdpp.CMake.C61_no_dispatcher",
    "Simdpp.CMake.C61_caller_variable_counterexample",
    "Simdpp.CMake.C61_caller_variable_runnable_counterexample",
    "Simdpp.CMake.C61_runnable_counterexample",
    "Simdpp.CMake.C61_both_arm_counterexample"
   ],
   "note": "All lists of definitions, orders, file names and flag tables; the documented recipe (default lists) for every outcome of the checks. The exceptions named in the property are proved as counterexamples."
  },
  {
   "property": "C62",
   "status": "proved",
   "theorems": [
    "Simdpp.C62_bound",
    "Simdpp.C62_reduce_add",
    "Simdpp.C62_builds_agree",
    "Simdpp.C62_reduce_mul",
    "Simdpp.C62_array_sum",
    "Simdpp.C62_dot"
   ],
   "note": "reduce_add/reduce_mul of float and double, array sums, dot products; side conditions exclude overflow and subnormal products"
  },
  {
   "property": "C63",
   "status": "proved",
   "theorems": [
    "Simdpp.C63_kernel",
    "Simdpp.C63_kernel_unaligned",
    "Simdpp.C63_window"
   ],
   "note": "load_u/load inputs, store/store_first or store_u outputs, moving windows"
  },
  {
   "property": "C64",
   "status": "proved",
   "theorems": [
    "Simdpp.C64_kernel",
    "Simdpp.C64_swap"
   ],
   "note": "load_packed2/3/4 and store_packed2/3/4 loops; the address exception of store_packed2 is a hypothesis"
  },
  {
   "property": "C65",
   "status": "proved",
   "theorems": [
    "Simdpp.C65_move_l",
    "Simdpp.C65_move_r",
    "Simdpp.C65_align",
    "Simdpp.C65_move_reject",
    "Simdpp.C65_unzip",
    "Simdpp.C65_extend",
    "Simdpp.C65_extend64_wrong",
    "Simdpp.C65_shrink",
    "Simdpp.C65_f32_f64",
    "Simdpp.C65_f64_f32",
    "Simdpp.C65_f64_i32_wrong",
    "Simdpp.C65_f64_i32_zero",
    "Simdpp.C65_i32_f64_wrong",
    "Simdpp.C65_mull",
    "Simdpp.C65_mul_hi",
    "Simdpp.C65_mul_lo",
    "Simdpp.C65_extract_any8",
    "Simdpp.C65_extract_any32",
    "Simdpp.C65_extract_any16",
    "Simdpp.C65_extract_any64",
    "Simdpp.C65_permute2_wrong",
    "Simdpp.C65_shuffle2x2_wrong"
   ],
   "note": "Exact result of every modelled big-endian branch on one register; the excepted functions are proved to give something else (C65_*_wrong), and the rejected amounts are C65_move_reject."
  },
  {
   "property": "C66",
   "status": "proved",
   "theorems": [
    "Simdpp.C66_program",
    "Simdpp.C66_ieee",
    "Simdpp.C66_portable",
    "Simdpp.C66_kernel",
    "Simdpp.C66_prefix_sum",
    "Simdpp.C66_prefix_sum_kernel",
    "Simdpp.C66_complex_product"
   ],
   "note": "expressions of lane-wise operations and in-block shuffles, and array loops; permute4 of 64-bit elements, shuffle2x2 and permute_bytes/zbytes are not in the expression language (see C18, C20)"
  },
  {
   "property": "C67",
   "status": "proved",
   "theorems": [
    "Simdpp.C67_cmp_xop_workaround",
    "Simdpp.C67_cmp_xop_same",
    "Simdpp.C67_cmp_xop_narrow",
    "Simdpp.C67_cmp_xop_lost",
    "Simdpp.C67_shuffle_bytes16_clang",
    "Simdpp.C67_shuffle_bytes16_same",
    "Simdpp.C67_make_uint64_msvc",
    "Simdpp.C67_make_int64_msvc",
    "Simdpp.C67_blend_clang",
    "Simdpp.C67_load_u_icc"
   ],
   "note": "replacement texts of the compiler workarounds; the lost comparisons are C67_cmp_xop_lost"
  },
  {
   "property": "C68",
   "status": "proved",
   "theorems": [
    "Simdpp.C68_program",
    "Simdpp.C68_condition",
    "Simdpp.C68_eval",
    "Simdpp.C68_div",
    "Simdpp.C68_sqrt",
    "Simdpp.C68_sqrt_subnormal",
    "Simdpp.C68_div_subnormal",
    "Simdpp.C68_div_lost",
    "Simdpp.C68_sub_zero",
    "Simdpp.C68_trunc",
    "Simdpp.C68_floor",
    "Simdpp.C68_ceil",
    "Simdpp.C68_kernel",
    "Simdpp.C68_underflow_example",
    "Simdpp.C68_trichotomy_example",
    "Simdpp.C68_floor_example",
    "Simdpp.C68_reduce_add",
    "Simdpp.C68_reduce_mul",
    "Simdpp.C68_reduce_min",
    "Simdpp.C68_reduce_max",
    "Simdpp.C68_reduce_add_exact",
    "Simdpp.C68_reduce_add_error",
    "Simdpp.C68_reduce_add_lost",
    "Simdpp.C68_same",
    "Simdpp.C68_portable",
    "Simdpp.C68_add_error",
    "Simdpp.C68_sub_error",
    "Simdpp.C68_mul_error",
    "Simdpp.C68_compare"
   ],
   "note": "NEON branches with flush-to-zero arithmetic; division, square root and reductions there are outside the model"
  },
  {
   "property": "C69",
   "status": "proved",
   "theorems": [
    "Simdpp.C69_transpose",
    "Simdpp.C69_transpose_in_place",
    "Simdpp.C69_transpose_twice"
   ],
   "note": "out of place for any number of tiles and row distances; in place for square matrices; twice is the identity"
  },
  {
   "property": "C70",
   "status": "proved",
   "theorems": [
    "Simdpp.C70_product",
    "Simdpp.C70_integer",
    "Simdpp.C70_exact",
    "Simdpp.C70_float",
    "Simdpp.C70_portable",
    "Simdpp.C70_accuracy"
   ],
   "note": "C must not overlap A or B; rows of B and C aligned; load_splat of bytes under the condition of C51"
  },
  {
   "property": "C71",
   "status": "proved",
   "theorems": [
    "Simdpp.C71_loop",
    "Simdpp.C71_running_sum_exact",
    "Simdpp.C71_filter",
    "Simdpp.C71_running_sum_flt",
    "Simdpp.C71_running_sum",
    "Simdpp.C71_difference",
    "Simdpp.C71_round_trip"
   ],
   "note": "the loop theorem covers every pair of expressions of C66; the running sum and difference instances use 128-bit vectors"
  },
  {
   "property": "C72",
   "status": "proved",
   "theorems": [
    "Simdpp.C72_find",
    "Simdpp.C72_find_vector",
    "Simdpp.C72_memchr",
    "Simdpp.C72_strlen",
    "Simdpp.C72_mismatch",
    "Simdpp.C72_portable",
    "Simdpp.C72_find_flt",
    "Simdpp.C72_portable_flt"
   ],
   "note": "All integer conditions of C54 and float/double conditions of C56. extract_bits_any needs 16- or 32-byte vectors and, for 16-bit elements with AVX512BW / 256-bit vectors with AVX512DQ, AVX512VL (as in C31)."
  },
  {
   "property": "C73",
   "status": "proved",
   "theorems": [
    "Simdpp.C73_program",
    "Simdpp.C73_kernel",
    "Simdpp.C73_popcount",
    "Simdpp.C73_bit_reverse",
    "Simdpp.C73_lookup"
   ],
   "note": "All programs of expressions and lookups, any vector length, every build with the lookups."
  },
  {
   "property": "C74",
   "status": "proved",
   "theorems": [
    "Simdpp.C74_disjoint",
    "Simdpp.C74_ends",
    "Simdpp.C74_store_first_exact",
    "Simdpp.C74_parallel_for",
    "Simdpp.C74_loops",
    "Simdpp.C74_loops_end",
    "Simdpp.C74_store_first_race",
    "Simdpp.C74_store_first_beside",
    "Simdpp.C74_store_u_race"
   ],
   "note": "Data-race-free threads running loops of C59 (any body, any build); byte-granular interleaving semantics. Carried, gather, window and search loops (C63-C72) have no access model."
  }
 ]
}