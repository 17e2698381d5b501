# Coverage of /repo

Which source files the model covers, generated from the citations in the Lean files.

* **modelled**: definitions in the listed Lean modules cite the file.
* **forwarding**: the file only passes its arguments on to modelled functions (or is a copy of a modelled text); read, no definition of its own.
* **types**: class or trait definitions without computations on values.
* **not modelled**: with the reason.

| file | status | where / why |
|---|---|---|
| `cmake/SimdppMultiarch.cmake` | modelled | CMake |
| `simdpp/algorithm/bitonic_sort.h` | modelled | Sort, SortLib |
| `simdpp/capabilities.h` | modelled | ShiftV |
| `simdpp/core/align.h` | modelled | Move |
| `simdpp/core/aligned_allocator.h` | modelled | Alloc |
| `simdpp/core/bit_and.h` | modelled | FProg, Prog, ScalarBits |
| `simdpp/core/bit_andnot.h` | forwarding | forwards each element type to the function of the same name in `detail/insn/`, which is modelled |
| `simdpp/core/bit_not.h` | forwarding | forwards each element type to the function of the same name in `detail/insn/`, which is modelled |
| `simdpp/core/bit_or.h` | forwarding | forwards each element type to the function of the same name in `detail/insn/`, which is modelled |
| `simdpp/core/bit_select.h` | forwarding | forwards each element type to the function of the same name in `detail/insn/`, which is modelled |
| `simdpp/core/bit_xor.h` | modelled | ScalarBits |
| `simdpp/core/blend.h` | forwarding | forwards each element type to the function of the same name in `detail/insn/`, which is modelled |
| `simdpp/core/cache.h` | not modelled | prefetch hints: no observable effect |
| `simdpp/core/cast.h` | modelled | Cast, MProg |
| `simdpp/core/cmp_eq.h` | modelled | Compare |
| `simdpp/core/cmp_ge.h` | forwarding | forwards each element type to the function of the same name in `detail/insn/`, which is modelled |
| `simdpp/core/cmp_gt.h` | forwarding | forwards each element type to the function of the same name in `detail/insn/`, which is modelled |
| `simdpp/core/cmp_le.h` | forwarding | forwards each element type to the function of the same name in `detail/insn/`, which is modelled |
| `simdpp/core/cmp_lt.h` | forwarding | forwards each element type to the function of the same name in `detail/insn/`, which is modelled |
| `simdpp/core/cmp_neq.h` | modelled | Compare |
| `simdpp/core/combine.h` | forwarding | forwards each element type to the function of the same name in `detail/insn/`, which is modelled |
| `simdpp/core/detail/get_expr_bitwise.h` | modelled | Expr |
| `simdpp/core/detail/get_expr_uint.h` | modelled | Expr |
| `simdpp/core/detail/scalar_arg_impl.h` | modelled | MakeConst |
| `simdpp/core/detail/subvec_insert.h` | modelled | Mul |
| `simdpp/core/extract.h` | modelled | Lanes |
| `simdpp/core/extract_bits.h` | modelled | ExtractBits, Search |
| `simdpp/core/f_abs.h` | forwarding | forwards each element type to the function of the same name in `detail/insn/`, which is modelled |
| `simdpp/core/f_add.h` | modelled | FProg, Ftz |
| `simdpp/core/f_ceil.h` | forwarding | forwards each element type to the function of the same name in `detail/insn/`, which is modelled |
| `simdpp/core/f_clamp.h` | modelled | FltOps |
| `simdpp/core/f_copysign.h` | modelled | FltOps |
| `simdpp/core/f_div.h` | forwarding | forwards each element type to the function of the same name in `detail/insn/`, which is modelled |
| `simdpp/core/f_floor.h` | forwarding | forwards each element type to the function of the same name in `detail/insn/`, which is modelled |
| `simdpp/core/f_fmadd.h` | forwarding | forwards each element type to the function of the same name in `detail/insn/`, which is modelled |
| `simdpp/core/f_fmsub.h` | forwarding | forwards each element type to the function of the same name in `detail/insn/`, which is modelled |
| `simdpp/core/f_isfinite.h` | modelled | FltOps, Ftz |
| `simdpp/core/f_isnan.h` | forwarding | forwards each element type to the function of the same name in `detail/insn/`, which is modelled |
| `simdpp/core/f_isnan2.h` | forwarding | forwards each element type to the function of the same name in `detail/insn/`, which is modelled |
| `simdpp/core/f_max.h` | modelled | ArrRed, SortLib |
| `simdpp/core/f_min.h` | modelled | SortLib |
| `simdpp/core/f_mul.h` | forwarding | forwards each element type to the function of the same name in `detail/insn/`, which is modelled |
| `simdpp/core/f_neg.h` | modelled | FProg, Ftz |
| `simdpp/core/f_rcp_e.h` | forwarding | forwards each element type to the function of the same name in `detail/insn/`, which is modelled |
| `simdpp/core/f_rcp_rh.h` | forwarding | forwards each element type to the function of the same name in `detail/insn/`, which is modelled |
| `simdpp/core/f_reduce_add.h` | modelled | ArrRed, FReduce, FtzReduce |
| `simdpp/core/f_reduce_max.h` | forwarding | forwards each element type to the function of the same name in `detail/insn/`, which is modelled |
| `simdpp/core/f_reduce_min.h` | modelled | FReduce, FtzReduce |
| `simdpp/core/f_reduce_mul.h` | modelled | FReduce, FtzReduce |
| `simdpp/core/f_rsqrt_e.h` | forwarding | forwards each element type to the function of the same name in `detail/insn/`, which is modelled |
| `simdpp/core/f_rsqrt_rh.h` | forwarding | forwards each element type to the function of the same name in `detail/insn/`, which is modelled |
| `simdpp/core/f_sign.h` | forwarding | forwards each element type to the function of the same name in `detail/insn/`, which is modelled |
| `simdpp/core/f_sqrt.h` | forwarding | forwards each element type to the function of the same name in `detail/insn/`, which is modelled |
| `simdpp/core/f_sub.h` | forwarding | forwards each element type to the function of the same name in `detail/insn/`, which is modelled |
| `simdpp/core/f_trunc.h` | forwarding | forwards each element type to the function of the same name in `detail/insn/`, which is modelled |
| `simdpp/core/for_each.h` | modelled | ForEach |
| `simdpp/core/i_abs.h` | modelled | MinMax |
| `simdpp/core/i_add.h` | modelled | Arith, Prog |
| `simdpp/core/i_add_sat.h` | forwarding | forwards each element type to the function of the same name in `detail/insn/`, which is modelled |
| `simdpp/core/i_avg.h` | forwarding | forwards each element type to the function of the same name in `detail/insn/`, which is modelled |
| `simdpp/core/i_avg_trunc.h` | forwarding | forwards each element type to the function of the same name in `detail/insn/`, which is modelled |
| `simdpp/core/i_clamp.h` | modelled | MinMax |
| `simdpp/core/i_div_p.h` | modelled | DivP |
| `simdpp/core/i_max.h` | modelled | ArrRed, SortLib |
| `simdpp/core/i_min.h` | modelled | Prog, SortLib |
| `simdpp/core/i_mul.h` | modelled | Mul, Prog |
| `simdpp/core/i_mull.h` | modelled | Mul |
| `simdpp/core/i_neg.h` | forwarding | forwards each element type to the function of the same name in `detail/insn/`, which is modelled |
| `simdpp/core/i_popcnt.h` | modelled | Popcnt |
| `simdpp/core/i_reduce_add.h` | modelled | ArrRed, ReduceAdd |
| `simdpp/core/i_reduce_and.h` | modelled | Reduce |
| `simdpp/core/i_reduce_max.h` | modelled | ArrRed, Reduce |
| `simdpp/core/i_reduce_min.h` | forwarding | forwards each element type to the function of the same name in `detail/insn/`, which is modelled |
| `simdpp/core/i_reduce_mul.h` | modelled | ReduceMul |
| `simdpp/core/i_reduce_or.h` | modelled | ArrRed |
| `simdpp/core/i_reduce_popcnt.h` | modelled | ReducePopcnt |
| `simdpp/core/i_shift_l.h` | modelled | Shift, ShiftV |
| `simdpp/core/i_shift_r.h` | modelled | Shift, ShiftV |
| `simdpp/core/i_sub.h` | forwarding | forwards each element type to the function of the same name in `detail/insn/`, which is modelled |
| `simdpp/core/i_sub_sat.h` | forwarding | forwards each element type to the function of the same name in `detail/insn/`, which is modelled |
| `simdpp/core/insert.h` | modelled | Lanes |
| `simdpp/core/load.h` | modelled | ArrRed, Carry, Gemm, MProg, Mem, Prog, Search, Tiles, UProg |
| `simdpp/core/load_packed2.h` | modelled | MemPack, PackProg |
| `simdpp/core/load_packed3.h` | modelled | MemPack |
| `simdpp/core/load_packed4.h` | modelled | MemPack |
| `simdpp/core/load_splat.h` | modelled | Gemm, MakeConst |
| `simdpp/core/load_u.h` | modelled | Mem, UProg |
| `simdpp/core/make_float.h` | modelled | ArrRed, MakeConst |
| `simdpp/core/make_int.h` | modelled | ArrRed, MakeConst, Workaround |
| `simdpp/core/make_shuffle_bytes_mask.h` | modelled | BigEnd, ShufMask |
| `simdpp/core/make_uint.h` | modelled | MakeConst, ShufMask, Table, Workaround |
| `simdpp/core/move_l.h` | modelled | Move |
| `simdpp/core/move_r.h` | modelled | Move |
| `simdpp/core/permute2.h` | modelled | SProg |
| `simdpp/core/permute4.h` | modelled | SProg, Sort, SortLib |
| `simdpp/core/permute_bytes16.h` | modelled | Table |
| `simdpp/core/permute_zbytes16.h` | forwarding | forwards each element type to the function of the same name in `detail/insn/`, which is modelled |
| `simdpp/core/set_splat.h` | modelled | MakeConst |
| `simdpp/core/shuffle1.h` | modelled | SProg, Shuffle64 |
| `simdpp/core/shuffle2.h` | modelled | Shuffle32 |
| `simdpp/core/shuffle2x2.h` | forwarding | forwards each element type to the function of the same name in `detail/insn/`, which is modelled |
| `simdpp/core/shuffle4x2.h` | modelled | Sort, SortLib |
| `simdpp/core/shuffle_bytes16.h` | modelled | Table |
| `simdpp/core/shuffle_zbytes16.h` | forwarding | forwards each element type to the function of the same name in `detail/insn/`, which is modelled |
| `simdpp/core/splat.h` | modelled | Lanes |
| `simdpp/core/splat_n.h` | modelled | Lanes |
| `simdpp/core/split.h` | forwarding | forwards each element type to the function of the same name in `detail/insn/`, which is modelled |
| `simdpp/core/store.h` | modelled | Carry, Gemm, Mem, Prog, Tiles |
| `simdpp/core/store_first.h` | modelled | Mem, Threads |
| `simdpp/core/store_last.h` | modelled | Mem |
| `simdpp/core/store_masked.h` | modelled | Mem |
| `simdpp/core/store_packed2.h` | modelled | MemPack, PackProg |
| `simdpp/core/store_packed3.h` | modelled | MemPack |
| `simdpp/core/store_packed4.h` | modelled | MemPack |
| `simdpp/core/store_u.h` | modelled | Mem, UProg |
| `simdpp/core/stream.h` | modelled | Mem |
| `simdpp/core/test_bits.h` | modelled | Search |
| `simdpp/core/to_float32.h` | forwarding | forwards each element type to the function of the same name in `detail/insn/`, which is modelled |
| `simdpp/core/to_float64.h` | forwarding | forwards each element type to the function of the same name in `detail/insn/`, which is modelled |
| `simdpp/core/to_int16.h` | modelled | Conv |
| `simdpp/core/to_int32.h` | modelled | Conv |
| `simdpp/core/to_int64.h` | modelled | Conv |
| `simdpp/core/to_int8.h` | modelled | Conv, MProg |
| `simdpp/core/to_mask.h` | forwarding | forwards to `i_to_mask`, modelled in Model/Mask |
| `simdpp/core/transpose.h` | modelled | Tiles, Transpose |
| `simdpp/core/unzip_hi.h` | forwarding | forwards each element type to the function of the same name in `detail/insn/`, which is modelled |
| `simdpp/core/unzip_lo.h` | forwarding | forwards each element type to the function of the same name in `detail/insn/`, which is modelled |
| `simdpp/core/zip_hi.h` | forwarding | forwards each element type to the function of the same name in `detail/insn/`, which is modelled |
| `simdpp/core/zip_lo.h` | forwarding | forwards each element type to the function of the same name in `detail/insn/`, which is modelled |
| `simdpp/deprecations.h` | not modelled | old names only |
| `simdpp/detail/align.h` | modelled | `SIMDPP_ALIGN`, alignment attributes; alignment requirements are part of Model/Mem |
| `simdpp/detail/align_v128.h` | not modelled | not included by any other header (dead code) |
| `simdpp/detail/altivec/load1.h` | modelled | MakeConst |
| `simdpp/detail/array.h` | modelled | Conv |
| `simdpp/detail/cast.h` | modelled | Cast |
| `simdpp/detail/cast.inl` | modelled | Cast, MProg |
| `simdpp/detail/cast_bitwise.h` | modelled | Cast, MProg, Vec |
| `simdpp/detail/construct_eval.h` | forwarding | forward declarations of the constructors from expressions; the evaluation itself is C42 and C54 (Model/Expr, Model/Prog) |
| `simdpp/detail/eval_scalar.h` | forwarding | `eval_maybe_scalar`: a scalar operand is converted to the vector type; see Model/Expr and Model/ScalarBits |
| `simdpp/detail/expr/scalar.h` | modelled | ScalarBits |
| `simdpp/detail/expr/test_bits.h` | forwarding | forwards to `i_test_bits_any`, modelled in Model/Blend |
| `simdpp/detail/expr/vec.h` | types | `expr_vec_*`: the leaf of an expression; the vector itself |
| `simdpp/detail/extract128.h` | modelled | Lanes |
| `simdpp/detail/for_each.h` | modelled | ForEach |
| `simdpp/detail/get_expr.h` | modelled | Expr |
| `simdpp/detail/get_expr_blend.h` | modelled | Expr |
| `simdpp/detail/insn/align.h` | modelled | BigEnd, Move, NullShuffle |
| `simdpp/detail/insn/bit_and.h` | modelled | Bitwise, Mask |
| `simdpp/detail/insn/bit_andnot.h` | modelled | Bitwise, Mask |
| `simdpp/detail/insn/bit_not.h` | modelled | Bitwise, Mask |
| `simdpp/detail/insn/bit_or.h` | modelled | Bitwise, Mask |
| `simdpp/detail/insn/bit_select.h` | modelled | Blend |
| `simdpp/detail/insn/bit_xor.h` | modelled | Bitwise, Mask |
| `simdpp/detail/insn/blend.h` | modelled | Blend, Workaround |
| `simdpp/detail/insn/cmp_eq.h` | modelled | Compare, Ftz, Workaround |
| `simdpp/detail/insn/cmp_ge.h` | modelled | Compare, Ftz, Workaround |
| `simdpp/detail/insn/cmp_gt.h` | modelled | Compare, Ftz, Workaround |
| `simdpp/detail/insn/cmp_le.h` | modelled | Compare, Ftz, Workaround |
| `simdpp/detail/insn/cmp_lt.h` | modelled | Compare, Ftz, Workaround |
| `simdpp/detail/insn/cmp_neq.h` | modelled | Compare, Ftz, Workaround |
| `simdpp/detail/insn/combine.h` | modelled | Lanes |
| `simdpp/detail/insn/conv_any_to_float32.h` | modelled | BigEnd, FConv, FConvVsx |
| `simdpp/detail/insn/conv_any_to_float64.h` | modelled | BigEnd, FConv |
| `simdpp/detail/insn/conv_extend_to_int16.h` | modelled | BigEnd, Conv |
| `simdpp/detail/insn/conv_extend_to_int32.h` | modelled | BigEnd, Conv |
| `simdpp/detail/insn/conv_extend_to_int64.h` | modelled | BigEnd, Conv |
| `simdpp/detail/insn/conv_float_to_int16.h` | modelled | FConv |
| `simdpp/detail/insn/conv_float_to_int32.h` | modelled | BigEnd, FConv |
| `simdpp/detail/insn/conv_float_to_int64.h` | modelled | FConv |
| `simdpp/detail/insn/conv_float_to_int8.h` | modelled | FConv |
| `simdpp/detail/insn/conv_shrink_to_int16.h` | modelled | Conv |
| `simdpp/detail/insn/conv_shrink_to_int32.h` | modelled | BigEnd, Conv |
| `simdpp/detail/insn/conv_shrink_to_int8.h` | modelled | Conv |
| `simdpp/detail/insn/conv_to_mask.h` | forwarding | `i_to_mask`, modelled in Model/Mask |
| `simdpp/detail/insn/conv_to_mask.inl` | modelled | Mask |
| `simdpp/detail/insn/extract.h` | modelled | Lanes |
| `simdpp/detail/insn/extract_bits.h` | modelled | BigEnd, ExtractBits |
| `simdpp/detail/insn/f_abs.h` | modelled | FltOps |
| `simdpp/detail/insn/f_add.h` | modelled | FltOps, Ftz |
| `simdpp/detail/insn/f_ceil.h` | modelled | FRound, Ftz |
| `simdpp/detail/insn/f_div.h` | modelled | FDiv, FtzDiv |
| `simdpp/detail/insn/f_floor.h` | modelled | FRound, Ftz |
| `simdpp/detail/insn/f_fmadd.h` | modelled | FMul |
| `simdpp/detail/insn/f_fmsub.h` | modelled | FMul |
| `simdpp/detail/insn/f_isnan.h` | modelled | FltOps, Ftz |
| `simdpp/detail/insn/f_isnan2.h` | modelled | FltOps |
| `simdpp/detail/insn/f_max.h` | modelled | FltOps, Ftz |
| `simdpp/detail/insn/f_min.h` | modelled | FltOps, Ftz |
| `simdpp/detail/insn/f_mul.h` | modelled | FMul, Ftz |
| `simdpp/detail/insn/f_neg.h` | modelled | FltOps |
| `simdpp/detail/insn/f_rcp_e.h` | modelled | FDiv |
| `simdpp/detail/insn/f_rcp_rh.h` | modelled | FDiv, FtzDiv |
| `simdpp/detail/insn/f_reduce_add.h` | modelled | FReduce, FtzReduce |
| `simdpp/detail/insn/f_reduce_max.h` | forwarding | same text as f_reduce_min.h with max for min; modelled together in Model/FReduce |
| `simdpp/detail/insn/f_reduce_min.h` | modelled | FReduce, FtzReduce |
| `simdpp/detail/insn/f_reduce_mul.h` | modelled | FReduce, FtzReduce |
| `simdpp/detail/insn/f_rsqrt_e.h` | modelled | FDiv |
| `simdpp/detail/insn/f_rsqrt_rh.h` | modelled | FDiv, FtzDiv |
| `simdpp/detail/insn/f_sign.h` | modelled | FltOps |
| `simdpp/detail/insn/f_sqrt.h` | modelled | FDiv, FtzDiv |
| `simdpp/detail/insn/f_sub.h` | modelled | FltOps, Ftz |
| `simdpp/detail/insn/f_trunc.h` | modelled | FRound, Ftz |
| `simdpp/detail/insn/i_abs.h` | modelled | MinMax |
| `simdpp/detail/insn/i_add.h` | modelled | Arith, Cfg |
| `simdpp/detail/insn/i_add_sat.h` | modelled | Arith |
| `simdpp/detail/insn/i_avg.h` | modelled | MinMax |
| `simdpp/detail/insn/i_avg_trunc.h` | modelled | MinMax |
| `simdpp/detail/insn/i_max.h` | modelled | MinMax |
| `simdpp/detail/insn/i_min.h` | modelled | MinMax |
| `simdpp/detail/insn/i_mul_hi.h` | modelled | BigEnd, Mul |
| `simdpp/detail/insn/i_mul_lo.h` | modelled | BigEnd, Mul |
| `simdpp/detail/insn/i_mull.h` | modelled | BigEnd, Mul |
| `simdpp/detail/insn/i_neg.h` | modelled | Arith |
| `simdpp/detail/insn/i_popcnt.h` | modelled | Popcnt |
| `simdpp/detail/insn/i_reduce_add.h` | modelled | ReduceAdd |
| `simdpp/detail/insn/i_reduce_and.h` | modelled | Reduce |
| `simdpp/detail/insn/i_reduce_max.h` | modelled | Reduce |
| `simdpp/detail/insn/i_reduce_min.h` | forwarding | same text as i_reduce_max.h with min for max; modelled together in Model/Reduce |
| `simdpp/detail/insn/i_reduce_mul.h` | modelled | ReduceMul |
| `simdpp/detail/insn/i_reduce_or.h` | modelled | Reduce |
| `simdpp/detail/insn/i_reduce_popcnt.h` | modelled | ReducePopcnt |
| `simdpp/detail/insn/i_shift.h` | types | forward declarations only |
| `simdpp/detail/insn/i_shift_l.h` | modelled | Shift |
| `simdpp/detail/insn/i_shift_l_v.h` | modelled | ShiftV |
| `simdpp/detail/insn/i_shift_r.h` | modelled | Shift |
| `simdpp/detail/insn/i_shift_r_v.h` | modelled | ShiftV |
| `simdpp/detail/insn/i_sub.h` | modelled | Arith |
| `simdpp/detail/insn/i_sub_sat.h` | modelled | Arith |
| `simdpp/detail/insn/insert.h` | modelled | Lanes |
| `simdpp/detail/insn/load.h` | modelled | Mem, Threads |
| `simdpp/detail/insn/load_packed2.h` | modelled | MemPack |
| `simdpp/detail/insn/load_packed3.h` | modelled | MemPack |
| `simdpp/detail/insn/load_packed4.h` | modelled | MemPack |
| `simdpp/detail/insn/load_splat.h` | modelled | MakeConst |
| `simdpp/detail/insn/load_u.h` | modelled | Mem, Workaround |
| `simdpp/detail/insn/make_const.h` | modelled | FProg, MakeConst, Prog, ShufMask, Workaround |
| `simdpp/detail/insn/mem_pack.h` | modelled | MemPack |
| `simdpp/detail/insn/mem_unpack.h` | modelled | MemPack |
| `simdpp/detail/insn/move_l.h` | modelled | BigEnd, Move |
| `simdpp/detail/insn/move_r.h` | modelled | BigEnd, Move |
| `simdpp/detail/insn/permute2.h` | modelled | BigEnd, Shuffle32, Shuffle64 |
| `simdpp/detail/insn/permute4.h` | modelled | Shuffle32, Shuffle64 |
| `simdpp/detail/insn/permute_bytes16.h` | modelled | Bytes16, Table |
| `simdpp/detail/insn/permute_zbytes16.h` | modelled | Bytes16 |
| `simdpp/detail/insn/set_splat.h` | modelled | MakeConst |
| `simdpp/detail/insn/shuffle128.h` | modelled | Lanes, MemPack, Sort, SortLib |
| `simdpp/detail/insn/shuffle2x2.h` | modelled | BigEnd, Shuffle32, Shuffle64 |
| `simdpp/detail/insn/shuffle4x2.h` | modelled | Shuffle32, Shuffle64 |
| `simdpp/detail/insn/shuffle_bytes16.h` | modelled | BigEnd, Bytes16, Table, Workaround |
| `simdpp/detail/insn/shuffle_emul.h` | modelled | Shuffle64 |
| `simdpp/detail/insn/shuffle_zbytes16.h` | modelled | Bytes16 |
| `simdpp/detail/insn/splat.h` | modelled | Lanes |
| `simdpp/detail/insn/splat_n.h` | modelled | Lanes |
| `simdpp/detail/insn/split.h` | modelled | Lanes |
| `simdpp/detail/insn/store.h` | modelled | Mem, Threads |
| `simdpp/detail/insn/store_first.h` | modelled | Mem, Threads |
| `simdpp/detail/insn/store_last.h` | modelled | Mem |
| `simdpp/detail/insn/store_masked.h` | modelled | Mem |
| `simdpp/detail/insn/store_packed2.h` | modelled | MemPack |
| `simdpp/detail/insn/store_packed3.h` | modelled | MemPack |
| `simdpp/detail/insn/store_packed4.h` | modelled | MemPack |
| `simdpp/detail/insn/store_u.h` | modelled | Mem, Threads |
| `simdpp/detail/insn/stream.h` | modelled | Mem |
| `simdpp/detail/insn/test_bits.h` | modelled | Blend, Search |
| `simdpp/detail/insn/transpose.h` | modelled | MemPack, Transpose |
| `simdpp/detail/insn/unzip_hi.h` | modelled | BigEnd, Zip |
| `simdpp/detail/insn/unzip_lo.h` | modelled | BigEnd, Zip |
| `simdpp/detail/insn/zip128.h` | modelled | MemPack |
| `simdpp/detail/insn/zip_hi.h` | modelled | Zip |
| `simdpp/detail/insn/zip_lo.h` | modelled | Zip |
| `simdpp/detail/insn_id.h` | modelled | ArchSel, CMake, MultiArch |
| `simdpp/detail/mem_block.h` | modelled | ForEach |
| `simdpp/detail/neon/math_int.h` | not modelled | helpers not called by any other header |
| `simdpp/detail/neon/memory_store.h` | forwarding | `store_lane`: part of store_first/store_last on NEON, modelled in Model/Mem by its effect |
| `simdpp/detail/neon/shuffle.h` | modelled | Zip |
| `simdpp/detail/not_implemented.h` | modelled | `SIMDPP_NOT_IMPLEMENTED*`: no function; modelled as the result `none` |
| `simdpp/detail/null/bitwise.h` | modelled | Null, Popcnt |
| `simdpp/detail/null/compare.h` | modelled | Null |
| `simdpp/detail/null/mask.h` | modelled | Mask |
| `simdpp/detail/null/math.h` | modelled | FMul, FltOps, Null |
| `simdpp/detail/null/memory.h` | modelled | Mem, MemPack, Threads |
| `simdpp/detail/null/set.h` | modelled | MakeConst |
| `simdpp/detail/null/shuffle.h` | modelled | Blend, Gather, NullShuffle |
| `simdpp/detail/null/transpose.h` | modelled | Transpose |
| `simdpp/detail/preprocess_single_arch.h` | modelled | ArchSel, CMake |
| `simdpp/detail/preprocessor.h` | not modelled | token pasting |
| `simdpp/detail/shuffle/neon_int16x8.h` | modelled | Shuffle32 |
| `simdpp/detail/shuffle/neon_int32x4.h` | modelled | Shuffle32 |
| `simdpp/detail/shuffle/neon_int64x2.h` | modelled | Shuffle64 |
| `simdpp/detail/shuffle/shuffle_mask.h` | modelled | BigEnd, ShufProg, Shuffle64 |
| `simdpp/detail/shuffle/sse_float32_4x2.h` | modelled | Shuffle32 |
| `simdpp/detail/shuffle/sse_float64_4x2.h` | modelled | Shuffle64 |
| `simdpp/detail/shuffle/sse_int32_4x2.h` | modelled | Shuffle32 |
| `simdpp/detail/shuffle/sse_int64_4x2.h` | modelled | Shuffle64 |
| `simdpp/detail/traits.h` | types | type traits used in overload resolution |
| `simdpp/detail/vector_array_macros.h` | modelled | Array, FProg, Ftz, Prog, SortLib, Transpose |
| `simdpp/detail/width.h` | types | type traits |
| `simdpp/detail/workarounds.h` | modelled | Workaround |
| `simdpp/dispatch/arch.h` | modelled | Dispatch |
| `simdpp/dispatch/collect_macros_generated.h` | modelled | CMake, MultiArch |
| `simdpp/dispatch/dispatcher.h` | modelled | Dispatch |
| `simdpp/dispatch/get_arch_gcc_builtin_cpu_supports.h` | modelled | Detect |
| `simdpp/dispatch/get_arch_linux_cpuinfo.h` | modelled | Detect |
| `simdpp/dispatch/get_arch_raw_cpuid.h` | modelled | Detect |
| `simdpp/dispatch/get_arch_string_list.h` | modelled | Detect |
| `simdpp/dispatch/macros_generated.h` | not modelled | repetition macros (text generation for functions of 0..n arguments) |
| `simdpp/dispatch/make_dispatcher.h` | modelled | CMake, Dispatch, MultiArch |
| `simdpp/dispatch/preprocess_single_compile_arch.h` | modelled | ArchSel, MultiArch |
| `simdpp/expr.h` | modelled | MakeConst |
| `simdpp/expr.inl` | not modelled | includes only |
| `simdpp/math/log2_approx.h` | modelled | Log2 |
| `simdpp/operators/bit_and.h` | modelled | ScalarBits |
| `simdpp/operators/bit_not.h` | forwarding | operator: forwards to the function of the same name in `core/` |
| `simdpp/operators/bit_or.h` | forwarding | operator: forwards to the function of the same name in `core/` |
| `simdpp/operators/bit_xor.h` | forwarding | operator: forwards to the function of the same name in `core/` |
| `simdpp/operators/cmp_eq.h` | forwarding | operator: forwards to the function of the same name in `core/` |
| `simdpp/operators/cmp_ge.h` | forwarding | operator: forwards to the function of the same name in `core/` |
| `simdpp/operators/cmp_gt.h` | forwarding | operator: forwards to the function of the same name in `core/` |
| `simdpp/operators/cmp_le.h` | forwarding | operator: forwards to the function of the same name in `core/` |
| `simdpp/operators/cmp_lt.h` | forwarding | operator: forwards to the function of the same name in `core/` |
| `simdpp/operators/cmp_neq.h` | forwarding | operator: forwards to the function of the same name in `core/` |
| `simdpp/operators/f_add.h` | modelled | ArrRed |
| `simdpp/operators/f_div.h` | forwarding | operator: forwards to the function of the same name in `core/` |
| `simdpp/operators/f_mul.h` | forwarding | operator: forwards to the function of the same name in `core/` |
| `simdpp/operators/f_sub.h` | forwarding | operator: forwards to the function of the same name in `core/` |
| `simdpp/operators/i_add.h` | modelled | ArrRed |
| `simdpp/operators/i_mul.h` | modelled | Prog |
| `simdpp/operators/i_shift_l.h` | forwarding | operator: forwards to the function of the same name in `core/` |
| `simdpp/operators/i_shift_r.h` | forwarding | operator: forwards to the function of the same name in `core/` |
| `simdpp/operators/i_sub.h` | forwarding | operator: forwards to the function of the same name in `core/` |
| `simdpp/setup_arch.h` | modelled | ArchSel, Bitwise, Cfg, Mem, MultiArch |
| `simdpp/simd.h` | not modelled | includes only |
| `simdpp/this_compile_arch.h` | modelled | ArchSel |
| `simdpp/types.h` | types | forward declarations |
| `simdpp/types/any.h` | types | CRTP bases; conversions keep the bits (C45) |
| `simdpp/types/float32.h` | modelled | Array, FConv, FProg, Search |
| `simdpp/types/float32x16.h` | types | class definition: a register (or array of registers) with conversions that keep the bits; modelled as `Vec` and C45 |
| `simdpp/types/float32x4.h` | modelled | FConv |
| `simdpp/types/float32x8.h` | types | class definition: a register (or array of registers) with conversions that keep the bits; modelled as `Vec` and C45 |
| `simdpp/types/float64.h` | modelled | Search |
| `simdpp/types/float64x2.h` | types | class definition: a register (or array of registers) with conversions that keep the bits; modelled as `Vec` and C45 |
| `simdpp/types/float64x4.h` | types | class definition: a register (or array of registers) with conversions that keep the bits; modelled as `Vec` and C45 |
| `simdpp/types/float64x8.h` | types | class definition: a register (or array of registers) with conversions that keep the bits; modelled as `Vec` and C45 |
| `simdpp/types/fwd.h` | modelled | Conv, FConv, FProg, Ftz, Prog, Search |
| `simdpp/types/int16.h` | types | class definition: a register (or array of registers) with conversions that keep the bits; modelled as `Vec` and C45 |
| `simdpp/types/int16x16.h` | types | class definition: a register (or array of registers) with conversions that keep the bits; modelled as `Vec` and C45 |
| `simdpp/types/int16x32.h` | types | class definition: a register (or array of registers) with conversions that keep the bits; modelled as `Vec` and C45 |
| `simdpp/types/int16x8.h` | modelled | BigEnd, Vec |
| `simdpp/types/int32.h` | modelled | Prog |
| `simdpp/types/int32x16.h` | types | class definition: a register (or array of registers) with conversions that keep the bits; modelled as `Vec` and C45 |
| `simdpp/types/int32x4.h` | types | class definition: a register (or array of registers) with conversions that keep the bits; modelled as `Vec` and C45 |
| `simdpp/types/int32x8.h` | types | class definition: a register (or array of registers) with conversions that keep the bits; modelled as `Vec` and C45 |
| `simdpp/types/int64.h` | types | class definition: a register (or array of registers) with conversions that keep the bits; modelled as `Vec` and C45 |
| `simdpp/types/int64x2.h` | types | class definition: a register (or array of registers) with conversions that keep the bits; modelled as `Vec` and C45 |
| `simdpp/types/int64x4.h` | types | class definition: a register (or array of registers) with conversions that keep the bits; modelled as `Vec` and C45 |
| `simdpp/types/int64x8.h` | types | class definition: a register (or array of registers) with conversions that keep the bits; modelled as `Vec` and C45 |
| `simdpp/types/int8.h` | modelled | Array, Conv, Search |
| `simdpp/types/int8x16.h` | modelled | Compare, Conv, Mask, Vec |
| `simdpp/types/int8x32.h` | types | class definition: a register (or array of registers) with conversions that keep the bits; modelled as `Vec` and C45 |
| `simdpp/types/int8x64.h` | types | class definition: a register (or array of registers) with conversions that keep the bits; modelled as `Vec` and C45 |
| `simdpp/types/tag.h` | modelled | Expr |
| `simdpp/types/traits.h` | types | type traits, see C42 |
| `simdpp/types/types.inl` | not modelled | includes only |

Not part of the library proper and not modelled: `test/`, `examples/`, `doc/`, `simdpp/dispatch/*_test*`, the generators in `tools/` (their output `dispatch/*_generated.h` is what is modelled).
