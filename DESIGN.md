# Formal model of p12tic/libsimdpp in Lean 4 — design

`/repo` is read as text; nothing of it is compiled or run. The model lives in
`lean/Verif/`; `properties.jsonl` lists the properties, `MANIFEST.json` maps them
to theorems, `seeded/LOG.jsonl` records the mutation experiments.

## 1. Layers

| layer | directory | contents |
|---|---|---|
| Specification | `Verif/Spec/` | tiny per-lane / per-list definitions a reader of the English property can check. They never mention model functions. |
| C semantics | `Verif/Model/CInt.lean` | C++ integer types, promotion, usual arithmetic conversions, overflow / bad shift / division by zero = `none` (undefined behaviour). |
| Instruction semantics | `Verif/Model/Intrin*.lean` | semantics of the vendor intrinsics the library calls (Intel SDM / ARM ARM), written as definitions. **Trusted.** |
| Code model | `Verif/Model/*.lean` | the library functions, one definition per C++ overload, following the `#if` cascade of the source literally. Every definition cites `/repo` file and lines. |
| Properties | `Verif/Props/*.lean` | theorems: *for every configuration, vector length and input, model = spec*, each with a concrete non-vacuity `example`. |

### Vectors
`Vec w n = Fin n → BitVec w`: typed lanes, lane 0 first (least significant /
lowest address). Lane-wise instructions are polymorphic in `n`, so one
definition covers the 128-, 256- and 512-bit forms. `recast : Vec w n → Vec v m`
(`w*n = v*m`) is the register reinterpretation (`bit_cast`, `_mm_castX`): bit
`k` of the register is bit `k % w` of lane `k / w`. Instructions that act on
each 128-bit block separately are modelled per block.

Vectors longer than the native register are `Fin k → Vec w L`; `flatten` gives
the flat vector and one lemma lifts each lane-wise operation
(`detail/vector_array_macros.h` loops).

### Configurations
`Cfg` is a record of Booleans, one per `SIMDPP_USE_*` macro. Code models take a
`Cfg` and branch exactly like the `#if` cascade. Theorems quantify over **all**
`Cfg` values (or those closed under the implications which property C39 shows
`preprocess_single_arch.h` to produce). Equality with one configuration-free
specification gives cross-architecture agreement.

### Undefined behaviour
NULL-backend functions are loops over C++ expressions. Each expression is
evaluated in `Option`: `none` is UB. "No UB" is therefore a theorem
(`… = some spec`) and not an assumption.

### Memory, heap, threads
Memory is a function from addresses to bytes / elements; store theorems state
footprints (all other addresses unchanged). The allocator model has an explicit
heap of blocks and ranges over all histories. The dispatcher's concurrency is a
small-step interleaving system with an arbitrary number of threads.

## 2. Plan per property

| id | modelled | proof |
|---|---|---|
| C01 add/sub | `insn/i_add.h`, `i_sub.h`, `null/math.h` | C-semantics evaluation, lane ext |
| C02 saturating | `insn/i_add_sat.h`, `i_sub_sat.h` incl. emulation for 32-bit | omega on toInt |
| C03 mul | `i_mul_lo.h`, `i_mul_hi.h`, `i_mull.h` | Model/Mul; arithmetic mod 2^w; uint16 NULL `mul_lo` has signed-overflow UB → negation proved; missing signed 32-bit `mull` overloads modelled as `none` |
| C04 no UB | all NULL integer functions | Props/NoUB: for every integer operation of the portable build the exact set of operands for which its evaluation is defined (`C04_neg`, `C04_abs`, `C04_mul_lo16`, `C04_div_p`, `C04_shift_*`, `C04_reduce_add16_exact`, `C04_reduce_mul16` are equivalences; the others hold for all operands); `C04_not_universal` refutes the unrestricted claim |
| C05 averages | `i_avg.h`, `i_avg_trunc.h` | bit identities + omega |
| C06 min/max | `i_min.h`, `i_max.h` | sign-flip / sub_sat emulations |
| C07 abs/neg | `i_abs.h`, `i_neg.h` | two's complement lemmas; INT_MIN UB negations |
| C08 popcnt | `i_popcnt.h` | Model/Popcnt; SWAR correctness by induction over bytes (Props/Swar); the inline assembly of VSX 2.07 taken as the named instruction |
| C09 shifts | `i_shift_l.h`, `i_shift_r.h` (Model/Shift) | lane extraction from wide shifts |
| C10 variable shifts | `i_shift_l_v.h`, `i_shift_r_v.h`, `core/i_shift_{l,r}.h`, the macros of `capabilities.h` (Model/ShiftV) | powers of two by table lookup, high half of a product by a power of two, byte selection |
| C11 div_p | `core/i_div_p.h` (Model/DivP) | loop invariant of restoring division; 16-bit shifts of bytes shown not to cross lanes |
| C12 bitwise | `bit_*.h` | bit ext |
| C13 compares | `cmp_*.h` | order lemmas under sign flip; 64-bit emulations |
| C14/C15 blend, bit_select, test_bits | same-named files | bit ext |
| C16 reductions | `i_reduce_*.h` (Model/Reduce, ReduceAdd, ReduceMul, ReducePopcnt) | fold over trees = fold over lanes in a commutative monoid |
| C17 zip/unzip | `zip_*.h`, `unzip_*.h` | index arithmetic per block |
| C18 permutes/shuffles | `permute*.h`, `shuffle*.h`, `detail/shuffle/*` | all selectors × symbolic lanes |
| C19 move/align | `move_*.h`, `align.h` | index arithmetic |
| C20/C21 byte shuffles | `permute_bytes16.h` …, `make_shuffle_bytes_mask.h` | per byte |
| C22 transpose | `transpose.h` | composition of zips/permutes |
| C23/C24 extract/insert/split/combine | same-named files | index arithmetic |
| C25 arrays | `vector_array_macros.h` | lifting lemma |
| C26 load/store | `load.h`, `load_u.h`, `store.h`, `store_u.h`, `stream.h`, `null/memory.h` | memory = bytes + accessible addresses (an access elsewhere, or one that lacks a required alignment, is `none`); each instruction sequence equals one `put`/`get` of the lanes (`MemReg`), loops over registers by induction (`loop_put`) |
| C27 packed | `mem_pack.h`, `mem_unpack.h`, `shuffle128.h`, `load_packed*.h`, `store_packed*.h`, `null/memory.h` | every step of each zip/align/blend/permute network is a selection of bytes of the register family (`BS`/`FS`, Props/MemPackSel); the composed selection is compared with the specification's index map, then lifted to memory, to arrays of registers and to any number of registers |
| C28 partial stores | `store_first.h`, `store_last.h`, `store_masked.h` | the mask tables and masks as functions of `n`, blend with old memory, `put` of the selected lanes (`MemPart`) |
| C29 conversions | `conv_*` | zip-with-sign / zero = extension |
| C30 masks | `types/*`, `conv_to_mask.inl` | bit ext |
| C31 extract_bits | `insn/extract_bits.h`, `core/extract_bits.h` | the masks-and-horizontal-sums networks evaluated to one packed word; bit `i` is one (configuration dependent) bit of lane `i`, bit `id` exactly for `extract_bits<id>` |
| C32/C33 float bits | `f_neg.h`, `f_abs.h`, `f_sign.h`, `f_copysign.h`, `f_isnan*.h`, `f_isfinite.h` | per bit of the lane; `isfinite` is `x - x == 0` off the portable build, so it rests on the IEEE subtraction of `Spec/Fp.lean` |
| C34 rounding emulation | `f_floor.h`, `f_ceil.h`, `f_trunc.h` | `Model/FRound.lean`; exact values in units of the least subnormal; per-exponent table for the bits below the binary point |
| C35 bitonic sort | `algorithm/bitonic_sort.h` on every build: `Model/SortLib` chains the library's own permute4, shuffle4x2, shuffle1_128, min and max register by register | 0–1 principle proved in Lean for the network (`Model/Sort`); every library step is shown to be the network step; integers: sorted and a permutation of the lanes; NaN-free floats: sorted under `<=` and a permutation as numbers (`C35_lib_zeros_not_permuted`: the signs of zeros need not survive) |
| C36/C37 dispatcher | `dispatch/dispatcher.h` | any sorted permutation; invariant over interleavings |
| C38 detection | `dispatch/get_arch_*.h` | closure / monotonicity lemmas; negations for the raw-cpuid path |
| C39 compile-time arch | `detail/preprocess_single_arch.h`, `this_compile_arch.h` | propositional |
| C40 allocator | `core/aligned_allocator.h` | arithmetic + history induction |
| C41 for_each | `detail/for_each.h` | induction |
| C42 expr types | `detail/get_expr*.h`, `core/detail/get_expr_uint.h`, `core/detail/get_expr_bitwise.h` | Model/Expr: the tag arithmetic as written; Props/Expr: equals an independent `promote` on (category, width) for all pairs/triples of the 16 element types and every length (kernel evaluation of the whole finite type set, length carried symbolically); exact condition for regrouping |
| C43 constants | `make_const.h`, `make_uint.h`, `make_int.h`, `make_float.h`, `set_splat.h`, `scalar_arg_impl.h` | byte packing of the SSE2/NEON constants against lane `i mod M`; per-build splat |
| C44 clamp | `core/i_clamp.h`, `f_clamp.h` via min/max | order lemmas |
| C45 bit_cast | `detail/cast.inl` | recast lemmas |
| C46 to float | `conv_any_to_float*.h` | exact arithmetic in units of the least subnormal; nearest-even rounding specified and characterised |
| C49 float→int | `conv_float_to_int*.h` | exactness of the offset subtraction; integer part |
| C47 float min/max | `f_min.h`, `f_max.h` | per lane on bit patterns |
| C48 float reductions | `f_reduce_*.h`, every register and array path | a reduction is a binary tree (Spec/Tree) whose leaves are a permutation of the lanes; `Yields` for operations the builds disagree on (sign of a zero product, NaN handling of min/max); exact sums of integers follow by induction on the tree |
| C50 float add/sub/mul/fma | `f_add.h`, `f_sub.h`, `f_mul.h`, `f_fmadd.h`, `f_fmsub.h` | Fp.add/mul/fma = exact value in units then one rounding (nearest by `C46_round_nearest`); instruction per build |
| C51 load_splat | `load_splat.h`, `altivec/load1.h` | memory of C26; alignment of `vec_lde` lanes under `vec_perm` |
| C52 div, sqrt, rcp, rsqrt | `f_div.h`, `f_sqrt.h`, `f_rcp_e.h`, `f_rcp_rh.h`, `f_rsqrt_e.h`, `f_rsqrt_rh.h` | quotient and root specified through an integer number of quarters of the least positive number (sticky bit) and proved nearest over the reals; processor estimates are a parameter `Est` with a bound on the relative error; relative error of every rounding (`FpRel`) and real algebra for the Newton-Raphson steps |
| C53 log2_approx | `math/log2_approx.h` | the lane as exponent field and fraction; error of the quadratic polynomial against `Real.logb 2` on [1,2] proved on 14 pieces from bounds of `log` (Bernstein form of the remaining cubic), plus relative error of each rounding (`FpRel`); special values through the compare, blend and mask lemmas |
| C54 lane-wise programs | all lane-wise integer operators of `core/` and `operators/` over `vector_array_macros.h` | `Spec/Prog.lean`: typed expression language with its scalar meaning; `Model/Prog.lean`: operator-by-operator, register-by-register evaluation through the models of C01-C14, C25, C43; induction over expressions, so any depth; `C54_types` ties the signedness rule of the language to the `get_expr` models of C42 |
| C55 array kernels | `load`, `store`, `store_first` with C54 | the client loop modelled in `Model/Prog.lean` (`kernel`); loop invariant over the memory model of C26/C28 |
| C56 floating-point programs | the float operations of C13, C32, C33, C47, C50, C52 composed by `vec_array_impl` (`Model/FProg.lean`) | structural induction over expressions, each operator by its lane theorem; the open choices of IEEE 754 are one record `Impl` per build; the loop by the generic `kernel_all` |
| C57 multi-architecture programs | namespace names pasted from instruction set ids, linking, the 15 slots of `collect_macros_generated.h`, selection (`Model/MultiArch.lean`) | the ids with the underscore moved to the end form a prefix-free code, so pasted names are injective; the collected array is characterised and C36, C39 applied; `archBit` is injective per family, so there are no ties |
| C58 scalar operands of bitwise operations | `make_const_bitwise`, `cast_int` and the scalar overloads of `bit_and`/`bit_or`/`bit_xor`/`bit_andnot` (`Model/ScalarBits.lean`) | `i_make_const` lemma of C43 and the bitwise lemmas; the truncated bits of `cast_int` are compared with the two's complement bits; the negative-`int` exception is proved |
| C59 programs over several element types | expression trees over ten element types whose integer and floating-point parts are those of C54/C56 (`Spec/MProg.lean`); whole-vector conversions and register-by-register bit casts (`Model/MProg.lean`) | structural induction; one lane lemma `convertV_eq` for all conversion pairs (from C29, C46, C49), `bitCastR_eq` from C45 across different register sizes; the loop invariant of C55, generalised (`kernelG_all`) |
| C60 array reductions | the accumulate-then-reduce loop (`Model/ArrRed.lean`) around the models of `load`, mixed-type expressions (C59) and `reduce_*` (C16, C48) | `foldArr_eq` (loop induction: each lane folds its own elements), a fold invariant per operation, regrouping of the elements by lane (`sum_lanes`), then the C16/C48 theorem of the reduction |
| C61 CMake generation | the string functions of `cmake/SimdppMultiarch.cmake` (`Model/CMake.lean`): splitting, sorting and lookup of identifiers, flags, file names, per-file `COMPILE_FLAGS` with `APPEND_STRING`, the default lists, the caller's variable `ARCHS`; the compiler's reading of `-D` flags | suffixes form a prefix code (`prefix_inj`), induction over the loop, `defs` is a homomorphism on space-separated flags; then C57 for the resulting `Program`; default lists are sublists of one checked list per family |
| C62 accuracy of sums and products | reductions (`Model/FReduce.lean`) and array sums (`Model/ArrRed.lean`) against real numbers (`Spec/FpRange.lean`: relative error of one rounding, range) | one rounding is a relative error (`Props/FpRelW.lean`, both widths); an approximation relation `Appr d x S A` closed under `add`, lifted over every binary tree with the lanes as leaves (C48 gives the tree for every build) and over the accumulation loop (C60) |
| C63 unaligned arrays, windows | `Model/UProg.lean`: loops of `load_u`/`load`, `MExp.run` (C59), `store`/`store_first` or `store_u` | the invariant of C59 (`Done`: exactly the first elements of the output are written) with the address conditions of C26 per access; windows are the instance with one variable per tap |
| C64 arrays of structures | `Model/PackProg.lean`: loops of `load_packedM`, `MExp.run`, `store_packedM'` | the same invariant on the flat array of members, with C27 for the permutations |
| C65 big-endian | `Model/BigEnd.lean`: the `SIMDPP_BIG_ENDIAN` branches and the AltiVec/VSX branches that change the lane width without testing the byte order, on one register with bits numbered from the most significant bit of lane 0 | reinterpretation lemmas (`recast_up`, `recast_down`, `recast_pick`); exact results, right and wrong |
| C66 programs with shuffles | `Model/SProg.lean`: `Shuf.run` (the public shuffle on the registers of a vector), `SExp.run`, `skernel`; meaning `SExp.den` in `Spec/SProg.lean` over unbounded sequences | C17, C18, C19, C23 per shuffle; block locality (`pick_shift`) makes the meaning independent of the vector length; induction on the expression, `kernelG_all` for loops |
| C67 compiler workarounds | `Model/Workaround.lean`: the replacement texts (`xopComOff`, `i_shuffle_bytes16_clang`, `make_*64_msvc`, `i_blend_clang`, `load_u_icc`) | each replacement equals the documented result (C13, C20, C43, C14, C26); the splitting of 64-bit constants into `v >> 32`, `v & 0xffffffff` by C++ arithmetic |
| C68 flush to zero | `Spec/Ftz.lean`: the arithmetic of the 32-bit NEON unit (operands and tiny results flushed, tininess before rounding); `Model/Ftz.lean`: the NEON branches of the `float32<4>` functions with it, expression evaluator `evalZ`, emulated `floor`, `ceil`, `trunc` | structural induction over expressions as in C56; equality with IEEE by induction under `NoTiny`; error bounds from the rounding error theorems of C52/C62; loop by `kernel_all` of C55; reductions (`Model/FtzReduce.lean`) by induction over the addition tree of C62; division and square root (`Model/FtzDiv.lean`) by showing that no step of the Newton iteration meets a subnormal number, so that the bounds of C52 carry over |
| C69 matrix transposition | `Model/Tiles.lean`: user loops of `load`, `transpose2/4`, `store` over tiles, out of place and in place, with a distance between rows | memory seen as a matrix (`Mat`); loop invariants on which tiles are mirrored; C22 for a tile, C26 for rows |
| C70 matrix products | `Model/Gemm.lean`: user loop of `load_splat`, `load`, an inner expression of C59 and `store` over three matrices with a distance between rows | nested loop invariants on `Mat` (C69), C51 for `load_splat`, C59 for the expression; instances for integers (exact modulo 2^32), IEEE (same bits), error bound with the lemmas of C62 |
| C71 carried vectors | `Model/Carry.lean`: user loop whose step has a state: a carried vector, computed like the result by an expression of C66 from the loaded vectors and the carried one; recurrence `carried` in `Spec/Carry.lean` | loop invariant on memory and carried vector, C66 for the two expressions; instances: prefix sums by induction over the log-step scan (integers exactly, floats with the error bounds of C62), differences, and their round trip across builds; filters by induction over the weights |
| C72 searching | `Model/Search.lean`: user loop with early exit around `load`, an expression of C54 or C56 of mask type, `unmask`, `extract_bits_any` / `test_bits_any`; `IsFirst` in `Spec/Search.lean` | induction over the loop with steps required to be defined only up to the first hit; C54/C56 for the condition, C31/C15 for the exit test; the lowest set bit by induction; instances memchr, strlen, memcmp |
| C73 table lookups | `Model/Table.lean`: straight-line user programs over `uint8<N>`: C54 expressions and `permute_bytes16`, `permute_zbytes16`, `shuffle_bytes16` on tables made by `make_uint`; scalar meaning in `Spec/Table.lean` | induction over the statements; a lookup in the repeated table is lane-wise because every block of 16 bytes holds the whole table (closed form of C20, C43 for the table); loop by the kernel lemma of C55; instances evaluated in the kernel on all 256 bytes |
| C74 threads | `Spec/Threads.lean`: threads as sequences of accesses to single bytes, executions as interleavings (no atomicity of vector accesses assumed); `Model/Threads.lean`: the accesses of `load`, `store`, `store_first` (every build), `store_u` of bytes, and the loop of C59, in the order of the instructions, the read-modify-write sequences with separate reads and writes | each function, run alone, has the effect of the memory model of C26/C27 (`eff_*`) and touches only its bytes (`Safe`); disjoint threads: invariant of executions saying that each thread is where it would be alone on its own bytes (`C74_disjoint`, `C74_ends`); C59 for what it computes (`C74_loops`, `C74_parallel_for`); which builds' `store_first` accesses only the elements it stores (`Cfg.firstExact`, `C74_store_first_exact`, `C74_store_first_beside`); the losing schedules elsewhere constructed from executions of one thread (`C74_store_first_race`, `C74_store_u_race`) |

Where the code turns out to violate a property, the violation is proved with a
concrete witness and the strongest true part is proved with suffix `_partial`.

## 3. Defects found by reading (and what is proved about them)

Where a theorem is named, the wrong behaviour is proved of the model; otherwise it is recorded only.

1. `mul_lo` on `uint16` lanes, NULL backend: `uint16_t*uint16_t` promotes to `int`; 65535*65535 overflows (UB).
2. `neg`/`abs` on `int32`/`int64` lanes, NULL backend: UB on the minimum value (C07).
3. `aligned_allocator::allocate`: `n*sizeof(T)+al` may wrap after the `max_size` check (C40).
4. `get_arch_raw_cpuid`: checks CPUID.1:ECX bit 26 (XSAVE) rather than 27 (OSXSAVE) before `xgetbv`; AVX-512 without checking opmask/ZMM state; FMA/XOP without OS check (C38).
5. `bitonic_sort` on floats with ±0 or NaN does not return a permutation at bit level.
6. The dispatcher's cached pointer is a plain static: formally a data race; benign only under an atomic-pointer-store assumption (C37).
7. `cmp_neq` on 64-bit lanes, SSE2 without SSE4.1: wrong result (C13).
8. `cpuinfo`/string list report popcnt without the implied sets.
9. `core/cast.h:26-31`: conversions swapped (C45).
10. XOP together with AVX512VL: several integer comparisons do not compile.
11. `mask == mask` on AVX-512: lanes 16 and above are lost (C13).
12. 8/16-bit AVX512VL intrinsics used without AVX512BW.
13. `mull(int32<16>)` on AVX512F: only the unsigned overload exists; the signed template recurses forever (C03).
14. 64-bit integer `min`/`max` not implemented on several targets (C06).
15. Architecture list mode drops entries after the 14th (C39).
16. `for_each` copies the functor per register, so state accumulated in it is lost (C41).
17. `permute4`/`shuffle4x2` on 64-bit lanes, more than two registers: loops run out of bounds (C18).
18. `shuffle2x2` arguments swapped for s0 ≥ 2, s1 < 2; `sse_float64_4x2` on AVX only: 11 wrong selector tuples (C18).
19. `shuffle2x2` on 32-bit lanes, x86, mixed case: wrong (C18).
20. `shuffle2x2` on 64-bit lanes, SSE2/AVX2, both selectors ≥ 2: mask overflow (C18).
21. `shuffle4x2` on `float64<4>`, AVX512F: undefined lanes (C18).
22. `shuffle1_128` on 512-bit registers differs from its documentation.
23. `extract` from `int64<2>` on 32-bit MSA (C23).
24. `align*<0>` on little-endian AltiVec uses `vec_sld` with the literal 16 (not modelled).
25. `i_to_uint8(uint32<N>)` on AVX512F without AVX512BW: the converter's recursion is in the `#else` branch, registers after the first stay unset (`C29_trunc32_8_unset`).
26. 8→64, 16→64 and 64→8 conversions on AVX512F without AVX512BW use a wrong number of registers per group (`C29_ext8_64_overrun`, `C29_ext16_64_misplaced`, `C29_trunc64_8_overrun`, `C29_trunc64_8_misplaced`).
27. `i_to_uint8(uint32<32>)` on AVX2 without AVX512F: lane groups come out in the wrong order (`C29_trunc32_8_order`).
28. `div_p<P>` does not reduce the denominator to `P` bits except in the portable code, contrary to its documentation (`C11_den_high_simd`, `C11_disagree`).
29. `reduce_add` of `int8<N>`/`uint8<N>` arrays does not compile under AVX512BW (`C16_reduce_add8_rejects`).
30. Portable `reduce_add(int16<N>)` sums in `int32_t`: undefined once `N > 65536` (`C16_reduce_add16_ub`); AltiVec accumulators saturate for huge `N` (hypotheses `add8Supported`, `add16Supported`).
31. `reduce_mul` of 16-bit arrays under AVX512BW multiplies the high halves of 64-bit products into the result: the product of ones is 0 (`C16_reduce_mul16_broken`).
32. `reduce_mul` of 32-bit arrays does not compile under AVX512F (`C16_reduce_mul32_rejects`).
33. `reduce_mul(int16<8>)`, portable and AltiVec: signed overflow although the other backends wrap (`C16_reduce_mul16_ub`; documented as undefined).
34. `reduce_max` of unsigned 64-bit lanes is not implemented on MSA, `reduce_min(int64x2)` not on 32-bit NEON; `SIMDPP_USE_AXV2` typo in `reduce_max(int64<N>)` (falls back to a correct loop).
35. The promotion is not associative: `(mask_int8, mask_int16), int16` is unsigned, `mask_int8, (mask_int16, int16)` signed (`C42_regroup_counterexample`; `C42_regroup` gives the exact condition).
36. `get_expr2_nomask` does not follow the documented rule for `mask_float32` with `mask_int64` (`float64` instead of `uint64`, `C42_nomask_counterexample`); `get_expr2_nomask_nosign` keeps masks, `get_expr2_nosign` keeps a mask for two masks of different width (`C42_nosign_counterexample`).
37. `types/tag.h` documents `mask_intXX | intXX -> uintXX`; the code gives `intXX` (`C42_mask_int_table`). `get_expr_bitwise2_and` keeps a mask second operand even when the sizes differ, contrary to its header comment (`C42_bitwise`).
38. `core/f_isfinite.h` documents all ones for NaN or infinite lanes; the code returns the opposite (the sensible reading, which C33 proves).
39. `uint32` to `float` on x86 before AVX-512 (and for four lanes on every x86 build) converts as signed and adds 2^32: two roundings, so the result is not always the nearest `float` (`C46_uint32_double_rounding`).
40. `double` to `float` on AVX-512 with eight or more lanes rounds towards zero, with four lanes to nearest: the result depends on the vector length (`C46_double_to_float_depends_on_length`).
41. `double` to `float` on MSA swaps the two halves of the result (`C46_double_to_float_msa_swapped`).
42. 64-bit integers to `float` go through `double` (two roundings) except for four lanes on the portable build and AVX512DQ (`C46_int64_double_rounding`).
43. 64-bit integers to/from `double` and `double` to `uint32` are missing on x86 before AVX512DQ / AVX-512 (`C46_int64_to_float64_missing`, `C49_float64_to_uint32_missing`, `C49_float64_to_int64_missing`); eight `float` lanes to 64-bit integers require AVX512VL although AVX512DQ alone suffices for four and sixteen (`C49_float32x8_to_int64_missing`).
44. Portable `to_uint64(float)` casts through `int64_t`: undefined from 2^63 on (`C49_portable_uint64_undefined`).
45. The emulated `floor` and `ceil` on `float` (SSE2 to SSSE3, 32-bit NEON, MSA) return ±8388607.5 unchanged: the range check is `<= 8388607` where `< 8388608` was meant (`C34_floor_float_wrong`).
46. The emulated `floor` and `ceil` on `double` (SSE2 to SSSE3, MSA) overwrite the truncated number and are wrong on most non-integral numbers: `floor(1.5) = 1.5`, `floor(-1.5) = -0.5`, `ceil(1.5) = 2.5`; `trunc` is wrong only at ±4503599627370495.5 (`C34_double_emulation_wrong`).
47. On NEON64 `floor` on `double` uses the round-to-nearest instruction: `floor(0.75) = 1` (`C34_floor_neon64_wrong`).
48. NEON64 `fmadd`/`fmsub` pass the operands in the wrong order: `fmadd(a,b,c)` is `a + b*c` and `fmsub(a,b,c)` is `a - b*c` (`C50_fma_neon64_wrong`).
49. MSA `fmsub(a,b,c)` computes `c - a*b` (`C50_fmsub_msa_wrong`).
50. AltiVec `mul` is a fused multiply-add with `+0`, so a product of zero is always `+0`: `mul(-1, 0) = +0` (`C50_mul_altivec_sign`).
51. `fmadd`/`fmsub` do not exist without FMA instructions (no emulation) and, with AVX512F but not FMA3, only for 512-bit vectors (`C50_fma_missing`).
52. The order of floating-point `reduce_add` depends on the build, and so does its result (`C48_reduce_add_order`).
53. `load_u` on AltiVec without VSX always reads the 16-byte block after the one `p` points into, also when `p` is a multiple of 16, where the documentation promises that only the referenced block is accessed (`C26_load_u_altivec_overread`).
54. `store_u` of floating-point vectors in the portable build dereferences a pointer to the element type: undefined for misaligned `p`; the documentation asks for no alignment (`C26_store_u_float_portable_ub`).
55. `store_first`/`store_last` read and rewrite the whole register on most builds, so the unselected bytes must be accessible too (`C28_store_first_needs_block`); with `n` equal to the length (outside the documented range) nothing is stored for 64-bit lanes on SSE2 (`C28_store_first_full_64`). `store_last` of `float32x4` tests `NEON_FLT_SP` where `store_first` tests `NEON_NO_FLT_SP`; both branches store the right lanes.
56. The documentation of `store_masked` is a copy of that of `store_first`.
57. 8-bit `splat`/`load_splat` on x86 without AVX2 compute `v0 * 0x01010101` in `int` (`set_splat.h:39`): signed overflow for `v0 >= 128`. `C43_splat8_ub`.
58. VSX builds read 16 bytes for a 64-bit `load_splat` (`load_splat.h:143-145, 225-227`). `C51_vsx_overread`.
59. The MSA 64-bit branch of `set_splat.h` calls `.native()` on a `uint64_t` (dead: `SIMDPP_64_BITS` is not set for MIPS).
60. `SIMDPP_SCALAR_ARG_IMPL_INT_UNSIGNED` (`core/detail/scalar_arg_impl.h:105-107`) passes a converted `a` and an unconverted `b` in the `(VEC, double)` overload.
61. `make_float` to integer vectors converts `double` to `char` on SSE2 (undefined for 200.0) and to `uint8_t` elsewhere; the two- and four-argument forms on NEON apply `&` to a `double` and do not compile. Not modelled.
62. `eval_maybe_scalar_bitwise/cast_int` is dead code (an `int` -1 would be zero-extended there).
63. `extract_bits_any` of 16-bit lanes uses `_mm_movepi16_mask`/`_mm256_movepi16_mask` under AVX512BW, and of 8 x 32 and 4 x 64 bits `_mm256_movepi32_mask`/`_mm256_movepi64_mask` under AVX512DQ: instructions of AVX512VL, so with only `-mavx512bw`/`-mavx512dq` (what the project's CMake passes) these do not compile (`C31_extract_bits_any_needs_vl`).
64. The comment of `extract_bits` describes only `id == 7`.
65. `v128_store_pack2` tells the compiler that the address is a multiple of 32 (`store_packed2.h:239`), although `store_packed2` documents alignment to the vector size, 16 for a 16-byte vector (`core/store_packed2.h:33`): undefined behaviour for half of the documented addresses. `C27_store_packed2_misaligned`. (`v512_store_pack2` assumes 32 where it could assume 64: harmless.)
66. `sqrt` of `float32` on 32-bit NEON and on AltiVec (also with VSX, which has `xvsqrtsp`) is `a * rsqrt(a)` with one refinement step (`f_sqrt.h:41-45`): `sqrt(0)` and `sqrt(inf)` are NaN (`C52_sqrt_special`), and on 32-bit NEON, whose estimate has 8 bits, the result has only about 16 correct bits: `sqrt(1)` is `0x3f7fffa0` (`C52_sqrt_one_neon32`).
67. `div` of `float32` on AltiVec without VSX divides by zero and by infinity to NaN (`f_div.h:49-54` with `vec_nmsub` in `f_rcp_rh.h:61`): `C52_div_altivec_special`. 32-bit NEON is not affected, its step instruction special-cases `inf * 0`.
68. `log2_approx` and `log2_approx_positive_finite` read a subnormal lane as if its exponent were that of a normal number (`math/log2_approx.h:35,39`, `:69,73`): the result lies between -127.01 and -125.99 whatever the number (`C53_log2_subnormal`), for `2^-149` the error is 22 (`C53_log2_subnormal_wrong`), although the comment at line 50 says that the full range of inputs is handled. The error bound itself is missing from the comments ("is ... over entire range"); proved: 0.0051 for normal numbers.
69. `SIMDPP_SCALAR_ARG_IMPL_INT_UNSIGNED` (`core/detail/scalar_arg_impl.h:106-109`): the overload for a vector and a `double` returns `FUNC(make_uint<INT_VEC>(a), b)` instead of `FUNC(a, make_float<INT_VEC>(b))`, so `add(v, 2.0)`, `sub(v, 2.0)`, `mul_lo(v, 2.0)` do not compile although `add(2.0, v)` and `add(v, 2.0f)` do. Read, not modelled (floating-point scalars for integer vectors are outside C43).
70. `SIMDPP_DISPATCH_ARCH16` and above are ignored (`dispatch/collect_macros_generated.h` has 15 slots), while `simdpp_multiarch` in `cmake/SimdppMultiarch.cmake:1086-1087` numbers them without a limit: with more than 15 architectures the later builds are compiled and linked but never dispatched to, silently. Proved: `C57_slots`.
71. `bit_and`, `bit_or`, `bit_andnot` (and `&`, `|`) of 64-bit lanes with a negative `int` (or 32-bit `long`) scalar: `cast_int` (`detail/expr/scalar.h:30-41`) converts to `unsigned` before widening, so the upper half of the mask is zero: `v & -1` clears the upper half of every lane, `v & ~7` too. `bit_xor` has no `cast_int` and sign-extends, so `v ^ -1` does flip all bits. Proved: `C58_negative_int`, `C58_and_minus_one`.
72. `simdpp_multiarch` (`cmake/SimdppMultiarch.cmake:1092-1094`) appends the dispatcher flags with `APPEND_STRING` and no space: unless the first definition is `NONE_NULL` (whose flags happen to end in a space) the first file is compiled with `-DSIMDPP_ARCH_X86_SSE2-DSIMDPP_EMIT_DISPATCHER=1`, no file contains the dispatcher and the program does not link. Proved: `C61_no_dispatcher`, `C61_files`.
73. `simdpp_multiarch` and `simdpp_get_arch_perm`/`simdpp_get_*_archs` append to `ARCHS` without initialising it (`cmake/SimdppMultiarch.cmake:1054, 1112, 1240, 1267`): a variable of that name in the caller's scope is prepended, so `simdpp_multiarch(FILES f.cc ${ARCHS})` drops the first two architectures and generates the others twice, and `simdpp_get_runnable_archs` reports architectures that failed the check. Proved: `C61_caller_variable_counterexample`, `C61_caller_variable_runnable_counterexample`.
74. `simdpp_get_runnable_archs` takes POPCNT for granted with AVX, and FMA3 and POPCNT with AVX-512F, without looking at their checks. Proved: `C61_runnable_counterexample`. Unknown identifiers in a definition are dropped silently: `C61_unknown_ignored`.
75. Big-endian VSX 2.07: `to_int64(int32)`, `to_uint64(uint32)` (`detail/insn/conv_extend_to_int64.h:46-48, 398-403`) merge the value before the sign or zero whatever the byte order, so the value is in the upper half of the lane. Proved: `C65_extend64_wrong` (right exactly for 0, and -1 signed). `to_float64(int32/uint32)` on big-endian VSX (`conv_any_to_float64.h:152-167, 268-283`) inherits it: `C65_i32_f64_wrong`.
76. Big-endian VSX: `to_int32(float64)`, `to_uint32(float64)` (`conv_float_to_int32.h:229-233, 330-335`) keep the upper halves of the 64-bit integers: every number in [0, 2^32) gives 0. Proved: `C65_f64_i32_wrong`, `C65_f64_i32_zero`.
77. Big-endian VSX: `SIMDPP_VSX_SHUFFLE_MASK_2x2` (`detail/shuffle/shuffle_mask.h:18`) swaps the selectors: `permute2<0,1>` exchanges the lanes. Proved: `C65_permute2_wrong`, `C65_shuffle2x2_wrong` (only `shuffle2x2` with the first selector in `b` and the second in `a` is right).
78. `vec_sld` takes a literal below 16: on big-endian AltiVec `move*_l` and `align*` by the whole register and `move*_r<0>` do not compile (on little-endian builds it is the other end of each range). Proved: `C65_move_reject`.
79. Little-endian VSX: `to_float32(float64)` (`conv_any_to_float32.h:48-54`) selects words 0, 2, 4, 6, but `xvcvdpsp` puts its results in the upper words of the doublewords, which are the odd lanes there; the selected words are undefined by the architecture. Proved: `C46_double_to_float_vsx`, `C46_double_to_float_vsx_iff` (right exactly if the processor also writes the results to the undefined words).
80. `SIMDPP_USE_AMD` (commented out in `setup_arch.h:411-412`) does not compile on AVX builds: `store_first.h:256`, `:306`, `store_last.h:275`, `:327` write `store(v, ...)` where no `v` exists, in functions that are not templates. Not a theorem (there is no program to speak about).
81. `SIMDPP_WORKAROUND_XOP_COM`: an XOP build without AVX2 has `cmp_lt`, `cmp_gt`, `cmp_le`, `cmp_ge` of 64-bit lanes, the same build with the workaround does not. Proved: `C67_cmp_xop_lost`.
82. 32-bit NEON flushes subnormal numbers, and the emulated `floor`, `ceil`, `trunc` then return a subnormal argument unchanged (`f_floor.h:50-63`: the test `abs(a) > 0` is false), where `floor` should give -1 or 0. Proved: `C68_floor`, `C68_floor_example`.
83. `cmp_eq.h:284-285` lacks the inline assembly with which `cmp_lt.h`, `cmp_le.h`, `cmp_gt.h`, `cmp_ge.h` avoid GCC's scalar code on 32-bit NEON; where GCC does break `vceqq_f32` up, `==` keeps subnormal numbers while `<` and `>` flush them, and two numbers may be neither less, equal nor greater. Proved for that case: `C68_trichotomy_example`.
84. On 32-bit NEON the square root of a positive subnormal number is NaN (the estimate of the flushed zero is infinity, and `f_sqrt.h:44` multiplies it with zero), as is the quotient of two subnormal numbers; a normal number over a subnormal one is infinite, and a subnormal one over a normal one is zero. Proved: `C68_sqrt_subnormal`, `C68_div_subnormal`, `C68_div_lost`.
85. `store_u` on AltiVec without VSX (`store_u.h:36-63`) writes back bytes before and behind the 16 bytes it stores, which the documentation does not say (for `store_first` it does): two threads which store to adjacent parts of an array with it can lose each other's elements. Proved: `C74_store_u_race`.

## 4. Trusted base

**Kernel and axioms.** Lean 4.33's kernel. Every theorem depends on a subset of `propext`, `Quot.sound`
and `Classical.choice`; `AXIOMS.md` lists the exact set for each theorem of MANIFEST.json (output of
`#print axioms`). No axiom is declared, no compiled evaluation is used (`decide +kernel` is kernel reduction).

**What is taken on trust besides the kernel.**

* The hand translation of the C++ to Lean. Every definition cites file and lines; `COVERAGE.md` says for
  each of the repository's headers whether it is modelled (and by which Lean modules), only forwards,
  only declares types, or is not modelled (and why).
* The semantics of the instruction intrinsics (`Model/Intrin`, `Model/ShufIntrin`, `Model/Gather` and the
  `Hw.*` definitions at the head of the other model files), written from the vendors' manuals.
* The C++ integer model in `Model/CInt`: 8/16/32/64-bit two's complement types, 32-bit `int`, integer
  promotions, signed overflow and out-of-range shifts undefined (`none`), implementation-defined
  conversions modular.
* Binary floating point as in `Spec/Fp*`: IEEE 754 binary32/64, round to nearest even, one NaN.

**Not modelled, so not covered by any theorem.**

* NaN payloads and signalling NaNs; floating point exceptions and rounding modes other than nearest even.
* Flush-to-zero: C68 covers `float32` on 32-bit NEON (programs, loops, rounding, reductions, division, square root); the other theorems about floating point there, and AltiVec in non-Java mode,
  compute with subnormal numbers.  That the unit detects tininess before rounding
  is taken from the ARM manual.
* Contraction of `a*b+c` by the compiler; excess precision of x87.
* The numerical value of the hardware reciprocal and reciprocal square root estimates: a parameter `Est`,
  of which only the vendor's relative error bound is assumed.
* Big-endian targets other than what C65 covers: AltiVec and VSX functions on one register are in `Model/BigEnd.lean`; big-endian MSA, and combinations of big-endian builds with the array, loop and program theorems, are not modelled.
* Workarounds for particular compilers: the main model takes them as off (GCC for `blend` of 256-bit float64);
  the texts which replace them are proved separately (C67) and not combined with the program theorems. Replacements by
  the same instruction (AVX2 shifts and NEON comparisons in inline assembly, pointer casts for the Intel compiler) are identified
  with the intrinsics; `SIMDPP_USE_AMD` is not modelled (finding 80).
* VSX 2.07 inline assembly is taken to be the instruction its comment names.
* Compilation itself: template overload resolution is read as "the overload for this element type and
  length", a missing or `SIMDPP_NOT_IMPLEMENTED` overload is `none`; the optimizer and the ABI are trusted.
* Threads (C74): executions interleave single byte accesses (sequential consistency). The threads of the theorems about disjoint parts have no data race, so the guarantee of the C++ memory model for
  race-free programs is what connects them to real machines; the two race theorems are about this semantics, in C++ such programs are undefined. Packed, streaming and single-lane accesses other than
  those of the loop have no access model.
* Prefetch hints (no observable effect); the code generators in `tools/`; tests, examples, documentation.
* In the CMake model: list separators `;` and bracket quoting inside arguments, the compiler's own reading
  of the flags (a `-D` flag is taken to define the macro, an instruction set flag to enable the set).

**Hypotheses that appear in the theorems.** `Cfg.Ok c`: the configuration is one that
`setup_arch.h` / `detect` can produce (its 19 implications between macros; C31). `KLen`/`FLen`/`VLen c … N`:
the length `N` is one for which the vector type exists in that configuration. `…Supported`: the operation
compiles; the complementary rejection theorem is stated beside it.
