{"id": "C01", "title": "Integer add/sub wrap modulo 2^w", "statement": "add(a,b) and sub(a,b) on integer vectors return in every lane the sum/difference modulo 2^w, for signed and unsigned vectors alike, with no undefined behaviour and the same result on every build configuration.", "quantifier": "every target build configuration in the model's scope (NULL, SSE2..AVX2/AVX512, NEON paths as selected by the preprocessor), every vector length the library allows, every element value", "why_tests_cant": "A test samples a few operand values on the one instruction set it was built for; 2^64..2^128 operand pairs per lane and a dozen instruction-set paths cannot be enumerated.", "anchors": ["simdpp/core/i_add.h add", "simdpp/core/i_sub.h sub", "simdpp/detail/insn/i_add.h i_iadd", "simdpp/detail/insn/i_sub.h i_isub", "simdpp/detail/null/math.h add sub"]}
{"id": "C02", "title": "Saturating add/sub clamp exactly", "statement": "add_sat/sub_sat on 8- and 16-bit lanes return the mathematically exact sum/difference clamped to the range of the element type.", "quantifier": "every target build configuration in the model's scope (NULL, SSE2..AVX2/AVX512, NEON paths as selected by the preprocessor), every vector length the library allows, every element value", "why_tests_cant": "A test samples a few operand values on the one instruction set it was built for; 2^64..2^128 operand pairs per lane and a dozen instruction-set paths cannot be enumerated.", "anchors": ["simdpp/core/i_add_sat.h", "simdpp/core/i_sub_sat.h", "simdpp/detail/null/math.h saturate add_sat sub_sat"]}
{"id": "C03", "title": "Integer multiplication: mul_lo, mul_hi, mull", "statement": "mul_lo returns the low half of each product, mul_hi the high half (signed or unsigned), mull the full double-width product in lane order; low and high halves recombine to the exact product. Every configuration agrees.", "quantifier": "every target build configuration in the model's scope (NULL, SSE2..AVX2/AVX512, NEON paths as selected by the preprocessor), every vector length the library allows, every element value", "why_tests_cant": "A test samples a few operand values on the one instruction set it was built for; 2^64..2^128 operand pairs per lane and a dozen instruction-set paths cannot be enumerated.", "anchors": ["simdpp/core/i_mul.h", "simdpp/core/i_mull.h", "simdpp/detail/insn/i_mul_lo.h", "simdpp/detail/insn/i_mul_hi.h", "simdpp/detail/insn/i_mull.h"]}
{"id": "C04", "title": "Where the portable backend executes undefined behaviour on integer arithmetic", "statement": "The portable (NULL) implementations of the integer operations evaluate without signed overflow, oversized shifts or division by zero for every lane value, with exactly these exceptions: neg and abs of the least 32- or 64-bit number, 16-bit mul_lo when the product of the lanes read as unsigned numbers is 2^31 or more, div_p by a denominator whose P low bits are zero, shift counts not smaller than the width of the type the lane is promoted to (32 for 8- and 16-bit lanes), left shifts of 8- and 16-bit lanes that push bits past bit 31, and reduce_add and (for one register) reduce_mul of signed 16-bit lanes when a sum or product of the first lanes leaves the range of int (for sums: only possible beyond 65536 lanes).", "quantifier": "every integer operation of the portable backend, every element type, every lane value, every vector length", "why_tests_cant": "UB does not have to be visible in any test run: the compiler may produce the expected value until it optimises differently.", "anchors": ["simdpp/detail/null/math.h", "simdpp/detail/null/bitwise.h", "simdpp/detail/insn/i_reduce_mul.h", "simdpp/detail/insn/i_reduce_add.h"]}
{"id": "C05", "title": "Averages are exact", "statement": "avg returns floor((a+b+1)/2) and avg_trunc returns floor((a+b)/2) computed without overflow for signed and unsigned lanes on every configuration.", "quantifier": "every target build configuration in the model's scope (NULL, SSE2..AVX2/AVX512, NEON paths as selected by the preprocessor), every vector length the library allows, every element value", "why_tests_cant": "A test samples a few operand values on the one instruction set it was built for; 2^64..2^128 operand pairs per lane and a dozen instruction-set paths cannot be enumerated.", "anchors": ["simdpp/core/i_avg.h", "simdpp/core/i_avg_trunc.h", "simdpp/detail/insn/i_avg.h v_emul_avg_u32", "simdpp/detail/insn/i_avg_trunc.h v_emul_avg_trunc"]}
{"id": "C06", "title": "min/max return the lesser/greater lane in the lane's own order", "statement": "min and max of integer vectors return, per lane, the lesser/greater value in signed or unsigned order according to the element type, on every configuration including those that emulate it.", "quantifier": "every target build configuration in the model's scope (NULL, SSE2..AVX2/AVX512, NEON paths as selected by the preprocessor), every vector length the library allows, every element value", "why_tests_cant": "A test samples a few operand values on the one instruction set it was built for; 2^64..2^128 operand pairs per lane and a dozen instruction-set paths cannot be enumerated.", "anchors": ["simdpp/core/i_min.h", "simdpp/core/i_max.h", "simdpp/detail/insn/i_min.h", "simdpp/detail/insn/i_max.h"]}
{"id": "C07", "title": "abs and neg", "statement": "abs returns |a| as an unsigned value of the same width (so abs(INT_MIN) = 2^(w-1)); neg returns -a modulo 2^w. All configurations agree.", "quantifier": "every target build configuration in the model's scope (NULL, SSE2..AVX2/AVX512, NEON paths as selected by the preprocessor), every vector length the library allows, every element value", "why_tests_cant": "A test samples a few operand values on the one instruction set it was built for; 2^64..2^128 operand pairs per lane and a dozen instruction-set paths cannot be enumerated.", "anchors": ["simdpp/core/i_abs.h", "simdpp/core/i_neg.h", "simdpp/detail/insn/i_abs.h", "simdpp/detail/insn/i_neg.h", "simdpp/detail/null/math.h abs neg"]}
{"id": "C08", "title": "popcnt counts set bits", "statement": "popcnt returns in every lane the number of bits set in that lane, for 8-, 16-, 32- and 64-bit lanes, on every configuration (bit-trick emulation, POPCNT instruction, SAD).", "quantifier": "every target build configuration in the model's scope (NULL, SSE2..AVX2/AVX512, NEON paths as selected by the preprocessor), every vector length the library allows, every element value", "why_tests_cant": "A test samples a few operand values on the one instruction set it was built for; 2^64..2^128 operand pairs per lane and a dozen instruction-set paths cannot be enumerated.", "anchors": ["simdpp/core/i_popcnt.h", "simdpp/detail/insn/i_popcnt.h v_emul_popcnt_u8..u64", "simdpp/detail/null/bitwise.h el_popcnt8..64"]}
{"id": "C09", "title": "Immediate and uniform shifts", "statement": "shift_l/shift_r by a count smaller than the element width (run-time or template) shift every lane independently: zeros enter from the right, zeros or copies of the sign bit from the left; no bits leak between lanes even where only wider shifts exist in hardware.", "quantifier": "every target build configuration in the model's scope (NULL, SSE2..AVX2/AVX512, NEON paths as selected by the preprocessor), every vector length the library allows, every element value, every count", "why_tests_cant": "Leaks between neighbouring lanes depend on neighbour values; A test samples a few operand values on the one instruction set it was built for; 2^64..2^128 operand pairs per lane and a dozen instruction-set paths cannot be enumerated.", "anchors": ["simdpp/core/i_shift_l.h", "simdpp/core/i_shift_r.h", "simdpp/detail/insn/i_shift_l.h", "simdpp/detail/insn/i_shift_r.h"]}
{"id": "C10", "title": "Per-element variable shifts", "statement": "shift_l/shift_r with a vector of counts shift each lane by its own count (counts smaller than the width) on every configuration, including those that emulate it by bitwise selection or multiplication.", "quantifier": "every target build configuration in the model's scope (NULL, SSE2..AVX2/AVX512, NEON paths as selected by the preprocessor), every vector length the library allows, every element value, every count vector with in-range counts", "why_tests_cant": "A test samples a few operand values on the one instruction set it was built for; 2^64..2^128 operand pairs per lane and a dozen instruction-set paths cannot be enumerated.", "anchors": ["simdpp/detail/insn/i_shift_l_v.h", "simdpp/detail/insn/i_shift_r_v.h"]}
{"id": "C11", "title": "Reduced-precision division div_p", "statement": "div_p<P>(num,den) for 8-bit and 16-bit unsigned lanes returns the quotient of the P low bits of num by the P low bits of den (den nonzero) by the shift-subtract loop, equal to the portable definition.", "quantifier": "every P up to the element width, every num, den with nonzero masked den", "why_tests_cant": "65k..4G operand pairs times P; the loop invariant is what matters", "anchors": ["simdpp/core/i_div_p.h div_p", "simdpp/detail/null/math.h div_p"]}
{"id": "C12", "title": "Bitwise operations", "statement": "bit_and, bit_or, bit_xor, bit_andnot, bit_not act bit by bit on every vector type; with a mask operand they act as if the mask were all-ones/all-zeros per lane; algebraic laws (De Morgan, andnot = and with not) hold whatever mix of vector and mask arguments is used.", "quantifier": "every target build configuration in the model's scope (NULL, SSE2..AVX2/AVX512, NEON paths as selected by the preprocessor), every vector length the library allows, every element value", "why_tests_cant": "A test samples a few operand values on the one instruction set it was built for; 2^64..2^128 operand pairs per lane and a dozen instruction-set paths cannot be enumerated.", "anchors": ["simdpp/core/bit_and.h", "simdpp/detail/insn/bit_and.h", "simdpp/detail/insn/bit_andnot.h", "simdpp/detail/insn/bit_not.h", "simdpp/detail/null/bitwise.h"]}
{"id": "C13", "title": "Comparisons give exact lane masks", "statement": "cmp_eq/neq/lt/le/gt/ge yield, per lane, an all-ones mask exactly when the relation holds in the lane's (signed or unsigned) order and all-zeros otherwise; the six relations are consistent with each other; on every configuration including the emulated unsigned and 64-bit comparisons.", "quantifier": "every target build configuration in the model's scope (NULL, SSE2..AVX2/AVX512, NEON paths as selected by the preprocessor), every vector length the library allows, every element value", "why_tests_cant": "A test samples a few operand values on the one instruction set it was built for; 2^64..2^128 operand pairs per lane and a dozen instruction-set paths cannot be enumerated.", "anchors": ["simdpp/detail/insn/cmp_eq.h", "simdpp/detail/insn/cmp_lt.h", "simdpp/detail/insn/cmp_gt.h", "simdpp/detail/insn/cmp_le.h", "simdpp/detail/insn/cmp_ge.h", "simdpp/detail/insn/cmp_neq.h"]}
{"id": "C14", "title": "blend and bit_select", "statement": "bit_select(on,off,mask) takes each bit from on or off according to the mask bit; blend takes each lane according to the mask lane and agrees with bit_select whenever each mask lane is all-ones or all-zeros.", "quantifier": "every target build configuration in the model's scope (NULL, SSE2..AVX2/AVX512, NEON paths as selected by the preprocessor), every vector length the library allows, every element value", "why_tests_cant": "A test samples a few operand values on the one instruction set it was built for; 2^64..2^128 operand pairs per lane and a dozen instruction-set paths cannot be enumerated.", "anchors": ["simdpp/core/blend.h", "simdpp/core/bit_select.h", "simdpp/detail/insn/blend.h", "simdpp/detail/insn/bit_select.h"]}
{"id": "C15", "title": "test_bits_any", "statement": "test_bits_any(a) is true exactly when some bit of some lane is set.", "quantifier": "every target build configuration in the model's scope (NULL, SSE2..AVX2/AVX512, NEON paths as selected by the preprocessor), every vector length the library allows, every element value", "why_tests_cant": "A test samples a few operand values on the one instruction set it was built for; 2^64..2^128 operand pairs per lane and a dozen instruction-set paths cannot be enumerated.", "anchors": ["simdpp/core/test_bits.h", "simdpp/detail/insn/test_bits.h", "simdpp/detail/null/bitwise.h test_bits_any"]}
{"id": "C16", "title": "Integer reductions", "statement": "reduce_add (modulo the documented result width), reduce_mul, reduce_min, reduce_max, reduce_and, reduce_or and reduce_popcnt return the fold of all lanes, for any vector length, independent of the order in which the implementation combines lanes.", "quantifier": "every power-of-two vector length, every lane value, every configuration", "why_tests_cant": "Unbounded vector lengths and all lane values", "anchors": ["simdpp/detail/insn/i_reduce_add.h", "simdpp/detail/insn/i_reduce_mul.h", "simdpp/detail/insn/i_reduce_min.h", "simdpp/detail/insn/i_reduce_max.h", "simdpp/detail/insn/i_reduce_and.h", "simdpp/detail/insn/i_reduce_or.h", "simdpp/detail/insn/i_reduce_popcnt.h"]}
{"id": "C17", "title": "zip/unzip are inverse permutations", "statement": "zip_lo/zip_hi interleave, unzip_lo/unzip_hi de-interleave within each 128-bit block as documented; unzip of the two zips returns the inputs, and zip of the two unzips returns the inputs, for every element size and vector length.", "quantifier": "every lane value, element size, vector length and configuration", "why_tests_cant": "Each test checks one length and one arch; the algebra is over all of them", "anchors": ["simdpp/core/zip_lo.h", "simdpp/core/zip_hi.h", "simdpp/core/unzip_lo.h", "simdpp/core/unzip_hi.h", "simdpp/detail/insn/zip_lo.h", "simdpp/detail/insn/unzip_lo.h", "simdpp/detail/null/shuffle.h"]}
{"id": "C18", "title": "Permutes and shuffles select exactly the documented lanes", "statement": "permute2/permute4/shuffle1/shuffle2/shuffle2x2/shuffle4x2 with every legal selector tuple place in each output lane exactly the documented input lane, whichever instruction sequence the selector dispatches to.", "quantifier": "all selector tuples (up to 8^4), all lane values, all configurations", "why_tests_cant": "shuffle4x2 alone has 4096 selectors per type dispatched over dozens of hand-written specialisations; tests sample selectors on one arch", "anchors": ["simdpp/core/shuffle4x2.h", "simdpp/detail/insn/shuffle4x2.h", "simdpp/detail/shuffle/sse_float32_4x2.h", "simdpp/detail/shuffle/sse_int32_4x2.h", "simdpp/detail/insn/permute4.h", "simdpp/detail/insn/shuffle2x2.h"]}
{"id": "C19", "title": "move_l/move_r/align shift whole lanes", "statement": "move{16,8,4,2}_{l,r}<s> and align{16,8,4,2}<s> return the documented window of the 128-bit block(s), zeros shifted in for move, for every legal s including 0 and full width.", "quantifier": "every shift, lane value, vector length, configuration", "why_tests_cant": "boundary shifts on every arch", "anchors": ["simdpp/core/move_l.h", "simdpp/core/move_r.h", "simdpp/core/align.h", "simdpp/detail/insn/move_l.h", "simdpp/detail/insn/align.h"]}
{"id": "C20", "title": "Byte permutes with run-time masks", "statement": "permute_bytes16, permute_zbytes16, shuffle_bytes16, shuffle_zbytes16 select bytes according to the documented mask semantics for every legal mask on every configuration, including those without PSHUFB.", "quantifier": "every mask byte combination, every data", "why_tests_cant": "32^16 masks", "anchors": ["simdpp/core/permute_bytes16.h", "simdpp/core/shuffle_zbytes16.h", "simdpp/detail/insn/shuffle_bytes16.h", "simdpp/detail/insn/shuffle_zbytes16.h", "simdpp/detail/insn/permute_zbytes16.h"]}
{"id": "C21", "title": "make_shuffle_bytes16_mask generates masks with the documented effect", "statement": "The byte mask generated from lane selectors, when used with shuffle_(z)bytes16/permute_(z)bytes16, moves whole elements exactly as the selectors say (incl. -1 = zero).", "quantifier": "every selector tuple, every element size and data", "why_tests_cant": "selector tuples x data", "anchors": ["simdpp/core/make_shuffle_bytes_mask.h"]}
{"id": "C22", "title": "transpose is an involution and a true transpose", "statement": "transpose2/transpose4 (8,16,32,64-bit) exchange element (i,j) with (j,i) in every block; applying it twice is the identity.", "quantifier": "every lane value, length, configuration", "why_tests_cant": "all data, all lengths", "anchors": ["simdpp/core/transpose.h", "simdpp/detail/insn/transpose.h", "simdpp/detail/null/transpose.h"]}
{"id": "C23", "title": "extract/insert/splat", "statement": "extract<i>(insert<i>(v,x)) = x, insert leaves other lanes alone, extract on any lane of an arbitrarily long vector returns that lane, splat<i> broadcasts lane i.", "quantifier": "every lane index, vector length, element size, value", "why_tests_cant": "all lengths and lanes", "anchors": ["simdpp/core/extract.h", "simdpp/core/insert.h", "simdpp/core/splat.h", "simdpp/detail/insn/extract.h", "simdpp/detail/insn/insert.h", "simdpp/detail/insn/splat.h"]}
{"id": "C24", "title": "split/combine are inverse", "statement": "combine(split(v)) = v and split(combine(a,b)) = (a,b), preserving lane order, for every vector length and native width.", "quantifier": "every vector length and configuration", "why_tests_cant": "unbounded lengths", "anchors": ["simdpp/core/split.h", "simdpp/core/combine.h", "simdpp/detail/insn/split.h", "simdpp/detail/insn/combine.h"]}
{"id": "C25", "title": "Vectors longer than the native width behave as one flat vector", "statement": "Every lane-wise operation on a vector stored as an array of native vectors equals the operation applied to the flat sequence of lanes; results do not depend on how the vector is cut into native registers.", "quantifier": "every lane-wise operation, every vector length, every native register width", "why_tests_cant": "the library accepts any power-of-two length; tests instantiate a handful", "anchors": ["simdpp/detail/vector_array_macros.h vec_array_impl", "simdpp/types/int32.h"]}
{"id": "C26", "title": "load/store round trip and footprint", "statement": "store followed by load returns the vector; a store changes exactly the sizeof(V) bytes at p and a load depends only on them; load_u/store_u likewise without alignment; for every vector length.", "quantifier": "every memory content, address, vector length and value", "why_tests_cant": "all memory states and addresses", "anchors": ["simdpp/detail/insn/load.h", "simdpp/detail/insn/store.h", "simdpp/detail/insn/load_u.h", "simdpp/detail/insn/store_u.h", "simdpp/detail/null/memory.h"]}
{"id": "C27", "title": "Packed (interleaved) loads and stores", "statement": "load_packed{2,3,4} de-interleave N-tuples from memory, store_packed{2,3,4} interleave, and they are inverse to each other; all configurations agree, including the multi-step zip/align/permute networks.", "quantifier": "every memory content, element size, vector length, configuration", "why_tests_cant": "all data; the networks are hand-written per arch", "anchors": ["simdpp/detail/insn/load_packed2.h", "simdpp/detail/insn/load_packed3.h", "simdpp/detail/insn/load_packed4.h", "simdpp/detail/insn/mem_pack.h", "simdpp/detail/insn/mem_unpack.h", "simdpp/detail/insn/store_packed3.h"]}
{"id": "C28", "title": "Partial stores", "statement": "store_first(p,v,n) writes lanes 0..n-1, store_last(p,v,n) writes lanes N-n..N-1, store_masked writes exactly the selected lanes; all other memory visible to a single thread is unchanged afterwards; for every n in the documented range.", "quantifier": "every n, mask, memory content, vector length, configuration", "why_tests_cant": "all n x memory x vector, emulation through masks tables and read-modify-write", "anchors": ["simdpp/detail/insn/store_first.h", "simdpp/detail/insn/store_last.h", "simdpp/detail/insn/store_masked.h", "simdpp/detail/null/memory.h"]}
{"id": "C29", "title": "Integer conversions", "statement": "to_int8/16/32/64 and to_uint8/16/32/64 sign-extend signed sources, zero-extend unsigned sources, truncate wider ones, in lane order; widening then narrowing is the identity.", "quantifier": "every target build configuration in the model's scope (NULL, SSE2..AVX2/AVX512, NEON paths as selected by the preprocessor), every vector length the library allows, every element value", "why_tests_cant": "A test samples a few operand values on the one instruction set it was built for; 2^64..2^128 operand pairs per lane and a dozen instruction-set paths cannot be enumerated.", "anchors": ["simdpp/detail/insn/conv_extend_to_int16.h", "simdpp/detail/insn/conv_extend_to_int32.h", "simdpp/detail/insn/conv_extend_to_int64.h", "simdpp/detail/insn/conv_shrink_to_int8.h", "simdpp/detail/insn/conv_shrink_to_int16.h", "simdpp/detail/insn/conv_shrink_to_int32.h"]}
{"id": "C30", "title": "Masks: round trip and logical structure", "statement": "Converting a mask to a vector yields all-ones/all-zeros lanes, converting back (to_mask) gives the same mask; mask and/or/xor/andnot/not commute with the conversion to vectors.", "quantifier": "every mask, element size, length, mask representation (bool array or vector)", "why_tests_cant": "all masks", "anchors": ["simdpp/detail/null/mask.h unmask_mask", "simdpp/detail/insn/conv_to_mask.h", "simdpp/detail/insn/conv_to_mask.inl", "simdpp/detail/cast_bitwise.h"]}
{"id": "C31", "title": "extract_bits / extract_bits_any", "statement": "extract_bits_any packs one bit per lane of a mask-like vector in lane order, extract_bits<id> takes bit id of each byte; on every configuration.", "quantifier": "every vector value, id, length", "why_tests_cant": "2^128 vectors", "anchors": ["simdpp/detail/insn/extract_bits.h", "simdpp/core/extract_bits.h"]}
{"id": "C32", "title": "Floating-point sign manipulation", "statement": "neg flips exactly the sign bit, abs clears it, sign isolates it, copysign combines magnitude and sign bits, for all bit patterns including NaN, infinities and zeros.", "quantifier": "every 32-/64-bit pattern, every configuration", "why_tests_cant": "2^32 x 2^32 patterns", "anchors": ["simdpp/detail/insn/f_neg.h", "simdpp/detail/insn/f_abs.h", "simdpp/detail/insn/f_sign.h", "simdpp/core/f_copysign.h"]}
{"id": "C33", "title": "isnan / isnan2 / isfinite classify every bit pattern", "statement": "isnan is true exactly on NaN patterns, isnan2 exactly when either argument is NaN, isfinite exactly when the value is neither NaN nor infinite.", "quantifier": "every bit pattern (pair), every configuration", "why_tests_cant": "2^64..2^128 patterns", "anchors": ["simdpp/detail/insn/f_isnan.h", "simdpp/detail/insn/f_isnan2.h", "simdpp/core/f_isfinite.h", "simdpp/detail/null/math.h"]}
{"id": "C34", "title": "Float rounding emulation", "statement": "floor, ceil and trunc return the IEEE result for every finite input on configurations without rounding instructions (convert-and-fix-up emulation), and pass large values, infinities and NaN through.", "quantifier": "every float32 and float64 pattern, every build", "why_tests_cant": "2^32 patterns per function and arch", "anchors": ["simdpp/detail/insn/f_floor.h", "simdpp/detail/insn/f_ceil.h", "simdpp/detail/insn/f_trunc.h"]}
{"id": "C35", "title": "bitonic_sort sorts", "statement": "bitonic_sort_asc/dec on one or two 8-lane vectors returns the lanes in non-decreasing/non-increasing order and the result is a permutation of the input, for signed and unsigned 32-bit integer lanes on every build, and for float lanes without NaN up to the sign of zeros.", "quantifier": "every build and every input of 8 or 16 lanes", "why_tests_cant": "2^256..2^512 inputs", "anchors": ["simdpp/algorithm/bitonic_sort.h"]}
{"id": "C36", "title": "Dispatcher selects the best supported version", "statement": "Given the list of compiled versions and the detected CPU features, the dispatcher calls a version whose required features are all present, and of all such versions one with the maximal requirement value; it aborts only if no version is runnable; null entries are never called.", "quantifier": "every list of versions (in any registration order) and every feature set", "why_tests_cant": "all subsets of features, all version lists, any order incl. ties under unstable sort", "anchors": ["simdpp/dispatch/dispatcher.h select_version_any", "simdpp/dispatch/arch.h test_arch_subset"]}
{"id": "C37", "title": "Dispatcher is stable under concurrency and repetition", "statement": "Under every interleaving of any number of threads calling a dispatched function for the first time, every call invokes a best supported version, and once chosen the choice does not change.", "quantifier": "every number of threads, every schedule, every call history", "why_tests_cant": "schedules", "anchors": ["simdpp/dispatch/make_dispatcher.h SIMDPP_DETAIL_MAKE_DISPATCHER_IMPL"]}
{"id": "C38", "title": "CPU feature detection is sound and downward closed", "statement": "Features reported by get_arch_* are supported by CPU and OS; /proc/cpuinfo, string-list and builtin detection are closed under implied features, monotone in the input, order-independent and duplicate-insensitive.", "quantifier": "every cpuid/xcr value, every cpuinfo text, every string list and prefix", "why_tests_cant": "2^200 register contents, arbitrary text", "anchors": ["simdpp/dispatch/get_arch_raw_cpuid.h", "simdpp/dispatch/get_arch_linux_cpuinfo.h", "simdpp/dispatch/get_arch_string_list.h", "simdpp/dispatch/get_arch_gcc_builtin_cpu_supports.h"]}
{"id": "C39", "title": "Compile-time architecture selection is closed under implications", "statement": "Whatever SIMDPP_ARCH_* macros the user defines, the resulting set of enabled instruction sets is closed under prerequisites (AVX2 implies AVX implies SSE4.1 ...), and this_compile_arch() reports exactly the enabled set.", "quantifier": "every combination of user macros", "why_tests_cant": "2^20 macro combinations", "anchors": ["simdpp/detail/preprocess_single_arch.h", "simdpp/setup_arch.h", "simdpp/dispatch/preprocess_single_compile_arch.h"]}
{"id": "C40", "title": "aligned_allocator returns aligned, in-bounds, disjoint storage and frees exactly what it allocated", "statement": "For every history of allocate/deallocate calls, each returned pointer is a multiple of A, the n*sizeof(T) bytes lie inside the block obtained from operator new without overlapping the stored back pointer, live blocks are disjoint, and deallocate frees exactly the original block once; allocate(0) returns null, oversize requests throw.", "quantifier": "every allocation history, every address operator new may return, every T size, every power-of-two A, every n", "why_tests_cant": "all addresses, histories, and the overflow boundary", "anchors": ["simdpp/core/aligned_allocator.h"]}
{"id": "C41", "title": "for_each visits each lane once in order", "statement": "for_each(v,f) calls f on lane 0,1,...,N-1, each exactly once, for every vector length and configuration.", "quantifier": "every vector length, function with arbitrary state", "why_tests_cant": "lengths and effects", "anchors": ["simdpp/core/for_each.h", "simdpp/detail/for_each.h"]}
{"id": "C42", "title": "Expression result types", "statement": "The element type and signedness of the result of a binary operation depend only on the operands' element types, by a commutative, idempotent promotion: the later of mask_int < mask_float < int < uint < float at the wider element size, two masks of different sizes giving uint. Regrouping operands does not change the result type, unless two masks of different sizes meet a signed vector.", "quantifier": "all pairs and triples of vector types and scalars", "why_tests_cant": "the type lattice is checked by compilation only for instantiated pairs", "anchors": ["simdpp/detail/get_expr.h", "simdpp/core/detail/get_expr_uint.h", "simdpp/core/detail/get_expr_bitwise.h"]}
{"id": "C43", "title": "Scalar arguments and constants convert by C++ rules", "statement": "make_uint/make_int/make_float/splat and scalar operands put in lane i the argument number i modulo the argument count, converted to the element type: modulo 2^w for integer lanes, to the nearest number for floating-point lanes. The splat of an 8-bit value of 128 or more on x86 builds without AVX2 is excepted (signed overflow in the source).", "quantifier": "every argument value, argument count, vector length and type", "why_tests_cant": "all values and lengths", "anchors": ["simdpp/core/make_uint.h", "simdpp/detail/insn/make_const.h", "simdpp/core/detail/scalar_arg_impl.h", "simdpp/detail/null/set.h"]}
{"id": "C44", "title": "clamp", "statement": "clamp(v,lo,hi) returns std::clamp per lane whenever lo <= hi, result within [lo,hi], and is idempotent.", "quantifier": "every target build configuration in the model's scope (NULL, SSE2..AVX2/AVX512, NEON paths as selected by the preprocessor), every vector length the library allows, every element value", "why_tests_cant": "A test samples a few operand values on the one instruction set it was built for; 2^64..2^128 operand pairs per lane and a dozen instruction-set paths cannot be enumerated.", "anchors": ["simdpp/core/i_clamp.h", "simdpp/core/f_clamp.h"]}
{"id": "C45", "title": "Vector bit_cast preserves bits", "statement": "bit_cast between vector types of equal size preserves the bit content, round-trips, and composes; casts through memory agree.", "quantifier": "every vector value and type pair", "why_tests_cant": "all values", "anchors": ["simdpp/core/cast.h", "simdpp/detail/cast.inl"]}
{"id": "C46", "title": "Conversions to floating point round to nearest", "statement": "to_float32/to_float64 of an integer or floating-point vector puts in each lane the representable number nearest to the source lane, ties to even (exactly the same number when it is representable; NaN, infinities and signed zeros are kept between float and double), whichever instruction or emulation the configuration uses.", "quantifier": "every lane value, every vector length, every configuration", "why_tests_cant": "2^32..2^64 values per type, rounding, and per-architecture emulations", "anchors": ["simdpp/detail/insn/conv_any_to_float64.h", "simdpp/detail/insn/conv_any_to_float32.h"]}
{"id": "C47", "title": "float min/max select an argument", "statement": "min/max on floating-point vectors return one of the two arguments, the lesser/greater one, whenever neither is NaN; otherwise one of the arguments or a NaN.", "quantifier": "every pair of bit patterns", "why_tests_cant": "2^64+ pairs", "anchors": ["simdpp/detail/insn/f_min.h", "simdpp/detail/insn/f_max.h", "simdpp/detail/null/math.h min max"]}
{"id": "C48", "title": "Floating-point reductions use a fixed combination tree", "statement": "reduce_add/mul/min/max on float vectors equals the fold of all lanes over a binary tree that depends only on the vector type; for min/max the result is the extremum of NaN-free input.", "quantifier": "every vector length and value", "why_tests_cant": "lengths, values", "anchors": ["simdpp/detail/insn/f_reduce_add.h", "simdpp/detail/insn/f_reduce_min.h", "simdpp/detail/insn/f_reduce_max.h", "simdpp/detail/insn/f_reduce_mul.h"]}
{"id": "C49", "title": "Conversions from floating point truncate", "statement": "to_int8/16/32/64 and to_uint8/16/32/64 of a floating-point vector give in each lane the integer part (fraction dropped) whenever it fits in the destination type, whichever instruction or emulation the configuration uses.", "quantifier": "every lane value whose integer part fits, every vector length, every configuration", "why_tests_cant": "2^32..2^64 values per type and per-architecture emulations", "anchors": ["simdpp/detail/insn/conv_float_to_int8.h", "simdpp/detail/insn/conv_float_to_int16.h", "simdpp/detail/insn/conv_float_to_int32.h", "simdpp/detail/insn/conv_float_to_int64.h"]}
{"id": "C50", "title": "Floating-point add, sub, mul, fmadd, fmsub are correctly rounded", "statement": "add, sub and mul of floating-point vectors return in each lane the representable number nearest to the exact sum, difference or product (ties to even; IEEE rules for NaN, infinities and zeros); fmadd(a,b,c) = a*b+c and fmsub(a,b,c) = a*b-c are rounded once; every configuration agrees.", "quantifier": "every pair or triple of bit patterns, every vector length, every configuration", "why_tests_cant": "2^64..2^192 operand combinations and per-architecture operand orders", "anchors": ["simdpp/core/f_add.h", "simdpp/core/f_mul.h", "simdpp/detail/insn/f_add.h", "simdpp/detail/insn/f_sub.h", "simdpp/detail/insn/f_mul.h", "simdpp/detail/insn/f_fmadd.h", "simdpp/detail/insn/f_fmsub.h"]}
{"id": "C51", "title": "load_splat broadcasts one element", "statement": "load_splat(p) returns a vector all of whose lanes are the element stored at p, reading only that element (VSX builds read 16 bytes for 64-bit elements), for every element-aligned address.", "quantifier": "every memory content, element-aligned address, element type, vector length, configuration", "why_tests_cant": "all memory states; over-reads are invisible to value tests", "anchors": ["simdpp/core/load_splat.h", "simdpp/detail/insn/load_splat.h", "simdpp/detail/altivec/load1.h"]}
{"id": "C52", "title": "Division, square root and reciprocal estimates meet their accuracy", "statement": "div and sqrt of floating-point vectors return the representable number nearest to the exact quotient or root (IEEE rules for special values) on every configuration with a division or root instruction. Where float32 goes through the processor's estimates (div: 32-bit NEON, AltiVec without VSX; sqrt: 32-bit NEON and AltiVec), operands and results away from the ends of the range (2^+-124) give a quotient within 6*2^-24 of the exact one, relative, if the estimate is within 1/128, and a root within 2*d^2+8*2^-24 if the estimate is within d <= 1/8. One rcp_rh takes a relative error e <= 1/4 to e^2+4*2^-24, one rsqrt_rh takes e <= 1/8 to 2*e^2+6*2^-24, on every configuration.", "quantifier": "every bit pattern (pair), every estimate function of the stated accuracy, every configuration", "why_tests_cant": "2^64 operand pairs, real-valued error bounds, and estimates that differ between processors", "anchors": ["simdpp/detail/insn/f_div.h", "simdpp/detail/insn/f_sqrt.h", "simdpp/detail/insn/f_rcp_e.h", "simdpp/detail/insn/f_rcp_rh.h", "simdpp/detail/insn/f_rsqrt_e.h", "simdpp/detail/insn/f_rsqrt_rh.h"]}
{"id": "C53", "title": "log2_approx approximates the binary logarithm", "statement": "log2_approx(v) returns in each lane a number that differs from log2 of a positive finite lane by at most 0.0051; NaN and negative lanes (including -inf) give NaN, both zeros give -inf, +inf gives +inf; log2_approx_positive_finite has the same error on positive finite lanes; on every configuration.", "quantifier": "every lane value, every vector length, every configuration", "why_tests_cant": "2^32 values against a real-valued function, per configuration (fused or separate products)", "anchors": ["simdpp/math/log2_approx.h"]}
{"id": "C54", "title": "A lane-wise program means the scalar program on every build", "statement": "An expression over integer vectors and masks of one element size (variables, constants, + - * & | ^ ~, andnot, min, max, saturating and averaging functions, mul_hi, neg, abs, shifts, signedness casts, comparisons, mask operators, blend) evaluates, on every build and vector length where its operators exist and are defined for the lanes, in every lane to the scalar computation on the same lane of the variables; so two builds with different register sizes give the same lanes. Expressions without build- or value-dependent operators need no side condition.", "quantifier": "every expression of any depth, every build, vector length and lane value", "why_tests_cant": "unboundedly many expressions times all inputs times all builds", "anchors": ["simdpp/core/*.h", "simdpp/operators/*.h", "simdpp/detail/vector_array_macros.h", "simdpp/detail/insn/*.h", "simdpp/detail/get_expr.h"]}
{"id": "C55", "title": "A vectorised array loop is the scalar loop", "statement": "for (i) store(out + i*N, f(load(in_x + i*N)..)) followed by store_first for the remaining elements leaves in out[j], for every j below the element count, the scalar result of f on the elements the inputs held at the start, and changes no other byte; any element count, inputs disjoint from the output or starting at or after it (in place).", "quantifier": "every memory content, every element count, every expression f, every build and vector length, every placement of the arrays", "why_tests_cant": "all memory states, counts, placements and expressions", "anchors": ["simdpp/core/load.h", "simdpp/core/store.h", "simdpp/core/store_first.h", "simdpp/detail/insn/load.h", "simdpp/detail/insn/store.h", "simdpp/detail/insn/store_first.h"]}
{"id": "C56", "title": "A floating-point program means the IEEE program on every build", "statement": "An expression over float32 or float64 vectors and masks (variables, constants, + - * / sqrt, neg, abs, copysign, min, max, fmadd, fmsub, & | ^ ~, comparisons, isnan, isfinite, mask operators, blend) evaluates, on every build and vector length where its operations are IEEE operations, in every lane to the scalar IEEE computation on the same lane of the variables, with one fixed choice per build of what IEEE leaves open (min/max of equal zeros and NaN; sign of zero products on AltiVec without VSX). Without min/max, builds other than AltiVec without VSX compute identical bits (NaN payloads aside). A load/compute/store(_first) loop over arrays is the scalar loop.", "quantifier": "every expression, every lane value, every build and vector length; every memory content, element count and placement for loops", "why_tests_cant": "all expressions, values, register sizes", "anchors": ["simdpp/core/f_add.h", "simdpp/core/f_mul.h", "simdpp/operators/f_mul.h", "simdpp/core/f_fmadd.h", "simdpp/core/blend.h", "simdpp/detail/vector_array_macros.h", "simdpp/core/load.h", "simdpp/core/store_first.h"]}
{"id": "C57", "title": "Multi-architecture programs call the right build", "statement": "When one source is compiled several times for different instruction sets of one processor family and the dispatcher is given the same lists in any of its 15 slots (gaps allowed), the namespaces of different builds have different names, the program compiles and links exactly if no two builds use the same instruction sets (and none mixes FMA3 and FMA4), and a call runs the function of a registered build all of whose instruction sets (including implied ones) the processor has; among those it is the one using the most advanced instruction set that distinguishes them, independent of the sort order; it aborts only if no registered build can run, never if an unspecialised build is registered. Slots beyond 15 have no effect.", "quantifier": "every collection of builds and slot assignment, every processor, every order std::sort may leave", "why_tests_cant": "all subsets of 20 instruction sets per build, all assignments to slots, all processors", "anchors": ["simdpp/detail/preprocess_single_arch.h", "simdpp/detail/insn_id.h", "simdpp/setup_arch.h", "simdpp/dispatch/collect_macros_generated.h", "simdpp/dispatch/make_dispatcher.h", "simdpp/dispatch/preprocess_single_compile_arch.h", "simdpp/dispatch/dispatcher.h"]}
{"id": "C58", "title": "Scalar operands of bitwise operations", "statement": "bit_and, bit_or, bit_xor and bit_andnot (and & | ^) of a vector, integer or floating-point, with an integer scalar on either side combine every lane with the two's complement bits of the scalar in the width of the lane. Excepted: & | andnot of 64-bit lanes with a negative scalar of a 32-bit type, where the upper half of the scalar reads as zeros.", "quantifier": "every scalar value and type, lane value, element size, vector length, configuration", "why_tests_cant": "all scalars and lanes, per type promotion", "anchors": ["simdpp/detail/expr/scalar.h", "simdpp/core/bit_and.h", "simdpp/core/bit_or.h", "simdpp/core/bit_xor.h", "simdpp/core/bit_andnot.h"]}
{"id": "C59", "title": "A program over several element types means the scalar program on every build", "statement": "An expression that mixes element types - integer expressions (C54) and floating-point expressions (C56) nested in any way through the conversions to_int8 .. to_uint64, to_float32, to_float64 and through bit_cast between element types of one size - evaluates in every lane to the scalar computation on the same lane of the variables, on every build and vector length where its operators and conversions exist and are defined for the lanes, although source and result of a conversion occupy different numbers of registers. Without floating-point min/max, builds other than AltiVec without VSX give identical bits. A load/compute/store(_first) loop over arrays of different element types leaves the scalar results in the output and changes no other byte, also when an input overlaps the output from its start on with elements at least as large.", "quantifier": "every expression of any depth over the ten element types, every lane value, build and vector length; every memory content, element count and placement for loops", "why_tests_cant": "all expressions, values, register sizes and type combinations", "anchors": ["simdpp/core/to_int8.h", "simdpp/core/to_int16.h", "simdpp/core/to_int32.h", "simdpp/core/to_int64.h", "simdpp/core/to_float32.h", "simdpp/core/to_float64.h", "simdpp/core/cast.h", "simdpp/detail/cast_bitwise.h", "simdpp/detail/insn/conv_*.h", "simdpp/core/load.h", "simdpp/core/store_first.h"]}
{"id": "C60", "title": "A vectorised reduction of arrays is the scalar reduction", "statement": "A loop which loads a vector from each input array, evaluates an expression over several element types (C59), accumulates with +, max, min, | or & and finally reduces the accumulator with reduce_add, reduce_max, reduce_min, reduce_or or reduce_and returns, for arrays of any number of vectors: the sum over all elements modulo 2^w (32- and 64-bit integers), the greatest or least value over all elements (integers of every size, NaN-free floating point), the bits set in some or in every element, and the exact floating-point sum when the values are integers small enough for partial sums to be exact, although lanes and registers regroup the elements differently on every build. Dot products of int16 arrays and counts of elements in a relation are instances.", "quantifier": "every expression, memory content, number of vectors, build and vector length", "why_tests_cant": "all memory states, array lengths and expressions; the order of combination differs per build", "anchors": ["simdpp/core/load.h", "simdpp/core/i_reduce_add.h", "simdpp/core/i_reduce_max.h", "simdpp/core/i_reduce_min.h", "simdpp/core/i_reduce_or.h", "simdpp/core/i_reduce_and.h", "simdpp/core/f_reduce_add.h", "simdpp/core/f_reduce_max.h", "simdpp/core/f_reduce_min.h", "simdpp/core/make_int.h"]}
{"id": "C61", "title": "simdpp_multiarch generates a correct multi-architecture build", "statement": "simdpp_multiarch turns a list of architecture definitions (comma separated identifiers, any order) into one source file per definition, with different names for different definitions, each compiled with exactly the macros of its definition; slot n of the dispatcher lists exactly the macros of definition n. With NONE_NULL as the first of at most fifteen definitions for different instruction sets of one processor family, exactly one file contains the dispatcher, the program builds, and on every processor of the family a call reaches the best file which that processor can run. The lists of simdpp_get_compilable_archs and simdpp_get_runnable_archs satisfy these conditions for every outcome of their checks within a family, and every listed architecture runs on the checking processor if that has POPCNT with AVX, FMA3 and POPCNT with AVX-512F. Excepted: a first definition other than NONE_NULL (the flags run together and no dispatcher is emitted), a caller variable named ARCHS, a sixteenth definition, both ARM checks succeeding.", "quantifier": "every list of definitions, every source file name, every table of compiler flags, every outcome of the checks, every processor", "why_tests_cant": "all lists, orders and outcomes of the checks; the build files of other architectures are never run on one machine", "anchors": ["cmake/SimdppMultiarch.cmake simdpp_get_arch_info simdpp_multiarch simdpp_get_arch_perm simdpp_get_compilable_archs simdpp_get_runnable_archs", "simdpp/dispatch/collect_macros_generated.h", "simdpp/detail/preprocess_single_arch.h"]}
{"id": "C62", "title": "Floating-point sums and products of vectors and arrays meet the standard error bound", "statement": "reduce_add of N finite lanes differs from the exact sum of the lanes by at most ((1+e)^(N-1)-1) times the sum of their magnitudes (e = 2^-24 for float, 2^-53 for double; the factor is at most 2*(N-1)*e while (N-1)*e <= 1/2), and reduce_mul from the exact product by a factor between (1-e)^(N-1) and (1+e)^(N-1), on every build, although every build combines the lanes in another order; so two builds differ by at most twice the bound. The sum over arrays of n vectors of an expression (C60) adds n roundings; the dot product of two arrays is within ((1+e)^(n+N)-1) * sum |x y|. Side conditions: the magnitudes stay below overflow, products are zero or not subnormal.", "quantifier": "every finite lane value or memory content, every vector length and number of vectors, every build", "why_tests_cant": "real-valued error bounds over all inputs; the order of summation differs per build and length", "anchors": ["simdpp/core/f_reduce_add.h", "simdpp/core/f_reduce_mul.h", "simdpp/detail/insn/f_reduce_add.h", "simdpp/detail/insn/f_reduce_mul.h", "simdpp/core/f_add.h", "simdpp/core/f_mul.h", "simdpp/core/load.h"]}
{"id": "C63", "title": "Loops over arrays at arbitrary addresses and moving windows", "statement": "A loop which reads any of its inputs with load_u (at any multiple of the element size), the others with load, evaluates an expression (C59) and writes with store and store_first leaves in out[j] the scalar result on the elements the inputs held at the start and changes no other byte, for every element count; with store_u the output may lie at any address as well. In particular out[j] = f(in[j], in[j+1], .., in[j+V-1]) computed with one load_u per tap is right for every number of taps, also in place and when the input starts anywhere after the output. (On AltiVec without VSX the rest of the 16-byte blocks around unaligned arrays must be accessible.)", "quantifier": "every expression, number of inputs, placement, memory content, element count, build and vector length", "why_tests_cant": "all memory states, addresses and counts; the overlap of reads and writes depends on the vector length", "anchors": ["simdpp/core/load_u.h", "simdpp/core/store_u.h", "simdpp/core/load.h", "simdpp/core/store.h", "simdpp/core/store_first.h", "simdpp/detail/insn/load_u.h", "simdpp/detail/insn/store_u.h"]}
{"id": "C64", "title": "Loops over arrays of structures", "statement": "A loop which reads records of one to four members with load or load_packed2/3/4, computes each member of a result record by an expression (C59) of the members and writes the result records with store or store_packed2/3/4 leaves in member y of result j the scalar result on the members of record j at the start and changes no other byte; also in place when result records are not longer. Excepted: store_packed2 with 16-byte registers at addresses which are not multiples of 32 (C27).", "quantifier": "every expression, record size, memory content, number of vectors, build and vector length", "why_tests_cant": "all memory states and sizes; the shuffles between record and vector order differ per build and element size", "anchors": ["simdpp/core/load_packed2.h", "simdpp/core/load_packed3.h", "simdpp/core/load_packed4.h", "simdpp/core/store_packed2.h", "simdpp/core/store_packed3.h", "simdpp/core/store_packed4.h"]}
{"id": "C65", "title": "Big-endian AltiVec and VSX builds give the same lanes", "statement": "On big-endian AltiVec and VSX builds the functions whose code depends on the byte order (move, align, unzip, extension and narrowing of integers, conversions between float, double and 32-bit integers, mull, mul_lo, mul_hi, extract_bits_any, 64-bit shuffles) give, on one register, the lanes documented for every target. Excepted on VSX: to_int64 and to_uint64 of 32-bit lanes, to_int32/to_uint32 of double, to_float64 of 32-bit integers, permute2 and shuffle2x2 of 64-bit lanes; there the exact wrong result is stated. move and align by an amount at one end of their range do not compile.", "quantifier": "every lane value, element size, shift and selector", "why_tests_cant": "all values; the test machines are little-endian", "anchors": ["simdpp/detail/insn/move_l.h", "simdpp/detail/insn/move_r.h", "simdpp/detail/insn/align.h", "simdpp/detail/insn/unzip_lo.h", "simdpp/detail/insn/unzip_hi.h", "simdpp/detail/insn/conv_extend_to_int16.h", "simdpp/detail/insn/conv_extend_to_int32.h", "simdpp/detail/insn/conv_extend_to_int64.h", "simdpp/detail/insn/conv_float_to_int32.h", "simdpp/detail/insn/conv_any_to_float64.h", "simdpp/detail/insn/i_mul_lo.h", "simdpp/detail/insn/i_mul_hi.h", "simdpp/detail/insn/extract_bits.h", "simdpp/detail/shuffle/shuffle_mask.h"]}
{"id": "C66", "title": "A program with shuffles means the same movement of elements on every build", "statement": "An expression of lane-wise operations over several element types (C59) and of shuffles inside 128-bit blocks (permute2, permute4, splat, move_l, move_r, align, zip_lo, zip_hi, unzip_lo, unzip_hi, shuffle1, shuffle2, shuffle4x2), nested in any way, evaluates in lane j to the meaning of the expression, where a shuffle only names the lane each element comes from and a lane-wise operation is the scalar operation - on every build, compiler and vector length; without floating-point min/max, builds other than AltiVec without VSX give identical bits. The loop over arrays with such a body (load, evaluate, store, store_first) gives out[j] = element j of the meaning over the whole arrays, which does not depend on the vector length, and changes no other byte. Running sums of blocks of four and products of interleaved complex numbers are instances.", "quantifier": "every expression of any depth, lane value, build, compiler, vector length; every memory content, element count and placement for loops", "why_tests_cant": "all expressions and values; registers of 128, 256 and 512 bits split the lanes differently", "anchors": ["simdpp/core/permute2.h", "simdpp/core/permute4.h", "simdpp/core/splat_n.h", "simdpp/core/move_l.h", "simdpp/core/move_r.h", "simdpp/core/align.h", "simdpp/core/zip_lo.h", "simdpp/core/zip_hi.h", "simdpp/core/unzip_lo.h", "simdpp/core/unzip_hi.h", "simdpp/core/shuffle1.h", "simdpp/core/shuffle2.h", "simdpp/core/shuffle4x2.h", "simdpp/detail/vector_array_macros.h"]}
{"id": "C67", "title": "Code chosen by the compiler's version gives the same results", "statement": "Where the headers replace a function's code for particular compilers and the replacement is not the same instruction - integer comparisons without the XOP instructions (clang 3.4/3.5), shuffle_bytes16 on SSSE3 (clang 3.6/3.7), make_int/make_uint of 64-bit lanes (32-bit MSVC), blend of 256-bit float64 by a lane mask (compilers other than GCC, AVX without AVX2), load_u of vectors longer than one register (Intel compiler) - the result is the one documented for every compiler. Excepted: with the XOP workaround the ordered comparisons of 64-bit lanes disappear on builds without AVX2.", "quantifier": "every lane value, constant, legal mask, address and memory content, vector length and configuration", "why_tests_cant": "the compiler versions concerned are not in the test matrix, all values", "anchors": ["simdpp/detail/workarounds.h", "simdpp/detail/insn/cmp_lt.h", "simdpp/detail/insn/shuffle_bytes16.h", "simdpp/detail/insn/make_const.h", "simdpp/detail/insn/blend.h", "simdpp/detail/insn/load_u.h"]}
{"id": "C68", "title": "On 32-bit NEON float32 programs compute with flush-to-zero, and nothing else differs", "statement": "The 32-bit NEON unit treats subnormal numbers as zeros whatever the program asks for. There a float32 expression (arithmetic, min, max, comparisons, classification, bit operations, blends; vectors of any length, loops over arrays) is in every lane the scalar computation with flush-to-zero arithmetic. Where the IEEE computation meets no subnormal number its bits are those of every other build. Elsewhere a finite sum or difference is off by at most the rounding error plus three times the least normal number, a product by the rounding error plus the least normal number times max(1, |x|, |y|); comparisons are never inverted; isnan and isfinite are exact; x - y is zero exactly when the operands, flushed, are closer than the least normal number. floor, ceil and trunc return a subnormal number unchanged instead of -1, 0 or 1. reduce_add, reduce_mul, reduce_min and reduce_max combine every lane once with the same operations: sums of integers below 2^24 in total magnitude are exact, any other finite sum is within the IEEE bound plus three least normal numbers for each addition. For operands away from the ends of the range a quotient of a normal dividend and a square root have the bits of the IEEE computation, with a relative error of at most 6 * 2^-24 (quotient) or 8 * 2^-24 plus twice the squared error of the hardware estimate (root); a subnormal dividend counts as zero and the square root of a subnormal number is NaN.", "quantifier": "every expression, vector length, array, memory and operand bit pattern", "why_tests_cant": "2^64 pairs of operands per operation and unboundedly many expressions; the tests run on other machines", "anchors": ["simdpp/detail/insn/f_add.h", "simdpp/detail/insn/f_sub.h", "simdpp/detail/insn/f_mul.h", "simdpp/detail/insn/f_min.h", "simdpp/detail/insn/cmp_lt.h", "simdpp/detail/insn/cmp_eq.h", "simdpp/core/f_isfinite.h", "simdpp/detail/insn/f_floor.h", "simdpp/detail/insn/f_ceil.h", "simdpp/detail/insn/f_trunc.h", "simdpp/detail/insn/f_div.h", "simdpp/detail/insn/f_sqrt.h", "simdpp/detail/insn/f_rcp_rh.h", "simdpp/detail/insn/f_rsqrt_rh.h"]}
{"id": "C69", "title": "Transposing matrices in memory tile by tile", "statement": "A double loop which loads the rows of a tile (4 by 4 elements of 32 bits, 2 by 2 elements of 64 bits), transposes it with transpose4 or transpose2 and stores the rows as the mirrored tile of another matrix leaves there the transposed matrix, element (x, y) of the result being element (y, x) of the source, and changes no other byte, for every number of tiles, every distance between rows (padding is not touched) and every build. The loop which exchanges mirrored tiles transposes a square matrix in its place; done twice it restores the memory.", "quantifier": "every matrix size in tiles, row distance, memory content, element type and build", "why_tests_cant": "all sizes and memory states; wrong addresses show only for particular shapes", "anchors": ["simdpp/core/transpose.h", "simdpp/detail/insn/transpose.h", "simdpp/detail/null/transpose.h", "simdpp/core/load.h", "simdpp/core/store.h"]}
{"id": "C70", "title": "Matrix products", "statement": "The loop which loads a row of the result, adds load_splat(a) times load(row of b) for each step of the inner index and stores the row computes C += A * B: for integers each element is the exact sum modulo 2^32 (with conversion of 8, 16 or 64-bit elements to 32 bits), for float and double it is the IEEE operations in the order of the index, with the same bits on all builds except AltiVec without VSX, and within (1 + eps)^(K + 1) - 1 of the exact value relative to the sum of magnitudes on every build. More generally any inner expression of C59 is folded in the order of the index. No byte outside the result changes.", "quantifier": "every matrix size, row distance, placement without overlap, memory content, element type, inner expression and build", "why_tests_cant": "all sizes, contents and builds; rounding and wrap-around depend on the values", "anchors": ["simdpp/core/load_splat.h", "simdpp/core/load.h", "simdpp/core/store.h", "simdpp/detail/insn/load_splat.h", "simdpp/core/i_mul.h", "simdpp/core/f_mul.h"]}
{"id": "C71", "title": "Loops which carry a vector from one step to the next", "statement": "A loop which loads a vector of every input array, computes a result to store and a new carried vector with any expressions of C66 from the loaded vectors and the carried one, and finishes a partial vector with store_first, writes exactly the values of the recurrence, in place or into another array, returns the last carried vector and changes no byte outside the result. Instances: running sums built from move_r, add and splat are the exact prefix sums modulo 2^w for every element width; differences of neighbours built from align and sub are exact; running sums in place after differences in place restore the array, even if the two loops are compiled for different instruction sets; filters (weighted sums of an element and those before it, built from align, mul_lo and add, up to one more weight than lanes) are exact modulo 2^w; running sums of float and double are within (1 + eps)^(log2(lanes) + j / lanes + 1) - 1 of the exact prefix sum relative to the sum of magnitudes, and exact for integer-valued elements while the sum of magnitudes is below 2^24 or 2^53.", "quantifier": "every element count, placement, memory content, carried start vector, pair of expressions, element type and build", "why_tests_cant": "all counts, contents and builds; the carried vector makes each result depend on the whole prefix of the input", "anchors": ["simdpp/core/load.h", "simdpp/core/store.h", "simdpp/core/store_first.h", "simdpp/core/move_r.h", "simdpp/core/align.h", "simdpp/core/splat_n.h", "simdpp/core/i_add.h", "simdpp/core/i_sub.h", "simdpp/core/f_add.h"]}
{"id": "C72", "title": "Searching arrays with an early exit", "statement": "A loop which loads vectors one after the other, evaluates a condition (any mask expression of C54, or of C56 for float and double, over any number of arrays), turns the mask into a vector and leaves at the first vector in which extract_bits_any or test_bits_any finds a set bit returns the position of the first element satisfying the condition (respectively the number of the first vector with such an element), or the element count if there is none; with extract_bits_any the position inside the vector is that of the lowest bit. Nothing behind the vector with the hit is read. memchr, strlen and memcmp (the first difference of two arrays) are instances, with the same result on every build; float and double conditions without min and max give the same result on all builds except AltiVec without VSX.", "quantifier": "every condition, number of arrays, element count, memory content, readable part of memory covering the hit, build (and vector length for test_bits_any)", "why_tests_cant": "all contents and positions of the first hit; reading past the end is invisible to value tests", "anchors": ["simdpp/core/load.h", "simdpp/core/extract_bits.h", "simdpp/detail/insn/extract_bits.h", "simdpp/core/test_bits.h", "simdpp/detail/insn/test_bits.h", "simdpp/core/cmp_eq.h", "simdpp/types/int8.h unmask"]}
{"id": "C73", "title": "Programs with table lookups on bytes", "statement": "A straight-line program over uint8 vectors whose statements are expressions of C54 or lookups in constant tables of 16 bytes (permute_bytes16, permute_zbytes16 with zero for indices with the highest bit) or 32 bytes (shuffle_bytes16), the tables made by make_uint, computes in every lane what the scalar program computes, for every vector length and every build which has the lookups (all but SSE2 and SSE3 without SSSE3), as long as the indices are inside the tables. The loop over arrays with load, store and store_first leaves the scalar results in the output, in place or elsewhere, for every element count, and changes no other byte. Counting the bits of each byte, reversing them, and looking up the low half of each byte in any table are instances.", "quantifier": "every program, table, memory content, element count, placement, vector length and build", "why_tests_cant": "all programs, tables and contents; registers of 256 and 512 bits look up in each block of 16 separately", "anchors": ["simdpp/core/permute_bytes16.h", "simdpp/core/permute_zbytes16.h", "simdpp/core/shuffle_bytes16.h", "simdpp/detail/insn/permute_bytes16.h", "simdpp/detail/insn/permute_zbytes16.h", "simdpp/detail/insn/shuffle_bytes16.h", "simdpp/core/make_uint.h", "simdpp/core/load.h", "simdpp/core/store_first.h"]}
{"id": "C74", "title": "Threads working on disjoint parts of memory", "statement": "Any number of threads each run a loop of C59 (load, compute, store, store_first), on the same or on different builds, where no thread's output, rounded up to whole vectors, overlaps another thread's output or inputs. Then in every interleaving of the single byte accesses of the threads no thread gets stuck, the number of accesses is bounded, and when all have finished every output element is the scalar result on the elements at the start and no other byte has changed. Arrays of any length divided into parts of B elements, B a multiple of the vector length, meet the condition, also in place, and give the same result as one loop. Where store_first writes single elements or uses masked stores (portable build; 64-bit elements and floats on AVX and NEON; 32 and 64-bit elements in 256 and 512-bit registers) it accesses nothing but the elements it stores and the output needs no rounding. Elsewhere the rounding is necessary: store_first of bytes on SSE2, NEON and MSA reads and writes back the bytes behind the stored elements, and store_u on AltiVec without VSX those before and behind the vector in its aligned blocks, so a write to them by another thread can be lost.", "quantifier": "every schedule of the byte accesses of any number of threads, every loop body, element count, placement, memory content and build", "why_tests_cant": "all schedules; a lost write needs a particular interleaving, and which bytes an access touches is not visible to a single thread", "anchors": ["simdpp/core/load.h", "simdpp/core/store.h", "simdpp/core/store_first.h", "simdpp/detail/insn/load.h", "simdpp/detail/insn/store.h", "simdpp/detail/insn/store_first.h", "simdpp/detail/insn/store_u.h", "simdpp/detail/null/memory.h"]}
