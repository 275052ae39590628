{
 "C02": {
  "note": "append_bits with width 0 is not a no-op on aligned vectors (C02_append_bits_zero_defect, for every such vector); everything else proved."
 },
 "C05": {
  "note": "b = 0 excluded because of the append_bits(_,0) defect (C05_pack_zero_defect, for every input). unpack_element proved unless the end of the element exceeds usize::MAX, where it panics (C05_unpack_overflow_defect)."
 },
 "C08": {
  "note": "== ignores the last limb when the length is a positive multiple of 64 (counterexample theorem); exact behaviour and Hash agreement proved for all vectors."
 },
 "C09": {
  "note": "get_bits of width 64 at unaligned positions drops the upper part (C09_get_bits_defect, for every vector and position); all other queries proved. As for C04, pos + n must be a usize."
 },
 "C16": {
  "note": "get_bits(len, 0) panics when len is a multiple of 64 (C16_get_bits_zero_defect, for every such vector); pos + n above usize::MAX panics (C16_get_bits_overflow_defect, for every vector); all other arguments proved."
 },
 "C19": {
  "note": "nth_back(n) panics when n is at least the number of remaining elements and the first element is still among them (C19_nth_back_defect, after every history of calls); C19_calls_partial covers all other calls."
 },
 "C54": {
  "note": "Proved for the documented behaviour of the derive (fields by name or by position, integer ranges), for every constructed structure with usize lengths (Elias-Fano vectors: fewer than 2^60 elements). The generated code and the formats are outside the repository. Reading does not validate (C54_unvalidated_defect)."
 },
 "C20": {
  "note": "nth(n)/nth_back(n) with n above the number of remaining elements return None without consuming them (proved for every vector and history, C20_nth_defect, C20_wavelet_nth_defect); nth(usize::MAX) after next overflows (C20_nth_overflow_defect); all other call histories proved, for BitVec, RsVec and the four iterators of WaveletMatrix."
 },
 "C26": {
  "note": "last()/max() omit the offset of the vector (C26_last_defect: exact result for every sequence and history); nth(n)/nth_back(n) above the remaining length do not consume (C26_nth_defect); nth(usize::MAX) after next overflows (C26_nth_overflow_defect); everything else proved for all call histories."
 },
 "C21": {
  "note": "For every function in place of the float logarithm that is monotone, positive from 2 on and at most 64 (LogLike)."
 },
 "C27": {
  "note": "new/from_bitvec/from_bitvec_inverted, all checked queries and iter1 (call histories as in C26) proved; new panics in debug builds on positions that are not strictly increasing (C27_new_panics); From<BitVec> yields the complement (C27_convert_defect); the unchecked queries panic before the first one (C27_unchecked_defect)."
 },
 "C29": {
  "note": "Construction panics from 2^39-127 elements on (proved for every such vector), documented limit is 2^40; everything else proved."
 },
 "C30": {
  "note": "Every non-empty range proved. Empty and reversed ranges: exact result for BinaryRmq on every structure (the last index if the range lies behind the last element, a panic otherwise: C30_binary_defect). For FastRmq exact behind the last element (C30_fast_defect), inside a complete block of 128 elements (C30_fast_empty_defect), inside the incomplete last block (C30_fast_empty_last_defect), and across blocks with a complete (C30_fast_reversed_defect) or incomplete (C30_fast_reversed_last_defect) block of the start; larger starts are clamped (C30_fast_clamp)."
 },
 "C31": {
  "note": "All four constructors, all widths from 1 on (C31_zero_width states what width 0 does)."
 },
 "C32": {
  "note": "Equality of the constructed values, widths 1..63. Width 0 (non-empty sequences), width 64 and elements of more than k bits panic in the counting constructors (C32_*_defect)."
 },
 "C33": {
  "note": "u64 symbols are taken modulo 2^k (C33_wide_symbol_defect); an offset equal to the length is out of bounds."
 },
 "C34": {
  "note": "Proved for rank + length < 2^64; above, the answer is right or the call panics (C34_select_or_overflow, C34_overflow_defect)."
 },
 "C35": {
  "note": "quantile and range_min for ranges that are not reversed; reversed ranges within the bounds panic (C37_reversed_defect). range_max, range_median, get_sorted for all arguments."
 },
 "C36": {
  "note": "All ranges; u64 symbols are taken modulo 2^k (C36_wide_symbol_defect)."
 },
 "C37": {
  "note": "Everything but reversed in-bounds ranges of rank_range/quantile/range_min (panic, characterised in C37_reversed_defect) and ranks near 2^64 of select (C34_overflow_defect)."
 },
 "C38": {
  "note": "Arguments of nth/nth_back up to the number of remaining elements (the defect beyond is C20_nth_defect, same code)."
 },
 "C39": {
  "note": "All non-empty sequences, block sizes, lookup variants, indices and all i64 relative excesses; exact in release builds, and in debug builds exact or an overflow panic, only if |rel| + len > i64::MAX (C39_any_excess_partial). Empty sequences panic in debug builds (C39_empty_defect)."
 },
 "C40": {
  "note": "All sequences, indices and i64 relative excesses, as in C39; block sizes that are multiples or divisors of the lookup block size. Other block sizes give wrong results (C40_block_size_iff)."
 },
 "C48": {
  "note": "Every block and every relative excess, except relative excess zero backwards (never asked by the tree): there the answer is right if the block has one (C48_zero_hit) and wrong on every block without one (C48_zero_defect)."
 },
 "C51": {
  "note": "Every block size and starting block. Forward: every relative excess, except zero from the last block if the number of blocks is even and not a power of two (unreachable!(), C51_forward_zero_defect, for every such sequence). Backward: every non-zero relative excess; zero always answers with the block before (C51_backward_zero_defect), which is right iff that block reaches it (C51_backward_zero_hit). The tree never asks for zero."
 },
 "C41": {
  "note": "close for all sequences and block sizes; open and enclose for block sizes that are multiples or divisors of the lookup block size (others are wrong: C41_block_size_iff)."
 },
 "C42": {
  "note": "root, first_child, next_sibling, is_leaf, children for all block sizes; parent, previous_sibling, last_child, rev_children for block sizes that are multiples or divisors of the lookup block size (C42_block_size_iff)."
 },
 "C43": {
  "note": "Same block sizes for the backward queries. All levels (C43_large_levels_partial). Excluded: level_rightmost(0) with a leaf as last root, level_leftmost of the empty tree, level_leftmost(2^64 - 1) (C43_last_level_defect), level_ancestor for 2^64 - d where a position before the node is deeper by d (C43_wrapped_ancestor_defect), overflow in debug builds for levels near 2^63."
 },
 "C44": {
  "note": "All trees, nodes, block sizes."
 },
 "C45": {
  "note": "Preorder iterators in full (with nth_back as in C19 for arbitrary call sequences); postorder iterators for block sizes that are multiples or divisors of the lookup block size."
 },
 "C46": {
  "note": "All trees, nodes, indices."
 },
 "C47": {
  "note": "All call sequences. The last part of the claim fails: every sequence with equal numbers of calls in a wrong order is accepted (C47_invalid_defect). with_capacity is new, except that debug builds panic for capacities from 2^63 on (C47_with_capacity_defect)."
 },
 "C50": {
  "note": "All non-empty sequences, block sizes, arguments, relative excesses and levels, for everything not documented to panic; the panics that remain are proved as defects."
 },
 "C52": {
  "note": "Full characterisation of what the iterators yield; correct up to 16 bits or if the last chunk is full and without matching bits. Every longer vector with a match in the last chunk yields it twice (C52_defect)."
 },
 "C56": {
  "note": "Bound proved whenever some power of two separates n from max u (n+2); in the other (dense) case the size exceeds that of the slice (C56_dense_defect). C56_space_float_partial and C56_dense_float_defect state both for floating point logarithms (up to 2^44 elements, any range)."
 },
 "C59": {
  "note": "Upper bound for every block size; the documented fraction of n is refuted for the default block size (C59_factor_defect)."
 },
 "C04": {
  "note": "get/is_bit_set proved for all arguments; get_bits proved unless pos + n exceeds usize::MAX, where it panics instead of returning None (C04_get_bits_overflow_defect, for every vector)."
 },
 "C60": {
  "note": "Proved for select0 on complete select blocks (at least 8192*(k/8192+1) zeros); every query takes at most a logarithm plus the distance in super blocks from the last bit before its select block (C60_select_distance_partial), and all other select queries need that distance: they are linear, proved for every vector (C60_select_linear_defect) and with a family of vectors for every size (C60_worst_case_defect). C60_rank: a rank query depends on one super block counter, one block counter and at most 8 limbs. The number of cells read: C60_rank_reads, C60_select_reads_partial."
 },
 "C61": {
  "note": "The query's own binary search is logarithmic for every sequence and query; the select queries it makes are linear in the worst case, so the documented bound fails (C61_worst_case_defect). C61_linear_partial bounds the whole query linearly."
 },
 "C62": {
  "note": "All searching queries proved logarithmic in the number of blocks (equal to the unbounded query); node_handle is linear in the worst case (C62_node_handle_defect). The number of cells read: C62_reads_partial."
 },
 "C63": {
  "note": "select with rank + length of at least 2^64 overflows (C34_overflow_defect); the unchecked u64 order statistics are documented to truncate elements of more than 64 bits but a debug assertion rejects the call (C63_wide_quantile_defect, for every such matrix); everything else proved."
 },
 "C64": {
  "note": "From<BitVec> for SparseRSVec inverts the bits and is treated under C27."
 },
 "C65": {
  "note": "for select1 the argument ranges over usize; range queries with i <= j < len."
 },
 "C66": {
  "note": "One theorem per structure (a conjunction over its public functions) for all arguments; C66_value, C66_panic and C66_compose say how to read and combine them. Operations on wrapped values are modelled exactly where the result of a release build is claimed elsewhere (Props/Release); here only runs matter in which the debug build does not overflow."
 },
 "C67": {
  "note": "C67_f64: correctly rounded 64-bit arithmetic (SpecFloat) satisfies FloatLog, for every way to break ties; the other theorems hold for every FloatLog, i.e. also for a log2 that is exact on powers of two, has an error of at most 2^-46 and is monotone from 2^45 on. That the platform's log2 is one of these is an assumption about libm. NaN, infinities and subnormal numbers do not occur."
 },
 "C12": {
  "note": "Proved for every vector of a history without append_bits(_, 0) on an aligned length (C11). After such a call debug builds panic on construction if the word has more zeros than the vector has ones (C12_append_zero_defect)."
 },
 "C13": {
  "note": "Proved for every vector of a history without append_bits(_, 0) on an aligned length (C11). After such a call rank0 counts the zeros of the word on top (C13_append_zero_defect, for every such vector and word)."
 },
 "C14": {
  "note": "Proved for every vector of a history without append_bits(_, 0) on an aligned length (C11). After such a call select0 returns positions behind the end (C14_append_zero_defect, for every such vector and word)."
 },
 "C68": {
  "note": "The model marks the accesses in the three unsafe blocks that have one (two 16 element loads, one compress-store into [u32; 16]) with the result .ub. The block position passed to the load is sb * 16 in unbounded arithmetic in the model of select; C68_load covers the load for every 64-bit position and a wrapped guard. The fourth unsafe block (pdep) calls a register instruction and accesses no memory; that the CPU supports the instructions is not modelled."
 },
 "C69": {
  "note": "Proved for rank/select vectors (with and without SIMD), their iterators, comparisons, the bit set iterator, the tree, the wavelet matrix and get/delta/iterators/predecessor/rank of the Elias-Fano vector. The successor search is proved to end in debug builds, and in release builds if the lower half of the first element is 0; otherwise it is false: C69_successor_defect gives a structure on which a release build loops forever. Constructors are covered by their correctness theorems."
 },
 "C70": {
  "note": "Proved for the bit vectors, the range minimum structures, the constructors and the select queries of the wavelet matrix, and (debug builds) its order statistics. False for the unchecked access of Elias-Fano close to the end and for the unchecked access and ranks of the wavelet matrix: see the theorems ending in _defect."
 },
 "C49": {
  "note": "All words and ranks. C49_pdep_types extends the deposit to every integer type of the trait (the crate only uses u64); the signed instances overflow in debug builds on negative masks (C49_pdep_signed_defect), which no call of the crate reaches."
 },
 "C71": {
  "note": "The call history before the loop meets the conditions of C19/C20/C26 (the excluded calls are the defects there). The tree iterators that search backward (postorder, children from the right) need the block sizes of C40 (C71_tree_partial)."
 },
 "C72": {
  "note": "C72_queries bounds the steps (rank queries, bit accesses) of every query but select by 3k, and 7k+1 for predecessor and successor, with a step counter proved to return the same results. The select queries take one select query on each level (C72_select_levels_partial), which is linear in the length in the worst case (C72_select_defect, a family for every size); C72_select_linear_partial bounds all of them. The number of cells read: C72_reads, C72_select_reads_partial."
 },
 "C74": {
  "note": "Number of cells that determine the result (SpecProbe.lean), for structures with any contents, so that the elements of the range cannot all be compared."
 },
 "C75": {
  "note": "A call takes at most 6 steps if its result is in the super block of the previous one and this is not the last super block (C75_step_partial). The whole loop is linear in the number of bits (C75_loop_partial), also with calls of next and next_back in any order (C75_both_ends_partial). The claimed bound is false: in the last super block every call searches from the select block again (C75_last_super_block_defect, C75_worst_case_defect). The step counter returns the results of the model (C75_counter)."
 },
 "C76": {
  "note": "The constructors with a counter for the iterations of the innermost loops and the words of new vectors (Model/BuildSteps.lean, Model/BuildStepsMore.lean); the theorems contain that the results are those of the constructors without counter. The sorting constructors take O(kn) steps, less than documented. Missing: the prefix counting constructors take O(kn + 2^k) steps and at least 2^k, so the documented O(kn) does not hold (C76_prefix_counting_defect). The linear bounds of the other constructors are proved for all inputs of fewer than 2^60 elements, also unsorted ones (C76_elias_fano, C76_sparse_new, C76_sparse_from_bit_vec, C76_tree)."
 },
 "C77": {
  "note": "select with a counter for the accesses to select blocks, super blocks and blocks (selectC in Model/RsIterSteps.lean, getC in Model/EfSteps.lean); the sum over all ranks is at most 8 times the number of ranks plus twice the length, so the average is constant if the sought bits are a constant fraction, which is always so in an Elias-Fano vector. Missing: it is not constant if the sought bits are few (C77_sparse_defect)."
 },
 "C78": {
  "note": "min and max with a step counter (Model/EfSteps.lean). min of a new iterator takes at most 7 steps for every sequence; min and max after any calls take a linear number of steps with a small factor. Missing: they are not constant, because they search a super block from the select block on (C78_max_defect, C78_min_defect)."
 },
 "C79": {
  "note": "next and next_back with a step counter (Model/IterSteps.lean). Any sequence of calls on a new iterator takes at most 7 steps per call plus 18 n + 36; a complete iteration at most 25 n + 36; likewise for the set bits of a sparse vector."
 },
 "C80": {
  "note": "The select iterator with a step counter (Model/IterSteps.lean). Any sequence of calls on a new iterator takes at most 6 steps per call plus 4 n; visiting all n nodes at most 10 n."
 },
 "C81": {
  "note": "The methods that take &mut self, with their assignments in the order of the code (Model/Unwind.lean). Partial: after append_bits with width 0 on a vector of whole limbs, applying a mask changes all bits and then panics (C81_surplus_mask_defect). The iterators are treated in debug builds; in release builds the arithmetic in question wraps around."
 },
 "C82": {
  "note": "Partial: append_bits with width 0 on a vector whose length is a multiple of 64 pushes a limb, so that a vector without any bits outgrows every capacity (C82_append_nothing_defect); the same happens for pack_sequence with width 0 (C82_pack_zero_defect) and for Elias-Fano vectors whose lower parts have no bits (C82_elias_fano_defect). All other calls and constructors are proved for every allocation strategy; with an allocator that doubles the capacity the number of reallocations is at most 2 + log2 of the number of limbs and the limbs copied are at most twice those of the largest vector (C82_growth_partial, C82_from_bool_iter). C82_fits holds for all calls and arguments."
 },
 "C83": {
  "note": "rank: constant for every sequence without repeated elements (C83_rank_strict), and with a factor for the density otherwise (C83_rank). predecessor and successor: constant with a factor for the evenness of the gaps (C83_search_partial); for sequences with large gaps the average is unbounded, because every query in a gap repeats the slow lookup of the same neighbour (C83_gaps_defect). The documentation mentions worst-case distributions without naming them."
 },
 "C84": {
  "note": "Partial: if the argument of skip or step_by plus the length exceeds the range of usize, the loop panics in a debug build and rewinds the iterator in a release build (C84_overflow_defect, C84_overflow_release_defect); over the select iterators, rev().skip(n) and rev().step_by(k) panic if nth_back reaches beyond the first position (C84_rev_skip_defect, C84_rev_step_defect, which give the exact conditions). Everything else is proved for all vectors, states and arguments. After the first None the answers are not those of a list: skip(n) with n above the number of elements starts again with the first one, although the iterators are FusedIterators (C84_fused_defect)."
 },
 "C85": {
  "note": "Partial: full_equals, the early rejection, and the dependence of sparse_equals on the position of the first difference are proved. Each position costs up to the number of super blocks, because the iterator searches the last super block again for every position (C75): there are arbitrarily sparse vectors on which sparse_equals takes 60 times the steps of full_equals (C85_sparse_defect), and == uses it for them above 4 million bits (C85_eq_defect). For vectors of which half of the bits are set, == takes more than one step per bit there (C85_eq_dense_defect). Steps are accesses to the structure, not nanoseconds."
 },
 "C86": {
  "note": "Steps are loaded chunks, single bits and offsets, compared with the accesses of the select iterators (C75). What the iterators yield is C52."
 },
 "C87": {
  "note": "Partial: the walks to the left and up need the block sizes for which the backward search is right (C42_backward_partial), and the levels those that level_leftmost and level_rightmost support (defects in C43). The other walks and the number of cells are proved for all trees and block sizes."
 },
 "C88": {
  "note": "Stated without the forest of the specification: only functions of the library and the positions of opening parentheses. Partial: the laws with previous_sibling, last_child, parent and level_prev need the block sizes for which the backward search is right (C42_block_size_iff)."
 },
 "C89": {
  "note": "Stated with functions of the library only. Partial for the wavelet matrix: the law from select to rank is for ranks below 2^63, as in C34."
 },
 "C90": {
  "note": "Stated with functions of the library only; same content means the same length and the same result of is_bit_set everywhere. append_bits of width 0 is excluded (C02)."
 },
 "C91": {
  "note": "Partial: FastRmq up to 2^39 - 128 elements (C29_construction_defect). For the rank/select vector: of a well-formed bit vector, as in C13 and C14."
 },
 "C92": {
  "note": "The part is given by its bits or elements; only functions of the library are compared. Partial: parent, previous_sibling and last_child need the block sizes for which the backward search is right (C42_block_size_iff). FastRmq: at most 2^39 - 128 elements (C29_construction_defect)."
 }
}