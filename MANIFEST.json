{
 "claims": [
  {
   "property": "C01",
   "status": "proved",
   "theorems": [
    "Vers.C01_from_zeros",
    "Vers.C01_from_ones",
    "Vers.C01_from_bits",
    "Vers.C01_from_bools",
    "Vers.C01_from_limbs"
   ],
   "note": ""
  },
  {
   "property": "C02",
   "status": "partial",
   "theorems": [
    "Vers.C02_append",
    "Vers.C02_append_bit",
    "Vers.C02_append_word",
    "Vers.C02_append_bits_partial",
    "Vers.C02_append_bits_zero_unaligned",
    "Vers.C02_append_bits_zero_defect",
    "Vers.C02_append_bits_unchecked",
    "Vers.C02_append_bits_unchecked_junk"
   ],
   "note": "append_bits with width 0 is not a no-op on aligned vectors (C02_append_bits_zero_defect, for every such vector); everything else proved."
  },
  {
   "property": "C03",
   "status": "proved",
   "theorems": [
    "Vers.C03_set",
    "Vers.C03_flip_bit",
    "Vers.C03_unchecked"
   ],
   "note": ""
  },
  {
   "property": "C04",
   "status": "partial",
   "theorems": [
    "Vers.C04_is_bit_set",
    "Vers.C04_get",
    "Vers.C04_get_bits_partial",
    "Vers.C04_get_bits_overflow_defect",
    "Vers.C04_get_bits_release_defect"
   ],
   "note": "get/is_bit_set proved for all arguments; get_bits proved unless pos + n exceeds usize::MAX, where it panics instead of returning None (C04_get_bits_overflow_defect, for every vector)."
  },
  {
   "property": "C05",
   "status": "partial",
   "theorems": [
    "Vers.C05_pack_partial",
    "Vers.C05_unpack_partial",
    "Vers.C05_unpack_overflow_defect",
    "Vers.C05_unpack_unchecked",
    "Vers.C05_pack_zero_defect",
    "Vers.C05_unpack_release_defect"
   ],
   "note": "b = 0 excluded because of the append_bits(_,0) defect (C05_pack_zero_defect, for every input). unpack_element proved unless the end of the element exceeds usize::MAX, where it panics (C05_unpack_overflow_defect)."
  },
  {
   "property": "C06",
   "status": "proved",
   "theorems": [
    "Vers.C06_drop_last",
    "Vers.C06_split_at",
    "Vers.C06_extend_bitvec",
    "Vers.C06_extend",
    "Vers.C06_split_extend_round_trip"
   ],
   "note": ""
  },
  {
   "property": "C07",
   "status": "proved",
   "theorems": [
    "Vers.C07_count_ones",
    "Vers.C07_count_zeros"
   ],
   "note": ""
  },
  {
   "property": "C08",
   "status": "partial",
   "theorems": [
    "Vers.C08_eq_partial",
    "Vers.C08_eq_exact",
    "Vers.C08_eq_of_same_content",
    "Vers.C08_hash",
    "Vers.C08_eq_defect",
    "Vers.C08_last_limb_defect",
    "Vers.C08_equivalence"
   ],
   "note": "== ignores the last limb when the length is a positive multiple of 64 (counterexample theorem); exact behaviour and Hash agreement proved for all vectors."
  },
  {
   "property": "C09",
   "status": "partial",
   "theorems": [
    "Vers.C09_new",
    "Vers.C09_to_bit_vec",
    "Vers.C09_queries_partial",
    "Vers.C09_operators",
    "Vers.C09_get_bits_defect"
   ],
   "note": "get_bits of width 64 at unaligned positions drops the upper part (C09_get_bits_defect, for every vector and position); all other queries proved. As for C04, pos + n must be a usize."
  },
  {
   "property": "C10",
   "status": "proved",
   "theorems": [
    "Vers.C10_eq_lazy",
    "Vers.C10_apply_mask"
   ],
   "note": ""
  },
  {
   "property": "C11",
   "status": "proved",
   "theorems": [
    "Vers.C11_history",
    "Vers.C11_observers"
   ],
   "note": ""
  },
  {
   "property": "C12",
   "status": "partial",
   "theorems": [
    "Vers.C12_preserves_bits_partial",
    "Vers.C12_append_zero_defect"
   ],
   "note": "Proved for every vector of a history without append_bits(_, 0) on an aligned length (C11). After such a call debug builds panic on construction if the word has more zeros than the vector has ones (C12_append_zero_defect)."
  },
  {
   "property": "C13",
   "status": "partial",
   "theorems": [
    "Vers.C13_rank_partial",
    "Vers.C13_append_zero_defect"
   ],
   "note": "Proved for every vector of a history without append_bits(_, 0) on an aligned length (C11). After such a call rank0 counts the zeros of the word on top (C13_append_zero_defect, for every such vector and word)."
  },
  {
   "property": "C14",
   "status": "partial",
   "theorems": [
    "Vers.C14_select_partial",
    "Vers.C14_append_zero_defect",
    "Vers.C14_select_unique"
   ],
   "note": "Proved for every vector of a history without append_bits(_, 0) on an aligned length (C11). After such a call select0 returns positions behind the end (C14_append_zero_defect, for every such vector and word)."
  },
  {
   "property": "C15",
   "status": "proved",
   "theorems": [
    "Vers.C15_inverse"
   ],
   "note": ""
  },
  {
   "property": "C16",
   "status": "partial",
   "theorems": [
    "Vers.C16_get_bits_release_defect",
    "Vers.C16_get_bits_partial",
    "Vers.C16_get_bits_overflow_defect",
    "Vers.C16_get_bits_zero_inside",
    "Vers.C16_get_bits_zero_defect"
   ],
   "note": "get_bits(len, 0) panics when len is a multiple of 64 (C16_get_bits_zero_defect, for every such vector); pos + n above usize::MAX panics (C16_get_bits_overflow_defect, for every vector); all other arguments proved."
  },
  {
   "property": "C17",
   "status": "proved",
   "theorems": [
    "Vers.C17_equality"
   ],
   "note": ""
  },
  {
   "property": "C18",
   "status": "proved",
   "theorems": [
    "Vers.C18_interleavings",
    "Vers.C18_positions_spec"
   ],
   "note": ""
  },
  {
   "property": "C19",
   "status": "partial",
   "theorems": [
    "Vers.C19_nth_back_release_defect",
    "Vers.C19_calls_partial",
    "Vers.C19_last",
    "Vers.C19_nth_back_defect"
   ],
   "note": "nth_back(n) panics when n is at least the number of remaining elements and the first element is still among them (C19_nth_back_defect, after every history of calls); C19_calls_partial covers all other calls."
  },
  {
   "property": "C20",
   "status": "partial",
   "theorems": [
    "Vers.C20_bit_vec_partial",
    "Vers.C20_rs_vec_partial",
    "Vers.C20_nth_defect",
    "Vers.C20_nth_overflow_defect",
    "Vers.C20_nth_defect_example",
    "Vers.C20_wavelet_partial",
    "Vers.C20_wavelet_nth_defect",
    "Vers.C20_nth_release_defect"
   ],
   "note": "nth(n)/nth_back(n) with n above the number of remaining elements return None without consuming them (proved for every vector and history, C20_nth_defect, C20_wavelet_nth_defect); nth(usize::MAX) after next overflows (C20_nth_overflow_defect); all other call histories proved, for BitVec, RsVec and the four iterators of WaveletMatrix."
  },
  {
   "property": "C21",
   "status": "proved",
   "theorems": [
    "Vers.C21_get",
    "Vers.C21_get_unchecked",
    "Vers.C21_unsorted_panics",
    "Vers.C21_unsorted_release"
   ],
   "note": "For every function in place of the float logarithm that is monotone, positive from 2 on and at most 64 (LogLike)."
  },
  {
   "property": "C22",
   "status": "proved",
   "theorems": [
    "Vers.C22_predecessor"
   ],
   "note": ""
  },
  {
   "property": "C23",
   "status": "proved",
   "theorems": [
    "Vers.C23_successor"
   ],
   "note": ""
  },
  {
   "property": "C24",
   "status": "proved",
   "theorems": [
    "Vers.C24_rank"
   ],
   "note": ""
  },
  {
   "property": "C25",
   "status": "proved",
   "theorems": [
    "Vers.C25_delta"
   ],
   "note": ""
  },
  {
   "property": "C26",
   "status": "partial",
   "theorems": [
    "Vers.C26_iter_partial",
    "Vers.C26_last_partial",
    "Vers.C26_last_defect",
    "Vers.C26_nth_defect",
    "Vers.C26_nth_overflow_defect",
    "Vers.C26_nth_release_defect"
   ],
   "note": "last()/max() omit the offset of the vector (C26_last_defect: exact result for every sequence and history); nth(n)/nth_back(n) above the remaining length do not consume (C26_nth_defect); nth(usize::MAX) after next overflows (C26_nth_overflow_defect); everything else proved for all call histories."
  },
  {
   "property": "C27",
   "status": "partial",
   "theorems": [
    "Vers.C27_iter1",
    "Vers.C27_unchecked_release_defect",
    "Vers.C27_new",
    "Vers.C27_new_panics",
    "Vers.C27_from_bitvec",
    "Vers.C27_from_bitvec_inverted",
    "Vers.C27_convert_defect",
    "Vers.C27_unchecked_partial",
    "Vers.C27_unchecked_defect"
   ],
   "note": "new/from_bitvec/from_bitvec_inverted, all checked queries and iter1 (call histories as in C26) proved; new panics in debug builds on positions that are not strictly increasing (C27_new_panics); From<BitVec> yields the complement (C27_convert_defect); the unchecked queries panic before the first one (C27_unchecked_defect)."
  },
  {
   "property": "C28",
   "status": "proved",
   "theorems": [
    "Vers.C28_range_min",
    "Vers.C28_too_long"
   ],
   "note": ""
  },
  {
   "property": "C29",
   "status": "partial",
   "theorems": [
    "Vers.C29_range_min_partial",
    "Vers.C29_construction_defect"
   ],
   "note": "Construction panics from 2^39-127 elements on (proved for every such vector), documented limit is 2^40; everything else proved."
  },
  {
   "property": "C30",
   "status": "partial",
   "theorems": [
    "Vers.C30_binary_release_defect",
    "Vers.C30_fast_release_defect",
    "Vers.C30_binary_partial",
    "Vers.C30_fast_partial",
    "Vers.C30_binary_defect",
    "Vers.C30_fast_defect",
    "Vers.C30_fast_empty_defect",
    "Vers.C30_fast_reversed_defect",
    "Vers.C30_fast_reversed_last_defect",
    "Vers.C30_fast_empty_last_defect",
    "Vers.C30_fast_clamp"
   ],
   "note": "Every non-empty range proved. Empty and reversed ranges: exact result for BinaryRmq on every structure (the last index if the range lies behind the last element, a panic otherwise: C30_binary_defect). For FastRmq exact behind the last element (C30_fast_defect), inside a complete block of 128 elements (C30_fast_empty_defect), inside the incomplete last block (C30_fast_empty_last_defect), and across blocks with a complete (C30_fast_reversed_defect) or incomplete (C30_fast_reversed_last_defect) block of the start; larger starts are clamped (C30_fast_clamp)."
  },
  {
   "property": "C31",
   "status": "proved",
   "theorems": [
    "Vers.C31_from_slice",
    "Vers.C31_from_bit_vec",
    "Vers.C31_from_slice_pc",
    "Vers.C31_from_bit_vec_pc",
    "Vers.C31_access",
    "Vers.C31_bit_len",
    "Vers.C31_zero_width"
   ],
   "note": "All four constructors, all widths from 1 on (C31_zero_width states what width 0 does)."
  },
  {
   "property": "C32",
   "status": "proved",
   "theorems": [
    "Vers.C32_slice",
    "Vers.C32_bit_vec",
    "Vers.C32_encodings",
    "Vers.C32_width_64_defect",
    "Vers.C32_zero_width_defect",
    "Vers.C32_wide_element_defect"
   ],
   "note": "Equality of the constructed values, widths 1..63. Width 0 (non-empty sequences), width 64 and elements of more than k bits panic in the counting constructors (C32_*_defect)."
  },
  {
   "property": "C33",
   "status": "proved",
   "theorems": [
    "Vers.C33_rank",
    "Vers.C33_rank_u64",
    "Vers.C33_wide_symbol_defect"
   ],
   "note": "u64 symbols are taken modulo 2^k (C33_wide_symbol_defect); an offset equal to the length is out of bounds."
  },
  {
   "property": "C34",
   "status": "partial",
   "theorems": [
    "Vers.C34_release_defect",
    "Vers.C34_select_partial",
    "Vers.C34_select_u64_partial",
    "Vers.C34_select_or_overflow",
    "Vers.C34_overflow_defect"
   ],
   "note": "Proved for rank + length < 2^64; above, the answer is right or the call panics (C34_select_or_overflow, C34_overflow_defect)."
  },
  {
   "property": "C35",
   "status": "partial",
   "theorems": [
    "Vers.C35_quantile_partial",
    "Vers.C35_max_median",
    "Vers.C35_get_sorted",
    "Vers.C35_sorted_spec"
   ],
   "note": "quantile and range_min for ranges that are not reversed; reversed ranges within the bounds panic (C37_reversed_defect). range_max, range_median, get_sorted for all arguments."
  },
  {
   "property": "C36",
   "status": "proved",
   "theorems": [
    "Vers.C36_neighbours",
    "Vers.C36_wide_symbol_defect"
   ],
   "note": "All ranges; u64 symbols are taken modulo 2^k (C36_wide_symbol_defect)."
  },
  {
   "property": "C37",
   "status": "partial",
   "theorems": [
    "Vers.C37_none_partial",
    "Vers.C37_reversed_defect",
    "Vers.C37_reversed_release_defect"
   ],
   "note": "Everything but reversed in-bounds ranges of rank_range/quantile/range_min (panic, characterised in C37_reversed_defect) and ranks near 2^64 of select (C34_overflow_defect)."
  },
  {
   "property": "C38",
   "status": "proved",
   "theorems": [
    "Vers.C38_iterators"
   ],
   "note": "Arguments of nth/nth_back up to the number of remaining elements (the defect beyond is C20_nth_defect, same code)."
  },
  {
   "property": "C39",
   "status": "partial",
   "theorems": [
    "Vers.C39_any_excess_partial",
    "Vers.C39_fwd_search_partial",
    "Vers.C39_empty_defect",
    "Vers.C39_overflow_defect"
   ],
   "note": "All non-empty sequences, block sizes, lookup variants, indices and all i64 relative excesses; exact in release builds, and in debug builds exact or an overflow panic, only if |rel| + len > i64::MAX (C39_any_excess_partial). Empty sequences panic in debug builds (C39_empty_defect)."
  },
  {
   "property": "C40",
   "status": "partial",
   "theorems": [
    "Vers.C40_any_excess_partial",
    "Vers.C40_bwd_search_partial",
    "Vers.C40_block_size_iff",
    "Vers.C40_overflow_defect"
   ],
   "note": "All sequences, indices and i64 relative excesses, as in C39; block sizes that are multiples or divisors of the lookup block size. Other block sizes give wrong results (C40_block_size_iff)."
  },
  {
   "property": "C41",
   "status": "partial",
   "theorems": [
    "Vers.C41_balanced_iff_forest",
    "Vers.C41_matches_unique",
    "Vers.C41_close",
    "Vers.C41_open_partial",
    "Vers.C41_inverse_partial",
    "Vers.C41_enclose_partial",
    "Vers.C41_block_size_iff"
   ],
   "note": "close for all sequences and block sizes; open and enclose for block sizes that are multiples or divisors of the lookup block size (others are wrong: C41_block_size_iff)."
  },
  {
   "property": "C42",
   "status": "partial",
   "theorems": [
    "Vers.C42_forward",
    "Vers.C42_backward_partial",
    "Vers.C42_spec_children",
    "Vers.C42_spec_handles",
    "Vers.C42_block_size_iff"
   ],
   "note": "root, first_child, next_sibling, is_leaf, children for all block sizes; parent, previous_sibling, last_child, rev_children for block sizes that are multiples or divisors of the lookup block size (C42_block_size_iff)."
  },
  {
   "property": "C43",
   "status": "partial",
   "theorems": [
    "Vers.C43_large_levels_partial",
    "Vers.C43_wrapped_ancestor_defect",
    "Vers.C43_last_level_defect",
    "Vers.C43_negation_defect",
    "Vers.C43_forward_partial",
    "Vers.C43_backward_partial",
    "Vers.C43_spec_nodes_sorted",
    "Vers.C43_level_rightmost_zero_defect",
    "Vers.C43_level_rightmost_zero_partial",
    "Vers.C43_empty_defect",
    "Vers.C43_huge_level_defect"
   ],
   "note": "Same block sizes for the backward queries. All levels (C43_large_levels_partial). Excluded: level_rightmost(0) with a leaf as last root, level_leftmost of the empty tree, level_leftmost(2^64 - 1) (C43_last_level_defect), level_ancestor for 2^64 - d where a position before the node is deeper by d (C43_wrapped_ancestor_defect), overflow in debug builds for levels near 2^63."
  },
  {
   "property": "C44",
   "status": "proved",
   "theorems": [
    "Vers.C44_subtree",
    "Vers.C44_spec_size"
   ],
   "note": "All trees, nodes, block sizes."
  },
  {
   "property": "C45",
   "status": "partial",
   "theorems": [
    "Vers.C45_preorder",
    "Vers.C45_dfs_calls_partial",
    "Vers.C45_postorder_partial",
    "Vers.C45_spec_once"
   ],
   "note": "Preorder iterators in full (with nth_back as in C19 for arbitrary call sequences); postorder iterators for block sizes that are multiples or divisors of the lookup block size."
  },
  {
   "property": "C46",
   "status": "proved",
   "theorems": [
    "Vers.C46_index"
   ],
   "note": "All trees, nodes, indices."
  },
  {
   "property": "C47",
   "status": "partial",
   "theorems": [
    "Vers.C47_calls",
    "Vers.C47_walk",
    "Vers.C47_valid_partial",
    "Vers.C47_invalid_defect",
    "Vers.C47_with_capacity",
    "Vers.C47_with_capacity_defect"
   ],
   "note": "All call sequences. The last part of the claim fails: every sequence with equal numbers of calls in a wrong order is accepted (C47_invalid_defect). with_capacity is new, except that debug builds panic for capacities from 2^63 on (C47_with_capacity_defect)."
  },
  {
   "property": "C48",
   "status": "partial",
   "theorems": [
    "Vers.C48_lookup_forward",
    "Vers.C48_lookup_backward_partial",
    "Vers.C48_zero_hit",
    "Vers.C48_zero_defect",
    "Vers.C48_variants"
   ],
   "note": "Every block and every relative excess, except relative excess zero backwards (never asked by the tree): there the answer is right if the block has one (C48_zero_hit) and wrong on every block without one (C48_zero_defect)."
  },
  {
   "property": "C49",
   "status": "proved",
   "theorems": [
    "Vers.C49_pdep",
    "Vers.C49_select_in_word",
    "Vers.C49_pdep_types",
    "Vers.C49_pdep_signed_defect",
    "Vers.C49_pdep_u64",
    "Vers.C49_bmi2"
   ],
   "note": "All words and ranks. C49_pdep_types extends the deposit to every integer type of the trait (the crate only uses u64); the signed instances overflow in debug builds on negative masks (C49_pdep_signed_defect), which no call of the crate reaches."
  },
  {
   "property": "C50",
   "status": "partial",
   "theorems": [
    "Vers.C50_any_excess_partial",
    "Vers.C50_total_partial",
    "Vers.C50_empty_defect",
    "Vers.C50_level_rightmost_defect",
    "Vers.C50_excess_defect",
    "Vers.C50_empty_release",
    "Vers.C50_level_rightmost_release",
    "Vers.C50_excess_release",
    "Vers.C50_excess_max_defect"
   ],
   "note": "All non-empty sequences, block sizes, arguments, relative excesses and levels, for everything not documented to panic; the panics that remain are proved as defects."
  },
  {
   "property": "C51",
   "status": "partial",
   "theorems": [
    "Vers.C51_forward_partial",
    "Vers.C51_backward_partial",
    "Vers.C51_forward_zero_defect",
    "Vers.C51_backward_zero_defect",
    "Vers.C51_backward_zero_hit"
   ],
   "note": "Every block size and starting block. Forward: every relative excess, except zero from the last block if the number of blocks is even and not a power of two (unreachable!(), C51_forward_zero_defect, for every such sequence). Backward: every non-zero relative excess; zero always answers with the block before (C51_backward_zero_defect), which is right iff that block reaches it (C51_backward_zero_hit). The tree never asks for zero."
  },
  {
   "property": "C52",
   "status": "partial",
   "theorems": [
    "Vers.C52_stored_spec",
    "Vers.C52_characterisation",
    "Vers.C52_positions_partial",
    "Vers.C52_short",
    "Vers.C52_defect",
    "Vers.C52_example_defect"
   ],
   "note": "Full characterisation of what the iterators yield; correct up to 16 bits or if the last chunk is full and without matching bits. Every longer vector with a match in the last chunk yields it twice (C52_defect)."
  },
  {
   "property": "C53",
   "status": "proved",
   "theorems": [
    "Vers.C53_simd_select",
    "Vers.C53_simd_iterators",
    "Vers.C53_simd_equality"
   ],
   "note": ""
  },
  {
   "property": "C54",
   "status": "proved",
   "theorems": [
    "Vers.C54_bit_vec",
    "Vers.C54_rs_vec",
    "Vers.C54_elias_fano",
    "Vers.C54_sparse",
    "Vers.C54_binary_rmq",
    "Vers.C54_fast_rmq",
    "Vers.C54_wavelet",
    "Vers.C54_bp_tree",
    "Vers.C54_unvalidated_defect",
    "Vers.C54_block_size_defect",
    "Vers.C54_documents"
   ],
   "note": "Proved for the documented behaviour of the derive (fields by name or by position, integer ranges), for every constructed structure with usize lengths (Elias-Fano vectors: fewer than 2^60 elements). The generated code and the formats are outside the repository. Reading does not validate (C54_unvalidated_defect)."
  },
  {
   "property": "C55",
   "status": "proved",
   "theorems": [
    "Vers.C55_bit_vec",
    "Vers.C55_rs_vec",
    "Vers.C55_rs_vec_overhead"
   ],
   "note": ""
  },
  {
   "property": "C56",
   "status": "partial",
   "theorems": [
    "Vers.C56_space_float_partial",
    "Vers.C56_dense_float_defect",
    "Vers.C56_space_partial",
    "Vers.C56_dense_defect",
    "Vers.C56_sparse_dense_defect",
    "Vers.C56_sparse_partial"
   ],
   "note": "Bound proved whenever some power of two separates n from max u (n+2); in the other (dense) case the size exceeds that of the slice (C56_dense_defect). C56_space_float_partial and C56_dense_float_defect state both for floating point logarithms (up to 2^44 elements, any range)."
  },
  {
   "property": "C57",
   "status": "proved",
   "theorems": [
    "Vers.C57_binary",
    "Vers.C57_fast"
   ],
   "note": ""
  },
  {
   "property": "C58",
   "status": "proved",
   "theorems": [
    "Vers.C58_space"
   ],
   "note": ""
  },
  {
   "property": "C59",
   "status": "partial",
   "theorems": [
    "Vers.C59_space_partial",
    "Vers.C59_factor_defect"
   ],
   "note": "Upper bound for every block size; the documented fraction of n is refuted for the default block size (C59_factor_defect)."
  },
  {
   "property": "C60",
   "status": "partial",
   "theorems": [
    "Vers.C60_rank_reads",
    "Vers.C60_select0_reads_partial",
    "Vers.C60_select_reads_partial",
    "Vers.C60_select_reads_linear_partial",
    "Vers.C60_select0_log_partial",
    "Vers.C60_select_distance_partial",
    "Vers.C60_select_linear_defect",
    "Vers.C60_worst_case_defect",
    "Vers.C60_rank"
   ],
   "note": "Proved for select0 on complete select blocks (at least 8192*(k/8192+1) zeros); every query takes at most a logarithm plus the distance in super blocks from the last bit before its select block (C60_select_distance_partial), and all other select queries need that distance: they are linear, proved for every vector (C60_select_linear_defect) and with a family of vectors for every size (C60_worst_case_defect). C60_rank: a rank query depends on one super block counter, one block counter and at most 8 limbs. The number of cells read: C60_rank_reads, C60_select_reads_partial."
  },
  {
   "property": "C61",
   "status": "partial",
   "theorems": [
    "Vers.C61_search_log_partial",
    "Vers.C61_linear_partial",
    "Vers.C61_worst_case_defect"
   ],
   "note": "The query's own binary search is logarithmic for every sequence and query; the select queries it makes are linear in the worst case, so the documented bound fails (C61_worst_case_defect). C61_linear_partial bounds the whole query linearly."
  },
  {
   "property": "C62",
   "status": "partial",
   "theorems": [
    "Vers.C62_reads_partial",
    "Vers.C62_tree_log_partial",
    "Vers.C62_node_handle_defect"
   ],
   "note": "All searching queries proved logarithmic in the number of blocks (equal to the unbounded query); node_handle is linear in the worst case (C62_node_handle_defect). The number of cells read: C62_reads_partial."
  },
  {
   "property": "C63",
   "status": "partial",
   "theorems": [
    "Vers.C63_wide_quantile_release",
    "Vers.C63_rank",
    "Vers.C63_rank_u64",
    "Vers.C63_select_partial",
    "Vers.C63_access",
    "Vers.C63_order",
    "Vers.C63_wide_quantile_defect",
    "Vers.C63_bits",
    "Vers.C63_elias_fano"
   ],
   "note": "select with rank + length of at least 2^64 overflows (C34_overflow_defect); the unchecked u64 order statistics are documented to truncate elements of more than 64 bits but a debug assertion rejects the call (C63_wide_quantile_defect, for every such matrix); everything else proved."
  },
  {
   "property": "C64",
   "status": "proved",
   "theorems": [
    "Vers.C64_append_bit",
    "Vers.C64_limbs",
    "Vers.C64_rs_vec",
    "Vers.C64_select_iter",
    "Vers.C64_bp_tree",
    "Vers.C64_rmq",
    "Vers.C64_elias_fano",
    "Vers.C64_sparse_empty"
   ],
   "note": "From<BitVec> for SparseRSVec inverts the bits and is treated under C27."
  },
  {
   "property": "C65",
   "status": "proved",
   "theorems": [
    "Vers.C65_sparse",
    "Vers.C65_rmq"
   ],
   "note": "for select1 the argument ranges over usize; range queries with i <= j < len."
  },
  {
   "property": "C66",
   "status": "proved",
   "theorems": [
    "Vers.C66_value",
    "Vers.C66_panic",
    "Vers.C66_compose",
    "Vers.C66_bit_vec",
    "Vers.C66_rs_vec",
    "Vers.C66_elias_fano",
    "Vers.C66_rmq",
    "Vers.C66_wavelet_build",
    "Vers.C66_wavelet",
    "Vers.C66_iterators",
    "Vers.C66_bp_search",
    "Vers.C66_bp_nodes",
    "Vers.C66_bp_reachable"
   ],
   "note": "One theorem per structure (a conjunction over its public functions) for all arguments; C66_value, C66_panic and C66_compose say how to read and combine them. Operations on wrapped values are modelled exactly where the result of a release build is claimed elsewhere (Props/Release); here only runs matter in which the debug build does not overflow."
  },
  {
   "property": "C67",
   "status": "proved",
   "theorems": [
    "Vers.C67_f64",
    "Vers.C67_exact",
    "Vers.C67_close",
    "Vers.C67_log_like",
    "Vers.C67_elias_fano",
    "Vers.C67_bp_tree",
    "Vers.C67_elias_fano_exact"
   ],
   "note": "C67_f64: correctly rounded 64-bit arithmetic (SpecFloat) satisfies FloatLog, for every way to break ties; the other theorems hold for every FloatLog, i.e. also for a log2 that is exact on powers of two, has an error of at most 2^-46 and is monotone from 2^45 on. That the platform's log2 is one of these is an assumption about libm. NaN, infinities and subnormal numbers do not occur."
  },
  {
   "property": "C68",
   "status": "proved",
   "theorems": [
    "Vers.C68_load",
    "Vers.C68_select",
    "Vers.C68_iterators",
    "Vers.C68_equality",
    "Vers.C68_bit_set"
   ],
   "note": "The model marks the accesses in the three unsafe blocks that have one (two 16 element loads, one compress-store into [u32; 16]) with the result .ub. The block position passed to the load is sb * 16 in unbounded arithmetic in the model of select; C68_load covers the load for every 64-bit position and a wrapped guard. The fourth unsafe block (pdep) calls a register instruction and accesses no memory; that the CPU supports the instructions is not modelled."
  },
  {
   "property": "C69",
   "status": "partial",
   "theorems": [
    "Vers.C69_select",
    "Vers.C69_iterators",
    "Vers.C69_equality",
    "Vers.C69_bit_set",
    "Vers.C69_tree_search",
    "Vers.C69_tree",
    "Vers.C69_tree_levels",
    "Vers.C69_tree_iterators",
    "Vers.C69_wavelet",
    "Vers.C69_elias_fano_get",
    "Vers.C69_elias_fano_iterator",
    "Vers.C69_predecessor_rank",
    "Vers.C69_successor_partial",
    "Vers.C69_successor_defect"
   ],
   "note": "Proved for rank/select vectors (with and without SIMD), their iterators, comparisons, the bit set iterator, the tree, the wavelet matrix and get/delta/iterators/predecessor/rank of the Elias-Fano vector. The successor search is proved to end in debug builds, and in release builds if the lower half of the first element is 0; otherwise it is false: C69_successor_defect gives a structure on which a release build loops forever. Constructors are covered by their correctness theorems."
  },
  {
   "property": "C70",
   "status": "partial",
   "theorems": [
    "Vers.C70_bit_vec",
    "Vers.C70_split",
    "Vers.C70_rmq",
    "Vers.C70_wavelet_constructors",
    "Vers.C70_select",
    "Vers.C70_rank_defect",
    "Vers.C70_order",
    "Vers.C70_sorted_defect",
    "Vers.C70_wavelet_defect",
    "Vers.C70_elias_fano_partial",
    "Vers.C70_elias_fano_defect"
   ],
   "note": "Proved for the bit vectors, the range minimum structures, the constructors and the select queries of the wavelet matrix, and (debug builds) its order statistics. False for the unchecked access of Elias-Fano close to the end and for the unchecked access and ranks of the wavelet matrix: see the theorems ending in _defect."
  },
  {
   "property": "C71",
   "status": "partial",
   "theorems": [
    "Vers.C71_bit_vec",
    "Vers.C71_rs_vec",
    "Vers.C71_select",
    "Vers.C71_elias_fano",
    "Vers.C71_wavelet",
    "Vers.C71_tree",
    "Vers.C71_tree_partial"
   ],
   "note": "The call history before the loop meets the conditions of C19/C20/C26 (the excluded calls are the defects there). The tree iterators that search backward (postorder, children from the right) need the block sizes of C40 (C71_tree_partial)."
  },
  {
   "property": "C72",
   "status": "partial",
   "theorems": [
    "Vers.C72_reads",
    "Vers.C72_select_reads_partial",
    "Vers.C72_queries",
    "Vers.C72_select_levels_partial",
    "Vers.C72_select_linear_partial",
    "Vers.C72_select_defect"
   ],
   "note": "C72_queries bounds the steps (rank queries, bit accesses) of every query but select by 3k, and 7k+1 for predecessor and successor, with a step counter proved to return the same results. The select queries take one select query on each level (C72_select_levels_partial), which is linear in the length in the worst case (C72_select_defect, a family for every size); C72_select_linear_partial bounds all of them. The number of cells read: C72_reads, C72_select_reads_partial."
  },
  {
   "property": "C73",
   "status": "proved",
   "theorems": [
    "Vers.C73_elias_fano",
    "Vers.C73_sparse",
    "Vers.C73_rs_vec",
    "Vers.C73_wavelet_unique",
    "Vers.C73_wavelet_u64",
    "Vers.C73_wavelet",
    "Vers.C73_tree"
   ],
   "note": ""
  },
  {
   "property": "C74",
   "status": "proved",
   "theorems": [
    "Vers.C74_binary",
    "Vers.C74_binary_range",
    "Vers.C74_fast",
    "Vers.C74_fast_range"
   ],
   "note": "Number of cells that determine the result (SpecProbe.lean), for structures with any contents, so that the elements of the range cannot all be compared."
  },
  {
   "property": "C75",
   "status": "partial",
   "theorems": [
    "Vers.C75_back_counter",
    "Vers.C75_both_ends_partial",
    "Vers.C75_counter",
    "Vers.C75_step_partial",
    "Vers.C75_loop_partial",
    "Vers.C75_last_super_block_defect",
    "Vers.C75_worst_case_defect"
   ],
   "note": "A call takes at most 6 steps if its result is in the super block of the previous one and this is not the last super block (C75_step_partial). The whole loop is linear in the number of bits (C75_loop_partial), also with calls of next and next_back in any order (C75_both_ends_partial). The claimed bound is false: in the last super block every call searches from the select block again (C75_last_super_block_defect, C75_worst_case_defect). The step counter returns the results of the model (C75_counter)."
  },
  {
   "property": "C76",
   "status": "partial",
   "theorems": [
    "Vers.C76_log",
    "Vers.C76_rank_select",
    "Vers.C76_binary_rmq",
    "Vers.C76_fast_rmq",
    "Vers.C76_fast_rmq_log",
    "Vers.C76_from_slice",
    "Vers.C76_from_bit_vec",
    "Vers.C76_prefix_counting_partial",
    "Vers.C76_prefix_counting_defect",
    "Vers.C76_elias_fano",
    "Vers.C76_sparse_new",
    "Vers.C76_sparse_from_bit_vec",
    "Vers.C76_tree"
   ],
   "note": "The constructors with a counter for the iterations of the innermost loops and the words of new vectors (Model/BuildSteps.lean, Model/BuildStepsMore.lean); the theorems contain that the results are those of the constructors without counter. The sorting constructors take O(kn) steps, less than documented. Missing: the prefix counting constructors take O(kn + 2^k) steps and at least 2^k, so the documented O(kn) does not hold (C76_prefix_counting_defect). The linear bounds of the other constructors are proved for all inputs of fewer than 2^60 elements, also unsorted ones (C76_elias_fano, C76_sparse_new, C76_sparse_from_bit_vec, C76_tree)."
  },
  {
   "property": "C77",
   "status": "partial",
   "theorems": [
    "Vers.C77_counter",
    "Vers.C77_sum_partial",
    "Vers.C77_dense_partial",
    "Vers.C77_sparse_defect",
    "Vers.C77_get_counter",
    "Vers.C77_elias_fano_get"
   ],
   "note": "select with a counter for the accesses to select blocks, super blocks and blocks (selectC in Model/RsIterSteps.lean, getC in Model/EfSteps.lean); the sum over all ranks is at most 8 times the number of ranks plus twice the length, so the average is constant if the sought bits are a constant fraction, which is always so in an Elias-Fano vector. Missing: it is not constant if the sought bits are few (C77_sparse_defect)."
  },
  {
   "property": "C78",
   "status": "partial",
   "theorems": [
    "Vers.C78_counter",
    "Vers.C78_fresh_min_partial",
    "Vers.C78_linear_partial",
    "Vers.C78_max_defect",
    "Vers.C78_min_defect"
   ],
   "note": "min and max with a step counter (Model/EfSteps.lean). min of a new iterator takes at most 7 steps for every sequence; min and max after any calls take a linear number of steps with a small factor. Missing: they are not constant, because they search a super block from the select block on (C78_max_defect, C78_min_defect)."
  },
  {
   "property": "C79",
   "status": "proved",
   "theorems": [
    "Vers.C79_counter",
    "Vers.C79_iteration",
    "Vers.C79_complete",
    "Vers.C79_sparse"
   ],
   "note": "next and next_back with a step counter (Model/IterSteps.lean). Any sequence of calls on a new iterator takes at most 7 steps per call plus 18 n + 36; a complete iteration at most 25 n + 36; likewise for the set bits of a sparse vector."
  },
  {
   "property": "C80",
   "status": "proved",
   "theorems": [
    "Vers.C80_traversal",
    "Vers.C80_all_nodes"
   ],
   "note": "The select iterator with a step counter (Model/IterSteps.lean). Any sequence of calls on a new iterator takes at most 6 steps per call plus 4 n; visiting all n nodes at most 10 n."
  },
  {
   "property": "C81",
   "status": "partial",
   "theorems": [
    "Vers.C81_bit_vec_partial",
    "Vers.C81_call",
    "Vers.C81_custom_mask",
    "Vers.C81_surplus_mask_defect",
    "Vers.C81_elements",
    "Vers.C81_select",
    "Vers.C81_elias_fano",
    "Vers.C81_wavelet"
   ],
   "note": "The methods that take &mut self, with their assignments in the order of the code (Model/Unwind.lean). Partial: after append_bits with width 0 on a vector of whole limbs, applying a mask changes all bits and then panics (C81_surplus_mask_defect). The iterators are treated in debug builds; in release builds the arithmetic in question wraps around."
  },
  {
   "property": "C82",
   "status": "partial",
   "theorems": [
    "Vers.C82_call",
    "Vers.C82_extend",
    "Vers.C82_with_capacity_partial",
    "Vers.C82_growth_partial",
    "Vers.C82_append_nothing_defect",
    "Vers.C82_from_bits",
    "Vers.C82_builder",
    "Vers.C82_pack_partial",
    "Vers.C82_pack_zero_defect",
    "Vers.C82_split",
    "Vers.C82_from_bools",
    "Vers.C82_from_bool_iter",
    "Vers.C82_elias_fano_partial",
    "Vers.C82_elias_fano_defect",
    "Vers.C82_fits"
   ],
   "note": "Partial: append_bits with width 0 on a vector whose length is a multiple of 64 pushes a limb, so that a vector without any bits outgrows every capacity (C82_append_nothing_defect); the same happens for pack_sequence with width 0 (C82_pack_zero_defect) and for Elias-Fano vectors whose lower parts have no bits (C82_elias_fano_defect). All other calls and constructors are proved for every allocation strategy; with an allocator that doubles the capacity the number of reallocations is at most 2 + log2 of the number of limbs and the limbs copied are at most twice those of the largest vector (C82_growth_partial, C82_from_bool_iter). C82_fits holds for all calls and arguments."
  },
  {
   "property": "C83",
   "status": "partial",
   "theorems": [
    "Vers.C83_counter",
    "Vers.C83_rank",
    "Vers.C83_rank_strict",
    "Vers.C83_search_partial",
    "Vers.C83_gaps_defect"
   ],
   "note": "rank: constant for every sequence without repeated elements (C83_rank_strict), and with a factor for the density otherwise (C83_rank). predecessor and successor: constant with a factor for the evenness of the gaps (C83_search_partial); for sequences with large gaps the average is unbounded, because every query in a gap repeats the slow lookup of the same neighbour (C83_gaps_defect). The documentation mentions worst-case distributions without naming them."
  },
  {
   "property": "C84",
   "status": "partial",
   "theorems": [
    "Vers.C84_bit_vec_partial",
    "Vers.C84_rs_vec_partial",
    "Vers.C84_wavelet_partial",
    "Vers.C84_elias_fano_partial",
    "Vers.C84_overflow_defect",
    "Vers.C84_overflow_release_defect",
    "Vers.C84_fused_defect",
    "Vers.C84_select_partial",
    "Vers.C84_rev_skip_defect",
    "Vers.C84_rev_step_defect",
    "Vers.C84_rev_defect_example"
   ],
   "note": "Partial: if the argument of skip or step_by plus the length exceeds the range of usize, the loop panics in a debug build and rewinds the iterator in a release build (C84_overflow_defect, C84_overflow_release_defect); over the select iterators, rev().skip(n) and rev().step_by(k) panic if nth_back reaches beyond the first position (C84_rev_skip_defect, C84_rev_step_defect, which give the exact conditions). Everything else is proved for all vectors, states and arguments. After the first None the answers are not those of a list: skip(n) with n above the number of elements starts again with the first one, although the iterators are FusedIterators (C84_fused_defect)."
  },
  {
   "property": "C85",
   "status": "partial",
   "theorems": [
    "Vers.C85_counter",
    "Vers.C85_rejected",
    "Vers.C85_full",
    "Vers.C85_sparse_partial",
    "Vers.C85_sparse_stops",
    "Vers.C85_eq_partial",
    "Vers.C85_sparse_equal",
    "Vers.C85_sparse_defect",
    "Vers.C85_eq_defect",
    "Vers.C85_eq_dense_defect"
   ],
   "note": "Partial: full_equals, the early rejection, and the dependence of sparse_equals on the position of the first difference are proved. Each position costs up to the number of super blocks, because the iterator searches the last super block again for every position (C75): there are arbitrarily sparse vectors on which sparse_equals takes 60 times the steps of full_equals (C85_sparse_defect), and == uses it for them above 4 million bits (C85_eq_defect). For vectors of which half of the bits are set, == takes more than one step per bit there (C85_eq_dense_defect). Steps are accesses to the structure, not nanoseconds."
  },
  {
   "property": "C86",
   "status": "proved",
   "theorems": [
    "Vers.C86_counter",
    "Vers.C86_loop",
    "Vers.C86_dense",
    "Vers.C86_sparse"
   ],
   "note": "Steps are loaded chunks, single bits and offsets, compared with the accesses of the select iterators (C75). What the iterators yield is C52."
  },
  {
   "property": "C87",
   "status": "partial",
   "theorems": [
    "Vers.C87_siblings",
    "Vers.C87_levels_partial",
    "Vers.C87_backward_partial",
    "Vers.C87_reads",
    "Vers.C87_walk"
   ],
   "note": "Partial: the walks to the left and up need the block sizes for which the backward search is right (C42_backward_partial), and the levels those that level_leftmost and level_rightmost support (defects in C43). The other walks and the number of cells are proved for all trees and block sizes."
  },
  {
   "property": "C88",
   "status": "partial",
   "theorems": [
    "Vers.C88_forward",
    "Vers.C88_backward_partial"
   ],
   "note": "Stated without the forest of the specification: only functions of the library and the positions of opening parentheses. Partial: the laws with previous_sibling, last_child, parent and level_prev need the block sizes for which the backward search is right (C42_block_size_iff)."
  },
  {
   "property": "C89",
   "status": "partial",
   "theorems": [
    "Vers.C89_elias_fano",
    "Vers.C89_sparse",
    "Vers.C89_wavelet_partial",
    "Vers.C89_wavelet_wide_partial"
   ],
   "note": "Stated with functions of the library only. Partial for the wavelet matrix: the law from select to rank is for ranks below 2^63, as in C34."
  },
  {
   "property": "C90",
   "status": "proved",
   "theorems": [
    "Vers.C90_set",
    "Vers.C90_flip",
    "Vers.C90_append",
    "Vers.C90_read_back",
    "Vers.C90_masks"
   ],
   "note": "Stated with functions of the library only; same content means the same length and the same result of is_bit_set everywhere. append_bits of width 0 is excluded (C02)."
  },
  {
   "property": "C91",
   "status": "partial",
   "theorems": [
    "Vers.C91_rank_select",
    "Vers.C91_elias_fano",
    "Vers.C91_wavelet",
    "Vers.C91_binary_rmq",
    "Vers.C91_fast_rmq_partial"
   ],
   "note": "Partial: FastRmq up to 2^39 - 128 elements (C29_construction_defect). For the rank/select vector: of a well-formed bit vector, as in C13 and C14."
  },
  {
   "property": "C92",
   "status": "partial",
   "theorems": [
    "Vers.C92_subtree",
    "Vers.C92_subtree_backward_partial",
    "Vers.C92_forest_append",
    "Vers.C92_forest_append_backward_partial",
    "Vers.C92_prefix",
    "Vers.C92_wavelet",
    "Vers.C92_wavelet_wide",
    "Vers.C92_elias_fano",
    "Vers.C92_binary_rmq",
    "Vers.C92_fast_rmq_partial"
   ],
   "note": "The part is given by its bits or elements; only functions of the library are compared. Partial: parent, previous_sibling and last_child need the block sizes for which the backward search is right (C42_block_size_iff). FastRmq: at most 2^39 - 128 elements (C29_construction_defect)."
  }
 ]
}