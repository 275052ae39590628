{"id": "C01", "title": "BitVec constructors produce exactly the described bits", "statement": "BitVec::from_zeros(n)/from_ones(n) have length n and every bit 0/1; from_bits*/from_bits_iter/from_bools have one bit per input (its least significant bit), in order; from_limbs/from_vec expose bit j of limb i at position 64*i+j; nothing panics.", "quantifier": "all lengths, all input sequences of any length", "why_tests_cant": "A test fixes finitely many lengths; limb boundaries and every content must be covered.", "anchors": ["src/bit_vec/mod.rs:from_zeros", "src/bit_vec/mod.rs:from_ones", "src/bit_vec/mod.rs:from_bits", "src/bit_vec/mod.rs:from_bits_iter", "src/bit_vec/mod.rs:from_limbs", "src/bit_vec/mod.rs:from_vec", "src/bit_vec/mod.rs:from_bools"]}
{"id": "C02", "title": "Appending extends the vector by exactly the given bits", "statement": "append/append_bit/append_word/append_bits(w,n) (0<n<=64) leave all existing bits unchanged and add exactly the given bit / the 64 bits of the word / the n least significant bits of w in little-endian order, whatever junk the backing limbs held; append_bits panics exactly when n>64. append_bits(w,0) should be a no-op for all later operations.", "quantifier": "all vectors reachable by the API, all words, all bit counts", "why_tests_cant": "Interaction of alignment, junk bits and counts is infinite.", "anchors": ["src/bit_vec/mod.rs:append", "src/bit_vec/mod.rs:append_bit", "src/bit_vec/mod.rs:append_word", "src/bit_vec/mod.rs:append_bits"]}
{"id": "C03", "title": "set and flip_bit change exactly one position", "statement": "set(i,b) for i<len makes bit i equal b mod 2 and leaves all other bits and the length unchanged, and errs without effect for i>=len; flip_bit(i) negates exactly bit i and panics for i>=len.", "quantifier": "all vectors, all positions, all values", "why_tests_cant": "A frame condition over all other positions.", "anchors": ["src/bit_vec/mod.rs:set", "src/bit_vec/mod.rs:flip_bit", "src/bit_vec/mod.rs:set_unchecked", "src/bit_vec/mod.rs:flip_bit_unchecked"]}
{"id": "C04", "title": "get/is_bit_set/get_bits return exactly the stored bits", "statement": "get(i)/is_bit_set(i) return the i-th bit iff i<len, else None. get_bits(pos,n) is None iff n=0, n>64 or pos+n>len, and otherwise is the word whose bit j is bit pos+j of the vector for j<n and 0 above.", "quantifier": "all vectors, positions and widths", "why_tests_cant": "Every alignment and width across limb borders.", "anchors": ["src/bit_vec/mod.rs:get", "src/bit_vec/mod.rs:is_bit_set", "src/bit_vec/mod.rs:get_bits", "src/bit_vec/mod.rs:get_bits_unchecked"]}
{"id": "C05", "title": "pack_sequence / unpack_element round trip", "statement": "For a sequence packed with b bits per element, unpack_element(i,b) returns element i reduced mod 2^b (b<=64) and None past the end; elements are zero padded if b exceeds the element width (8/16/32/64); length is n*b.", "quantifier": "all sequences, element widths and bit counts", "why_tests_cant": "Unbounded sequence length and mixed alignments.", "anchors": ["src/bit_vec/mod.rs:pack_sequence_u64", "src/bit_vec/mod.rs:pack_word_into_vector", "src/bit_vec/mod.rs:unpack_element"]}
{"id": "C06", "title": "drop_last, split_at and extend_bitvec act as take, splitAt and concatenation", "statement": "drop_last(n) keeps exactly the first len-n bits (clears if n>len); split_at(at) returns the first at bits and the remaining bits, or gives the vector back if at>len; extend_bitvec appends the other vector's bits; splitting and re-extending restores the vector; no panic.", "quantifier": "all vectors and split points", "why_tests_cant": "Round trip law with junk bits left behind by truncation.", "anchors": ["src/bit_vec/mod.rs:drop_last", "src/bit_vec/mod.rs:split_at", "src/bit_vec/mod.rs:split_at_unchecked", "src/bit_vec/mod.rs:extend_bitvec"]}
{"id": "C07", "title": "count_ones and count_zeros count exactly the vector's bits", "statement": "count_ones() is the number of positions < len holding 1 and count_zeros() = len - count_ones(), independent of junk bits beyond the end.", "quantifier": "all vectors reachable through the API", "why_tests_cant": "Junk bits in the last limb arise only from some histories.", "anchors": ["src/bit_vec/mod.rs:count_ones", "src/bit_vec/mod.rs:count_zeros"]}
{"id": "C08", "title": "BitVec equality is content equality (and agrees with Hash)", "statement": "a == b iff a and b have the same length and the same bits; equal vectors feed identical data to a hasher.", "quantifier": "all pairs of vectors", "why_tests_cant": "Needs every pair of vectors, in particular lengths divisible by 64.", "anchors": ["src/bit_vec/mod.rs:PartialEq::eq", "src/bit_vec/mod.rs:Hash::hash"]}
{"id": "C09", "title": "Lazily masked vectors equal the bitwise combination", "statement": "mask_or/and/xor/custom(mask) errs iff lengths differ; otherwise get/is_bit_set/get_bits/count_ones/count_zeros/to_bit_vec answer as on the vector whose bits are the bitwise combination.", "quantifier": "all pairs of vectors of equal length, all bitwise operations", "why_tests_cant": "All operators, alignments and widths.", "anchors": ["src/bit_vec/mask.rs:MaskedBitVec", "src/bit_vec/mod.rs:mask_or", "src/bit_vec/mod.rs:mask_custom"]}
{"id": "C10", "title": "apply_mask_* equals the lazy mask", "statement": "apply_mask_or/and/xor/custom turns the vector into the bitwise combination, or errs and changes nothing if lengths differ; equals collecting the lazy mask with to_bit_vec.", "quantifier": "all pairs of vectors", "why_tests_cant": "All lengths and contents.", "anchors": ["src/bit_vec/mod.rs:apply_mask_or", "src/bit_vec/mod.rs:apply_mask_custom", "src/bit_vec/mask.rs:to_bit_vec"]}
{"id": "C11", "title": "BitVec refines a list of bits along every history", "statement": "After any finite sequence of constructor, append*, drop_last, set, flip, extend, split and mask calls that stay in their documented domain (append width >= 1), the observable content equals the same sequence of operations on a plain list of bits, and no operation panics.", "quantifier": "all finite histories of operations", "why_tests_cant": "Histories of unbounded length; internal junk depends on history.", "anchors": ["src/bit_vec/mod.rs"]}
{"id": "C12", "title": "RsVec preserves the bit vector", "statement": "RsVec::from_bit_vec(v) has v's length and bits (get, is None past the end) and into_bit_vec returns the original content; iterating yields the same bits.", "quantifier": "all bit vectors of any length", "why_tests_cant": "Unbounded lengths.", "anchors": ["src/bit_vec/fast_rs_vec/mod.rs:from_bit_vec", "src/bit_vec/fast_rs_vec/mod.rs:get", "src/bit_vec/fast_rs_vec/mod.rs:into_bit_vec"]}
{"id": "C13", "title": "rank0 / rank1 are exact", "statement": "rank1(i) is the number of 1-bits among the first min(i,len) bits and rank0(i) the number of 0-bits, for every i (also i>=len), without panicking.", "quantifier": "all bit vectors of any length, all positions", "why_tests_cant": "Block, super-block and word borders plus junk bits; vectors of unbounded length.", "anchors": ["src/bit_vec/fast_rs_vec/mod.rs:rank", "src/bit_vec/fast_rs_vec/mod.rs:rank0", "src/bit_vec/fast_rs_vec/mod.rs:rank1", "src/bit_vec/fast_rs_vec/mod.rs:from_bit_vec"]}
{"id": "C14", "title": "select0 / select1 are exact", "statement": "select1(k) is the position of the 1-bit preceded by exactly k 1-bits if there are more than k 1-bits, else len; same for select0 with 0-bits; no panic.", "quantifier": "all bit vectors of any length, all ranks", "why_tests_cant": "Search through select blocks, super blocks, blocks and words with data-dependent hints.", "anchors": ["src/bit_vec/fast_rs_vec/select.rs:select0", "src/bit_vec/fast_rs_vec/select.rs:select1", "src/bit_vec/fast_rs_vec/select.rs:search_super_block0", "src/bit_vec/fast_rs_vec/select.rs:search_block0_naive", "src/bit_vec/fast_rs_vec/select.rs:search_word_in_block0"]}
{"id": "C15", "title": "rank and select are mutually inverse", "statement": "select_b(rank_b(p)) = p for every position p holding b; rank_b(select_b(k)) = k for every k below the number of b-bits; rank0(i)+rank1(i)=min(i,len).", "quantifier": "all bit vectors, positions, ranks", "why_tests_cant": "Law over all inputs.", "anchors": ["src/bit_vec/fast_rs_vec/select.rs:select1", "src/bit_vec/fast_rs_vec/mod.rs:rank1"]}
{"id": "C16", "title": "RsVec::get_bits", "statement": "get_bits(pos,n) returns the word made of bits pos..pos+n when pos+n<=len and n<=64, None otherwise, without panicking.", "quantifier": "all vectors, positions, widths", "why_tests_cant": "All alignments, including n=0 and the end of the vector.", "anchors": ["src/bit_vec/fast_rs_vec/mod.rs:get_bits", "src/bit_vec/fast_rs_vec/mod.rs:get_bits_unchecked"]}
{"id": "C17", "title": "RsVec equality is content equality", "statement": "full_equals, sparse_equals::<true>, sparse_equals::<false> and == all return true iff the two vectors have the same length and the same bits.", "quantifier": "all pairs of vectors, including those above the 4,000,000 bit threshold", "why_tests_cant": "The sparse comparison only looks at one kind of bits and at ranks.", "anchors": ["src/bit_vec/fast_rs_vec/mod.rs:sparse_equals", "src/bit_vec/fast_rs_vec/mod.rs:full_equals", "src/bit_vec/fast_rs_vec/mod.rs:PartialEq::eq"]}
{"id": "C18", "title": "iter0/iter1 enumerate exactly the positions from both ends", "statement": "Under any interleaving of next and next_back, iter1 (iter0) yields each position of a 1-bit (0-bit) once, in ascending order from the front and descending from the back, then only None; len/size_hint/count are exact at all times.", "quantifier": "all vectors, all interleavings of calls", "why_tests_cant": "The iterators cache the last block/super block, so results depend on history.", "anchors": ["src/bit_vec/fast_rs_vec/iter.rs:select_next_0", "src/bit_vec/fast_rs_vec/iter.rs:select_next_0_back", "src/bit_vec/fast_rs_vec/iter.rs:select_next_1", "src/bit_vec/fast_rs_vec/iter.rs:select_next_1_back", "src/bit_vec/fast_rs_vec/iter.rs:len"]}
{"id": "C19", "title": "nth / nth_back / last of the select iterators", "statement": "nth(n) (nth_back(n)) equals n+1 calls of next (next_back); last() yields the last remaining position; none of them panics.", "quantifier": "all vectors, histories and n", "why_tests_cant": "n beyond the remaining length, after arbitrary histories.", "anchors": ["src/bit_vec/fast_rs_vec/iter.rs:advance_by", "src/bit_vec/fast_rs_vec/iter.rs:advance_back_by", "src/bit_vec/fast_rs_vec/iter.rs:nth", "src/bit_vec/fast_rs_vec/iter.rs:nth_back", "src/bit_vec/fast_rs_vec/iter.rs:last"]}
{"id": "C20", "title": "Element iterators of BitVec, RsVec and WaveletMatrix behave as a double-ended cursor", "statement": "Any interleaving of next/next_back yields each element once in order; len is exact; nth(n)/nth_back(n) equals n+1 next/next_back calls; last/min-end elements agree.", "quantifier": "all vectors, all call histories", "why_tests_cant": "Index arithmetic with an Option sentinel depends on history.", "anchors": ["src/util/general_iter.rs"]}
{"id": "C21", "title": "Elias-Fano stores the sequence losslessly", "statement": "For a sorted sequence of u64, EliasFanoVec::from_slice(data).get(i) = data[i] for i<n and None otherwise; select(i) likewise; len is n; construction does not panic.", "quantifier": "all non-decreasing sequences of u64", "why_tests_cant": "Split into upper/lower halves depends on data; 64-bit extremes.", "anchors": ["src/elias_fano/mod.rs:from_slice", "src/elias_fano/mod.rs:get", "src/elias_fano/mod.rs:get_unchecked", "src/elias_fano/mod.rs:select"]}
{"id": "C22", "title": "Elias-Fano predecessor is exact", "statement": "predecessor(x) is the largest stored element <= x, None iff all elements are greater than x (or the sequence is empty).", "quantifier": "all non-decreasing sequences, all u64 queries", "why_tests_cant": "Mixed linear/binary search inside blocks of equal upper half.", "anchors": ["src/elias_fano/mod.rs:predecessor", "src/elias_fano/mod.rs:predecessor_unchecked", "src/elias_fano/mod.rs:search_element_in_block"]}
{"id": "C23", "title": "Elias-Fano successor is exact", "statement": "successor(x) is the smallest stored element >= x, None iff all elements are smaller than x.", "quantifier": "all non-decreasing sequences, all u64 queries", "why_tests_cant": "Backward search with unsigned arithmetic.", "anchors": ["src/elias_fano/mod.rs:successor", "src/elias_fano/mod.rs:successor_unchecked", "src/elias_fano/mod.rs:search_element_in_block"]}
{"id": "C24", "title": "Elias-Fano rank is exact", "statement": "rank(x) is the number of stored elements strictly smaller than x.", "quantifier": "all non-decreasing sequences (with duplicates), all u64 queries", "why_tests_cant": "Duplicates across the binary-search threshold.", "anchors": ["src/elias_fano/mod.rs:rank", "src/elias_fano/mod.rs:search_element_in_block"]}
{"id": "C25", "title": "Elias-Fano delta is the difference to the previous element", "statement": "delta(i) = data[i]-data[i-1] for 0<i<n, data[0] for i=0 and None for i>=n.", "quantifier": "all non-decreasing sequences, all indices", "why_tests_cant": "Upper-half boundary cases.", "anchors": ["src/elias_fano/mod.rs:delta"]}
{"id": "C26", "title": "Elias-Fano iterator yields the stored sequence", "statement": "Any interleaving of next/next_back on iter()/into_iter() yields the stored elements in order; last()/max() is the greatest and min() the smallest remaining element; nth(n) equals n+1 next calls.", "quantifier": "all non-decreasing sequences, all call histories", "why_tests_cant": "History dependent cached select iterator plus offsets.", "anchors": ["src/util/elias_fano_iter.rs"]}
{"id": "C27", "title": "SparseRSVec agrees with the bit set it was built from", "statement": "For strictly increasing positions below len: is_set/get(i) tell whether i is one of them (None iff i>=len), rank1(i)/rank0(i) count the set/unset positions below min(i,len), select1(k) is the k-th position or len, iter1 yields them. from_bitvec(v) agrees with v and from_bitvec_inverted(v) with its complement; conversion from a BitVec preserves the bits.", "quantifier": "all position lists and bit vectors", "why_tests_cant": "All sets and queries.", "anchors": ["src/bit_vec/sparse.rs"]}
{"id": "C28", "title": "BinaryRmq returns the position of a minimum", "statement": "range_min(i,j) for i<=j<n lies in [i,j] and its element is <= every element of the range; no panic in construction or query.", "quantifier": "all arrays of u64, all ranges", "why_tests_cant": "Dynamic programming table over all intervals.", "anchors": ["src/rmq/binary_rmq/mod.rs:from_vec", "src/rmq/binary_rmq/mod.rs:range_min"]}
{"id": "C29", "title": "FastRmq returns the position of a minimum", "statement": "range_min(i,j) for i<=j<n lies in [i,j] and its element is <= every element of the range; no panic.", "quantifier": "all arrays of u64, all ranges", "why_tests_cant": "Block-internal bit tricks, three-way combination.", "anchors": ["src/rmq/fast_rmq/mod.rs:from_vec", "src/rmq/fast_rmq/mod.rs:range_min", "src/rmq/fast_rmq/mod.rs:SmallBitVector"]}
{"id": "C30", "title": "range_min_with_range clamps and never panics on non-empty structures", "statement": "For every range expression over a non-empty structure, range_min_with_range returns a minimum position of the range clamped to the data, and does not panic.", "quantifier": "all arrays, all RangeBounds", "why_tests_cant": "Empty, reversed and out-of-range ranges.", "anchors": ["src/rmq/binary_rmq/mod.rs:range_min_with_range", "src/rmq/fast_rmq/mod.rs:range_min_with_range"]}
{"id": "C31", "title": "Wavelet matrix stores the sequence losslessly", "statement": "For both construction algorithms and both encodings, get_u64(i)/get_value(i) return the i-th element (k-bit word) for i<n and None otherwise; len and bits_per_element are n and k.", "quantifier": "all sequences of k-bit words, all widths k >= 1", "why_tests_cant": "Stable partition over all levels.", "anchors": ["src/wavelet/mod.rs:from_slice", "src/wavelet/mod.rs:from_bit_vec", "src/wavelet/mod.rs:permutation_sorting", "src/wavelet/mod.rs:get_u64", "src/wavelet/mod.rs:get_value"]}
{"id": "C32", "title": "Prefix-counting construction equals permutation-sorting construction", "statement": "from_slice_pc and from_bit_vec_pc build the same matrix (answer every query alike) as from_slice/from_bit_vec.", "quantifier": "all sequences, all bit widths 1..63", "why_tests_cant": "Two very different algorithms.", "anchors": ["src/wavelet/mod.rs:prefix_counting", "src/wavelet/mod.rs:permutation_sorting"]}
{"id": "C33", "title": "Wavelet rank family is exact", "statement": "rank_range(a..b,s) = number of occurrences of s in positions [a,b); rank_offset(o,i,s) and rank(i,s) are the same with [o,i) and [0,i); None for out-of-bounds arguments; u64 and BitVec symbol encodings agree.", "quantifier": "all sequences, ranges, symbols of k bits", "why_tests_cant": "All levels and positions.", "anchors": ["src/wavelet/mod.rs:rank_range_unchecked", "src/wavelet/mod.rs:rank_range_u64_unchecked", "src/wavelet/mod.rs:rank_offset", "src/wavelet/mod.rs:rank"]}
{"id": "C34", "title": "Wavelet select family is exact", "statement": "select(k,s) is the position of the occurrence of s preceded by k occurrences, None if there are at most k; select_offset(o,k,s) the same counting from position o.", "quantifier": "all sequences, offsets, ranks, symbols", "why_tests_cant": "Upward traversal with overrunning ranks.", "anchors": ["src/wavelet/mod.rs:select_offset_unchecked", "src/wavelet/mod.rs:select_offset", "src/wavelet/mod.rs:select"]}
{"id": "C35", "title": "Wavelet quantile family is exact", "statement": "quantile(a..b,k) is the k-th smallest element of positions [a,b) (None if out of bounds or k>=b-a); get_sorted(k), range_min, range_max, range_median are the corresponding order statistics.", "quantifier": "all sequences, ranges, k", "why_tests_cant": "Order statistics over all ranges.", "anchors": ["src/wavelet/mod.rs:quantile", "src/wavelet/mod.rs:partial_quantile_search_u64_unchecked", "src/wavelet/mod.rs:get_sorted", "src/wavelet/mod.rs:range_min", "src/wavelet/mod.rs:range_max", "src/wavelet/mod.rs:range_median"]}
{"id": "C36", "title": "Wavelet predecessor / successor are exact", "statement": "predecessor(a..b,s) is the largest element <= s in the range (None if there is none or the range is empty/out of bounds); successor dually.", "quantifier": "all sequences, ranges, symbols of k bits", "why_tests_cant": "Backtracking over levels.", "anchors": ["src/wavelet/mod.rs:predecessor_generic", "src/wavelet/mod.rs:successor_generic"]}
{"id": "C37", "title": "Wavelet queries answer None rather than panic for bad ranges", "statement": "Every checked query called with an out-of-bounds position, range or offset returns None; the order statistics, predecessor and successor also return None for an empty range or an order statistic beyond the range; a reversed range never panics.", "quantifier": "all sequences and arguments", "why_tests_cant": "All argument combinations.", "anchors": ["src/wavelet/mod.rs:rank_range", "src/wavelet/mod.rs:quantile", "src/wavelet/mod.rs:range_min", "src/wavelet/mod.rs:predecessor_generic"]}
{"id": "C38", "title": "Wavelet sorted iteration yields the sorted sequence", "statement": "iter_sorted(_u64) yields the elements in non-decreasing order, each as often as it occurs; iter(_u64) yields them in original order.", "quantifier": "all sequences", "why_tests_cant": "Unbounded sequences.", "anchors": ["src/wavelet/mod.rs:iter_sorted_u64", "src/wavelet/mod.rs:iter_u64"]}
{"id": "C39", "title": "BpTree::fwd_search is exact", "statement": "fwd_search(i,r) is the least j>i such that the excess of parentheses i+1..=j equals r, None if there is no such j.", "quantifier": "all parenthesis sequences (also unbalanced), all block sizes, indices and relative excesses", "why_tests_cant": "Three-phase search: block, min-max tree, block; unaligned blocks.", "anchors": ["src/trees/bp/mod.rs:fwd_search", "src/trees/bp/mod.rs:fwd_search_block", "src/trees/mmt.rs:fwd_search", "src/trees/bp/lookup_query.rs:process_block_fwd"]}
{"id": "C40", "title": "BpTree::bwd_search is exact", "statement": "bwd_search(i,r) is the greatest j<i such that the excess of parentheses j..i-1 equals -r, None if there is no such j.", "quantifier": "all parenthesis sequences, all block sizes, indices and relative excesses", "why_tests_cant": "As C39, with backward block scan.", "anchors": ["src/trees/bp/mod.rs:bwd_search", "src/trees/bp/mod.rs:bwd_search_block", "src/trees/mmt.rs:bwd_search", "src/trees/bp/lookup_query.rs:process_block_bwd"]}
{"id": "C41", "title": "close, open and enclose find matching parentheses", "statement": "On a balanced sequence close(i) of an opening parenthesis is its matching closing parenthesis and open inverts it; enclose(i) is the opening parenthesis of the innermost pair strictly containing the pair of i, None for the root.", "quantifier": "all balanced sequences, all positions", "why_tests_cant": "Matching is a global property.", "anchors": ["src/trees/bp/mod.rs:close", "src/trees/bp/mod.rs:open", "src/trees/bp/mod.rs:enclose"]}
{"id": "C42", "title": "Tree navigation follows the tree shape", "statement": "For the ordered tree encoded by a balanced sequence: root, parent, first_child, last_child, next_sibling, previous_sibling, is_leaf and children/rev_children return exactly the corresponding nodes (None if absent).", "quantifier": "all ordered trees, all nodes", "why_tests_cant": "All tree shapes.", "anchors": ["src/trees/bp/mod.rs:Tree for BpTree", "src/trees/bp/mod.rs:children", "src/trees/bp/mod.rs:rev_children"]}
{"id": "C43", "title": "depth, ancestors and levels", "statement": "depth(v) is the number of proper ancestors; level_ancestor(v,k) the k-th ancestor; level_next/level_prev the next/previous node of the same depth in preorder; level_leftmost/level_rightmost(d) the first/last node of depth d; None if absent.", "quantifier": "all ordered trees, nodes and levels", "why_tests_cant": "All tree shapes and levels, incl. root level and empty tree.", "anchors": ["src/trees/bp/mod.rs:depth", "src/trees/bp/mod.rs:level_ancestor", "src/trees/bp/mod.rs:level_next", "src/trees/bp/mod.rs:level_prev", "src/trees/bp/mod.rs:level_leftmost", "src/trees/bp/mod.rs:level_rightmost"]}
{"id": "C44", "title": "subtree_size and is_ancestor", "statement": "subtree_size(v) is the number of nodes in v's subtree including v; is_ancestor(a,d) iff d lies in a's subtree.", "quantifier": "all trees and nodes", "why_tests_cant": "All tree shapes.", "anchors": ["src/trees/bp/mod.rs:subtree_size", "src/trees/bp/mod.rs:is_ancestor"]}
{"id": "C45", "title": "Traversal iterators", "statement": "dfs_iter / subtree_iter yield nodes in preorder, dfs_post_iter / subtree_post_iter in postorder, each node exactly once.", "quantifier": "all trees", "why_tests_cant": "All tree shapes.", "anchors": ["src/trees/bp/mod.rs:dfs_iter", "src/trees/bp/mod.rs:dfs_post_iter", "src/trees/bp/mod.rs:subtree_iter", "src/trees/bp/mod.rs:subtree_post_iter"]}
{"id": "C46", "title": "node_index and node_handle are inverse", "statement": "node_index numbers nodes 0..size-1 in preorder and node_handle inverts it; size is the number of nodes.", "quantifier": "all trees and nodes", "why_tests_cant": "All tree shapes.", "anchors": ["src/trees/bp/mod.rs:node_index", "src/trees/bp/mod.rs:node_handle", "src/trees/bp/mod.rs:size"]}
{"id": "C47", "title": "Tree builder", "statement": "Driving the builder by a depth-first walk of a tree yields exactly its parenthesis sequence; build fails with the excess iff the numbers of enter_node and leave_node calls differ; a successful build is a valid tree.", "quantifier": "all call sequences", "why_tests_cant": "All histories of calls.", "anchors": ["src/trees/bp/builder.rs:enter_node", "src/trees/bp/builder.rs:leave_node", "src/trees/bp/builder.rs:build"]}
{"id": "C48", "title": "Parenthesis lookup tables are exact", "statement": "For every 8-bit (16-bit) block and relative excess, the table lookup answers the forward/backward search inside the block exactly as scanning the bits does, so both lookup variants give the same tree behaviour.", "quantifier": "all blocks and relative excesses", "why_tests_cant": "Tables are built by const evaluation; must agree entry by entry.", "anchors": ["src/trees/bp/lookup_query.rs", "src/trees/bp/lookup.rs"]}
{"id": "C49", "title": "Select-in-word via pdep", "statement": "(1<<k).pdep(w).trailing_zeros() is the position of the k-th set bit of w for every w with more than k set bits; pdep deposits the low bits of the value to the set positions of the mask.", "quantifier": "all 64-bit words and ranks", "why_tests_cant": "2^64 words.", "anchors": ["src/util/pdep.rs:pdep"]}
{"id": "C50", "title": "No panic on arbitrary (unbalanced) parenthesis sequences", "statement": "excess, fwd_search, bwd_search, open, close, enclose and navigation never panic on any sequence, including unbalanced or empty ones (as documented).", "quantifier": "all sequences and arguments", "why_tests_cant": "Absence of panics over all inputs.", "anchors": ["src/trees/bp/mod.rs", "src/trees/mmt.rs"]}
{"id": "C51", "title": "min-max tree invariant", "statement": "Searching blocks of a parenthesis sequence for the first/last block that can contain a relative excess never misses a block: the forward (backward) search returns the first block after (last block before) the start whose prefix excesses reach the target.", "quantifier": "all sequences, all block sizes, starting blocks and targets", "why_tests_cant": "Heap layout with missing leaves.", "anchors": ["src/trees/mmt.rs:excess_tree", "src/trees/mmt.rs:fwd_search", "src/trees/mmt.rs:bwd_search"]}
{"id": "C52", "title": "SIMD bit-set iterators yield exactly the positions", "statement": "bit_set_iter0/1 yield each position of a 0-/1-bit exactly once in ascending order.", "quantifier": "all vectors", "why_tests_cant": "Chunk borders and tail.", "anchors": ["src/bit_vec/fast_rs_vec/bitset.rs"]}
{"id": "C53", "title": "SIMD builds answer like scalar builds", "statement": "In a build with the SIMD feature, select, every sequence of calls on the select iterators and the equality of vectors give the same results as in a build without it; the block search compares all block descriptors at once instead of searching.", "quantifier": "all vectors, ranks and sequences of iterator calls", "why_tests_cant": "Feature-gated code; all inputs.", "anchors": ["src/bit_vec/fast_rs_vec/select.rs:search_block0", "src/bit_vec/fast_rs_vec/select.rs:search_block1", "src/bit_vec/fast_rs_vec/iter.rs:SelectIter"]}
{"id": "C54", "title": "Serialization round trip", "statement": "Serializing and deserializing any structure with the serde feature gives a structure answering all queries identically.", "quantifier": "all structures", "why_tests_cant": "All contents.", "anchors": ["Cargo.toml:serde"]}
{"id": "C55", "title": "Bit vectors take the documented space", "statement": "The heap size a bit vector reports is its number of bits rounded up to whole limbs. That of a rank/select vector is at most len + 28*ceil(len/512) + 379 bits (the documented overhead of 28 bits per 512 bits), and is determined by the length and the number of zeros.", "quantifier": "all bit vectors, all lengths", "why_tests_cant": "The bound has to hold for every length and every distribution of zeros and ones; the size of the select table depends on both.", "anchors": ["src/bit_vec/mod.rs:heap_size", "src/bit_vec/fast_rs_vec/mod.rs:heap_size", "src/bit_vec/fast_rs_vec/mod.rs:from_bit_vec"]}
{"id": "C56", "title": "Elias-Fano and sparse vectors are compressed", "statement": "A sorted sequence of n values spread over a distance u is stored in about n*log2(u/n) + 3n bits plus o(n), which is less than the 64n bits of the slice unless the values need nearly 64 bits; likewise for a sparse vector with n set bits.", "quantifier": "all sorted sequences", "why_tests_cant": "The width of the lower part depends on how n and u are placed relative to powers of two; a test fixes a few of these.", "anchors": ["src/elias_fano/mod.rs:from_slice", "src/elias_fano/mod.rs:heap_size", "src/bit_vec/sparse.rs:heap_size"]}
{"id": "C57", "title": "Space of the range minimum structures", "statement": "The binary structure takes 8n + 4n(ceil(log2 n)+1) bytes, the fast structure 8n + 41b + 4b(ceil(log2 b)+1) bytes for b = ceil(n/128) blocks, the O(n log n) with a fractional constant of the documentation.", "quantifier": "all vectors the constructors accept", "why_tests_cant": "Formula for every length.", "anchors": ["src/rmq/binary_rmq/mod.rs:heap_size", "src/rmq/fast_rmq/mod.rs:heap_size"]}
{"id": "C58", "title": "Space of the wavelet matrix", "statement": "A wavelet matrix over n elements of k bits takes at least n*k bits and at most k*(n + 28*ceil(n/512) + 379) bits, whichever constructor built it.", "quantifier": "all sequences, all widths, all four constructors", "why_tests_cant": "Every length and width.", "anchors": ["src/wavelet/mod.rs:heap_size", "src/wavelet/mod.rs:from_slice"]}
{"id": "C59", "title": "Space of the parenthesis tree", "statement": "A tree takes its 2n parentheses, the rank/select overhead, and extra space for the queries that is a fraction of n bits.", "quantifier": "all trees and block sizes", "why_tests_cant": "Every tree size.", "anchors": ["src/trees/mod.rs:1-4", "src/trees/bp/mod.rs:heap_size", "src/trees/mmt.rs:heap_size"]}
{"id": "C60", "title": "Rank takes constant time and the worst case of select is logarithmic", "statement": "A rank0 or rank1 query takes constant time: it reads a fixed number of words. A select0 or select1 query takes a number of steps at most logarithmic in the length of the vector in the worst case, as documented.", "quantifier": "all vectors, both kinds of bits, all ranks", "why_tests_cant": "A bound on the steps of every query of every size; the slow cases need huge, specially shaped vectors.", "anchors": ["src/bit_vec/fast_rs_vec/mod.rs:1-2", "src/bit_vec/fast_rs_vec/select.rs:search_super_block0", "src/bit_vec/fast_rs_vec/select.rs:search_super_block1", "src/bit_vec/fast_rs_vec/mod.rs:rank"]}
{"id": "C61", "title": "Worst case of predecessor and successor is logarithmic", "statement": "A predecessor or successor query on an Elias-Fano vector takes a number of steps at most logarithmic in the number of elements, as documented.", "quantifier": "all sorted sequences, all queries", "why_tests_cant": "A bound on the steps of every query of every size.", "anchors": ["src/elias_fano/mod.rs:predecessor", "src/elias_fano/mod.rs:successor", "src/elias_fano/mod.rs:search_element_in_block"]}
{"id": "C62", "title": "Tree operations take logarithmic time", "statement": "Every operation of the parenthesis tree visits a number of blocks and summary nodes at most logarithmic in the size of the tree, as documented.", "quantifier": "all parenthesis sequences, all block sizes, all operations and arguments", "why_tests_cant": "A bound on the steps of every query of every size.", "anchors": ["src/trees/bp/mod.rs:42", "src/trees/mmt.rs:6", "src/trees/mmt.rs:fwd_search", "src/trees/mmt.rs:bwd_search"]}
{"id": "C63", "title": "Unchecked queries agree with the checked ones", "statement": "Within the documented domain of a query, its variant without bounds checks returns the documented answer, and select variants return the length of the sequence if there is no such element; elements wider than 64 bits are truncated by the u64 variants.", "quantifier": "all sequences, all bits per element, all in-domain arguments", "why_tests_cant": "Every sequence and every in-domain argument of over twenty functions.", "anchors": ["src/wavelet/mod.rs:rank_range_unchecked", "src/wavelet/mod.rs:select_offset_unchecked", "src/wavelet/mod.rs:quantile_unchecked", "src/wavelet/mod.rs:range_max_unchecked", "src/wavelet/mod.rs:get_sorted_unchecked", "src/bit_vec/mod.rs:get_bits_unchecked", "src/elias_fano/mod.rs:predecessor_unchecked"]}
{"id": "C64", "title": "Conversions keep the contents", "statement": "Converting a BitVec to an RsVec or a BpTree and back gives the same bits and length, the RsVec taken out of a BpTree equals the one built from the BitVec, the u64 limbs of a BitVec hold exactly its bits, append_bit_u8/u16/u32 append the lowest bit, EliasFanoVec::select is the element of that rank, and dereferencing a range minimum structure gives the data it was built from.", "quantifier": "all bit vectors including junk beyond the end and unbalanced parentheses, all block sizes, all data", "why_tests_cant": "Every content and length, in particular lengths that are not multiples of a limb and stale bits in the last limb.", "anchors": ["src/bit_vec/mod.rs:iter_limbs", "src/bit_vec/mod.rs:append_bit_u8", "src/bit_vec/fast_rs_vec/mod.rs:into_bit_vec", "src/trees/bp/mod.rs:into_parentheses_vec", "src/rmq/fast_rmq/mod.rs:deref", "src/rmq/binary_rmq/mod.rs:deref", "src/elias_fano/mod.rs:select"]}
{"id": "C65", "title": "Structures with the same interface agree", "statement": "SparseRSVec and RsVec built from one BitVec return the same result of get, rank0, rank1 and select1 for every argument; BinaryRmq and FastRmq over the same data return minima of equal value, and the same position if the elements are distinct.", "quantifier": "all bit vectors below 2^60 bits, all data below 2^32 elements, all arguments in and out of range", "why_tests_cant": "Two unrelated representations are compared on every input.", "anchors": ["src/bit_vec/sparse.rs:SparseRSVec", "src/bit_vec/fast_rs_vec/mod.rs:RsVec", "src/rmq/binary_rmq/mod.rs:range_min", "src/rmq/fast_rmq/mod.rs:range_min"]}
{"id": "C66", "title": "Release builds return what debug builds return", "statement": "Every public function returns the same value in a debug build and in a release build, or panics in the same way, unless the debug build panics because of an arithmetic overflow or a failed assertion. In particular, every value that a debug build returns is returned by the release build, also in client programs that are composed of such calls.", "quantifier": "all public functions and all values of their arguments, including arguments out of range and, except for the tree operations that check their argument in debug builds, also structures that no constructor returns", "why_tests_cant": "Tests run in one build profile; the agreement of two compilations ranges over all inputs of all functions.", "anchors": ["src/bit_vec/mod.rs:BitVec", "src/bit_vec/fast_rs_vec/mod.rs:RsVec", "src/elias_fano/mod.rs:EliasFanoVec", "src/rmq/fast_rmq/mod.rs:FastRmq", "src/wavelet/mod.rs:WaveletMatrix", "src/trees/bp/mod.rs:BpTree"]}
{"id": "C67", "title": "Floating point rounding does not affect the structures", "statement": "The sizes inside Elias-Fano vectors and parenthesis trees are computed with 64-bit floating point logarithms. For every integer up to 2^45 the logarithm rounded up is exact; for larger 64-bit integers it is off by at most one. Elias-Fano vectors built with these sizes return the elements they were built from, and parenthesis trees of up to 2^45 blocks are the ones that exact arithmetic would give.", "quantifier": "all integers of 64 bits, all sorted sequences of fewer than 2^60 elements, all parenthesis sequences of up to 2^45 blocks, all ways to break rounding ties, and all logarithm functions with an error below 2^-46", "why_tests_cant": "Rounding errors occur at isolated arguments (next to powers of two) among 2^64; tests with large enough arguments need more memory than there is.", "anchors": ["src/elias_fano/mod.rs:EliasFanoVec::from_slice", "src/trees/mmt.rs:MinMaxTree::excess_tree"]}
{"id": "C68", "title": "The unsafe code stays inside of its allocations", "statement": "Queries, iterators and comparisons that are compiled with SIMD instructions never read or write through a raw pointer outside of the slice or array it belongs to; they return or panic. This holds for every content of the vector, including values that were deserialised from arbitrary bytes, and for every state of the iterator.", "quantifier": "all contents of the fields of a vector and of an iterator, whether or not a constructor produces them; all arguments; any number of calls", "why_tests_cant": "An access outside of an allocation usually returns some value without a failure, and the inputs include every deserialised value.", "anchors": ["src/bit_vec/fast_rs_vec/select.rs:search_block0", "src/bit_vec/fast_rs_vec/select.rs:search_block1", "src/bit_vec/fast_rs_vec/bitset.rs:load_chunk"]}
{"id": "C69", "title": "Every call ends, whatever the content of the structure", "statement": "Queries, iterator calls, comparisons and tree navigation return or panic after finitely many steps. This holds for every content of the fields, including values that were deserialised from arbitrary bytes, and in debug and release builds.", "quantifier": "all representable contents of the fields of the structures and iterators, whether or not a constructor produces them; all arguments; both build profiles", "why_tests_cant": "A test cannot tell an endless loop from a slow one and cannot try every deserialised value.", "anchors": ["src/bit_vec/fast_rs_vec/select.rs", "src/bit_vec/fast_rs_vec/iter.rs", "src/bit_vec/fast_rs_vec/bitset.rs", "src/trees/mmt.rs:fwd_search", "src/trees/mmt.rs:bwd_search", "src/elias_fano/mod.rs:search_element_in_block", "src/wavelet/mod.rs:select_offset_unchecked"]}
{"id": "C70", "title": "Calls outside of the domain of a function end as documented", "statement": "A call whose arguments are outside of the documented domain has the documented outcome: appends of more than 64 bits, flips behind the end, constructors with too long inputs or wrong widths, range minimum queries of an empty structure and accesses behind the end of an Elias-Fano vector panic; unchecked writes behind the end change no bit of the vector; unchecked wavelet matrix queries panic or return zero, an empty vector, or (select) the length.", "quantifier": "all structures and all arguments outside of the documented domain", "why_tests_cant": "The arguments outside of the domain are infinitely many and tests rarely leave the domain at all.", "anchors": ["src/bit_vec/mod.rs:append_bits", "src/bit_vec/mod.rs:flip_bit", "src/bit_vec/mod.rs:flip_bit_unchecked", "src/bit_vec/mod.rs:set_unchecked", "src/bit_vec/mod.rs:split_at_unchecked", "src/rmq/binary_rmq/mod.rs:range_min_with_range", "src/rmq/fast_rmq/mod.rs:range_min_with_range", "src/elias_fano/mod.rs:get_unchecked", "src/wavelet/mod.rs:from_bit_vec", "src/wavelet/mod.rs:from_slice", "src/wavelet/mod.rs:rank_range_unchecked", "src/wavelet/mod.rs:select_offset_unchecked", "src/wavelet/mod.rs:get_sorted_unchecked"]}
{"id": "C71", "title": "Loops over the iterators see the remaining elements and end", "statement": "After any calls on an iterator, size_hint and count are exact, a for loop or collect() sees exactly the remaining elements in order and ends, and a loop over the reversed iterator sees them in reverse order. This holds for the iterators of BitVec, RsVec (elements, ones, zeros), EliasFanoVec, SparseRSVec, WaveletMatrix (original and ascending order, as vectors and as u64) and for the tree iterators of BpTree.", "quantifier": "all structures, all call histories on the iterator before the loop", "why_tests_cant": "Whether a loop ends depends on the history and on cached positions; sizes are unbounded.", "anchors": ["src/util/general_iter.rs", "src/util/elias_fano_iter.rs", "src/bit_vec/fast_rs_vec/iter.rs", "src/bit_vec/sparse.rs:iter1", "src/trees/bp/mod.rs:dfs_iter", "src/trees/bp/mod.rs:children"]}
{"id": "C72", "title": "Wavelet matrix queries take time linear in the width of the elements", "statement": "Every query of a wavelet matrix over k-bit elements takes O(k) time, independent of the number of elements.", "quantifier": "all wavelet matrices, all queries and arguments", "why_tests_cant": "A bound for all sizes cannot be observed on finitely many sizes; benchmarks use random data, on which the slow case does not occur.", "anchors": ["src/wavelet/mod.rs:select_offset_unchecked", "src/wavelet/mod.rs:select_offset_u64_unchecked", "src/bit_vec/fast_rs_vec/select.rs:search_super_block1"]}
{"id": "C73", "title": "A structure copied through its interface is the same", "statement": "Collecting the elements of a structure through its iterator and constructing a new structure from them gives the same structure: the identical value for EliasFanoVec, SparseRSVec and WaveletMatrix (which is determined by its sequence, whatever the constructor), an equal one for RsVec. A recursive walk over a BpTree with first_child and next_sibling that feeds a BpBuilder builds a tree with the same parentheses.", "quantifier": "all structures; for the tree all trees, block sizes and lookup variants", "why_tests_cant": "The copy combines all of a constructor, an iterator or navigation functions, and sizes and shapes are unbounded.", "anchors": ["src/elias_fano/mod.rs:from_slice", "src/bit_vec/sparse.rs:new", "src/bit_vec/sparse.rs:iter1", "src/bit_vec/fast_rs_vec/mod.rs:from_bit_vec", "src/wavelet/mod.rs:from_slice", "src/wavelet/mod.rs:from_bit_vec", "src/wavelet/mod.rs:iter_u64", "src/trees/bp/mod.rs:first_child", "src/trees/bp/mod.rs:next_sibling", "src/trees/bp/builder.rs"]}
{"id": "C74", "title": "Range minimum queries take constant time", "statement": "A range minimum query of BinaryRmq or FastRmq reads a constant number of memory cells, whatever the number of elements and the range: at most 5 for BinaryRmq and 130 for FastRmq (12 if the range is not within one block of 128 elements), and one more if the range is given by bounds.", "quantifier": "all structures with any contents, all arguments", "why_tests_cant": "A bound for all sizes cannot be observed on finitely many sizes; tests check results and not the cells read.", "anchors": ["src/rmq/mod.rs", "src/rmq/binary_rmq/mod.rs:range_min", "src/rmq/binary_rmq/mod.rs:range_min_with_range", "src/rmq/fast_rmq/mod.rs:range_min", "src/rmq/fast_rmq/mod.rs:range_min_with_range"]}
{"id": "C75", "title": "Iterating over positions exploits the linear access pattern", "statement": "Iterating over the positions of all zeros or ones with iter0 or iter1 is faster than a select query for each: the loop takes time linear in the number of positions and in the number of super blocks (of 8192 bits), because a call whose position is in the super block of the previous one takes constant time.", "quantifier": "all vectors, both kinds of bits", "why_tests_cant": "A bound for all sizes cannot be observed on finitely many sizes, and tests check results, not the steps taken.", "anchors": ["src/bit_vec/fast_rs_vec/iter.rs:iter0", "src/bit_vec/fast_rs_vec/iter.rs:iter1", "src/bit_vec/fast_rs_vec/iter.rs:select_next_0", "src/bit_vec/fast_rs_vec/iter.rs:select_next_1", "src/bit_vec/fast_rs_vec/select.rs:search_super_block1"]}
{"id": "C76", "title": "The constructors take the documented time", "statement": "Constructing a BinaryRmq or FastRmq of n elements takes O(n log n) time. Constructing a wavelet matrix of n elements of k bits with from_bit_vec or from_slice takes O(kn log n) time, and with from_bit_vec_pc or from_slice_pc O(kn) time. The other constructors are linear: RsVec::from_bit_vec in the number of words, EliasFanoVec::from_slice and SparseRSVec::new in the number of elements (independent of the universe), SparseRSVec::from_bitvec and BpTree::from_bit_vector in the number of bits.", "quantifier": "all inputs, all widths of elements", "why_tests_cant": "A bound for all sizes cannot be observed on finitely many sizes, and tests check results, not the steps taken.", "anchors": ["src/rmq/binary_rmq/mod.rs:from_vec", "src/rmq/fast_rmq/mod.rs:from_vec", "src/wavelet/mod.rs:permutation_sorting", "src/wavelet/mod.rs:prefix_counting", "src/bit_vec/fast_rs_vec/mod.rs:from_bit_vec", "src/elias_fano/mod.rs:from_slice", "src/bit_vec/sparse.rs:new, from_bitvec, from_bitvec_inverted", "src/trees/mmt.rs:excess_tree", "src/trees/bp/mod.rs:from_bit_vector"]}
{"id": "C77", "title": "Select takes constant time on average", "statement": "select0 and select1 take constant time on average over all ranks, as documented. Random access to an Elias-Fano vector takes constant time on average over its elements.", "quantifier": "all bit vectors, both kinds of bits; all sorted sequences", "why_tests_cant": "A bound on the sum of the steps of all queries of every vector; benchmarks use random data, on which the slow case does not occur.", "anchors": ["src/bit_vec/fast_rs_vec/mod.rs:1-2", "src/bit_vec/fast_rs_vec/select.rs:select0", "src/bit_vec/fast_rs_vec/select.rs:select1", "src/bit_vec/fast_rs_vec/select.rs:search_super_block", "src/elias_fano/mod.rs:get_unchecked"]}
{"id": "C78", "title": "Minimum and maximum of an Elias-Fano iterator take constant time", "statement": "The min and max functions of the iterators of an Elias-Fano vector operate in constant time, as documented, because the elements are sorted.", "quantifier": "all sorted sequences, all sequences of calls before", "why_tests_cant": "A bound on the steps of every query of every size; the slow cases need special sequences.", "anchors": ["src/util/elias_fano_iter.rs:min", "src/util/elias_fano_iter.rs:max", "src/util/elias_fano_iter.rs:last", "src/bit_vec/fast_rs_vec/iter.rs:select_next_1"]}
{"id": "C79", "title": "Iterating over an Elias-Fano vector takes linear time", "statement": "Iterating over all elements of an Elias-Fano vector, from the front, from the back or from both ends in any order, yields the elements in that order and takes time linear in the number of elements, whatever the sequence.", "quantifier": "all sorted sequences, all sequences of calls of next and next_back", "why_tests_cant": "A bound on the total of the steps for every sequence and every order of calls; single calls are not constant (C75, C78), so that it holds only on average over the iteration.", "anchors": ["src/util/elias_fano_iter.rs:next", "src/util/elias_fano_iter.rs:next_back", "src/bit_vec/fast_rs_vec/iter.rs:select_next_1", "src/bit_vec/fast_rs_vec/iter.rs:select_next_1_back"]}
{"id": "C80", "title": "A preorder traversal of a tree takes linear time", "statement": "Visiting all nodes of a tree with its depth-first iterator, from the front, from the back or from both ends in any order, yields the nodes in preorder and takes time linear in the number of nodes, whatever the shape of the tree.", "quantifier": "all trees, all sequences of calls of next and next_back", "why_tests_cant": "A bound on the total of the steps for every tree; single calls are not constant (C75).", "anchors": ["src/trees/bp/mod.rs:dfs_iter", "src/bit_vec/fast_rs_vec/iter.rs:select_next_1", "src/bit_vec/fast_rs_vec/iter.rs:select_next_1_back"]}
{"id": "C81", "title": "A call that panics leaves the object as it was", "statement": "If a call on a bit vector or on an iterator panics and the caller catches the panic, the object is as it was before the call: later calls answer as if the panicking call had not been made. If the operation given to apply_mask_custom panics, the vector is still well-formed, and whole words of 64 bits have been combined or not.", "quantifier": "all vectors, all iterators, all sequences of calls with any arguments, any of which may panic", "why_tests_cant": "Depends on the order of the assignments and of the checks in every method, for all states that a sequence of successful and failing calls can reach.", "anchors": ["src/bit_vec/mod.rs:append_bits", "src/bit_vec/mod.rs:flip_bit", "src/bit_vec/mod.rs:extend_bitvec", "src/bit_vec/mod.rs:apply_mask_custom", "src/util/general_iter.rs:advance_by", "src/bit_vec/fast_rs_vec/iter.rs:advance_back_by", "src/util/elias_fano_iter.rs:advance_by"]}
{"id": "C82", "title": "Reallocations of bit vectors stay within the documented bounds", "statement": "Appending another bit vector (extend_bitvec) reallocates the limbs at most once, whatever the capacity. A bit vector created with a capacity of c bits is not reallocated by any sequence of calls while it holds at most c bits. Constructors from slices of bits, bools or packed integers, the second half of split_at, the lower parts of Elias-Fano vectors and tree builders with a capacity never reallocate within it. A vector that grows without a capacity is reallocated a logarithmic number of times, and the limbs copied are at most twice those of the largest vector. The limbs always fit into the allocated memory.", "quantifier": "all bit vectors and capacities, all sequences of calls of mutating methods, all allocation strategies that meet the guarantees of the standard library", "why_tests_cant": "Reallocations depend on the strategy of the allocator and on the history of the vector; a test observes one strategy and one history.", "anchors": ["src/bit_vec/mod.rs: with_capacity, extend_bitvec, append, append_bit, append_word, append_bits, append_bits_unchecked, drop_last, split_at, from_bits, from_bits_iter, from_bools, from_bool_iter, pack_sequence_u64", "src/trees/bp/builder.rs: BpBuilder::with_capacity, enter_node, leave_node", "src/elias_fano/mod.rs: from_slice"]}
{"id": "C83", "title": "Searches in Elias-Fano vectors take constant time on average", "statement": "Averaged over all query values from the smallest to the largest element, predecessor, successor and rank take a number of steps (accesses to the index and the halves of the elements) that is bounded by a constant, independent of the number and the size of the elements.", "quantifier": "all sorted sequences of elements with up to 2^60 elements, all queries between the smallest and the largest", "why_tests_cant": "An average over all queries, bounded for all sequences of every length; a benchmark measures a few distributions.", "anchors": ["src/elias_fano/mod.rs: predecessor, predecessor_unchecked, successor, successor_unchecked, rank, search_element_in_block, bin_search", "src/bit_vec/fast_rs_vec/mod.rs: select0, select1"]}
{"id": "C84", "title": "Skipping, taking and stepping over the iterators", "statement": "The adaptors skip, take and step_by over an iterator of the library, in either order with rev, have exactly the elements they would have over a list of the remaining elements: all but the first n, the first n, every k-th. A loop sees them in order, and next and next_back can be called in any order up to the first None; nothing panics.", "quantifier": "all vectors, all iterators of the library (bit vectors, rank/select vectors, positions of zeros and ones, wavelet matrices, Elias-Fano vectors) after any sequence of calls, all arguments of the adaptors", "why_tests_cant": "The adaptors call nth and nth_back with arguments that depend on the remaining length, at every state of the iterator; tests try a few lengths.", "anchors": ["src/util/general_iter.rs: nth, nth_back, advance_by, advance_back_by, len", "src/util/elias_fano_iter.rs: nth, nth_back, advance_by, advance_back_by, len", "src/bit_vec/fast_rs_vec/iter.rs: SelectIter nth, nth_back, advance_by, advance_back_by, len"]}
{"id": "C85", "title": "Comparisons of rank/select vectors take the documented time", "statement": "full_equals compares limb by limb: it makes at most one comparison for each word and none after the first difference. sparse_equals is faster for sparse vectors: its time depends on the number of positions of the compared kind before the first difference. Vectors of different lengths or counts are rejected without reading them. == is at least as fast as full_equals, also above 4 million bits.", "quantifier": "all pairs of vectors, both kinds of bits, all positions of the first difference", "why_tests_cant": "A bound on the time for all vectors cannot be measured; the slow vectors have all their ones in the last super block, which random tests and benchmarks do not produce.", "anchors": ["src/bit_vec/fast_rs_vec/mod.rs: RsVec::sparse_equals, RsVec::full_equals, PartialEq for RsVec", "src/bit_vec/fast_rs_vec/iter.rs: SelectIter::select_next_0, select_next_1"]}
{"id": "C86", "title": "The bit set iterators are faster for dense and slower for sparse vectors", "statement": "Iterating over positions with bit_set_iter0 or bit_set_iter1 takes a step for each call and for each chunk of 16 bits. So it is faster than iter0 or iter1 for dense vectors and slower for sparse vectors, as documented.", "quantifier": "all vectors, both kinds of bits, all numbers of calls", "why_tests_cant": "The bound holds for every distribution of the bits and every number of calls; a benchmark shows it for the vectors it measures.", "anchors": ["src/bit_vec/fast_rs_vec/bitset.rs: BitSetIter::new, load_chunk, load_next_chunk, next", "src/bit_vec/fast_rs_vec/iter.rs: SelectIter::next"]}
{"id": "C87", "title": "Walks over a tree visit every node once, at a logarithmic cost per node", "statement": "Following next_sibling from a root or a first child visits the roots, or the children of the node, from left to right, each exactly once, and then ends; following previous_sibling, parent, level_next and level_prev visits the siblings to the left, the ancestors, and the nodes of a level in both directions. A walk that visits m nodes reads at most m times the memory cells of one query. The recursive walk with first_child and next_sibling visits the whole tree.", "quantifier": "all forests, block sizes, start nodes and levels, and all numbers of steps", "why_tests_cant": "That the loop ends and misses or repeats no node depends on the results of all queries on the way, for trees of every shape and size.", "anchors": ["src/trees/bp/mod.rs: BpTree::next_sibling, previous_sibling, first_child, last_child, parent, level_next, level_prev, level_leftmost, level_rightmost, ChildrenIter::next"]}
{"id": "C88", "title": "The functions of a tree agree with each other", "statement": "next_sibling and previous_sibling are inverse, and so are level_next and level_prev. The first child of a node is the node with this parent and without previous sibling, the last child the one without next sibling; a node has one iff it has the other, iff it is not a leaf, iff its subtree has more than one node. Siblings have the same parent, a node is one level below its parent, and only roots have depth 0. is_ancestor holds for the nodes reached by following parent, and subtree_size is one more than the sum over the children.", "quantifier": "all balanced parenthesis sequences, block sizes, and pairs of nodes", "why_tests_cant": "Each law relates two queries on two nodes of a tree of any shape; a test checks them for the pairs of one tree.", "anchors": ["src/trees/bp/mod.rs: BpTree::next_sibling, previous_sibling, first_child, last_child, parent, level_next, level_prev, depth, is_leaf, is_ancestor, subtree_size"]}
{"id": "C89", "title": "The queries of Elias-Fano vectors, sparse vectors and wavelet matrices agree with each other", "statement": "In an Elias-Fano vector the successor of x is the element at index rank(x), the predecessor of x is the element before index rank(x+1), a stored element is its own successor and predecessor and first occurs at the index that is its rank, and an element is the sum of the deltas up to its index. In a wavelet matrix rank and select are inverse to each other, range ranks are differences of ranks, minimum, maximum and median are quantiles, the sorted sequence is given by the quantiles of the whole range, and predecessors and successors occur in the range and are their own predecessor and successor. In a sparse rank/select vector rank1 and select1 are inverse on the ones and the two ranks add up to the position.", "quantifier": "all sorted sequences, all sequences of elements of any width, all positions, ranges and values", "why_tests_cant": "Each law relates several queries on the same data for every argument; a test compares them on one sequence.", "anchors": ["src/elias_fano/mod.rs: EliasFanoVec::get, rank, predecessor, successor, delta", "src/wavelet/mod.rs: WaveletMatrix::get_u64, rank_u64, select_u64, rank_range_u64, quantile_u64, range_min_u64, range_max_u64, range_median_u64, get_sorted_u64, predecessor_u64, successor_u64", "src/bit_vec/sparse.rs: SparseRSVec::rank0, rank1, select1, is_set"]}
{"id": "C90", "title": "Writes to a bit vector are read back and undone by the opposite writes", "statement": "set and flip_bit are read back by is_bit_set and leave the length and every other bit as they were; writes to different positions can be exchanged, the later of two writes to a position counts, and two flips restore the content. drop_last and split_at undo append, append_word, append_bits and extend_bitvec; get_bits reads what append_bits appended and no other read of older bits changes. Applying a mask with xor twice restores the content, and masks of one kind can be applied in any order. The number of ones follows.", "quantifier": "all bit vectors (also with stale bits behind the end), positions, words, widths from 1 to 64 and masks of the same length", "why_tests_cant": "Stale bits behind the end of the last limb and limb boundaries make the laws depend on the length and the history; tests see a few lengths.", "anchors": ["src/bit_vec/mod.rs: BitVec::set, flip_bit, append, append_word, append_bits, extend_bitvec, drop_last, split_at, is_bit_set, get_bits, count_ones, apply_mask_and, apply_mask_or, apply_mask_xor"]}
{"id": "C91", "title": "Answers are monotone in the query", "statement": "Ranks do not decrease with the position and grow by at most one per position; the k-th one or zero is before position p iff the rank of p exceeds k; select results increase. In an Elias-Fano vector elements do not decrease with the index, ranks, predecessors and successors do not decrease with the value, and the element at i is smaller than x iff i is below the rank of x. The quantiles of a range of a wavelet matrix do not decrease and the median is between minimum and maximum. A range minimum of one element is that element, the minimum of a union is the smaller of the two minima, and the minimum of a part is not smaller.", "quantifier": "all bit vectors, sorted sequences, sequences and arrays; all pairs of positions, ranks, values and ranges", "why_tests_cant": "Each law compares two queries with arbitrary arguments; block boundaries at which a comparison can fail depend on the content.", "anchors": ["src/bit_vec/fast_rs_vec/mod.rs: RsVec::rank0, rank1, select0, select1", "src/elias_fano/mod.rs: EliasFanoVec::get, rank, predecessor, successor", "src/wavelet/mod.rs: WaveletMatrix::quantile_u64, range_min_u64, range_max_u64, range_median_u64", "src/rmq/binary_rmq/mod.rs: BinaryRmq::range_min", "src/rmq/fast_rmq/mod.rs: FastRmq::range_min"]}
{"id": "C92", "title": "Answers about a part of the data are the answers of a structure for this part alone", "statement": "The tree built from the parentheses of one subtree answers about its nodes (first and last child, siblings, parent, leaf, subtree size, ancestors, depth counted from the root of the subtree) as the whole tree does at the shifted positions. Rank and select answers about the first bits of a vector do not change when bits are appended, and answers behind them are those of the appended part, shifted. A range query of a wavelet matrix (access, rank, quantiles, minimum, maximum, median, predecessor, successor) is answered as the query for everything by the matrix of the elements of the range. The same holds for matrices of any width with bit vectors as symbols. An Elias-Fano vector of two sorted sequences one after the other answers access, rank, predecessor and successor from the answers of the vectors of the two. A range minimum query inside of a part of the data finds the same value as the structure of the part. The tree of two balanced sequences one after the other answers about the nodes of each as its own tree does, shifted for the second; only the roots at the seam gain siblings.", "quantifier": "all balanced sequences, nodes and pairs of block sizes; all pairs of bit vectors; all sequences of elements of any width and non-empty ranges; all sorted sequences and their splits; all data and sub-slices", "why_tests_cant": "The two structures have different block boundaries, so that the same query takes different paths through blocks, super-blocks and the min-max tree.", "anchors": ["src/trees/bp/mod.rs: BpTree::first_child, next_sibling, previous_sibling, last_child, parent, is_leaf, depth, subtree_size, is_ancestor", "src/bit_vec/fast_rs_vec/mod.rs: RsVec::rank0, rank1, select0, select1", "src/wavelet/mod.rs: WaveletMatrix::rank_range_u64, quantile_u64, range_min_u64, range_max_u64, range_median_u64, predecessor_u64, successor_u64", "src/elias_fano/mod.rs: EliasFanoVec::get, rank, predecessor, successor", "src/rmq/binary_rmq/mod.rs: BinaryRmq::range_min", "src/rmq/fast_rmq/mod.rs: FastRmq::range_min"]}
