# Formal model of Cydhra/vers in Lean 4: design and trusted base

## 1. Layout

* `properties.jsonl`: the properties C01..., in terms of the public API.
* `lean/Verif/Spec.lean`: the small independent specification (lists of bits, counting, n-th
  occurrence, minimum position, parenthesis excess, ...). `Spec*.lean` and `Abs*.lean` beside it hold the
  specifications of single structures. Definitions that only one group of theorems needs are in its file under
  `Props`, before the theorems. Only these and the model definitions have to be read
  to understand the theorem statements.
* `lean/Verif/Model/*.lean`: the model. Every definition cites the file and lines in `/repo`.
* `lean/Verif/Proofs/*.lean`: auxiliary lemmas.
* `lean/Verif/Props/*.lean`: the property theorems, each with an `example` showing that its
  hypotheses are met by a concrete non-trivial value.
* `lean/Verif/Conformance/*.lean`: the unit tests of the crate, replayed on the model (see Section 4).
* `MANIFEST.json`: property -> theorem names. `seeded/LOG.jsonl`: mutation experiments.

## 2. Modelling conventions

* `u64` is `BitVec 64` (wrap-around, shifts and masks are the real ones). `usize` is `Nat`.
  A `usize` subtraction that could underflow is modelled by `subR`.
  An addition or multiplication of `usize` values that depends on an unrestricted argument of the caller
  (`get_bits`, `unpack_element`, `advance_by`/`nth` of the element iterators, `select` of the wavelet
  matrix, range bounds) is modelled by `addU` and `mulU`. On overflow these three panic or wrap, depending on
  the build profile (see below). The remaining additions only combine sizes of data in memory and are
  unbounded (a `Vec` cannot have that many elements); the unchecked product in the capacity hint of `pack_sequence`
  (in `Model/CapacityBuild`) only overflows if the result does not fit into memory.
* A panic (index out of bounds, failed `assert!`, failed `debug_assert!`, arithmetic overflow,
  `unwrap` on `None`, `unreachable!`) is an explicit error value: the model functions
  return `R a = Except Panic a`. Theorems state `= .ok v`, hence also absence of panics. Two
  error values are no panics: `.ub` (an access outside of the allocation in an `unsafe` block, C68) and `.fuel` (below).
* The model is generic in the build profile: `class Profile` has one Boolean field, `debug`. If it is true,
  overflows (`wrapR`) and failing `debug_assert!`s (`dassertR`) panic; if it is false, overflows wrap and
  `debug_assert!`s are skipped. A theorem without hypothesis on the profile holds for debug and release
  builds. Theorems about what only one of them does have the hypothesis `Profile.debug = true` or
  `Profile.debug = false`; the latter are in `Props/Release.lean` (and one in `Props/Wavelet.lean`). In the
  runs the theorems without such a hypothesis speak about, no operation wraps. For those with
  `Profile.debug = false` it was checked by hand that after a wrap-around no operation follows that is exact
  in the model and would wrap again in the code; therefore not every overflow of a debug build has such a
  counterpart.
* `&mut self` methods return the new value. Vectors are lists. Loops are structural recursion or
  folds; unbounded `while` loops carry a fuel argument and the theorems prove that the fuel given by
  the caller suffices (running out of fuel is a distinct panic value `Panic.fuel`). For the time bounds (C60 to C62) the fuel
  of select, of the Elias-Fano binary search and of the min-max tree is an optional last argument
  (`budget`, `selB`, `binB`): the query fails with `Panic.fuel` if a loop exceeds it. All other theorems
  use the default, which is proved to suffice.
* Intrinsics: `count_ones`, `count_zeros`, `trailing_zeros`, `leading_zeros` are modelled by their
  mathematical definition. `pdep` is modelled by the portable software implementation.
* Floating point (`log2().ceil()` in Elias-Fano and in the min-max tree) is a function argument `fl` of the modelled
  constructors. Elias-Fano is proved correct for *every* `fl` that does not decrease from `max(n, 2)` to `n + 2`, is
  positive from 2 on, at most 64 on 64-bit values and off the logarithm by at most one below and two above
  (`LogLike`; the exact logarithm is an instance, `logLike_ceilLog2`). The theorems about trees use the exact
  ceil(log2). C67 connects this with 64-bit floating point arithmetic: it meets `LogLike`, and for up to 2^45 blocks it
  gives the tree of the exact logarithm. Beyond 2^45 blocks (a tree of more than 800 TB) the theorems about trees
  assume an exact logarithm. Rounding is specified over the reals in `SpecFloat.lean`; that the platform's `log2` has
  the properties `FloatLog` (implied by correct rounding, with room for errors of about one unit in the last place) is
  assumed.

## 3. Plan per property

| id | modelled | proof |
|----|----------|-------|
| C01-C07, C11 | `BitVec` struct with limbs and length, every constructor and mutator | refinement to `List Bool` through an abstraction function; C11 by induction over an operation datatype |
| C08 | `PartialEq`, `Hash` | counterexample for lengths divisible by 64 + partial theorem otherwise |
| C09, C10 | `MaskedBitVec`, `apply_mask_*` | bitwise lemmas; counterexample for `get_bits` of width 64 unaligned |
| C12-C15 | `RsVec` construction, rank, select | loop invariant over limbs; binary search invariants; select-in-word from C49 |
| C16 | `get_bits` | shared with C04; counterexample for n = 0 at the end |
| C17 | `full_equals`, `sparse_equals`, `==` | from C13/C18 |
| C18, C19 | `SelectIter` with its caches | invariant over interleavings; counterexample for `nth_back` |
| C20 | vector iterator macro | cursor invariant; counterexample for `nth` beyond the end |
| C21-C26 | `EliasFanoVec` and its iterator | refinement to the sorted list; counterexample for `last()` |
| C27 | `SparseRSVec` | from Elias-Fano; counterexample for `From<BitVec>` |
| C28-C30 | `BinaryRmq`, `FastRmq` | DP invariant; prefix-minima bit masks; exact result on empty ranges |
| C31-C38 | `WaveletMatrix` | stable-partition invariant per level |
| C39-C48, C50, C51 | `MinMaxTree`, `BpTree`, builder, lookup tables | heap invariant, discrete continuity of the excess; tables by full evaluation in the kernel; counterexample for block sizes not aligned to 8 |
| C49 | `pdep` software loop | induction on iterations |
| C52 | `BitSetIter` | counterexample + partial theorem |
| C53 | SIMD block search as lane-wise comparison and popcount; select, select iterators and equality built on it | equality with the scalar search on every reachable iterator state |
| C54 | the documented behaviour of the serde derive on a tree of values; the generated code and the formats are external and not modelled | round trip per field type; constructed structures have all numbers in the range of their types |
| C55 | `heap_size` of `BitVec`, `RsVec` (lengths of the component vectors times the size of an entry) | number of entries of each component, by induction over the construction loop |
| C56 | `heap_size` of `EliasFanoVec`, `SparseRSVec` | length of the lower vector by induction over the fill loop; counterexamples for dense sequences |
| C57 | `heap_size` of `BinaryRmq`, `FastRmq` | from the construction invariants |
| C58 | `heap_size` of `WaveletMatrix` | sum over the levels |
| C59 | `heap_size` of `BpTree`, `MinMaxTree` | number of nodes of the min-max tree; the documented fraction is refuted |
| C60 | loops of `search_super_block0/1` with an iteration budget; the words a rank query reads | halving of the interval; lower bound by showing that the binary search never moves its lower bound; rank is equal on structures that agree on these words |
| C61 | binary search of `search_element_in_block` with an iteration budget | halving of the interval; the select queries it makes are not logarithmic, but linear in the number of elements (`C61_linear_partial`, from the length of the upper vector, `Proofs/EfLen.lean`) |
| C62 | upward and downward search of the min-max tree with a level budget | any two sufficient budgets give the same result, for each query; `node_handle` is not logarithmic |
| C63 | the `_unchecked` queries | the checked queries are built on them; same invariants |
| C64 | conversions and delegating functions (`Model/Convert.lean`) | from the theorems on the constructors |
| C65 | agreement of `SparseRSVec`/`RsVec` and `BinaryRmq`/`FastRmq` | both sides have unique specified answers |
| C66 | debug and release builds return the same values | the model is generic in the profile; a lemma per model function (333), by the structure of the function |
| C67 | rounding to 53 binary digits over the reals (`SpecFloat.lean`), `log2` with bounded error | error analysis: distance of the logarithm from integers next to powers of two against the rounding error; the size parameter of the model's constructors is a function argument |
| C68 | result `.ub` at each access of the `unsafe` blocks | compositional lemma per function for arbitrary fields; invariant on the size of the offsets array |
| C69 | loops without a bound fixed by the source are recursions on a budget, `.error .fuel` when it is used up | compositional lemma per function for arbitrary fields, a decreasing measure per loop; the budget of the Elias-Fano binary search is existentially quantified; defect by induction over the budget |
| C70 | the panics and fallback values that the documentation states, for arguments outside of the domain | direct evaluation; the ranks of a level are constant behind its end; induction over the levels for the quantiles |
| C71 | `size_hint` and `count` (`Model/IterSize.lean`); a loop is a recursion that calls `next` until `None` (`SpecLoop.lean`) | the simulation of the iterators by lists, induction on the remaining elements |
| C72 | wavelet queries take O(k) time | the queries again with a step counter (`Model/WaveletSteps.lean`), equal results and bounds by induction over the levels; the select queries on the levels get a budget as in C60; monotonicity of the budget, and the family of C60 as a sequence of one-bit elements |
| C73 | copies through the interface | composition of the constructor and iterator theorems, uniqueness of the levels of a wavelet matrix, and an induction over the forest for the walk (`SpecClient`) |
| C74 | range minimum queries take constant time | the result is determined by a constant number of cells (`SpecProbe`): composition of single reads along the code |
| C75 | cost of the select iterators | step counter (`Model/RsIterSteps`), potential over the loop: searches are paid by the distance between select blocks and by the progress of the cached super block |
| C76 | constructors of all structures with a step counter (`Model/BuildSteps`, `Model/BuildStepsMore`) | upper bounds by induction over the loops, with the sizes of the stored data; lower bound `2^k` for the counting constructors |
| C77 | `select` with a step counter (`Model/RsIterSteps`), random access to Elias-Fano vectors (`Model/EfSteps`) | the sum over all ranks by induction, with the distance of the super block from the start as potential; the counterexample by a family of vectors |
| C78 | `min` and `max` of the Elias-Fano iterators on the counted select iterator (`Model/EfSteps`) | bounds from the cost of `next` of C75; the counterexamples by a family of sequences |
| C79 | `next` and `next_back` of the Elias-Fano iterators with a step counter (`Model/IterSteps`) | potential over the ranks between the two ends; the length of the upper half is linear in the number of elements |
| C80 | `dfs_iter` of a tree with a step counter (`Model/IterSteps`) | the bound of C75 for both ends; a tree of `n` nodes has `2 n` parentheses |
| C81 | all methods of `BitVec` and of the iterators that take `&mut self`, statement by statement, as functions from the object to a result or panic and the object afterwards (`Model/Unwind`) | each equals the plain model with the old object at a panic; sequences of calls by simulation with a list |
| C82 | capacity of the vector of limbs, number of reallocations and of limbs copied beside the bit vector (`Model/Capacity`, constructors in `Model/CapacityBuild`); the strategy of the allocator is a parameter of which only the guarantees of the standard library are assumed | simulation of the methods of `Model/Unwind`: the number of limbs does not decrease within an append, and the limbs are not moved if those at the end fit |
| C83 | step counters for the searches (`Model/EfSearchSteps`), the average over all values between the smallest and the largest element (`SpecAverage`) | the cost of a query is split into the select queries for the ends of its block, the elements of the block and the lookup of the neighbour; sums over all blocks telescope with the amortised select of C77 |
| C84 | the adaptors of `core` after their source (`Model/Adapters`), loops over them against lists (`SpecAdapters`) | a simulation of a list by an iterator carries over to the adaptors; the calls of `nth` and `nth_back` they make are within the conditions proved for the iterators (C18, C20, C26) |
| C85 | step counters for `full_equals`, `sparse_equals` and `==` (`Model/EqSteps`) | the loop over the positions costs what the calls of `next` cost (potential of C75) and two steps each; it stops at the first position after the first difference, because the ranks differ from there |
| C86 | step counters for the bit set iterators (`Model/BitSetSteps`) | each step moves at most 16 bits further, and each call pays one step besides the chunks it loads; lower bound of 5 steps for a call of the select iterators |
| C87 | client loops that follow a function from node to node (`follow`, `walk` in `SpecClient`) | each node of the specification is linked to the next one of its list (induction over the forest), so that the loop visits the list; cells: sum over the calls |
| C88 | laws that relate the functions of a tree, without reference to the specification of a forest | the exact results (C42 to C44, C87) and the links between the nodes of a forest, by induction over it |
| C89 | laws that relate the queries of an Elias-Fano vector, of a sparse vector, and of a wavelet matrix, to each other | the exact results (C21 to C25, C31 to C36) and lemmas on sorted lists |
| C90 | laws between writes and reads of a bit vector | the exact results (C02 to C10) and lemmas on lists of bits |
| C91 | answers to larger queries compared with answers to smaller ones | the exact results (C13, C14, C21 to C24, C28, C29, C35) and counting lemmas on lists |
| C92 | two structures, one for a part of the data of the other | shift of the nodes of a forest (`Proofs/Subtree`), the exact results (C13, C14, C31 to C36, C42 to C44) on both sides |

## 4. Trusted base

* Lean 4.33.0 kernel; axioms at most `propext`, `Classical.choice`, `Quot.sound` (checked with
  `#print axioms`). No own axioms, no `sorry`, no `native_decide`, no `bv_decide`.
* The faithfulness of the hand translation from Rust to the model (Section 2). It is tested, not proved: the modules
  `Verif/Conformance/*` replay the deterministic unit tests of the crate on the model, assertion by assertion (in both build
  profiles; the tests of the tree only in the debug profile), and the build fails if one does not pass. They are tests of the model; no property and no theorem in
  `MANIFEST.json` depends on them.
* For C67 and the space bounds that use it (floating point): the specification of rounding in `SpecFloat.lean` and the assumption `FloatLog`.

What of `/repo/src` is modelled (all functions with a body of their own; `_unchecked` variants included) and what is not:

| source | model | not modelled |
|--------|-------|--------------|
| bit_vec/mod.rs | `Model/BitVec`, `Model/Convert`, `Model/GenIter`; once more with the state at a panic (`Model/Unwind`) and with the capacity (`Model/Capacity`, `Model/CapacityBuild`) | `Debug`, failure of an allocation |
| bit_vec/mask.rs | `Model/Mask` | |
| bit_vec/sparse.rs | `Model/Sparse`, `Model/Convert` | |
| bit_vec/fast_rs_vec/mod.rs, select.rs, iter.rs | `Model/RsVec`, `Model/RsIter` | derives of `Clone`, `Debug`; alignment of the SIMD loads (a load outside of the slice is the error `.ub`, C68) |
| bit_vec/fast_rs_vec/bitset.rs | `Model/BitSet` | the intrinsics are modelled by their documented effect |
| elias_fano/mod.rs, util/elias_fano_iter.rs | `Model/EliasFano`, `Model/EliasFanoIter`; the memory of the lower parts in `Model/CapacityBuild` | the instance of the search that the code never calls |
| rmq/*.rs | `Model/Rmq`, `Model/Convert` | |
| wavelet/mod.rs | `Model/Wavelet`, `Model/Convert` | failure of the allocation of the `2^k` counters |
| trees/mmt.rs, trees/bp/*.rs, trees/mod.rs | `Model/Mmt`, `Model/Lookup`, `Model/Bp` | storage of the tables (every access computes the table); overflow in the `i8` arithmetic of the table construction (it would be an error of the compiler) |
| util/general_iter.rs, util/unroll.rs | `Model/GenIter`; the unrolled steps are written out; `rev`, `skip`, `take` and `step_by` of `core` over the iterators in `Model/Adapters` | |
| util/pdep.rs | `Model/Pdep`, `Model/PdepWidth` | the BMI2 instruction is modelled by the pseudocode of its manual |
| serde derives | `Model/Serde` | the generated code and the formats |
| mem_dbg derives, tests, benches | | not modelled |

Running time is modelled by the number of loop iterations and accesses (C60 to C62, C72, C75
to C80, C83, C85, C86; `Model/RsIterSteps`, `Model/EfSteps`, `Model/EfSearchSteps`, `Model/IterSteps`,
`Model/WaveletSteps`, `Model/EqSteps`, `Model/BitSetSteps`, `Model/BuildSteps`, `Model/BuildStepsMore`) and by the number of memory cells that
determine the result (`SpecProbe`; C60, C62, C72, C74, C87), space by `heap_size` (`Model/Space`). There is no
concurrency in the crate: all structures are plain values, and `&mut self` is exclusive.

## 5. Defects found in the code

Each line names the theorem that proves the deviation on the model. The theorem with suffix `_partial` next
to it proves the property outside the deviation.

| property | deviation | theorem |
|----------|-----------|---------|
| C02, C05 | `append_bits(_, 0)` on a length divisible by 64 pushes a limb, `pack_sequence` of width 0 | see `C02_*`, `C05_*` in Props/BitVec |
| C04, C05, C09, C16 | `get_bits` and `unpack_element` compute the end of the request without overflow check: `get_bits(usize::MAX, 1)` panics instead of returning `None` | `C04_get_bits_overflow_defect`, `C05_unpack_overflow_defect`, `C16_get_bits_overflow_defect` |
| C08 | `==` on bit vectors whose length is a positive multiple of 64 ignores the last limb | `C08_eq_defect`, `C08_last_limb_defect`, `C08_eq_exact` |
| C09 | `MaskedBitVec::get_bits` of width 64 at an unaligned position returns 0 in the upper part | see `C09_*` |
| C16 | `RsVec::get_bits(len, 0)` panics if the length is a multiple of 64 | see `C16_*` |
| C19 | `SelectIter::nth_back(n)` with `n` at least the number of remaining elements panics | see `C19_*` |
| C20, C26 | `nth(n)`/`nth_back(n)` with `n` above the number of remaining elements return `None` without consuming them | `C20_nth_defect`, `C26_nth_defect` |
| C20, C26 | `nth(usize::MAX)` after a call of `next` overflows | `C20_nth_overflow_defect`, `C26_nth_overflow_defect` |
| C26 | `last()`/`max()` of the Elias-Fano iterator return the last remaining element minus the first element of the vector | `C26_last_defect` |
| C27 | `From<BitVec>`/`From<&BitVec>` for the sparse vector yield the complement | `C27_convert_defect` |
| C27 | `is_set_unchecked`/`get_unchecked` panic on in-bounds positions before the first one | `C27_unchecked_defect` |
| C29 | `FastRmq::from_vec` panics from 2^39 - 127 elements on, not from 2^40 as documented | `C29_construction_defect` |
| C30 | `range_min_with_range` panics on every empty or reversed range that does not lie behind the last element (`FastRmq`: on some of them), although only an empty structure is documented to panic | `C30_binary_defect`, `C30_fast_defect`, `C30_fast_empty_defect`, `C30_fast_reversed_defect`, `C30_fast_empty_last_defect`, `C30_fast_reversed_last_defect` |
| C31 | width 0: `from_slice` yields an empty matrix, `from_bit_vec` panics | `C31_zero_width` |
| C32 | the counting constructors panic for width 64 (documented as admissible) | `C32_width_64_defect` |
| C32 | `from_slice_pc` panics on elements of more than `k` bits, which `from_slice` truncates | `C32_wide_element_defect` |
| C33, C36 | `u64` query symbols of more than `k` bits are truncated to `k` bits | `C33_wide_symbol_defect`, `C36_wide_symbol_defect` |
| C34 | `select` with a rank near 2^64 overflows instead of answering `None` | `C34_overflow_defect` |
| C35, C37 | `quantile`, `range_min` and `rank_range` panic on reversed ranges within the bounds | `C37_reversed_defect` |
| C39 | `fwd_search` (hence `close` of a non-position, `level_leftmost`) panics on an empty sequence | `C39_empty_defect` |
| C39, C40 | relative excesses near the limits of `i64` overflow in debug builds; release builds wrap around and still return the right result | `C39_overflow_defect`, `C40_overflow_defect`, `C39_any_excess_partial`, `C40_any_excess_partial` |
| C40 | `bwd_search` is wrong for every `BLOCK_SIZE` that is neither a multiple nor a divisor of the lookup block size (e.g. 12): for each there is a sequence with a wrong answer | `C40_block_size_iff` |
| C48, C51 | relative excess zero: wrong table answer, `unreachable!()` or a wrong block in the min-max tree; not reachable through `BpTree` | `C48_zero_defect`, `C51_forward_zero_defect`, `C51_backward_zero_defect` |
| C41, C42 | with such block sizes `open`, `enclose`, `parent` and `previous_sibling` return wrong nodes | `C41_block_size_iff`, `C42_block_size_iff` |
| C43 | `level_rightmost(0)` is wrong whenever the last tree of the sequence is a single node | `C43_level_rightmost_zero_defect` |
| C43 | `level_leftmost(0)` of the empty tree is `Some(0)` | `C43_empty_defect` |
| C43 | levels from 2^63 on are cast to negative numbers: wrong result or overflow | `C43_huge_level_defect` |
| C47 | `build` accepts every unbalanced sequence with as many enter as leave calls | `C47_invalid_defect` |
| C47 | debug builds: `with_capacity` overflows for capacities from 2^63 nodes on | `C47_with_capacity_defect` |
| C50 | `fwd_search`, `level_leftmost` and `level_rightmost` panic on the empty tree, `level_rightmost` on sequences without opening parenthesis (debug builds; release builds return `None`) | `C50_empty_defect`, `C50_level_rightmost_defect`, `C50_empty_release`, `C50_level_rightmost_release` |
| C50 | `excess` beyond the sequence panics in debug builds although documented to return the total excess (release builds do, except for `usize::MAX`, where they return 0) | `C50_excess_defect`, `C50_excess_release`, `C50_excess_max_defect` |
| C52 | on vectors of more than 16 bits `bit_set_iter0/1` yield every position of the last chunk twice, and `bit_set_iter0` yields positions behind the end | `C52_defect`, `C52_example_defect` |
| C56 | dense sequences (lower width 0, e.g. the numbers 0 to 9): a limb is pushed for every element, so the "compressed" vector is larger than the slice; likewise for sparse vectors | `C56_dense_defect`, `C56_sparse_dense_defect` |
| C59 | documented as an extra space of less than one bit per node; the min-max tree alone takes more, for every tree with the default block size | `C59_factor_defect` |
| C60 | documented as a logarithmic worst case. `select1` compares the rank with the number of ones before the middle super block plus 8192, so its binary search never advances and the linear search visits every super block; `select0` and `select1` do the same in the last, incomplete select block | `C60_select_linear_defect`, `C60_worst_case_defect` |
| C61, C62 | predecessor queries and `node_handle` inherit the linear worst case of select | `C61_worst_case_defect`, `C62_node_handle_defect` |
| C63 | `quantile_u64_unchecked`, `range_min/max/median_u64_unchecked` and `get_sorted_u64_unchecked` are documented to truncate elements of more than 64 bits; a debug assertion rejects every such call (release builds truncate) | `C63_wide_quantile_defect`, `C63_wide_quantile_release` |
| C54 | deserialization does not validate: a value claiming more bits than it holds is accepted and queries on it panic | `C54_unvalidated_defect` |
| C04, C16 | release builds: the overflowing request of the line above returns `None` or accesses a limb out of bounds | `C04_get_bits_release_defect`, `C16_get_bits_release_defect` |
| C05 | release builds: `unpack_element` reduces the bit position modulo 2^64, so indices far behind the end return `Some` (widths that are powers of two) | `C05_unpack_release_defect` |
| C19 | release builds: after `nth_back(n)` beyond the remaining elements, `next` yields elements again, or the call accesses a block out of bounds | `C19_nth_back_release_defect` |
| C20, C26 | release builds: `nth` with a huge argument sets the element iterator back to elements it has passed; the Elias-Fano iterator panics | `C20_nth_release_defect`, `C26_nth_release_defect` |
| C30 | release builds: the end bound `Excluded(0)` is treated like no end bound (`0..0` is the whole vector), `Excluded(usize::MAX)` like no start bound | `C30_binary_release_defect`, `C30_fast_release_defect` |
| C34 | release builds: `select_offset` with a huge rank returns a position before the offset | `C34_release_defect` |
| C37 | release builds: reversed ranges within the bounds | `C37_reversed_release_defect` |
| C32 | the counting constructors panic on `data[0]` for width 0 and a non-empty sequence, where `from_slice` succeeds | `C32_zero_width_defect` |
| C43 | level 2^64 - d is taken for -d: `level_ancestor` returns the last position before the node that is deeper by d | `C43_wrapped_ancestor_defect` |
| C43 | level 2^64 - 1 is taken for -1 in every forest: `level_leftmost` returns the closing parenthesis of the first root, `level_ancestor` the closing parenthesis of the left sibling; level 2^63 cannot be negated | `C43_last_level_defect`, `C43_negation_defect` |
| C12, C13, C14 | consequence of the first line: a vector on whose aligned length `append_bits(w, 0)` was called has its old content, but `RsVec` counts the zeros of `w`: debug builds panic on construction or `rank0` is too large and `select0` returns positions behind the end. All other properties of the rank/select vector and of the structures above it take vectors of histories without this call (`BV.WF`, C11) | `C12_append_zero_defect`, `C13_append_zero_defect`, `C14_append_zero_defect` |
| C69 | release builds: `successor` of a deserialised Elias-Fano vector whose first block has exactly four elements and whose first lower half is not 0 loops forever, because `upper_bound - 1` wraps around in src/elias_fano/mod.rs:324; debug builds panic. `from_slice` produces no such vector | `C69_successor_defect` |
| C70 | `EliasFanoVec::get_unchecked` is documented to panic behind the end; it returns a value that is no element for indices close to the end, e.g. `x + 2` for index 1 of the vector `[x]` | `C70_elias_fano_defect` |
| C70 | unchecked queries of the wavelet matrix are documented to panic or to return zero or an empty vector when out of bounds; ranks count in the part of the range that is inside, `get_sorted_unchecked` returns the largest `k`-bit number, `get_value_unchecked` reads unused bits | `C70_rank_defect`, `C70_sorted_defect`, `C70_wavelet_defect` |
| C54 | the block size of a tree is not part of the written data: a tree read with another block size is accepted and answers wrongly | `C54_block_size_defect` |
| C49 | `pdep` of signed integers with a negative mask overflows in debug builds (the crate only calls the `u64` instance) | `C49_pdep_signed_defect` |
| C72 | all operations of the wavelet matrix are documented as O(k), but the select queries search the super blocks of a level linearly | `C72_select_defect` |
| C75 | the iterators do not use the cached super block if it is the last one: every call there searches from the select block again, so that a loop over 8191 ones in the last super block reads every super block 8191 times | `C75_last_super_block_defect`, `C75_worst_case_defect` |
| C76 | `from_bit_vec_pc` and `from_slice_pc` are documented to run in O(kn); they take at least 2^k steps, whatever the number of elements, because the loops over the histogram and the borders visit all prefixes on every level. (The documentation mentions O(2^k) only for the space.) | `C76_prefix_counting_defect` |
| C77 | `fast_rs_vec` is documented with "select on average in constant-time"; on a vector of 8192 m zeros followed by 8191 ones, each of the select1 queries takes at least m steps (and likewise for select0 with the roles exchanged). | `C77_sparse_defect` |
| C78 | `min` and `max` of the Elias-Fano iterators are documented to "operate in constant time"; on 16384 m + 1 zeros and the element 16384 m, `max` of a new iterator takes at least m steps, and so does `min` when only the last element is left. | `C78_max_defect`, `C78_min_defect` |
| C81 | after `append_bits(w, 0)` on a vector whose length is a multiple of 64, `apply_mask_*` with a mask of the same length panics after having changed all bits | `C81_surplus_mask_defect` |
| C82 | `append_bits(_, 0)` on a vector whose length is a multiple of 64 pushes a limb each time, so that repeated calls reallocate a vector that was created with any capacity and holds no bits | `C82_append_nothing_defect` |
| C83 | `predecessor` and `successor` for a query in a block without elements look up the neighbour with a `select1` that scans super blocks linearly; if a long gap follows such an element, the average over all queries grows with the length of the sequence | `C83_gaps_defect` |
| C82 | `pack_sequence_*` with width 0 and `EliasFanoVec::from_slice` for dense sequences (lower width 0) append a limb for every element to a vector that holds no bits and for which the smallest capacity was requested, so that it is reallocated | `C82_pack_zero_defect`, `C82_elias_fano_defect` |
| C84 | over the iterators of the positions of ones or zeros, the loops `rev().skip(n)` with at most `n` positions left and `rev().step_by(k)` panic: in a debug build the latter does so unless `k` divides the number of positions minus one, in a release build if it divides the number of positions (e.g. `iter1().rev().step_by(2)` on two ones) | `C84_rev_skip_defect`, `C84_rev_step_defect`, `C84_rev_defect_example` |
| C84 | a loop over `skip(usize::MAX)` after a call of `next` panics in a debug build; in a release build it can start with elements already seen | `C84_overflow_defect`, `C84_overflow_release_defect` |
| C84 | the iterators are marked as `FusedIterator`, which `Skip` relies on; but `skip(n)` with `n` above the number of elements answers the first call of `next` with `None` and the second with the first element, because `nth` beyond the end does not consume anything | `C84_fused_defect` |
| C85 | `sparse_equals` is documented as faster than `full_equals` for sparse vectors from 1 million bits on, and for all vectors above 4 million bits; for every `m` there is a vector of `8192 m + 8191` bits with 8191 ones, all in the last super block, for which it takes at least `8191 m` accesses while `full_equals` compares `128 m + 128` words; `==` uses it for vectors above 4 million bits | `C85_sparse_defect`, `C85_eq_defect`, `C85_eq_dense_defect` |

## 6. Seeded bugs

`seeded/LOG.jsonl` lists edits of the model and the theorems that stopped proving. The first records come from
`tools/mutate.py`, which repairs the scratch copy step by step until all failing property theorems are known.
Records with a field `lemmas_failed` come from `tools/mutate_quick.py`: `lemmas_failed` are the declarations whose
own proofs failed, `theorems_failed` are the property theorems that depend on one of them.
