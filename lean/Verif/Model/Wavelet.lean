import Verif.Model.RsVec
import Verif.Model.GenIter

/-!
# Model of src/wavelet/mod.rs

`heap_size` is in `Model/Space.lean`. The `u64` and `BitVec` variants of a query are
instances of one definition with a reader for the bits of the symbol (and a writer for the bits of the
result); the instances cite the lines of both variants.
-/

namespace Vers

variable [Profile]

/-- `WaveletMatrix`, src/wavelet/mod.rs:72-74 -/
structure WM where
  data : List RsVec
deriving DecidableEq, Repr

namespace WM

/-- `bits_per_element`, src/wavelet/mod.rs:2028-2030 -/
def bitsPer (m : WM) : Nat := m.data.length

/-- `bit_len` (deprecated), src/wavelet/mod.rs:2036-2038: `as u16` truncates -/
def bitLen (m : WM) : BitVec 16 := BitVec.ofNat 16 m.bitsPer

/-- `len`, src/wavelet/mod.rs:2042-2048 -/
def len (m : WM) : Nat :=
  match m.data with
  | [] => 0
  | rs :: _ => rs.len

/-- `is_empty`, src/wavelet/mod.rs:2052-2054 -/
def isEmpty (m : WM) : Bool := m.len == 0

/-! ## Construction -/

/-- The first loop of a level, src/wavelet/mod.rs:101-108: returns `total_zeros` and the bit vector. -/
def fillBits (lookup : Nat → R Word) : List Nat → Nat → Nat → BV → R (Nat × BV)
  | [], _, z, v => pure (z, v)
  | p :: ps, i, z, v => do
    let b ← lookup p
    if b = 0#64 then fillBits lookup ps (i + 1) (z + 1) v
    else do
      let o ← v.set i 1#64
      let v ← unwrapR o
      fillBits lookup ps (i + 1) z v

/-- The second loop of a level, src/wavelet/mod.rs:113-123: fills `next_permutation`. -/
def splitPerm (v : BV) : List Nat → Nat → Nat → Nat → List Nat → R (List Nat)
  | [], _, _, _, next => pure next
  | p :: ps, i, zb, ob, next => do
    let b ← v.getUnchecked i
    if b = 0#64 then do
      let next ← setIdx next zb p
      splitPerm v ps (i + 1) (zb + 1) ob next
    else do
      let next ← setIdx next ob p
      splitPerm v ps (i + 1) zb (ob + 1) next

/-- The loop over the levels, src/wavelet/mod.rs:100-127, for the remaining `r` levels. The bit vectors of
the levels are created where they are filled. -/
def sortLevels (k n : Nat) (lookup : Nat → Nat → R Word) : Nat → Nat → List Nat → List Nat → R (List BV)
  | 0, _, _, _ => pure []
  | r + 1, level, perm, next => do
    let zv ← fillBits (fun p => lookup p (k - level - 1)) perm 0 0 (BV.fromZeros n)
    if level < k - 1 then do
      let next ← splitPerm zv.2 perm 0 0 zv.1 next
      let rest ← sortLevels k n lookup r (level + 1) next perm
      pure (zv.2 :: rest)
    else do
      let rest ← sortLevels k n lookup r (level + 1) perm next
      pure (zv.2 :: rest)

/-- `data.into_iter().map(BitVec::into).collect()`, src/wavelet/mod.rs:130,226 -/
def buildAll : List BV → R (List RsVec)
  | [] => pure []
  | v :: vs => do
    let rs ← RsVec.fromBitVec v
    let rest ← buildAll vs
    pure (rs :: rest)

/-- `permutation_sorting`, src/wavelet/mod.rs:85-132 -/
def permutationSorting (k n : Nat) (lookup : Nat → Nat → R Word) : R WM := do
  let vs ← sortLevels k n lookup k 0 (List.range n) (List.replicate n 0)
  let data ← buildAll vs
  pure ⟨data⟩

/-- The closure that reads a bit from the packed sequence, src/wavelet/mod.rs:150,259 -/
def bvLookup (v : BV) (k element bit : Nat) : R Word := v.getUnchecked (element * k + bit)

/-- The closure that reads a bit from the slice, src/wavelet/mod.rs:170,293 -/
def sliceLookup (seq : List Word) (element bit : Nat) : R Word := do
  let x ← idx seq element
  if bit < 64 then pure ((x >>> bit) &&& 1#64) else wrapR ((x >>> (bit % 64)) &&& 1#64)

/-- The check of the two packed constructors, src/wavelet/mod.rs:147,250 (the remainder by zero panics) -/
def checkMultiple (len k : Nat) : R Unit :=
  if k = 0 then .error .divZero else assertR (len % k = 0)

/-- `from_bit_vec`, src/wavelet/mod.rs:146-152 -/
def fromBitVec (v : BV) (k : Nat) : R WM := do
  checkMultiple v.len k
  permutationSorting k (v.len / k) (bvLookup v k)

/-- `from_slice`, src/wavelet/mod.rs:164-172 -/
def fromSlice (seq : List Word) (k : Nat) : R WM := do
  assertR (k ≤ 64)
  permutationSorting k seq.length (sliceLookup seq)

/-- The access `data[0]` to a vector of `k` bit vectors, src/wavelet/mod.rs:197; it precedes the evaluation of the
arguments of `set_unchecked`. -/
def firstLevel (k : Nat) : R Unit := if k = 0 then .error .oob else .ok ()

/-- The first loop of `prefix_counting` for `i` in `0..n`, src/wavelet/mod.rs:195-198. The state is
`(histogram, data[0])`. -/
def countLoop (k : Nat) (lookup : Nat → Nat → R Word) (elem : Nat → R Word) :
    Nat → List Nat × BV → R (List Nat × BV)
  | 0, s => pure s
  | i + 1, s => do
    let s ← countLoop k lookup elem i s
    let x ← elem i
    let c ← idx s.1 x.toNat
    let hist ← setIdx s.1 x.toNat (c + 1)
    firstLevel k
    let b ← lookup i (k - 1)
    let v ← s.2.setUnchecked i b
    pure (hist, v)

/-- The loop that combines the histogram for `h` in `0..n`, src/wavelet/mod.rs:202-204 -/
def histLoop : Nat → List Nat → R (List Nat)
  | 0, hist => pure hist
  | n + 1, hist => do
    let hist ← histLoop n hist
    let a ← idx hist (2 * n)
    let b ← idx hist (2 * n + 1)
    setIdx hist n (a + b)

/-- `h.reverse_bits() >> (64 - level)`, src/wavelet/mod.rs:210-211 -/
def revBits (level h : Nat) : Nat := ((BitVec.ofNat 64 h).reverse >>> (64 - level)).toNat

/-- The loop over the borders for `h` in `1..n + 1`, src/wavelet/mod.rs:209-213 -/
def borderLoop (level : Nat) (hist : List Nat) : Nat → List Nat → R (List Nat)
  | 0, borders => pure borders
  | n + 1, borders => do
    let borders ← borderLoop level hist n borders
    let b ← idx borders (revBits level n)
    let c ← idx hist (revBits level n)
    setIdx borders (revBits level (n + 1)) (b + c)

/-- The loop that distributes the bits for `i` in `0..n`, src/wavelet/mod.rs:215-222. The state is
`(borders, data[level])`. -/
def placeLoop (k level : Nat) (lookup : Nat → Nat → R Word) (elem : Nat → R Word) :
    Nat → List Nat × BV → R (List Nat × BV)
  | 0, s => pure s
  | i + 1, s => do
    let s ← placeLoop k level lookup elem i s
    let bit ← lookup i (k - level - 1)
    let x ← elem i
    let q ← idx s.1 (x.toNat >>> (k - level))
    let v ← s.2.setUnchecked q bit
    let borders ← setIdx s.1 (x.toNat >>> (k - level)) (q + 1)
    pure (borders, v)

/-- The loop over the levels, src/wavelet/mod.rs:200-223, for `level` from the given number down to 1.
`data[level]` is only accessed in the iteration of its level; it is created there, and the finished
vectors are collected in `acc`. -/
def pcLevels (k n : Nat) (lookup : Nat → Nat → R Word) (elem : Nat → R Word) :
    Nat → List Nat → List Nat → List BV → R (List BV)
  | 0, _, _, acc => pure acc
  | l + 1, hist, borders, acc => do
    let hist ← histLoop (2 ^ (l + 1)) hist
    let borders ← setIdx borders 0 0
    let borders ← borderLoop (l + 1) hist (2 ^ (l + 1) - 1) borders
    let s ← placeLoop k (l + 1) lookup elem n (borders, BV.fromZeros n)
    pcLevels k n lookup elem l hist s.1 (s.2 :: acc)

/-- `prefix_counting`, src/wavelet/mod.rs:184-228. The shift `1 << bits_per_element` overflows for 64
bits (in release builds, the distance is taken modulo 64). -/
def prefixCounting (k n : Nat) (lookup : Nat → Nat → R Word) (elem : Nat → R Word) : R WM := do
  let size ← (if k < 64 then .ok (2 ^ k) else wrapR (2 ^ (k % 64)) : R Nat)
  let s ← countLoop k lookup elem n (List.replicate size 0, BV.fromZeros n)
  let vs ← pcLevels k n lookup elem (k - 1) s.1 (List.replicate size 0) []
  let data ← buildAll ((s.2 :: vs).take k)
  pure ⟨data⟩

/-- `from_bit_vec_pc`, src/wavelet/mod.rs:249-267 -/
def fromBitVecPc (v : BV) (k : Nat) : R WM := do
  checkMultiple v.len k
  assertR (k ≤ 64)
  prefixCounting k (v.len / k) (bvLookup v k) (fun e => v.getBitsUnchecked (e * k) k)

/-- `from_slice_pc`, src/wavelet/mod.rs:285-296 -/
def fromSlicePc (seq : List Word) (k : Nat) : R WM := do
  assertR (k ≤ 64)
  prefixCounting k seq.length (sliceLookup seq) (idx seq)

/-! ## Access -/

/-- The step to the next level for a 0 bit, e.g. src/wavelet/mod.rs:306 -/
def goZero (rs : RsVec) (i : Nat) : R Nat := rs.rank true i

/-- The step to the next level for a 1 bit, e.g. src/wavelet/mod.rs:308 -/
def goOne (rs : RsVec) (i : Nat) : R Nat := do
  let r ← rs.rank false i
  pure (rs.rank0 + r)

/-- The step to the next level, e.g. src/wavelet/mod.rs:305-309 -/
def go (rs : RsVec) (bit : Word) (i : Nat) : R Nat := if bit = 0#64 then goZero rs i else goOne rs i

/-- `reconstruct_value_unchecked`, src/wavelet/mod.rs:301-311; the closure is a state transformer. -/
def reconstruct {T : Type} (f : Word → T → R T) : List RsVec → Nat → T → R T
  | [], _, t => pure t
  | rs :: rest, i, t => do
    let bit ← rs.getUnchecked i
    let t ← f bit t
    let i ← go rs bit i
    reconstruct f rest i t

/-- The closure of `get_value_unchecked`, src/wavelet/mod.rs:353-356 -/
def writeDown (bit : Word) (t : BV × Nat) : R (BV × Nat) := do
  let v ← t.1.setUnchecked t.2 bit
  pure (v, t.2 - 1)

/-- `get_value_unchecked`, src/wavelet/mod.rs:350-358 -/
def getValueUnchecked (m : WM) (i : Nat) : R BV := do
  let level ← subR m.bitsPer 1
  let t ← reconstruct writeDown m.data i (BV.fromZeros m.bitsPer, level)
  pure t.1

/-- `get_value`, src/wavelet/mod.rs:331-337 -/
def getValue (m : WM) (i : Nat) : R (Option BV) :=
  if m.data = [] ∨ i ≥ m.len then pure none
  else do
    let v ← m.getValueUnchecked i
    pure (some v)

/-- The closure of `get_u64_unchecked`, src/wavelet/mod.rs:398-401 -/
def pushBit (bit : Word) (t : Word) : R Word := pure ((t <<< 1) ||| bit)

/-- `get_u64_unchecked`, src/wavelet/mod.rs:396-403 -/
def getU64Unchecked (m : WM) (i : Nat) : R Word := reconstruct pushBit m.data i 0#64

/-- `get_u64`, src/wavelet/mod.rs:377-383 -/
def getU64 (m : WM) (i : Nat) : R (Option Word) :=
  if m.bitsPer > 64 ∨ m.data = [] ∨ i ≥ m.len then pure none
  else do
    let v ← m.getU64Unchecked i
    pure (some v)

/-! ## Rank -/

/-- Bit of the query symbol for a level, `BitVec` version: `symbol.get_unchecked((k - 1) - level)`, e.g.
src/wavelet/mod.rs:424 -/
def readBV (k : Nat) (symbol : BV) (level : Nat) : R Word := do
  let p ← subR (k - 1) level
  symbol.getUnchecked p

/-- Bit of the query symbol for a level, `u64` version: `(symbol >> ((k - 1) - level)) & 1`, e.g.
src/wavelet/mod.rs:488 -/
def readU64 (k : Nat) (symbol : Word) (level : Nat) : R Word := do
  let p ← subR (k - 1) level
  if p < 64 then pure ((symbol >>> p) &&& 1#64) else wrapR ((symbol >>> (p % 64)) &&& 1#64)

/-- The loop of `rank_range_unchecked` and `rank_range_u64_unchecked`, src/wavelet/mod.rs:423-431,487-495;
returns the final range. -/
def rangeLoop (read : Nat → R Word) : List RsVec → Nat → Nat → Nat → R (Nat × Nat)
  | [], _, s, e => pure (s, e)
  | rs :: rest, level, s, e => do
    let bit ← read level
    let s ← go rs bit s
    let e ← go rs bit e
    rangeLoop read rest (level + 1) s e

/-- The common part of `rank_range_unchecked`, src/wavelet/mod.rs:422-434, and `rank_range_u64_unchecked`,
src/wavelet/mod.rs:486-498 -/
def rankGen (m : WM) (read : Nat → R Word) (s e : Nat) : R Nat := do
  let r ← rangeLoop read m.data 0 s e
  subR r.2 r.1

/-- `rank_range_unchecked`, src/wavelet/mod.rs:422-434 -/
def rankRangeUnchecked (m : WM) (s e : Nat) (symbol : BV) : R Nat := m.rankGen (readBV m.bitsPer symbol) s e

/-- `rank_range_u64_unchecked`, src/wavelet/mod.rs:486-498 -/
def rankRangeU64Unchecked (m : WM) (s e : Nat) (symbol : Word) : R Nat :=
  m.rankGen (readU64 m.bitsPer symbol) s e

/-- `rank_range`, src/wavelet/mod.rs:458-467 -/
def rankRange (m : WM) (s e : Nat) (symbol : BV) : R (Option Nat) :=
  if s ≥ m.len ∨ e > m.len ∨ symbol.len ≠ m.bitsPer then pure none
  else do
    let r ← m.rankRangeUnchecked s e symbol
    pure (some r)

/-- `rank_range_u64`, src/wavelet/mod.rs:520-526 -/
def rankRangeU64 (m : WM) (s e : Nat) (symbol : Word) : R (Option Nat) :=
  if s ≥ m.len ∨ e > m.len ∨ m.bitsPer > 64 then pure none
  else do
    let r ← m.rankRangeU64Unchecked s e symbol
    pure (some r)

/-- `rank_offset_unchecked`, src/wavelet/mod.rs:551-553 -/
def rankOffsetUnchecked (m : WM) (offset i : Nat) (symbol : BV) : R Nat := m.rankRangeUnchecked offset i symbol

/-- `rank_offset_u64_unchecked`, src/wavelet/mod.rs:618-620 -/
def rankOffsetU64Unchecked (m : WM) (offset i : Nat) (symbol : Word) : R Nat :=
  m.rankRangeU64Unchecked offset i symbol

/-- `rank_unchecked`, src/wavelet/mod.rs:674-676 -/
def rankUnchecked (m : WM) (i : Nat) (symbol : BV) : R Nat := m.rankRangeUnchecked 0 i symbol

/-- `rank_u64_unchecked`, src/wavelet/mod.rs:725-727 -/
def rankU64Unchecked (m : WM) (i : Nat) (symbol : Word) : R Nat := m.rankRangeU64Unchecked 0 i symbol

/-- `rank_offset`, src/wavelet/mod.rs:585-595 -/
def rankOffset (m : WM) (offset i : Nat) (symbol : BV) : R (Option Nat) :=
  if offset > i ∨ offset ≥ m.len ∨ i > m.len ∨ symbol.len ≠ m.bitsPer then pure none
  else do
    let r ← m.rankOffsetUnchecked offset i symbol
    pure (some r)

/-- `rank_offset_u64`, src/wavelet/mod.rs:648-654 -/
def rankOffsetU64 (m : WM) (offset i : Nat) (symbol : Word) : R (Option Nat) :=
  if offset > i ∨ offset ≥ m.len ∨ i > m.len ∨ m.bitsPer > 64 then pure none
  else do
    let r ← m.rankOffsetU64Unchecked offset i symbol
    pure (some r)

/-- `rank`, src/wavelet/mod.rs:701-707 -/
def rank (m : WM) (i : Nat) (symbol : BV) : R (Option Nat) :=
  if i > m.len ∨ symbol.len ≠ m.bitsPer then pure none
  else do
    let r ← m.rankUnchecked i symbol
    pure (some r)

/-- `rank_u64`, src/wavelet/mod.rs:749-755 -/
def rankU64 (m : WM) (i : Nat) (symbol : Word) : R (Option Nat) :=
  if i > m.len ∨ m.bitsPer > 64 then pure none
  else do
    let r ← m.rankU64Unchecked i symbol
    pure (some r)

/-! ## Select -/

/-- The first loop of `select_offset_unchecked`, src/wavelet/mod.rs:781-787,861-867 -/
def selectDown (read : Nat → R Word) : List RsVec → Nat → Nat → R Nat
  | [], _, s => pure s
  | rs :: rest, level, s => do
    let bit ← read level
    let s ← go rs bit s
    selectDown read rest (level + 1) s

/-- The step to the previous level, src/wavelet/mod.rs:792-796,872-876. Here and in the following `b` is the budget
of the select query on a level, see `RsVec.select`. -/
def goUp (rs : RsVec) (bit : Word) (p : Nat) (b : RsVec → Nat := fun rs => rs.supers.length + 1) : R Nat :=
  if bit = 0#64 then rs.select true p (b rs)
  else do
    let q ← subR p rs.rank0
    rs.select false q (b rs)

/-- The second loop of `select_offset_unchecked`, from the last level to the first,
src/wavelet/mod.rs:791-797,871-877 -/
def selectUp (read : Nat → R Word) (data : List RsVec) (level p : Nat)
    (b : RsVec → Nat := fun rs => rs.supers.length + 1) : R Nat :=
  match data with
  | [] => pure p
  | rs :: rest => do
    let p ← selectUp read rest (level + 1) p b
    let bit ← read level
    goUp rs bit p b

/-- The common part of `select_offset_unchecked`, src/wavelet/mod.rs:778-800, and
`select_offset_u64_unchecked`, src/wavelet/mod.rs:858-880 -/
def selectGen (m : WM) (read : Nat → R Word) (offset rank : Nat)
    (b : RsVec → Nat := fun rs => rs.supers.length + 1) : R Nat := do
  let s ← selectDown read m.data 0 offset
  let e ← addU s rank
  selectUp read m.data 0 e b

/-- `select_offset_unchecked`, src/wavelet/mod.rs:778-800 -/
def selectOffsetUnchecked (m : WM) (offset rank : Nat) (symbol : BV)
    (b : RsVec → Nat := fun rs => rs.supers.length + 1) : R Nat :=
  m.selectGen (readBV m.bitsPer symbol) offset rank b

/-- `select_offset_u64_unchecked`, src/wavelet/mod.rs:858-880 -/
def selectOffsetU64Unchecked (m : WM) (offset rank : Nat) (symbol : Word)
    (b : RsVec → Nat := fun rs => rs.supers.length + 1) : R Nat :=
  m.selectGen (readU64 m.bitsPer symbol) offset rank b

/-- `if idx < self.len() { Some(idx) } else { None }`, e.g. src/wavelet/mod.rs:831-835 -/
def ifInside (m : WM) (p : Nat) : Option Nat := if p < m.len then some p else none

/-- `select_offset`, src/wavelet/mod.rs:826-837 -/
def selectOffset (m : WM) (offset rank : Nat) (symbol : BV)
    (b : RsVec → Nat := fun rs => rs.supers.length + 1) : R (Option Nat) :=
  if offset ≥ m.len ∨ symbol.len ≠ m.bitsPer then pure none
  else do
    let p ← m.selectOffsetUnchecked offset rank symbol b
    pure (m.ifInside p)

/-- `select_offset_u64`, src/wavelet/mod.rs:903-914 -/
def selectOffsetU64 (m : WM) (offset rank : Nat) (symbol : Word)
    (b : RsVec → Nat := fun rs => rs.supers.length + 1) : R (Option Nat) :=
  if offset ≥ m.len ∨ m.bitsPer > 64 then pure none
  else do
    let p ← m.selectOffsetU64Unchecked offset rank symbol b
    pure (m.ifInside p)

/-- `select_unchecked`, src/wavelet/mod.rs:935-937 -/
def selectUnchecked (m : WM) (rank : Nat) (symbol : BV)
    (b : RsVec → Nat := fun rs => rs.supers.length + 1) : R Nat :=
  m.selectOffsetUnchecked 0 rank symbol b

/-- `select_u64_unchecked`, src/wavelet/mod.rs:990-992 -/
def selectU64Unchecked (m : WM) (rank : Nat) (symbol : Word)
    (b : RsVec → Nat := fun rs => rs.supers.length + 1) : R Nat :=
  m.selectOffsetU64Unchecked 0 rank symbol b

/-- `select`, src/wavelet/mod.rs:960-971 -/
def select (m : WM) (rank : Nat) (symbol : BV)
    (b : RsVec → Nat := fun rs => rs.supers.length + 1) : R (Option Nat) :=
  if symbol.len = m.bitsPer then do
    let p ← m.selectUnchecked rank symbol b
    pure (m.ifInside p)
  else pure none

/-- `select_u64`, src/wavelet/mod.rs:1012-1023 -/
def selectU64 (m : WM) (rank : Nat) (symbol : Word)
    (b : RsVec → Nat := fun rs => rs.supers.length + 1) : R (Option Nat) :=
  if m.bitsPer > 64 then pure none
  else do
    let p ← m.selectU64Unchecked rank symbol b
    pure (m.ifInside p)

/-! ## Quantiles -/

/-- The loop of the two partial quantile searches, src/wavelet/mod.rs:1063-1080,1194-1209. `w0` and `w1`
are the updates of the prefix for the two branches. The sums with `data.rank0` do not overflow: for a position beyond
the length, `rank0` is `data.rank0`, so that the sum is the position itself. -/
def quantLoop {T : Type} (w0 w1 : Nat → T → R T) : List RsVec → Nat → Nat → Nat → Nat → T → R T
  | [], _, _, _, _, t => pure t
  | rs :: rest, level, s, e, k, t => do
    let zs ← rs.rank true s
    let ze ← rs.rank true e
    let zeros ← subR ze zs
    if k < zeros then do
      let t ← w0 level t
      quantLoop w0 w1 rest (level + 1) zs ze k t
    else do
      let t ← w1 level t
      let ds ← subR s zs
      let de ← subR e ze
      quantLoop w0 w1 rest (level + 1) (rs.rank0 + ds) (rs.rank0 + de) (k - zeros) t

/-- `prefix.set_unchecked((k - 1) - level, bit)`, src/wavelet/mod.rs:1075,1697,1884 -/
def writeBV (k : Nat) (bit : Word) (level : Nat) (t : BV) : R BV := do
  let p ← subR (k - 1) level
  t.setUnchecked p bit

/-- `partial_quantile_search_unchecked`, src/wavelet/mod.rs:1052-1083 -/
def partialQuantile (m : WM) (s e k level : Nat) (t : BV) : R BV := do
  dassertR (t.len = m.bitsPer)
  dassertR (s < e)
  dassertR (e ≤ m.len)
  quantLoop (fun _ t => pure t) (writeBV m.bitsPer 1#64) (m.data.drop level) level s e k t

/-- `partial_quantile_search_u64_unchecked`, src/wavelet/mod.rs:1183-1212 -/
def partialQuantileU64 (m : WM) (s e k level : Nat) (t : Word) : R Word := do
  dassertR (m.bitsPer ≤ 64)
  dassertR (s < e)
  dassertR (e ≤ m.len)
  quantLoop (fun _ t => pure (t <<< 1)) (fun _ t => pure ((t <<< 1) ||| 1#64)) (m.data.drop level) level s e k t

/-- `quantile_unchecked`, src/wavelet/mod.rs:1040-1044 -/
def quantileUnchecked (m : WM) (s e k : Nat) : R BV := m.partialQuantile s e k 0 (BV.fromZeros m.bitsPer)

/-- `quantile_u64_unchecked`, src/wavelet/mod.rs:1172-1174 -/
def quantileU64Unchecked (m : WM) (s e k : Nat) : R Word := m.partialQuantileU64 s e k 0 0#64

/-- `quantile`, src/wavelet/mod.rs:1105-1111 -/
def quantile (m : WM) (s e k : Nat) : R (Option BV) :=
  if s ≥ m.len ∨ e > m.len then pure none
  else do
    let n ← subR e s
    if k ≥ n then pure none
    else do
      let v ← m.quantileUnchecked s e k
      pure (some v)

/-- `quantile_u64`, src/wavelet/mod.rs:1234-1244 -/
def quantileU64 (m : WM) (s e k : Nat) : R (Option Word) :=
  if s ≥ m.len ∨ e > m.len ∨ m.bitsPer > 64 then pure none
  else do
    let n ← subR e s
    if k ≥ n then pure none
    else do
      let v ← m.quantileU64Unchecked s e k
      pure (some v)

/-- `get_sorted_unchecked`, src/wavelet/mod.rs:1125-1127 -/
def getSortedUnchecked (m : WM) (i : Nat) : R BV := m.quantileUnchecked 0 m.len i

/-- `get_sorted`, src/wavelet/mod.rs:1148-1154 -/
def getSorted (m : WM) (i : Nat) : R (Option BV) :=
  if i ≥ m.len then pure none
  else do
    let v ← m.getSortedUnchecked i
    pure (some v)

/-- `get_sorted_u64_unchecked`, src/wavelet/mod.rs:1259-1261 -/
def getSortedU64Unchecked (m : WM) (i : Nat) : R Word := m.quantileU64Unchecked 0 m.len i

/-- `get_sorted_u64`, src/wavelet/mod.rs:1280-1286 -/
def getSortedU64 (m : WM) (i : Nat) : R (Option Word) :=
  if i ≥ m.len ∨ m.bitsPer > 64 then pure none
  else do
    let v ← m.getSortedU64Unchecked i
    pure (some v)

/-- `range_min_unchecked`, src/wavelet/mod.rs:1301-1303 -/
def rangeMinUnchecked (m : WM) (s e : Nat) : R BV := m.quantileUnchecked s e 0

/-- `range_min_u64_unchecked`, src/wavelet/mod.rs:1341-1343 -/
def rangeMinU64Unchecked (m : WM) (s e : Nat) : R Word := m.quantileU64Unchecked s e 0

/-- `range.end - range.start - 1`, src/wavelet/mod.rs:1383,1429 -/
def maxRank (s e : Nat) : R Nat := do
  let n ← subR e s
  subR n 1

/-- `range_max_unchecked`, src/wavelet/mod.rs:1382-1385 -/
def rangeMaxUnchecked (m : WM) (s e : Nat) : R BV := do
  let k ← maxRank s e
  m.quantileUnchecked s e k

/-- `range_max_u64_unchecked`, src/wavelet/mod.rs:1428-1431 -/
def rangeMaxU64Unchecked (m : WM) (s e : Nat) : R Word := do
  let k ← maxRank s e
  m.quantileU64Unchecked s e k

/-- `(range.end - 1 - range.start) / 2`, src/wavelet/mod.rs:1477,1528 -/
def medianRank (s e : Nat) : R Nat := do
  let n ← subR e 1
  let d ← subR n s
  pure (d / 2)

/-- `range_median_unchecked`, src/wavelet/mod.rs:1476-1479 -/
def rangeMedianUnchecked (m : WM) (s e : Nat) : R BV := do
  let k ← medianRank s e
  m.quantileUnchecked s e k

/-- `range_median_u64_unchecked`, src/wavelet/mod.rs:1527-1530 -/
def rangeMedianU64Unchecked (m : WM) (s e : Nat) : R Word := do
  let k ← medianRank s e
  m.quantileU64Unchecked s e k

/-- `range_min`, src/wavelet/mod.rs:1323-1325 -/
def rangeMin (m : WM) (s e : Nat) : R (Option BV) := m.quantile s e 0

/-- `range_min_u64`, src/wavelet/mod.rs:1364-1366 -/
def rangeMinU64 (m : WM) (s e : Nat) : R (Option Word) := m.quantileU64 s e 0

/-- `range_max`, src/wavelet/mod.rs:1405-1412 -/
def rangeMax (m : WM) (s e : Nat) : R (Option BV) :=
  if e ≤ s then pure none else m.quantile s e (e - s - 1)

/-- `range_max_u64`, src/wavelet/mod.rs:1451-1458 -/
def rangeMaxU64 (m : WM) (s e : Nat) : R (Option Word) :=
  if e ≤ s then pure none else m.quantileU64 s e (e - s - 1)

/-- `range_median`, src/wavelet/mod.rs:1502-1509 -/
def rangeMedian (m : WM) (s e : Nat) : R (Option BV) :=
  if e ≤ s then pure none else m.quantile s e ((e - 1 - s) / 2)

/-- `range_median_u64`, src/wavelet/mod.rs:1553-1560 -/
def rangeMedianU64 (m : WM) (s e : Nat) : R (Option Word) :=
  if e ≤ s ∨ m.bitsPer > 64 ∨ e > m.len then pure none else m.quantileU64 s e ((e - 1 - s) / 2)

/-! ## Predecessor and successor -/

/-- The closures passed to the generic searches, src/wavelet/mod.rs:1695-1699,1739-1746,1882-1886,1926-1933:
`bit_reader`, `result_writer` and `quantile_search`. -/
structure Search (T : Type) where
  read : Nat → R Word
  write : Word → Nat → T → R T
  quant : Nat → Nat → Nat → Nat → T → R T

/-- The variables of the search: `last_smaller_prefix`, `last_one_level`, `next_smaller_range`
(src/wavelet/mod.rs:1583-1587), resp. `last_larger_prefix`, `last_zero_level`, `next_larger_range`
(src/wavelet/mod.rs:1767-1771). -/
structure Saved (T : Type) where
  pre : T
  level : Option Nat
  range : Option (Nat × Nat)

/-- The closure of `next_smaller_range.map`, src/wavelet/mod.rs:1607-1617 -/
def smaller {T : Type} (ops : Search T) (sv : Saved T) : R (Option T) :=
  match sv.range with
  | none => pure none
  | some r => do
    let k ← subR (r.2 - r.1) 1
    let l ← unwrapR sv.level
    let t ← ops.write 0#64 l sv.pre
    let v ← ops.quant r.1 r.2 k (l + 1) t
    pure (some v)

/-- The closure of `next_larger_range.map`, src/wavelet/mod.rs:1819-1828 -/
def larger {T : Type} (ops : Search T) (sv : Saved T) : R (Option T) :=
  match sv.range with
  | none => pure none
  | some r => do
    let l ← unwrapR sv.level
    let t ← ops.write 1#64 l sv.pre
    let v ← ops.quant r.1 r.2 0 (l + 1) t
    pure (some v)

/-- The update of the saved variables, src/wavelet/mod.rs:1638-1642,1794-1803 -/
def save {T : Type} (sv : Saved T) (level a b : Nat) (t : T) : Saved T :=
  if a < b then ⟨t, some level, some (a, b)⟩ else sv

/-- `predecessor_generic_unchecked`, src/wavelet/mod.rs:1567-1654 -/
def predLoop {T : Type} (ops : Search T) : List RsVec → Nat → Nat → Nat → T → Saved T → R (Option T)
  | [], _, _, _, t, _ => pure (some t)
  | rs :: rest, level, s, e, t, sv => do
    let bit ← ops.read level
    let zs ← rs.rank true s
    let ze ← rs.rank true e
    let zeros ← subR ze zs
    if bit = 0#64 then
      if zeros = 0 then smaller ops sv
      else do
        let t ← ops.write 0#64 level t
        predLoop ops rest (level + 1) zs ze t sv
    else do
      let n ← subR e s
      if zeros = n then do
        let k ← subR n 1
        let v ← ops.quant s e k level t
        pure (some v)
      else do
        let t' ← ops.write 1#64 level t
        let ds ← subR s zs
        let de ← subR e ze
        predLoop ops rest (level + 1) (rs.rank0 + ds) (rs.rank0 + de) t' (save sv level zs ze t)

/-- `successor_generic_unchecked`, src/wavelet/mod.rs:1751-1841 -/
def succLoop {T : Type} (ops : Search T) : List RsVec → Nat → Nat → Nat → T → Saved T → R (Option T)
  | [], _, _, _, t, _ => pure (some t)
  | rs :: rest, level, s, e, t, sv => do
    let bit ← ops.read level
    let zs ← rs.rank true s
    let ze ← rs.rank true e
    let zeros ← subR ze zs
    if bit = 0#64 then
      if zeros = 0 then do
        let v ← ops.quant s e 0 level t
        pure (some v)
      else do
        let ds ← subR s zs
        let de ← subR e ze
        let t' ← ops.write 0#64 level t
        succLoop ops rest (level + 1) zs ze t' (save sv level (rs.rank0 + ds) (rs.rank0 + de) t)
    else do
      let n ← subR e s
      if zeros = n then larger ops sv
      else do
        let t ← ops.write 1#64 level t
        let ds ← subR s zs
        let de ← subR e ze
        succLoop ops rest (level + 1) (rs.rank0 + ds) (rs.rank0 + de) t sv

/-- The closures of the `BitVec` versions, src/wavelet/mod.rs:1695-1699,1882-1886 -/
def searchBV (m : WM) (symbol : BV) : Search BV :=
  ⟨readBV m.bitsPer symbol, writeBV m.bitsPer, m.partialQuantile⟩

/-- The closures of the `u64` versions, src/wavelet/mod.rs:1739-1746,1926-1933 -/
def searchU64 (m : WM) (symbol : Word) : Search Word :=
  ⟨readU64 m.bitsPer symbol, fun bit _ t => pure ((t <<< 1) ||| bit), m.partialQuantileU64⟩

/-- `predecessor`, src/wavelet/mod.rs:1682-1701 -/
def predecessor (m : WM) (s e : Nat) (symbol : BV) : R (Option BV) :=
  if symbol.len ≠ m.bitsPer ∨ e ≤ s ∨ m.isEmpty ∨ e > m.len then pure none
  else predLoop (m.searchBV symbol) m.data 0 s e (BV.fromZeros m.bitsPer)
    ⟨BV.fromZeros m.bitsPer, none, none⟩

/-- `predecessor_u64`, src/wavelet/mod.rs:1726-1748 -/
def predecessorU64 (m : WM) (s e : Nat) (symbol : Word) : R (Option Word) :=
  if m.bitsPer > 64 ∨ e ≤ s ∨ m.isEmpty ∨ e > m.len then pure none
  else predLoop (m.searchU64 symbol) m.data 0 s e 0#64 ⟨0#64, none, none⟩

/-- `successor`, src/wavelet/mod.rs:1869-1888 -/
def successor (m : WM) (s e : Nat) (symbol : BV) : R (Option BV) :=
  if symbol.len ≠ m.bitsPer ∨ e ≤ s ∨ m.isEmpty ∨ e > m.len then pure none
  else succLoop (m.searchBV symbol) m.data 0 s e (BV.fromZeros m.bitsPer)
    ⟨BV.fromZeros m.bitsPer, none, none⟩

/-- `successor_u64`, src/wavelet/mod.rs:1913-1935 -/
def successorU64 (m : WM) (s e : Nat) (symbol : Word) : R (Option Word) :=
  if m.bitsPer > 64 ∨ e ≤ s ∨ m.isEmpty ∨ e > m.len then pure none
  else succLoop (m.searchU64 symbol) m.data 0 s e 0#64 ⟨0#64, none, none⟩

/-! ## Iterators -/

/-- `WaveletIter`, `WaveletRefIter`, src/wavelet/mod.rs:2065-2072 -/
def valueOps (m : WM) : VecOps BV := ⟨m.len, m.getValue, m.getValueUnchecked⟩

/-- `WaveletNumIter`, `WaveletNumRefIter`, src/wavelet/mod.rs:2074-2082 -/
def numOps (m : WM) : VecOps Word := ⟨m.len, m.getU64, m.getU64Unchecked⟩

/-- `WaveletSortedIter`, `WaveletSortedRefIter`, src/wavelet/mod.rs:2084-2092 -/
def sortedOps (m : WM) : VecOps BV := ⟨m.len, m.getSorted, m.getSortedUnchecked⟩

/-- `WaveletSortedNumIter`, `WaveletSortedNumRefIter`, src/wavelet/mod.rs:2094-2102 -/
def sortedNumOps (m : WM) : VecOps Word := ⟨m.len, m.getSortedU64, m.getSortedU64Unchecked⟩

/-- `iter_sorted`, `into_iter_sorted`, src/wavelet/mod.rs:1979-1981 and 1986-1988 -/
def iterSorted (m : WM) : GenIter := GenIter.new m.sortedOps

/-- `iter_u64`, `into_iter_u64`, src/wavelet/mod.rs:1952-1958 and 1964-1970 -/
def iterU64 (m : WM) : Option GenIter := if m.bitsPer > 64 then none else some (GenIter.new m.numOps)

/-- `iter_sorted_u64`, `into_iter_sorted_u64`, src/wavelet/mod.rs:2005-2011 and 2017-2023 -/
def iterSortedU64 (m : WM) : Option GenIter :=
  if m.bitsPer > 64 then none else some (GenIter.new m.sortedNumOps)

end WM

end Vers
