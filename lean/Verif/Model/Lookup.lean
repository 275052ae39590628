import Verif.Model.Mmt

/-!
# Model of src/trees/bp/lookup_query.rs (8-bit tables) and src/trees/bp/lookup.rs (16-bit table)

The second file replaces the first one under the crate feature `bp_u16_lookup`. Blocks of parentheses are
natural numbers below 2^8 (2^16), the `i8` (`i16`) arithmetic of the table construction is bit vector
arithmetic (the code comments that it does not overflow). The tables are computed at compile time by
`const fn`s; here every access computes the table.
-/

namespace Vers

variable [Profile]

/-- The result of a search within a block: `Ok(position)`, or `Err(())` together with the updated
`relative_excess`. After `Ok` the updated value is never used and is not modelled.
src/trees/bp/lookup_query.rs:187-235 and src/trees/bp/lookup.rs:134-194. -/
inductive Found where
  | at (i : Nat)
  | miss (rel : Int)
deriving DecidableEq, Repr

namespace Lookup

/-- The branchless minimum, src/trees/bp/lookup_query.rs:167-170 and src/trees/bp/lookup.rs:117-120. -/
def bmin {w : Nat} (a b : BitVec w) : BitVec w := b + ((a - b) &&& -((a - b) >>> (w - 1)))

/-- The branchless maximum, src/trees/bp/lookup_query.rs:176-179 and src/trees/bp/lookup.rs:123-126. -/
def bmax {w : Nat} (a b : BitVec w) : BitVec w := a - ((a - b) &&& -((a - b) >>> (w - 1)))

/-- `((v >> i) & 1) == 1`, src/trees/bp/lookup_query.rs:95, 123 and src/trees/bp/lookup.rs:83. -/
def bitAt (v i : Nat) : Bool := v.testBit i

/-- `block.count_ones() - block.count_zeros()`, src/trees/bp/lookup_query.rs:183-185 and
src/trees/bp/lookup.rs:130-132. -/
def totalExcess (size block : Nat) : Int :=
  (cnt (bitAt block) size : Int) - (cnt (fun i => !bitAt block i) size : Int)

/-! ## 8-bit tables -/

/-- `minimum_excess`, `maximum_excess`, `query_map` and `total_excess`, src/trees/bp/lookup_query.rs:51, 54-55 and 92. -/
structure Calc8 where
  total : BitVec 8
  minE : BitVec 8
  maxE : BitVec 8
  query : List (BitVec 8)
deriving DecidableEq, Repr

/-- Loop body shared by `calculate_values_fwd` and `calculate_values_bwd`: `delta` is added to the total
excess, and the query for the new excess is answered unless it already is.
src/trees/bp/lookup_query.rs:95-106 and 123-134. -/
def calcStep8 (delta : BitVec 8) (i : Nat) (s : Calc8) : R Calc8 := do
  let t := s.total + delta
  let k := (t + 8#8).toNat
  let q ← idx s.query k
  let query ← if q = (-1#8) then setIdx s.query k (BitVec.ofNat 8 i) else pure s.query
  pure ⟨t, bmin s.minE t, bmax s.maxE t, query⟩

/-- The loop of `calculate_values_fwd`, first `n` steps; src/trees/bp/lookup_query.rs:92-108. -/
def calcFwd8 (v : Nat) : Nat → Calc8 → R Calc8
  | 0, s => pure s
  | n + 1, s => do
    let s ← calcFwd8 v n s
    calcStep8 (if bitAt v n then 1#8 else -1#8) n s

/-- The loop of `calculate_values_bwd` for `i = n-1, ..., 0`; src/trees/bp/lookup_query.rs:120-136. -/
def calcBwd8 (v : Nat) : Nat → Calc8 → R Calc8
  | 0, s => pure s
  | n + 1, s => do
    let s ← calcStep8 (if bitAt v n then -1#8 else 1#8) n s
    calcBwd8 v n s

/-- `(excess as i32 + LOOKUP_BLOCK_SIZE as i32) as u64 & ENCODING_MASK`,
src/trees/bp/lookup_query.rs:63-66. -/
def encode8 (e : BitVec 8) : Word := BitVec.ofInt 64 (e.toInt + 8) &&& 31#64

/-- The loop that encodes and resets the queries, first `n` steps;
src/trees/bp/lookup_query.rs:68-75. -/
def encodeQueries : Nat → Word → List (BitVec 8) → R (Word × List (BitVec 8))
  | 0, e, q => pure (e, q)
  | n + 1, e, q => do
    let p ← encodeQueries n e q
    let x ← idx p.2 n
    let q' ← setIdx p.2 n (-1#8)
    pure (p.1 ||| ((x &&& 7#8).zeroExtend 64 <<< (10 + n * 3)), q')

/-- One iteration of the loop over the blocks, src/trees/bp/lookup_query.rs:54-77. -/
def entry8 (fwd : Bool) (v : Nat) (query : List (BitVec 8)) : R (Word × List (BitVec 8)) := do
  let s ← if fwd then calcFwd8 v 8 ⟨0#8, 9#8, -9#8, query⟩ else calcBwd8 v 8 ⟨0#8, 9#8, -9#8, query⟩
  encodeQueries 17 ((encode8 s.minE <<< 5) ||| encode8 s.maxE) s.query

/-- The loop over the blocks, first `n` steps; src/trees/bp/lookup_query.rs:50-79. -/
def tableLoop8 (fwd : Bool) : Nat → R (List Word × List (BitVec 8))
  | 0 => pure ([], List.replicate 17 (-1#8))
  | n + 1 => do
    let p ← tableLoop8 fwd n
    let e ← entry8 fwd n p.2
    pure (p.1 ++ [e.1], e.2)

/-- `calculate_lookup_table`, i.e. `PAREN_BLOCK_LOOKUP_FWD` and `PAREN_BLOCK_LOOKUP_BWD`;
src/trees/bp/lookup_query.rs:25, 32 and 45-82. -/
def table8 (fwd : Bool) : R (List Word) := do
  let p ← tableLoop8 fwd 256
  pure p.1

/-- `get_minimum_excess`, src/trees/bp/lookup_query.rs:151-153. -/
def minOf8 (e : Word) : Int := ((e >>> 5) &&& 31#64).toNat - 8

/-- `get_maximum_excess`, src/trees/bp/lookup_query.rs:159-161. -/
def maxOf8 (e : Word) : Int := (e &&& 31#64).toNat - 8

/-- `answer_query`, src/trees/bp/lookup_query.rs:142-145. The callers guarantee that the relative excess is
within the bounds; outside of them, the cast to `usize` is not modelled. -/
def answer8 (e : Word) (rel : Int) : R Nat := do
  dassertR (rel.natAbs ≤ 8)
  pure ((e >>> (10 + (rel + 8).toNat * 3)) &&& 7#64).toNat

/-- `process_block_fwd`, src/trees/bp/lookup_query.rs:200-215. -/
def processFwd8 (block : Nat) (rel : Int) : R Found := do
  let t ← table8 true
  let e ← idx t block
  if rel ≤ maxOf8 e ∧ minOf8 e ≤ rel then do
    let a ← answer8 e rel
    pure (.at a)
  else do
    let r ← subI rel (totalExcess 8 block)
    pure (.miss r)

/-- `process_block_bwd`, src/trees/bp/lookup_query.rs:218-235. -/
def processBwd8 (block : Nat) (rel : Int) : R Found := do
  let s ← addI rel (totalExcess 8 block)
  let t ← table8 true
  let e ← idx t block
  if s = 0 ∨ (minOf8 e ≤ s ∧ s ≤ maxOf8 e) then do
    let tb ← table8 false
    let eb ← idx tb block
    let a ← answer8 eb rel
    pure (.at a)
  else pure (.miss s)

/-! ## 16-bit table -/

/-- `minimum_excess`, `maximum_excess` and `total_excess`, src/trees/bp/lookup.rs:77-79. -/
structure Calc16 where
  total : BitVec 16
  minE : BitVec 16
  maxE : BitVec 16

/-- The inner loop of `calculate_lookup_table`, first `n` steps; src/trees/bp/lookup.rs:79-92. -/
def calc16 (v : Nat) : Nat → Calc16 → Calc16
  | 0, s => s
  | n + 1, s =>
    let s := calc16 v n s
    let t := s.total + (if bitAt v n then 1#16 else -1#16)
    ⟨t, bmin s.minE t, bmax s.maxE t⟩

/-- `(excess as i32 + ENCODING_OFFSET) as EncodedTableType & ENCODING_MASK`,
src/trees/bp/lookup.rs:94-97. -/
def encode16 (e : BitVec 16) : BitVec 16 := BitVec.ofInt 16 (e.toInt + 16) &&& 63#16

/-- One entry, src/trees/bp/lookup.rs:77-98. -/
def entry16 (v : Nat) : BitVec 16 :=
  let s := calc16 v 16 ⟨0#16, 17#16, -17#16⟩
  (encode16 s.minE <<< 6) ||| encode16 s.maxE

/-- `PAREN_BLOCK_LOOKUP`, src/trees/bp/lookup.rs:51 and 69-104. -/
def table16 : List (BitVec 16) := (List.range 65536).map entry16

/-- `get_minimum_excess`, src/trees/bp/lookup.rs:107-109. -/
def minOf16 (e : BitVec 16) : Int := ((e >>> 6) &&& 63#16).toNat - 16

/-- `get_maximum_excess`, src/trees/bp/lookup.rs:112-114. -/
def maxOf16 (e : BitVec 16) : Int := (e &&& 63#16).toNat - 16

/-- The forward scan of one block starting at bit `i`, `n` bits to go; `unreachable!()` after the last
one; src/trees/bp/lookup.rs:154-163. -/
def scanFwd16 (block : Nat) : Nat → Nat → Int → R Found
  | 0, _, _ => .error .unreachable
  | n + 1, i, rel => do
    let r ← subI rel (sgn (bitAt block i))
    if r = 0 then pure (.at i) else scanFwd16 block n (i + 1) r

/-- The backward scan of one block, `n` bits to go; `unreachable!()` after the last one;
src/trees/bp/lookup.rs:180-189. -/
def scanBwd16 (block : Nat) : Nat → Int → R Found
  | 0, _ => .error .unreachable
  | n + 1, rel => do
    let r ← addI rel (sgn (bitAt block n))
    if r = 0 then pure (.at n) else scanBwd16 block n r

/-- `process_block_fwd`, src/trees/bp/lookup.rs:147-168. -/
def processFwd16 (block : Nat) (rel : Int) : R Found := do
  let e ← idx table16 block
  if rel ≤ maxOf16 e ∧ minOf16 e ≤ rel then scanFwd16 block 16 0 rel
  else do
    let r ← subI rel (totalExcess 16 block)
    pure (.miss r)

/-- `process_block_bwd`, src/trees/bp/lookup.rs:171-194. -/
def processBwd16 (block : Nat) (rel : Int) : R Found := do
  let s ← addI rel (totalExcess 16 block)
  let e ← idx table16 block
  if s = 0 ∨ (minOf16 e ≤ s ∧ s ≤ maxOf16 e) then scanBwd16 block 16 rel
  else pure (.miss s)

/-- The crate feature `bp_u16_lookup` selects one of the two modules, src/trees/bp/mod.rs:23-31. -/
inductive Variant where
  | u8
  | u16
deriving DecidableEq, Repr

/-- `LOOKUP_BLOCK_SIZE`, src/trees/bp/lookup_query.rs:8 and src/trees/bp/lookup.rs:10. -/
def Variant.size : Variant → Nat
  | .u8 => 8
  | .u16 => 16

/-- `process_block_fwd` of the selected module, src/trees/bp/mod.rs:23-31. -/
def processFwd : Variant → Nat → Int → R Found
  | .u8 => processFwd8
  | .u16 => processFwd16

/-- `process_block_bwd` of the selected module, src/trees/bp/mod.rs:23-31. -/
def processBwd : Variant → Nat → Int → R Found
  | .u8 => processBwd8
  | .u16 => processBwd16

end Lookup
end Vers
