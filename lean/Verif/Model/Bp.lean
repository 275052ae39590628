import Verif.Model.Lookup
import Verif.Model.RsIter

/-!
# Model of src/trees/bp/mod.rs and src/trees/bp/builder.rs

The const generic `BLOCK_SIZE` is the parameter `bs`, the crate feature `bp_u16_lookup` the parameter `k`.
The queries of the traits `Tree`, `IsAncestor`, `LevelTree` and `SubtreeSize` are modelled as they are
implemented for `BpTree`. `heap_size` is in `Model/Space.lean`. Node handles are `usize`, i.e. natural numbers.
Sums are checked for overflow where the argument is a handle of the caller (`node + 1`), not where it is a position in
the sequence.
The optional argument `budget` of the queries is passed to the min-max tree (C62); its default suffices for
every query.
-/

namespace Vers

variable [Profile]
open Lookup

/-- `struct BpTree`, src/trees/bp/mod.rs:141-144. -/
structure BpTree where
  vec : RsVec
  mmt : MMT
deriving DecidableEq, Repr

/-- Continue after a search that may have failed: the `return Ok(..)` of the loops, src/trees/bp/mod.rs:211-213, 230,
240-242, 312-314 and 328. -/
def Found.orElse (f : Found) (k : Int → R Found) : R Found :=
  match f with
  | .at i => pure (.at i)
  | .miss rel => k rel

namespace BpTree

/-- `from_bit_vector`, src/trees/bp/mod.rs:149-153. For `fl` see `MMT.excessTree`. -/
def fromBitVector (bs : Nat) (v : BV) (fl : Nat → Nat := log2Ceil) : R BpTree := do
  let mmt ← MMT.excessTree v bs fl
  let vec ← RsVec.fromBitVec v
  pure ⟨vec, mmt⟩

/-- `relative_excess -= if bit == 1 { 1 } else { -1 }; if relative_excess == 0 { return Ok(i) }` for the
`n` positions starting at `i`; src/trees/bp/mod.rs:207-214 and 236-243. -/
def scanFwd (vec : RsVec) : Nat → Nat → Int → R Found
  | 0, _, rel => pure (.miss rel)
  | n + 1, i, rel => do
    let w ← vec.getUnchecked i
    let r ← subI rel (sgn (w == 1#64))
    if r = 0 then pure (.at i) else scanFwd vec n (i + 1) r

/-- `get_bits_unchecked(i, LOOKUP_BLOCK_SIZE).try_into().unwrap()`, src/trees/bp/mod.rs:224-227 and
322-325: panics if the value does not fit into the block type. -/
def block (vec : RsVec) (k : Variant) (i : Nat) : R Nat := do
  let w ← vec.getBitsUnchecked i k.size
  if w.toNat < 2 ^ k.size then pure w.toNat else .error .unwrap

/-- The result of a lookup in the block at position `i`, `Ok(i + idx as usize)`; src/trees/bp/mod.rs:230 and 328. -/
def shift (i : Nat) : Found → Found
  | .at j => .at (i + j)
  | .miss rel => .miss rel

/-- `n` table lookups starting at position `i`, src/trees/bp/mod.rs:222-232. -/
def tabFwd (vec : RsVec) (k : Variant) : Nat → Nat → Int → R Found
  | 0, _, rel => pure (.miss rel)
  | n + 1, i, rel => do
    let b ← block vec k i
    let f ← processFwd k b rel
    (shift i f).orElse (fun r => tabFwd vec k n (i + k.size) r)

/-- Number of steps of `(a..b).step_by(s)`, src/trees/bp/mod.rs:222 and 317-318. -/
def steps (a b s : Nat) : Nat := (b - a + s - 1) / s

/-- `fwd_search_block`, src/trees/bp/mod.rs:194-246. -/
def fwdBlock (t : BpTree) (bs : Nat) (k : Variant) (start blockIdx : Nat) (rel : Int) : R Found := do
  let bb := min ((blockIdx + 1) * bs) t.vec.len
  let lb := min ((start + 1 + k.size - 1) / k.size * k.size) bb
  let ub := max lb (bb / k.size * k.size)
  let f ← scanFwd t.vec (lb - (start + 1)) (start + 1) rel
  f.orElse (fun rel => do
    let f ← tabFwd t.vec k (steps lb ub k.size) lb rel
    f.orElse (fun rel => scanFwd t.vec (bb - ub) ub rel))

/-- `Result::ok`, src/trees/bp/mod.rs:180 and 281. -/
def found? : Found → Option Nat
  | .at i => some i
  | .miss _ => none

/-- `fwd_search`, src/trees/bp/mod.rs:163-185. -/
def fwdSearch (t : BpTree) (bs : Nat) (k : Variant) (index : Nat) (rel : Int)
    (budget : Nat := t.mmt.nodes.length + 1) : R (Option Nat) := do
  let last ← subR t.vec.len 1
  if index ≥ last then pure none
  else if bs = 0 then .error .divZero
  else do
    let f ← t.fwdBlock bs k index ((index + 1) / bs) rel
    match f with
    | .at i => pure (some i)
    | .miss rel => do
      let o ← t.mmt.fwdSearch ((index + 1) / bs) rel budget
      match o with
      | none => pure none
      | some (b, rel) => do
        let s ← subR (b * bs) 1
        let f ← t.fwdBlock bs k s b rel
        pure (found? f)

/-- `relative_excess += if bit == 1 { 1 } else { -1 }; if relative_excess == 0 { return Ok(i) }` for the
`n` positions before `i`, in descending order; src/trees/bp/mod.rs:308-315. -/
def scanBwd (vec : RsVec) : Nat → Nat → Int → R Found
  | 0, _, rel => pure (.miss rel)
  | n + 1, i, rel => do
    let w ← vec.getUnchecked (i - 1)
    let r ← addI rel (sgn (w == 1#64))
    if r = 0 then pure (.at (i - 1)) else scanBwd vec n (i - 1) r

/-- Table lookups at `a + (n-1)*size, ..., a + size, a`, src/trees/bp/mod.rs:317-330. -/
def tabBwd (vec : RsVec) (k : Variant) (a : Nat) : Nat → Int → R Found
  | 0, rel => pure (.miss rel)
  | n + 1, rel => do
    let b ← block vec k (a + n * k.size)
    let f ← processBwd k b rel
    (shift (a + n * k.size) f).orElse (fun r => tabBwd vec k a n r)

/-- `bwd_search_block`, src/trees/bp/mod.rs:295-333. -/
def bwdBlock (t : BpTree) (bs : Nat) (k : Variant) (start blockIdx : Nat) (rel : Int) : R Found := do
  let bb := min (blockIdx * bs) t.vec.len
  let s ← subR start 1
  let lb := max (s / k.size * k.size) bb
  let f ← scanBwd t.vec (start - lb) start rel
  f.orElse (fun rel => tabBwd t.vec k bb (steps bb lb k.size) rel)

/-- `bwd_search`, src/trees/bp/mod.rs:256-286. -/
def bwdSearch (t : BpTree) (bs : Nat) (k : Variant) (index : Nat) (rel : Int)
    (budget : Nat := t.mmt.nodes.length + 1) : R (Option Nat) :=
  if index ≥ t.vec.len then pure none
  else if index = 0 then pure none
  else if bs = 0 then .error .divZero
  else do
    let f ← t.bwdBlock bs k index ((index - 1) / bs) rel
    match f with
    | .at i => pure (some i)
    | .miss rel => do
      let o ← t.mmt.bwdSearch ((index - 1) / bs) rel budget
      match o with
      | none => pure none
      | some (b, rel) => do
        let f ← t.bwdBlock bs k ((b + 1) * bs) b rel
        pure (found? f)

/-- `close`, src/trees/bp/mod.rs:339-345. -/
def close (t : BpTree) (bs : Nat) (k : Variant) (index : Nat)
    (budget : Nat := t.mmt.nodes.length + 1) : R (Option Nat) :=
  if index ≥ t.vec.len then pure none else t.fwdSearch bs k index (-1) budget

/-- `open`, src/trees/bp/mod.rs:351-357. -/
def opening (t : BpTree) (bs : Nat) (k : Variant) (index : Nat)
    (budget : Nat := t.mmt.nodes.length + 1) : R (Option Nat) :=
  if index ≥ t.vec.len then pure none else t.bwdSearch bs k index (-1) budget

/-- `enclose`, src/trees/bp/mod.rs:363-376. -/
def enclose (t : BpTree) (bs : Nat) (k : Variant) (index : Nat)
    (budget : Nat := t.mmt.nodes.length + 1) : R (Option Nat) :=
  if index ≥ t.vec.len then pure none
  else do
    let w ← t.vec.getUnchecked index
    t.bwdSearch bs k index (if w = 1#64 then -1 else -2) budget

/-- `excess`, src/trees/bp/mod.rs:382-385. -/
def excess (t : BpTree) (index : Nat) : R Int := do
  dassertR (index < t.vec.len)
  let j ← addU index 1
  let a ← t.vec.rank false j
  let b ← t.vec.rank true j
  subI a b

/-- `debug_assert!(self.vec.get(node) == Some(OPEN_PAREN))`, in most queries, e.g.
src/trees/bp/mod.rs:558-561. -/
def assertNode (t : BpTree) (node : Nat) : R Unit :=
  if Profile.debug then do
    let w ← t.vec.get node
    assertR (w = some 1#64)
  else pure ()

/-- `root`, src/trees/bp/mod.rs:549-555. -/
def root (t : BpTree) : Option Nat := if t.vec.len = 0 then none else some 0

/-- `parent`, src/trees/bp/mod.rs:557-564. -/
def parent (t : BpTree) (bs : Nat) (k : Variant) (node : Nat)
    (budget : Nat := t.mmt.nodes.length + 1) : R (Option Nat) := do
  t.assertNode node
  t.enclose bs k node budget

/-- `first_child`, src/trees/bp/mod.rs:566-579. -/
def firstChild (t : BpTree) (node : Nat) : R (Option Nat) := do
  t.assertNode node
  let j ← addU node 1
  let w ← t.vec.get j
  pure (if w = some 1#64 then some j else none)

/-- `next_sibling`, src/trees/bp/mod.rs:581-591. -/
def nextSibling (t : BpTree) (bs : Nat) (k : Variant) (node : Nat)
    (budget : Nat := t.mmt.nodes.length + 1) : R (Option Nat) := do
  t.assertNode node
  let o ← t.close bs k node budget
  match o with
  | none => pure none
  | some i => do
    let w ← t.vec.get (i + 1)
    pure (if w = some 1#64 then some (i + 1) else none)

/-- `previous_sibling`, src/trees/bp/mod.rs:593-609. -/
def previousSibling (t : BpTree) (bs : Nat) (k : Variant) (node : Nat)
    (budget : Nat := t.mmt.nodes.length + 1) : R (Option Nat) := do
  t.assertNode node
  if node = 0 then pure none
  else do
    let w ← t.vec.get (node - 1)
    if w = some 0#64 then t.opening bs k (node - 1) budget else pure none

/-- `last_child`, src/trees/bp/mod.rs:611-627. -/
def lastChild (t : BpTree) (bs : Nat) (k : Variant) (node : Nat)
    (budget : Nat := t.mmt.nodes.length + 1) : R (Option Nat) := do
  t.assertNode node
  let j ← addU node 1
  let w ← t.vec.get j
  if w = some 1#64 then do
    let o ← t.close bs k node budget
    match o with
    | none => pure none
    | some i => do
      let j ← subR i 1
      t.opening bs k j budget
  else pure none

/-- `node_index`, src/trees/bp/mod.rs:629-635. -/
def nodeIndex (t : BpTree) (node : Nat) : R Nat := do
  t.assertNode node
  t.vec.rank false node

/-- `node_handle`, src/trees/bp/mod.rs:637-639. -/
def nodeHandle (t : BpTree) (index : Nat) (budget : Nat := t.vec.supers.length + 1) : R Nat :=
  t.vec.select false index budget

/-- `is_leaf`, src/trees/bp/mod.rs:641-647. -/
def isLeaf (t : BpTree) (node : Nat) : R Bool := do
  t.assertNode node
  let j ← addU node 1
  let w ← t.vec.get j
  pure (decide (w = some 0#64))

/-- `depth`, src/trees/bp/mod.rs:649-656; a `u64`. -/
def depth (t : BpTree) (node : Nat) : R Nat := do
  t.assertNode node
  let e ← t.excess node
  pure (e.toNat - 1)

/-- `size`, src/trees/bp/mod.rs:658-660. -/
def size (t : BpTree) : R Nat := t.vec.rank false t.vec.len

/-- `is_empty`, src/trees/bp/mod.rs:662-664. -/
def isEmpty (t : BpTree) : Bool := t.vec.len == 0

/-- `is_ancestor`, src/trees/bp/mod.rs:668-684. -/
def isAncestor (t : BpTree) (bs : Nat) (k : Variant) (ancestor descendant : Nat)
    (budget : Nat := t.mmt.nodes.length + 1) : R (Option Bool) := do
  t.assertNode ancestor
  t.assertNode descendant
  let o ← t.close bs k ancestor budget
  pure (o.map (fun closing => decide (ancestor ≤ descendant ∧ descendant < closing)))

/-- `level as i64` for a `u64`, src/trees/bp/mod.rs:695, 714 and 720. -/
def asI64 (level : Word) : Int := level.toInt

/-- `level_ancestor`, src/trees/bp/mod.rs:688-696. -/
def levelAncestor (t : BpTree) (bs : Nat) (k : Variant) (node : Nat) (level : Word)
    (budget : Nat := t.mmt.nodes.length + 1) : R (Option Nat) :=
  if level = 0#64 then pure (some node)
  else do
    let e ← subI 0 (asI64 level)
    t.bwdSearch bs k node e budget

/-- `level_next`, src/trees/bp/mod.rs:698-700. -/
def levelNext (t : BpTree) (bs : Nat) (k : Variant) (node : Nat)
    (budget : Nat := t.mmt.nodes.length + 1) : R (Option Nat) := do
  let o ← t.close bs k node budget
  match o with
  | none => pure none
  | some i => t.fwdSearch bs k i 1 budget

/-- `level_prev`, src/trees/bp/mod.rs:702-704. -/
def levelPrev (t : BpTree) (bs : Nat) (k : Variant) (node : Nat)
    (budget : Nat := t.mmt.nodes.length + 1) : R (Option Nat) := do
  let o ← t.bwdSearch bs k node 1 budget
  match o with
  | none => pure none
  | some i => t.opening bs k i budget

/-- `level_leftmost`, src/trees/bp/mod.rs:706-715. -/
def levelLeftmost (t : BpTree) (bs : Nat) (k : Variant) (level : Word)
    (budget : Nat := t.mmt.nodes.length + 1) : R (Option Nat) :=
  if level = 0#64 then pure (some 0) else t.fwdSearch bs k 0 (asI64 level) budget

/-- `level_rightmost`, src/trees/bp/mod.rs:717-721. -/
def levelRightmost (t : BpTree) (bs : Nat) (k : Variant) (level : Word)
    (budget : Nat := t.mmt.nodes.length + 1) : R (Option Nat) := do
  let n ← t.size
  let i ← subR (n * 2) 1
  let o ← t.bwdSearch bs k i (asI64 level) budget
  match o with
  | none => pure none
  | some i => t.opening bs k i budget

/-- `subtree_size`, src/trees/bp/mod.rs:725-733. -/
def subtreeSize (t : BpTree) (bs : Nat) (k : Variant) (node : Nat)
    (budget : Nat := t.mmt.nodes.length + 1) : R (Option Nat) := do
  t.assertNode node
  let o ← t.close bs k node budget
  match o with
  | none => pure none
  | some c => do
    let a ← t.vec.rank false c
    let b ← t.vec.rank false node
    let n ← subR a b
    pure (some n)

/-- `into_parentheses_vec`, src/trees/bp/mod.rs:534-536. -/
def intoParenthesesVec (t : BpTree) : RsVec := t.vec

/-- `BitVec::from(BpTree)`, src/trees/bp/mod.rs:752-754. -/
def intoBitVec (t : BpTree) : BV := t.vec.intoBitVec

/-! ## Iterators

`Iterator::next` of the returned iterators. The adaptors `skip`, `take` and `map` are modelled after
`core`: the first `next` of `Skip` calls `nth` of the underlying iterator, `Take` counts down. -/

/-- `dfs_iter`, `iter` and `into_iter`, src/trees/bp/mod.rs:396-400, 408-412 and 740-742. -/
def dfsIter (t : BpTree) : R SelIter := SelIter.new t.vec false

/-- `.map(|n| self.open(n).unwrap())`, src/trees/bp/mod.rs:422 and 471. -/
def mapOpen (t : BpTree) (bs : Nat) (k : Variant) (o : Option Nat) : R (Option Nat) :=
  match o with
  | none => pure none
  | some n => do
    let p ← t.opening bs k n
    let p ← unwrapR p
    pure (some p)

/-- `dfs_post_iter`, src/trees/bp/mod.rs:419-423. -/
def dfsPostIter (t : BpTree) : R SelIter := SelIter.new t.vec true

/-- `next` of `dfs_post_iter`, src/trees/bp/mod.rs:422. -/
def dfsPostNext (t : BpTree) (bs : Nat) (k : Variant) (it : SelIter) : R (SelIter × Option Nat) := do
  let p ← it.next t.vec true
  let o ← t.mapOpen bs k p.2
  pure (p.1, o)

/-- The state of `Take<Skip<SelectIter>>`, src/trees/bp/mod.rs:443 and 467-470. -/
structure SubIter where
  it : SelIter
  skip : Nat
  take : Nat

/-- `Skip::next`, src/trees/bp/mod.rs:443 and 469. -/
def skipNext (vec : RsVec) (zero : Bool) (s : SubIter) : R (SubIter × Option Nat) :=
  if s.skip > 0 then do
    let p ← s.it.nth vec zero s.skip
    pure ({ s with it := p.1, skip := 0 }, p.2)
  else do
    let p ← s.it.next vec zero
    pure ({ s with it := p.1 }, p.2)

/-- `Take::next`, src/trees/bp/mod.rs:443 and 470. -/
def takeNext (vec : RsVec) (zero : Bool) (s : SubIter) : R (SubIter × Option Nat) :=
  if s.take ≠ 0 then skipNext vec zero { s with take := s.take - 1 } else pure (s, none)

/-- `subtree_iter`, src/trees/bp/mod.rs:430-444. -/
def subtreeIter (t : BpTree) (bs : Nat) (k : Variant) (node : Nat) : R SubIter := do
  t.assertNode node
  let index ← t.vec.rank false node
  let c ← t.close bs k node
  let r ← t.vec.rank false (c.getD node)
  let n ← subR r index
  let it ← SelIter.new t.vec false
  pure ⟨it, index, n⟩

/-- `next` of `subtree_iter`, src/trees/bp/mod.rs:443. -/
def subtreeNext (t : BpTree) (s : SubIter) : R (SubIter × Option Nat) := takeNext t.vec false s

/-- `subtree_post_iter`, src/trees/bp/mod.rs:454-472. -/
def subtreePostIter (t : BpTree) (bs : Nat) (k : Variant) (node : Nat) : R SubIter := do
  t.assertNode node
  let index ← t.vec.rank true node
  let c ← t.close bs k node
  let r ← t.vec.rank true (c.getD node)
  let n ← subR (r + 1) index
  let it ← SelIter.new t.vec true
  pure ⟨it, index, n⟩

/-- `next` of `subtree_post_iter`, src/trees/bp/mod.rs:467-471. -/
def subtreePostNext (t : BpTree) (bs : Nat) (k : Variant) (s : SubIter) : R (SubIter × Option Nat) := do
  let p ← takeNext t.vec true s
  let o ← t.mapOpen bs k p.2
  pure (p.1, o)

/-- `children` / `rev_children` and `ChildrenIter::new`, src/trees/bp/mod.rs:479-489, 496-506 and 772-781; the
state of the iterator is `current_sibling`. -/
def childrenIter (t : BpTree) (bs : Nat) (k : Variant) (forward : Bool) (node : Nat) : R (Option Nat) := do
  t.assertNode node
  if forward then t.firstChild node else t.lastChild bs k node

/-- `ChildrenIter::next`, src/trees/bp/mod.rs:789-798. -/
def childrenNext (t : BpTree) (bs : Nat) (k : Variant) (forward : Bool) (current : Option Nat) :
    R (Option Nat × Option Nat) :=
  match current with
  | none => pure (none, none)
  | some c => do
    let n ← if forward then t.nextSibling bs k c else t.previousSibling bs k c
    pure (n, some c)

end BpTree

/-! ## Builder -/

/-- `struct BpBuilder`, src/trees/bp/builder.rs:10-13. -/
structure BpBuilder where
  excess : Int
  vec : BV

namespace BpBuilder

/-- `new` (and `default`), src/trees/bp/builder.rs:18-23 and 35-39. -/
def new : BpBuilder := ⟨0, BV.new⟩

/-- `with_capacity`, src/trees/bp/builder.rs:27-32. The capacity is computed (`capacity * 2`, on `u64`) and then only
passed to the allocator; the memory is in `Model/Capacity` (`builderK`). -/
def withCapacity [Profile] (capacity : Nat) : R BpBuilder := do
  let _ ← mulU capacity 2
  pure new

/-- `enter_node`, src/trees/bp/builder.rs:44-47. -/
def enterNode (b : BpBuilder) : R BpBuilder := do
  let e ← addI b.excess 1
  let v ← b.vec.appendBit 1#64
  pure ⟨e, v⟩

/-- `leave_node`, src/trees/bp/builder.rs:49-52. -/
def leaveNode (b : BpBuilder) : R BpBuilder := do
  let e ← subI b.excess 1
  let v ← b.vec.appendBit 0#64
  pure ⟨e, v⟩

/-- `build`, src/trees/bp/builder.rs:54-60. -/
def build (b : BpBuilder) (bs : Nat) : R (Except Int BpTree) :=
  if b.excess ≠ 0 then pure (.error b.excess)
  else do
    let t ← BpTree.fromBitVector bs b.vec
    pure (.ok t)

/-- One call, `true` for `enter_node` and `false` for `leave_node`; src/trees/bp/builder.rs:44-52. -/
def call (b : BpBuilder) (c : Bool) : R BpBuilder := if c then b.enterNode else b.leaveNode

/-- A sequence of calls, `true` for `enter_node` and `false` for `leave_node`; src/trees/bp/builder.rs:44-52. -/
def calls : List Bool → BpBuilder → R BpBuilder
  | [], b => pure b
  | c :: cs, b => do
    let b ← b.call c
    calls cs b

end BpBuilder
end Vers
