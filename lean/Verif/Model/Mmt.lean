import Verif.Model.BitVec
import Verif.Model.Rmq

/-!
# Model of src/trees/mmt.rs: the min-max tree

The recursive searches get a recursion bound (`fuel`), which the proofs show to suffice. The optional argument
`budget` of `fwdSearch` and `bwdSearch` bounds the number of levels visited on the way up, and on the way down (C62).
`NonZeroUsize` is a natural number with the zero checks written out. `heap_size` is in `Model/Space.lean`.
-/

namespace Vers

variable [Profile]

/-- `a + b` on `i64`, e.g. src/trees/mmt.rs:72 and 98-100. -/
def addI (a b : Int) : R Int :=
  if -9223372036854775808 ≤ a + b ∧ a + b ≤ 9223372036854775807 then .ok (a + b)
  else wrapR ((a + b).bmod (2 ^ 64))

/-- `a - b` on `i64`, e.g. src/trees/mmt.rs:284 and 322. -/
def subI (a b : Int) : R Int :=
  if -9223372036854775808 ≤ a - b ∧ a - b ≤ 9223372036854775807 then .ok (a - b)
  else wrapR ((a - b).bmod (2 ^ 64))

/-- `usize::div_ceil`, src/trees/mmt.rs:52: panics on division by zero. -/
def divCeilR (a b : Nat) : R Nat := if b = 0 then .error .divZero else .ok ((a + b - 1) / b)

/-- `usize::next_power_of_two`, src/trees/mmt.rs:86 and 195. -/
def nextPow2 (n : Nat) : Nat := 2 ^ log2Ceil n

/-- The excess of one parenthesis, `if bit { 1 } else { -1 }`; src/trees/mmt.rs:72-76 and
src/trees/bp/mod.rs:209, 238 and 310. -/
def sgn (b : Bool) : Int := if b then 1 else -1

/-- `struct ExcessNode`, src/trees/mmt.rs:25-34. -/
structure ExcessNode where
  total : Int
  minE : Int
  maxE : Int
deriving DecidableEq, Repr

/-- `ExcessNode::default()`, src/trees/mmt.rs:21. -/
def ExcessNode.default : ExcessNode := ⟨0, 0, 0⟩

/-- `struct MinMaxTree`, src/trees/mmt.rs:42-44. -/
structure MMT where
  nodes : List ExcessNode
deriving DecidableEq, Repr

namespace MMT

/-- Local variables of the leaf loop, src/trees/mmt.rs:55-58. -/
structure LeafAcc where
  nodes : List ExcessNode
  total : Int
  minE : Int
  maxE : Int

/-- The accumulator at the start of a block, src/trees/mmt.rs:56-58 and 68-70. -/
def LeafAcc.fresh (nodes : List ExcessNode) : LeafAcc :=
  ⟨nodes, 0, 9223372036854775807, -9223372036854775808⟩

/-- At a block border the finished leaf is stored, src/trees/mmt.rs:62-71. -/
def leafFlush (bs ni : Nat) (st : LeafAcc) (i : Nat) : R LeafAcc :=
  if i > 0 ∧ i % bs = 0 then do
    let k ← subR (ni + i / bs) 1
    let nodes ← setIdx st.nodes k ⟨st.total, st.minE, st.maxE⟩
    pure (LeafAcc.fresh nodes)
  else pure st

/-- Body of the leaf loop, src/trees/mmt.rs:62-78. -/
def leafStep (v : BV) (bs ni : Nat) (st : LeafAcc) (i : Nat) : R LeafAcc := do
  let st ← leafFlush bs ni st i
  let b ← v.isBitSetUnchecked i
  let t ← addI st.total (sgn b)
  pure ⟨st.nodes, t, min st.minE t, max st.maxE t⟩

/-- `for i in 0..bit_vec.len()`, src/trees/mmt.rs:61-79. -/
def leafLoop (v : BV) (bs ni : Nat) : Nat → LeafAcc → R LeafAcc
  | 0, st => pure st
  | n + 1, st => do
    let st ← leafLoop v bs ni n st
    leafStep v bs ni st n

/-- An inner node from its two children, src/trees/mmt.rs:97-101. -/
def combine (l r : ExcessNode) : R ExcessNode := do
  let t ← addI l.total r.total
  let a ← addI l.total r.minE
  let b ← addI l.total r.maxE
  pure ⟨t, min l.minE a, max l.maxE b⟩

/-- Body of the loop over one level, src/trees/mmt.rs:90-105. -/
def levelStep (start : Nat) (nodes : List ExcessNode) (i : Nat) : R (List ExcessNode) :=
  if (start + i) * 2 + 1 < nodes.length then
    if (start + i) * 2 + 2 < nodes.length then do
      let l ← idx nodes ((start + i) * 2 + 1)
      let r ← idx nodes ((start + i) * 2 + 2)
      let c ← combine l r
      setIdx nodes (start + i) c
    else do
      let l ← idx nodes ((start + i) * 2 + 1)
      setIdx nodes (start + i) l
  else pure nodes

/-- `for i in 0..current_level_size`, src/trees/mmt.rs:89-106. -/
def levelLoop (start : Nat) : Nat → List ExcessNode → R (List ExcessNode)
  | 0, nodes => pure nodes
  | n + 1, nodes => do
    let nodes ← levelLoop start n nodes
    levelStep start nodes n

/-- The loop over the levels from the leaves to the root, src/trees/mmt.rs:88-115. -/
def levels : Nat → Nat → Nat → List ExcessNode → R (List ExcessNode)
  | 0, _, _, _ => .error .fuel
  | fuel + 1, size, start, nodes => do
    let nodes ← levelLoop start size nodes
    if size = 1 then pure nodes
    else do
      let start' ← subR start (size / 2)
      levels fuel (size / 2) start' nodes

/-- `excess_tree`, src/trees/mmt.rs:47-120. The floating point expression
`(num_leaves as f64).log2().ceil() as usize` is the parameter `fl`; its default is the exact `⌈log2 num_leaves⌉`.
For up to `2^45` leaves floating point arithmetic does not make a difference (C67). -/
def excessTree (v : BV) (bs : Nat) (fl : Nat → Nat := log2Ceil) : R MMT :=
  if v.isEmpty then pure ⟨[]⟩
  else do
    let leaves ← divCeilR v.len bs
    let ni := max 1 (2 ^ fl leaves - 1)
    let st ← leafLoop v bs ni v.len (LeafAcc.fresh (List.replicate (leaves + ni) ExcessNode.default))
    let k ← subR (ni + leaves) 1
    let nodes ← setIdx st.nodes k ⟨st.total, st.minE, st.maxE⟩
    let size := max 1 (nextPow2 leaves / 2)
    let start ← subR ni size
    let nodes ← levels (size + 1) size start nodes
    pure ⟨nodes⟩

/-- `total_excess`, src/trees/mmt.rs:122-124. -/
def totalExcess (t : MMT) (i : Nat) : R Int := do
  let n ← idx t.nodes i
  pure n.total

/-- `min_excess`, src/trees/mmt.rs:126-128. -/
def minExcess (t : MMT) (i : Nat) : R Int := do
  let n ← idx t.nodes i
  pure n.minE

/-- `max_excess`, src/trees/mmt.rs:130-132. -/
def maxExcess (t : MMT) (i : Nat) : R Int := do
  let n ← idx t.nodes i
  pure n.maxE

/-- `NonZeroUsize::new`, e.g. src/trees/mmt.rs:145 and 262. -/
def nonZero (i : Nat) : Option Nat := if i = 0 then none else some i

/-- `parent`, src/trees/mmt.rs:134-140. -/
def parent (t : MMT) (i : Nat) : Option Nat :=
  if i < t.nodes.length then some ((i - 1) / 2) else none

/-- `left_child`, src/trees/mmt.rs:143-149. -/
def leftChild (t : MMT) (i : Nat) : Option Nat :=
  if i * 2 + 1 < t.nodes.length then nonZero (i * 2 + 1) else none

/-- `right_child`, src/trees/mmt.rs:152-158. -/
def rightChild (t : MMT) (i : Nat) : Option Nat :=
  if i * 2 + 2 < t.nodes.length then nonZero (i * 2 + 2) else none

/-- `right_sibling`, src/trees/mmt.rs:161-171. -/
def rightSibling (t : MMT) (i : Nat) : Option Nat :=
  if i % 2 = 1 then
    if i + 1 ≥ t.nodes.length then none else some (i + 1)
  else none

/-- `left_sibling`, src/trees/mmt.rs:175-182. -/
def leftSibling (i : Nat) : Option Nat := if i % 2 = 0 then nonZero (i - 1) else none

/-- `is_left_child`, src/trees/mmt.rs:186-188. -/
def isLeftChild (i : Nat) : Bool := i % 2 == 1

/-- `first_leaf`, src/trees/mmt.rs:191-197. -/
def firstLeaf (t : MMT) : R Nat := do
  dassertR (t.nodes.length ≠ 0)
  if t.nodes.length = 2 then pure 1
  else subR (nextPow2 ((t.nodes.length + 1) / 2)) 1

/-- `is_leaf`, src/trees/mmt.rs:202-204. -/
def isLeaf (t : MMT) (i : Nat) : R Bool := do
  let f ← t.firstLeaf
  pure (decide (i ≥ f))

/-- `self.min_excess(i) <= e && e <= self.max_excess(i)`, src/trees/mmt.rs:274-275, 315-316, 323-324. -/
def inRange (t : MMT) (i : Nat) (e : Int) : R Bool := do
  let a ← t.minExcess i
  if a ≤ e then do
    let b ← t.maxExcess i
    pure (decide (e ≤ b))
  else pure false

/-- `relative_excess + total == 0 || min <= relative_excess + total && relative_excess + total <= max`,
src/trees/mmt.rs:363-367, 407-411 and 418-422. -/
def inRangeBwd (t : MMT) (i : Nat) (e : Int) : R Bool := do
  let tot ← t.totalExcess i
  let s ← addI e tot
  if s = 0 then pure true else t.inRange i s

/-- `do_fwd_downwards_search`, src/trees/mmt.rs:300-337. -/
def fwdDown (t : MMT) : Nat → Nat → Int → R (Option (Nat × Int))
  | 0, _, _ => .error .fuel
  | fuel + 1, node, rel => do
    dassertR (node < t.nodes.length)
    let leaf ← t.isLeaf node
    if leaf then pure ((nonZero node).map (fun n => (n, rel)))
    else
      match t.leftChild node with
      | none => .error .unreachable
      | some l => do
        let hit ← t.inRange l rel
        if hit then fwdDown t fuel l rel
        else
          match t.rightChild node with
          | none => .error .unreachable
          | some r => do
            let tot ← t.totalExcess l
            let rel' ← subI rel tot
            let hit ← t.inRange r rel'
            if hit then fwdDown t fuel r rel' else .error .unreachable

/-- `do_fwd_upwards_search`, src/trees/mmt.rs:252-295. -/
def fwdUp (t : MMT) (down : Nat) : Nat → Nat → Int → R (Option (Nat × Int))
  | 0, _, _ => .error .fuel
  | fuel + 1, node, rel => do
    dassertR (node < t.nodes.length)
    if !isLeftChild node then do
      let p ← unwrapR (t.parent node)
      match nonZero p with
      | some p => fwdUp t down fuel p rel
      | none => pure none
    else
      match t.rightSibling node with
      | none => pure none
      | some r => do
        let hit ← t.inRange r rel
        if hit then fwdDown t down r rel
        else do
          let p ← unwrapR (t.parent node)
          match nonZero p with
          | some p => do
            let tot ← t.totalExcess r
            let rel' ← subI rel tot
            fwdUp t down fuel p rel'
          | none => pure none

/-- `do_bwd_downwards_search`, src/trees/mmt.rs:392-435. -/
def bwdDown (t : MMT) : Nat → Nat → Int → R (Option (Nat × Int))
  | 0, _, _ => .error .fuel
  | fuel + 1, node, rel => do
    dassertR (node < t.nodes.length)
    let leaf ← t.isLeaf node
    if leaf then pure ((nonZero node).map (fun n => (n, rel)))
    else
      match t.rightChild node with
      | none => .error .unreachable
      | some r => do
        let hit ← t.inRangeBwd r rel
        if hit then bwdDown t fuel r rel
        else
          match t.leftChild node with
          | none => .error .unreachable
          | some l => do
            let tot ← t.totalExcess r
            let rel' ← addI rel tot
            let hit ← t.inRangeBwd l rel'
            if hit then bwdDown t fuel l rel' else .error .unreachable

/-- `do_bwd_upwards_search`, src/trees/mmt.rs:342-387. -/
def bwdUp (t : MMT) (down : Nat) : Nat → Nat → Int → R (Option (Nat × Int))
  | 0, _, _ => .error .fuel
  | fuel + 1, node, rel => do
    dassertR (node < t.nodes.length)
    if isLeftChild node then do
      let p ← unwrapR (t.parent node)
      match nonZero p with
      | some p => bwdUp t down fuel p rel
      | none => pure none
    else
      match leftSibling node with
      | none => pure none
      | some l => do
        let hit ← t.inRangeBwd l rel
        if hit then bwdDown t down l rel
        else do
          let p ← unwrapR (t.parent node)
          match nonZero p with
          | some p => do
            let tot ← t.totalExcess l
            let rel' ← addI rel tot
            bwdUp t down fuel p rel'
          | none => pure none

/-- The closure `|(node, relative_excess)| (node.get() - self.first_leaf(), relative_excess)`,
src/trees/mmt.rs:225 and 246. -/
def toBlock (f : Nat) (o : Option (Nat × Int)) : R (Option (Nat × Int)) :=
  match o with
  | none => pure none
  | some (n, e) => do
    let b ← subR n f
    pure (some (b, e))

/-- `fwd_search`, src/trees/mmt.rs:216-226. -/
def fwdSearch (t : MMT) (start : Nat) (rel : Int) (budget : Nat := t.nodes.length + 1) :
    R (Option (Nat × Int)) := do
  let f ← t.firstLeaf
  if start + f ≥ t.nodes.length then pure none
  else do
    let n ← unwrapR (nonZero (start + f))
    let o ← t.fwdUp budget budget n rel
    toBlock f o

/-- `bwd_search`, src/trees/mmt.rs:238-247. -/
def bwdSearch (t : MMT) (start : Nat) (rel : Int) (budget : Nat := t.nodes.length + 1) :
    R (Option (Nat × Int)) := do
  let f ← t.firstLeaf
  if start + f ≥ t.nodes.length then pure none
  else do
    let n ← unwrapR (nonZero (start + f))
    let o ← t.bwdUp budget budget n rel
    toBlock f o

end MMT
end Vers
