import Verif.Model.Prelude

/-!
# Specification of parenthesis sequences and ordered trees

Plain mathematics: a parenthesis sequence is a list of Booleans, `true` for an opening and `false` for a
closing parenthesis. An ordered forest is an inductive type, its parenthesis sequence is written by a
depth-first walk, and the nodes are listed together with everything a query can ask about them.
-/

namespace Vers.Spec

/-- Opening minus closing parentheses. -/
def excess (l : List Bool) : Int := (l.count true : Int) - (l.count false : Int)

/-- The excess of the positions `a, ..., b - 1`. -/
def excessOf (l : List Bool) (a b : Nat) : Int := excess ((l.take b).drop a)

/-- `j` is a position after `i` such that the excess of `i + 1, ..., j` is `r`. -/
def FwdHit (l : List Bool) (i : Nat) (r : Int) (j : Nat) : Prop :=
  i < j ∧ j < l.length ∧ excessOf l (i + 1) (j + 1) = r

/-- The first such position. -/
def IsFwd (l : List Bool) (i : Nat) (r : Int) (j : Nat) : Prop :=
  FwdHit l i r j ∧ ∀ j', FwdHit l i r j' → j ≤ j'

/-- `j` is a position before `i` (a position of the sequence) such that the excess of `j, ..., i - 1` is
`-r`. -/
def BwdHit (l : List Bool) (i : Nat) (r : Int) (j : Nat) : Prop :=
  j < i ∧ i < l.length ∧ excessOf l j i = -r

/-- The last such position. -/
def IsBwd (l : List Bool) (i : Nat) (r : Int) (j : Nat) : Prop :=
  BwdHit l i r j ∧ ∀ j', BwdHit l i r j' → j' ≤ j

/-- The block `j` (positions `j * bs, ..., (j + 1) * bs - 1`) has a position `m` such that the excess of
`p, ..., m` is `r`. -/
def BlockHit (l : List Bool) (bs p : Nat) (r : Int) (j : Nat) : Prop :=
  ∃ m, j * bs ≤ m ∧ m < (j + 1) * bs ∧ m < l.length ∧ excessOf l p (m + 1) = r

/-- The block `j` has a position `m` such that the excess of `m, ..., p - 1` is `-r`. -/
def BlockHitBwd (l : List Bool) (bs p : Nat) (r : Int) (j : Nat) : Prop :=
  ∃ m, j * bs ≤ m ∧ m < (j + 1) * bs ∧ excessOf l m p = -r

/-- `j` is the first position of the block at which the excess from the beginning of the block is `r`. -/
def FirstPrefix (l : List Bool) (r : Int) (j : Nat) : Prop :=
  j < l.length ∧ excess (l.take (j + 1)) = r ∧ ∀ j', j' < j → excess (l.take (j' + 1)) ≠ r

/-- `j` is the last position of the block at which the excess to the end of the block is `-r`. -/
def LastSuffix (l : List Bool) (r : Int) (j : Nat) : Prop :=
  j < l.length ∧ excess (l.drop j) = -r ∧ ∀ j', j < j' → j' < l.length → excess (l.drop j') ≠ -r

/-- A balanced sequence: no prefix has more closing than opening parentheses, and there are as many of
both in total. -/
def Balanced (l : List Bool) : Prop := (∀ n, 0 ≤ excess (l.take n)) ∧ excess l = 0

/-- The parentheses at `i` and `j` match: what is between them is balanced. -/
def Matches (l : List Bool) (i j : Nat) : Prop :=
  i < j ∧ l[i]? = some true ∧ l[j]? = some false ∧ Balanced ((l.take j).drop (i + 1))

/-- `j` is the opening parenthesis of the innermost matching pair that has `i` strictly inside. For a
closing parenthesis at `i`, the pair must contain the whole pair of `i`. -/
def IsEnclose (l : List Bool) (i j : Nat) : Prop :=
  (∃ c, Matches l j c ∧ j < i ∧ i < c) ∧
    ∀ j', (∃ c, Matches l j' c ∧ j' < i ∧ i < c) → j' ≤ j

/-- An ordered forest: empty, or a first tree, given by the forest of the root's subtrees, followed by the
remaining trees. -/
inductive Forest where
  | nil
  | cons (subtrees rest : Forest)
deriving DecidableEq, Repr

/-- The parenthesis sequence of a forest. -/
def parens : Forest → List Bool
  | .nil => []
  | .cons c s => true :: (parens c ++ false :: parens s)

/-- Number of nodes. -/
def Forest.size : Forest → Nat
  | .nil => 0
  | .cons c s => c.size + 1 + s.size

/-- The handles of the roots of a forest whose parenthesis sequence begins at position `p`: the positions
of their opening parentheses. -/
def roots : Nat → Forest → List Nat
  | _, .nil => []
  | p, .cons c s => p :: roots (p + 2 * c.size + 2) s

/-- What there is to know about a node. -/
structure Node where
  /-- position of the opening parenthesis -/
  handle : Nat
  /-- position of the closing parenthesis -/
  close : Nat
  /-- parent, grandparent, ... -/
  ancestors : List Nat
  /-- siblings to the left, nearest first -/
  before : List Nat
  /-- siblings to the right, nearest first -/
  after : List Nat
  /-- children from left to right -/
  children : List Nat
  /-- number of nodes of the subtree -/
  size : Nat
deriving DecidableEq, Repr

/-- The nodes of a forest in preorder. The parenthesis sequence begins at position `p`, `anc` are the
handles of the ancestors, and `left` the handles of the roots to the left. -/
def nodesFrom (anc left : List Nat) : Nat → Forest → List Node
  | _, .nil => []
  | p, .cons c s =>
    let q := p + 2 * c.size + 1
    ⟨p, q, anc, left, roots (q + 1) s, roots (p + 1) c, c.size + 1⟩ ::
      (nodesFrom (p :: anc) [] (p + 1) c ++ nodesFrom anc (p :: left) (q + 1) s)

/-- The nodes of a forest in preorder. -/
def nodes (f : Forest) : List Node := nodesFrom [] [] 0 f

/-- The handles of a forest that begins at position `p`, in preorder. -/
def preorder : Nat → Forest → List Nat
  | _, .nil => []
  | p, .cons c s => p :: (preorder (p + 1) c ++ preorder (p + 2 * c.size + 2) s)

/-- The handles of a forest that begins at position `p`, in postorder. -/
def postorder : Nat → Forest → List Nat
  | _, .nil => []
  | p, .cons c s => postorder (p + 1) c ++ p :: postorder (p + 2 * c.size + 2) s

/-- Number of proper ancestors. -/
def Node.depth (n : Node) : Nat := n.ancestors.length

/-- The node with handle `h` lies in the subtree of `n`: it is `n` itself, or `n` is among its ancestors. -/
def inSubtree (f : Forest) (n : Node) (h : Nat) : Bool :=
  (nodes f).any (fun m => m.handle == h && (h == n.handle || m.ancestors.contains n.handle))

end Vers.Spec
