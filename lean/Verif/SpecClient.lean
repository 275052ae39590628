import Verif.SpecLoop

/-!
# Specification of client programs

Programs that copy a structure, or walk through it, with its public interface. They are not code of the library.
-/

namespace Vers.Spec

/-- A recursive walk over a tree, given by its functions `first_child` and `next_sibling`, from the node `o` over its
subtree and the siblings to its right: the sequence of calls that the walk makes to a tree builder, `true` for
`enter_node` and `false` for `leave_node`. The recursion is at most `fuel` calls deep. -/
def walk (firstChild nextSibling : Nat → R (Option Nat)) : Nat → Option Nat → R (List Bool)
  | _, none => pure []
  | 0, some _ => .error .fuel
  | fuel + 1, some n => do
    let c ← firstChild n
    let xs ← walk firstChild nextSibling fuel c
    let s ← nextSibling n
    let ys ← walk firstChild nextSibling fuel s
    pure (true :: (xs ++ false :: ys))

/-- Follows a function from node to node, beginning at `o`, until it is `None`: the nodes that are visited. The function is
called at most `fuel` times. -/
def follow (step : Nat → R (Option Nat)) : Nat → Option Nat → R (List Nat)
  | _, none => pure []
  | 0, some _ => .error .fuel
  | fuel + 1, some n => do
    let o ← step n
    let l ← follow step fuel o
    pure (n :: l)

end Vers.Spec
