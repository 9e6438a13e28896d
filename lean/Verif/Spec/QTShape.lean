import Verif.Model.SelfCheck

/-!
# Specification vocabulary for the shape of the quadtree

Nodes of the tree are named by the way from the root: the numbers of the quadrants, from large to small.
-/

namespace Jagua

variable {K : Type*} [Field K] [LinearOrder K] {n : ℕ}

/-- The part of a rectangle that one gets to by taking quadrants. -/
def AARect.sub (r : AARect K) : List (Fin 4) → AARect K
  | [] => r
  | i :: p => (r.quadrants i).sub p

/-- The box of the node that one gets to; `none` if there is no such node. -/
def QTNode.rectAt : {n : ℕ} → QTNode K n → List (Fin 4) → Option (AARect K)
  | _, .leaf b _, [] => some b
  | _, .leaf _ _, _ :: _ => none
  | _, .node b _ _, [] => some b
  | _, .node _ _ cs, i :: p => (cs i).rectAt p

/-- There is a node at the end of the way. -/
def QTNode.HasNode (t : QTNode K n) (p : List (Fin 4)) : Prop := (t.rectAt p).isSome

/-- There is a node at the end of the way and it is not divided further. -/
def QTNode.HasLeaf (t : QTNode K n) (p : List (Fin 4)) : Prop := t.HasNode p ∧ ∀ i, ¬ t.HasNode (p ++ [i])

/-- All hazards the quadtree has to know: the registered ones and those whose deregistration is not committed. -/
def CDE.known (c : CDE K n) : List (Hazard K) := c.allHazards ++ c.uncommitted

end Jagua
