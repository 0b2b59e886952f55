import Verif.Model.NodeHeap
import Verif.Spec.Containers
import Verif.Spec.Shift
import Verif.Spec.Program

/-!
# Vocabulary for objects that are held in several places

An object on the heap, with everything reachable from it, is pictured by a tree whose nodes carry
the addresses of the objects next to their values.
-/

namespace MplLayout

variable {τ α K : Type}

/-- A tree of objects: every node carries its address. -/
abbrev Picture (τ α : Type) := Node τ (Nat × α)

/-- The address of the root object of a picture. -/
def Node.addr (t : Picture τ α) : Nat := t.value.1

/-- The tree of values that a user sees through `node[key]`, `node.value`, `type(node)`. -/
def Node.seen (t : Picture τ α) : Node τ α := t.mapV (·.2)

/-- Every node of the picture shows the object on the heap at its address. -/
def Pictured (h : Heap τ α) (t : Picture τ α) : Prop :=
  ∀ p m, t.At p m →
    h[m.addr]? = some ⟨m.ty, m.value.2, m.children.map fun kc => (kc.1, kc.2.addr)⟩

/-- The object `b` is in the picture. -/
def Node.Holds (t : Picture τ α) (b : Nat) : Prop := ∃ p m, t.At p m ∧ m.addr = b

mutual
/-- The tree with the child `(k, c)` added at every place that holds the object `b`. -/
def Node.plant : Picture τ α → Nat → Str → Picture τ α → Picture τ α
  | .mk t v cs, b, k, c => .mk t v (Node.plantL cs b k c ++ if v.1 = b then [(k, c)] else [])
/-- `plant` in every child. -/
def Node.plantL : List (Str × Picture τ α) → Nat → Str → Picture τ α → List (Str × Picture τ α)
  | [], _, _, _ => []
  | (k', m) :: cs, b, k, c => (k', Node.plant m b k c) :: Node.plantL cs b k c
end

/-- The outcomes of the statements of a program. -/
def HSession.outcomes [PyNum K] (s : HSession K) : List (Stmt K) → List (Py Unit)
  | [] => []
  | st :: prog => (s.step st).2 :: (s.step st).1.outcomes prog

/-- What a user sees of the layout: the root primitive as a finite tree, and the constraints. -/
def HSession.Sees (s : HSession K) (l : Layout K) : Prop :=
  ∃ t : Picture PrimType (PVal K), Pictured s.store.heap t ∧ t.addr = s.root ∧
    l = { s.rest with prim := t.seen }

end MplLayout
