import Verif.Spec.Layout

/-!
# What the constraints of a layout refer to
-/

namespace MplLayout

variable {K : Type}

/-- None of the constraints `cs` refers to the array of the primitive at the path `p`: neither the
primitives that are found under its keys nor any primitives below them hold this array. -/
def Unseen (cs : List (Added K)) (root : Prim K) (p : List Str) : Prop :=
  ∀ c ∈ cs, ∀ k ∈ c.primKeys, ∀ q, root.getChild k = .ok q → ∀ path n m, q.At path n → root.At p m →
    n.value.id ≠ m.value.id

/-- All primitives in the tree `part` are in the tree `whole`, at the same paths. -/
def Prim.PartOf (part whole : Prim K) : Prop := ∀ p m, p ≠ [] → part.At p m → whole.At p m

/-- All primitives in the tree `part` are in the tree `whole`, at the same paths, with the same class,
the same children and the same numbers. -/
def Prim.PlacedIn (part whole : Prim K) : Prop :=
  ∀ p m, p ≠ [] → part.At p m →
    ∃ m', whole.At p m' ∧ m'.ty = m.ty ∧ m'.keys = m.keys ∧ m'.value.arr = m.value.arr

end MplLayout
