import Verif.Spec.Layout
import Verif.Spec.Solver

/-!
# A layout with additional constraints
-/

namespace MplLayout

/-- Two layouts with the same primitives in the same places, where the second has additional constraints. -/
structure More (id id' : Nat) (ops ops' : List (LayoutOp Flt)) (l l' : Layout Flt) (extra : List (Added Flt)) : Prop where
  affine : ∀ op ∈ ops, op.Uses Shipped.IsAffine
  affine' : ∀ op ∈ ops', op.Uses Shipped.IsAffine
  sensible : ∀ op ∈ ops, op.Sensible
  sensible' : ∀ op ∈ ops', op.Sensible
  top : ∀ op ∈ ops, op.TopLevel
  top' : ∀ op ∈ ops', op.TopLevel
  eq : l = (Layout.empty id).run ops
  eq' : l' = (Layout.empty id').run ops'
  ok : PrimOK l.prim
  ok' : PrimOK l'.prim
  finite : l.prim.Finite
  structure_ : SameStructure l.prim l'.prim
  geometry : SameGeometry l.prim l'.prim
  constraints : ((Layout.empty id').added ops').Perm ((Layout.empty id).added ops ++ extra)

end MplLayout
