import Verif.Spec.FirstStep

/-!
# Vocabulary for the steps of the Newton method on figures with aspect ratios
-/

namespace MplLayout

/-- An aspect ratio, or a demand that is linear in the coordinates. -/
def Demand.AspectOrAffine : Demand → Prop
  | .aspect _ _ => True
  | d => d.kind.IsAffine

/-- A box whose aspect ratio is asked for has a width and a height. -/
def Demand.HasExtent (P : Placement) : Demand → Prop
  | .aspect b _ => (P.box b).x1 - (P.box b).x0 ≠ 0 ∧ (P.box b).y1 - (P.box b).y0 ≠ 0
  | _ => True

/-- The equation that a Newton step from the placement `P` solves: for an aspect ratio, the linear approximation of
`|width / height|` at `P`. -/
def Demand.NewtonStep (P Q : Placement) : Demand → Prop
  | .aspect b v =>
    |(P.box b).x1 - (P.box b).x0| / |(P.box b).y1 - (P.box b).y0| *
      (1 + ((Q.box b).x1 - (Q.box b).x0) / ((P.box b).x1 - (P.box b).x0)
        - ((Q.box b).y1 - (Q.box b).y0) / ((P.box b).y1 - (P.box b).y0)) = v
  | d => d.Holds Q

/-- The heights that the steps of the Newton method give to a box of width `W` with the aspect ratio `v`, from the
first step on. -/
noncomputable def heights (W v : ℝ) : Nat → ℝ
  | 0 => W + 1 - v
  | k + 1 => heights W v k * (2 - v * |heights W v k| / |W|)

end MplLayout
