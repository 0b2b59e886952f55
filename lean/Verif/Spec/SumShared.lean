import Verif.Spec.Constructions

/-!
# Vocabulary for sums of compound constructions
-/

namespace MplLayout.Cons

variable {K : Type}

mutual
/-- Wherever a child of `b` has descendants that take primitives, `b` hands it the first ones of the
primitives that `a` hands to its child at the same position (their keys are the same). -/
def RefersAlike : Cons K → Cons K → Prop
  | .mk _ v cs, .mk _ v' ds => RefersAlikeL cs ds v.childPrimKeys v'.childPrimKeys
/-- `RefersAlike` for two lists of children with their keys. -/
def RefersAlikeL : List (Str × Cons K) → List (Str × Cons K) → List (List Str) → List (List Str) → Prop
  | (_, c) :: cs, (_, d) :: ds, ks :: kss, ks' :: kss' =>
    (NoPrimRefs d ∨ (ks' <+: ks ∧ RefersAlike c d)) ∧ RefersAlikeL cs ds kss kss'
  | _, _, _, _ => True
end

end MplLayout.Cons
