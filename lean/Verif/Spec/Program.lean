import Verif.Model.Program
import Verif.Spec.Primitives
import Verif.Spec.Solver

/-!
# Vocabulary for stating properties of programs
-/

namespace MplLayout

variable {K : Type}

/-- Primitives are added directly to the layout, not below another primitive. -/
def Stmt.TopLevel : Stmt K → Prop
  | .addPrim _ key => '/' ∉ key
  | .addPrims ps => ∀ kp ∈ ps, '/' ∉ kp.1
  | _ => True

/-- All numbers that the program passes to arrays and constructors are finite. -/
def Stmt.Finite : Stmt Flt → Prop
  | .array xs => ∀ x ∈ xs, ∃ r, x = .fin r
  | .make (.point v) | .make (.line v _) | .make (.polygon v _ _) | .make (.quadrilateral v _)
  | .make (.axes v _ _ _ _ _) => ∀ xs, v = .literal xs → ∀ x ∈ xs, ∃ r, x = .fin r
  | _ => True

/-- The constraints that a program, started in state `s`, adds successfully, in order. -/
def Session.constraints [PyNum K] (s : Session K) : List (Stmt K) → List (Added K)
  | [] => []
  | st :: prog =>
    (match st, (s.step st).2 with
      | .addConstraint c primKeys param _, .ok () => [⟨c, primKeys, param⟩]
      | _, _ => []) ++ (s.step st).1.constraints prog

/-- The outcomes of the statements. -/
def Session.outcomes [PyNum K] (s : Session K) : List (Stmt K) → List (Py Unit)
  | [] => []
  | st :: prog => (s.step st).2 :: (s.step st).1.outcomes prog

/-- All constraints that the program tries to add are shipped affine ones with parameters that make
sense, and go to the top level. -/
def Stmt.Affine : Stmt Flt → Prop
  | .addConstraint c _ param key => '/' ∉ key ∧
      ∃ s : Shipped, s.build = .ok c ∧ s.SizeOK ∧ s.ParamsOK param ∧ s.IsAffine
  | _ => True

/-- The constraint `c` on the primitives `keys` with the parameters `param` is among `cs`. -/
def Asks (cs : List (Added Flt)) (c : Py (Cons Flt)) (keys : List Str) (param : List (Param Flt)) :
    Prop := ∃ r, c = .ok r ∧ ⟨r, keys, param⟩ ∈ cs

end MplLayout
