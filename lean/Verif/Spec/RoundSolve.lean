import Verif.Spec.Round
import Verif.Spec.Jacfwd

/-!
# Vocabulary: layouts and the solver in floating point arithmetic
-/

namespace MplLayout

open Flt

/-- A call that adds trees, or one of the shipped constraints (with numbers of the type `K`). -/
def LayoutOp.Ships {K : Type} [PyNum K] (op : LayoutOp K) : Prop :=
  op.Trees ∧ ∀ c ks ps key, op = .addConstraint c ks ps key → ∃ s : Shipped, s.make K = .ok c

/-- `J` is an `m` by `n` array of finite numbers. -/
def FiniteArray {f : FloatFormat} (m n : Nat) (J : List (List (Rnd f))) : Prop :=
  J.length = m ∧ (∀ row ∈ J, row.length = n) ∧ ∀ row ∈ J, ∀ x ∈ row, ∃ y, x.val = fin y

/-- What is assumed of `numpy.linalg.lstsq` in floating point arithmetic: for a right hand side of zeros and an
array of finite numbers, the result is zero, without rounding errors.  (LAPACK multiplies the right hand side
by orthogonal matrices and divides it by singular values.) -/
def Numerics.ZeroForZero {f : FloatFormat} (num : Numerics (Rnd f)) : Prop :=
  ∀ m n J, FiniteArray m n J → num.lstsq n J (List.replicate m 0) = .ok (List.replicate n 0)

end MplLayout
