import Verif.Model.Flt

/-!
# Arithmetic with rounding

The residuals of the constraints are computed in floating point arithmetic (`jax.numpy`, 32 or 64 bits:
`constraints.py`, `constructions.py`).  `Rnd f` are the numbers of a floating point format `f`: every
operation delivers the exact result, rounded (`nan` and the infinities are one value, as in `Flt`; the two
zeros are one number).  Coordinates and parameters are numbers of the format: the conversion of 64-bit input
to 32 bits that `jax` does by default happens before.
-/

namespace MplLayout

/-- A floating point format with a rounding rule. -/
structure FloatFormat where
  /-- The finite numbers of the format. -/
  nums : Set ℝ
  /-- What an operation delivers if the exact result is this real number; `bad` on overflow. -/
  rnd : ℝ → Flt
  zero_mem : (0 : ℝ) ∈ nums
  one_mem : (1 : ℝ) ∈ nums
  neg_mem : ∀ x ∈ nums, -x ∈ nums
  rnd_mem : ∀ x y, rnd x = .fin y → y ∈ nums
  rnd_of_mem : ∀ x ∈ nums, rnd x = .fin x
  mono : ∀ x y a b, x ≤ y → rnd x = .fin a → rnd y = .fin b → a ≤ b
  fits : ∀ x a b, a ∈ nums → b ∈ nums → a ≤ x → x ≤ b → rnd x ≠ .bad

/-- A number of the format `f`: the value is a finite number of the format, or not finite. -/
structure Rnd (f : FloatFormat) where
  /-- Its value. -/
  val : Flt
  mem : ∀ x, val = .fin x → x ∈ f.nums

namespace Rnd

variable {f : FloatFormat}

theorem ext' {x y : Rnd f} (h : x.val = y.val) : x = y := by
  cases x; cases y; cases h; rfl

/-- The rounded value of an exact result. -/
def round (f : FloatFormat) : Flt → Rnd f
  | .fin x => ⟨f.rnd x, f.rnd_mem x⟩
  | .bad => ⟨.bad, fun _ h => by cases h⟩

open Classical in
/-- Rounded arithmetic: each operation is the exact one (`Model/Flt`), rounded. -/
noncomputable instance : PyNum (Rnd f) where
  zero := ⟨.fin 0, fun x h => by cases h; exact f.zero_mem⟩
  one := ⟨.fin 1, fun x h => by cases h; exact f.one_mem⟩
  add x y := round f (x.val + y.val)
  sub x y := round f (x.val - y.val)
  neg x := round f (-x.val)
  mul x y := round f (x.val * y.val)
  div x y := round f (x.val / y.val)
  natCast n := round f n
  sqrt x := round f (PyNum.sqrt x.val)
  pow x y := round f (PyNum.pow x.val y.val)
  atan2 x y := round f (PyNum.atan2 x.val y.val)
  cos x := round f (PyNum.cos x.val)
  sin x := round f (PyNum.sin x.val)
  acos x := round f (PyNum.acos x.val)
  pi := round f PyNum.pi
  truthy x := PyNum.truthy x.val
  lt x y := PyNum.lt x.val y.val
  le x y := PyNum.le x.val y.val

end Rnd

end MplLayout
