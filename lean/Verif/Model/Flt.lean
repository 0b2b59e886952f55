import Verif.Model.Num
import Mathlib.Analysis.SpecialFunctions.Pow.Real
import Mathlib.Analysis.SpecialFunctions.Complex.Arg

/-!
# The numbers used for statements about geometry

`Flt` is a real number or `bad`.  Rounding is not modelled: finite results are exact.  `bad` stands
for every non-finite result (`inf`, `-inf`, `nan`): division by zero, square root of a negative
number, a power without a real value.  Any operation on `bad` gives `bad` (IEEE differs in a few
places: `1/inf = 0`, `nan**0 = 1`); comparisons with `bad` are false.
-/

namespace MplLayout

/-- A real number, or a non-finite floating point value. -/
inductive Flt where
  | fin (x : ℝ)
  | bad

namespace Flt

/-- Apply a total function. -/
def map1 (f : ℝ → ℝ) : Flt → Flt
  | .fin x => .fin (f x)
  | .bad => .bad

/-- Apply a total function of two arguments. -/
def map2 (f : ℝ → ℝ → ℝ) : Flt → Flt → Flt
  | .fin x, .fin y => .fin (f x y)
  | _, _ => .bad

open Classical in
/-- Division; `bad` for a zero divisor. -/
noncomputable def div : Flt → Flt → Flt
  | .fin x, .fin y => if y = 0 then .bad else .fin (x / y)
  | _, _ => .bad

open Classical in
/-- Square root; `bad` for a negative number. -/
noncomputable def sqrt : Flt → Flt
  | .fin x => if x < 0 then .bad else .fin (Real.sqrt x)
  | .bad => .bad

open Classical in
/-- Power: `bad` for zero to a negative power and for a negative base with a fractional
exponent. -/
noncomputable def pow : Flt → Flt → Flt
  | .fin x, .fin y =>
    if x = 0 ∧ y < 0 then .bad
    else if x < 0 ∧ ¬ ∃ n : ℤ, (n : ℝ) = y then .bad
    else .fin (x ^ y)
  | _, _ => .bad

open Classical in
/-- Arc cosine; `bad` outside `[-1, 1]`. -/
noncomputable def acos : Flt → Flt
  | .fin x => if -1 ≤ x ∧ x ≤ 1 then .fin (Real.arccos x) else .bad
  | .bad => .bad

open Classical in
noncomputable instance : PyNum Flt where
  zero := .fin 0
  one := .fin 1
  add := map2 (· + ·)
  sub := map2 (· - ·)
  neg := map1 (- ·)
  mul := map2 (· * ·)
  div := div
  natCast n := .fin n
  sqrt := sqrt
  pow := pow
  atan2 := map2 fun y x => Complex.arg ⟨x, y⟩
  cos := map1 Real.cos
  sin := map1 Real.sin
  acos := acos
  pi := .fin Real.pi
  truthy := fun x => match x with | .fin x => decide (x ≠ 0) | .bad => true
  lt := fun x y => match x, y with | .fin x, .fin y => decide (x < y) | _, _ => false
  le := fun x y => match x, y with | .fin x, .fin y => decide (x ≤ y) | _, _ => false

theorem zero_eq : (0 : Flt) = .fin 0 := rfl
theorem one_eq : (1 : Flt) = .fin 1 := rfl
@[simp] theorem fin_add (x y : ℝ) : fin x + fin y = fin (x + y) := rfl
@[simp] theorem fin_sub (x y : ℝ) : fin x - fin y = fin (x - y) := rfl
@[simp] theorem fin_mul (x y : ℝ) : fin x * fin y = fin (x * y) := rfl
@[simp] theorem fin_neg (x : ℝ) : -fin x = fin (-x) := rfl
@[simp] theorem bad_add (x : Flt) : bad + x = bad := by cases x <;> rfl
@[simp] theorem add_bad (x : Flt) : x + bad = bad := by cases x <;> rfl
@[simp] theorem bad_sub (x : Flt) : bad - x = bad := by cases x <;> rfl
@[simp] theorem sub_bad (x : Flt) : x - bad = bad := by cases x <;> rfl
@[simp] theorem bad_mul (x : Flt) : bad * x = bad := by cases x <;> rfl
@[simp] theorem mul_bad (x : Flt) : x * bad = bad := by cases x <;> rfl
@[simp] theorem neg_bad : -bad = bad := rfl
theorem fin_div {x y : ℝ} (hy : y ≠ 0) : fin x / fin y = fin (x / y) := if_neg hy
theorem div_zero' (x : ℝ) : fin x / fin 0 = bad := if_pos rfl
@[simp] theorem bad_div (x : Flt) : bad / x = bad := by cases x <;> rfl
@[simp] theorem div_bad (x : Flt) : x / bad = bad := by cases x <;> rfl
@[simp] theorem fin_natCast (n : ℕ) : ((n : ℕ) : Flt) = fin n := rfl
theorem fin_sqrt {x : ℝ} (hx : 0 ≤ x) : PyNum.sqrt (fin x) = fin (Real.sqrt x) :=
  if_neg (not_lt.mpr hx)
@[simp] theorem fin_atan2 (y x : ℝ) : PyNum.atan2 (fin y) (fin x) = fin (Complex.arg ⟨x, y⟩) := rfl
theorem fin_inj {x y : ℝ} : fin x = fin y ↔ x = y := by simp

end Flt

end MplLayout
