import Verif.Model.Round
import Verif.Spec.Geometry

/-!
# Vocabulary: constraints in floating point arithmetic
-/

namespace MplLayout

open Flt

variable {f : FloatFormat}

/-- A finite number of the format as a number of the program. -/
def Rnd.num (x : f.nums) : Rnd f := ⟨fin x.1, fun y h => by cases h; exact x.2⟩

/-- A pair of coordinates. -/
def Rnd.pt (a : f.nums × f.nums) : Rnd f × Rnd f := (Rnd.num a.1, Rnd.num a.2)

/-- `p` is a point with these floating point coordinates. -/
def FPoint (p : Prim (Rnd f)) (a : f.nums × f.nums) : Prop := PointAt p (Rnd.pt a)

/-- `l` is a line from `a` to `b`. -/
def FLine (l : Prim (Rnd f)) (a b : f.nums × f.nums) : Prop := LineAt l (Rnd.pt a) (Rnd.pt b)

/-- `q` is a quadrilateral with the vertices `a b c d`, in this order. -/
def FQuad (q : Prim (Rnd f)) (a b c d : f.nums × f.nums) : Prop :=
  QuadAt q (Rnd.pt a) (Rnd.pt b) (Rnd.pt c) (Rnd.pt d)

/-- The constraint accepts the arguments and all entries of the residual, computed in floating point
arithmetic, are zero. -/
def Vanishes (c : Py (Cons (Rnd f))) (prims : List (Prim (Rnd f))) (params : List (Param (Rnd f))) : Prop :=
  ∃ r v, c = .ok r ∧ r.call prims params = .ok v ∧ ∀ x ∈ v, x.val = fin 0

/-- The exact result `x` does not overflow. -/
def FloatFormat.Fits (f : FloatFormat) (x : ℝ) : Prop := f.rnd x ≠ bad

/-- Gradual underflow: all numbers of the format are multiples of its smallest positive number. -/
def FloatFormat.Gradual (f : FloatFormat) : Prop :=
  ∃ u ∈ f.nums, 0 < u ∧ ∀ x ∈ f.nums, ∃ k : ℤ, x = k * u

/-- Halves are exact: `1/2` and `2` are numbers of the format, and doubling a number either gives a number of the
format or overflows. -/
def FloatFormat.Binary (f : FloatFormat) : Prop :=
  (1 / 2 : ℝ) ∈ f.nums ∧ (2 : ℝ) ∈ f.nums ∧ ∀ x ∈ f.nums, f.Fits (2 * x) → 2 * x ∈ f.nums

/-! ## IEEE 754 -/

/-- The greatest number of `F` that is at most `x`. -/
noncomputable def below (F : Set ℝ) (x : ℝ) : ℝ := sSup {y | y ∈ F ∧ y ≤ x}

/-- The smallest number of `F` that is at least `x`. -/
noncomputable def above (F : Set ℝ) (x : ℝ) : ℝ := sInf {y | y ∈ F ∧ x ≤ y}

open Classical in
/-- The number of `F` that is nearest to `x`; halfway between two the one that is even. -/
noncomputable def nearest (F : Set ℝ) (even : ℝ → Prop) (x : ℝ) : ℝ :=
  if x - below F x < above F x - x then below F x
  else if above F x - x < x - below F x then above F x
  else if even (below F x) then below F x else above F x

/-- The finite numbers with `p` binary digits and exponents (of the last digit) from `lo` to `hi`. -/
def binaryNums (p : Nat) (lo hi : ℤ) : Set ℝ :=
  {x | ∃ m e : ℤ, |m| < 2 ^ p ∧ lo ≤ e ∧ e ≤ hi ∧ x = m * (2 : ℝ) ^ e}

/-- The last digit of `x` is 0. -/
def EvenNum (p : Nat) (lo : ℤ) (x : ℝ) : Prop :=
  ∃ m e : ℤ, |m| < 2 ^ p ∧ (2 ^ (p - 1) ≤ |m| ∨ e = lo) ∧ lo ≤ e ∧ x = m * (2 : ℝ) ^ e ∧ Even m

/-- The largest finite number. -/
noncomputable def maxNum (p : Nat) (hi : ℤ) : ℝ := ((2 : ℝ) ^ p - 1) * (2 : ℝ) ^ hi

open Classical in
/-- Rounding to nearest, ties to even, with overflow from half a unit of the last digit above the largest
number. -/
noncomputable def roundEven (p : Nat) (lo hi : ℤ) (x : ℝ) : Flt :=
  if |x| < maxNum p hi + (2 : ℝ) ^ hi / 2 then
    fin (nearest (binaryNums p lo hi) (EvenNum p lo) (max (-maxNum p hi) (min (maxNum p hi) x)))
  else bad

/-- The smallest normal number. -/
noncomputable def minNormal (p : Nat) (lo : ℤ) : ℝ := (2 : ℝ) ^ (lo + p - 1)

open Classical in
/-- The same rounding on a processor that replaces results below the normal range by zero. -/
noncomputable def roundFlush (p : Nat) (lo hi : ℤ) (x : ℝ) : Flt :=
  if |x| < minNormal p lo then fin 0 else roundEven p lo hi x

end MplLayout
