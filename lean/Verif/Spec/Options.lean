import Verif.Model.Options
import Verif.Model.Layout

/-!
# Documented constructor options
-/

namespace MplLayout

variable {K : Type}

/-- The documented side names (`constraints.py:754-760`, `'bottom' | 'top' | 'left' | 'right'`). -/
def sideName : con.Side → Str
  | .bottom => k!"bottom"
  | .top => k!"top"
  | .left => k!"left"
  | .right => k!"right"

/-- The documented axis names (`'x' | 'y'`). -/
def axisName : AxisKind → Str
  | .x => k!"x"
  | .y => k!"y"

/-- A constructor that takes an option accepts exactly the names `names`, and for these makes what
`made` says; everything else is a `ValueError`. -/
def Accepts {ι : Type} (make : Str → Py (Cons K)) (names : ι → Str) (made : ι → Cons K → Prop) : Prop :=
  (∀ i, ∃ c, make (names i) = .ok c ∧ made i c) ∧
  ∀ s, (∀ i, s ≠ names i) → make s = .error .valueError

/-- Two constructions with the same signature that return the same for all arguments, alone and in a
layout. -/
def Cons.SameAs (c d : Cons K) : Prop :=
  c.value.sig = d.value.sig ∧
  (∀ prims params, c.call prims params = d.call prims params) ∧
  (∀ keys, c.rootPrimKeys keys = d.rootPrimKeys keys) ∧
  (∀ params, c.rootParams params = d.rootParams params)

end MplLayout
