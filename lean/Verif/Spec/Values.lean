import Verif.Model.Values
import Verif.Spec.Primitives

/-!
# Which objects make a parameter vector
-/

namespace MplLayout

variable {K : Type}

/-- Nested sequences are rectangular of the given shape. -/
inductive Rectangular : Nested K → List Nat → Prop
  | num (x : K) : Rectangular (.num x) []
  | empty : Rectangular (.seq []) [0]
  | seq (xs : List (Nested K)) (s : List Nat) (hne : xs ≠ []) (h : ∀ x ∈ xs, Rectangular x s) :
      Rectangular (.seq xs) (xs.length :: s)

/-- Nested sequences are ragged. -/
def Ragged (xs : List (Nested K)) : Prop := ∀ s, ¬ Rectangular (.seq xs) s

/-- The `numpy` array that an argument stands for: `next` is the first unused object identity, `next'` that
afterwards. -/
def ValueObj.StandsFor (dflt : List K) (next : Nat) (a : NdArr K) (next' : Nat) : ValueObj K → Prop
  | .none => a = ⟨next, [dflt.length], dflt⟩ ∧ next' = next + 1
  | .seq xs => a.id = next ∧ Rectangular (.seq xs) a.shape ∧ a.entries = (Nested.seq xs).entries ∧ next' = next + 1
  | .ndarray b => a = b ∧ next' = next
  | .jax _ => False
  | .other => False

/-- An array is one-dimensional. -/
def NdArr.Flat (a : NdArr K) : Prop := a.shape = [a.entries.length]

end MplLayout
