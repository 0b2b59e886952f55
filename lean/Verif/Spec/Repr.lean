import Verif.Model.Repr
import Verif.Spec.Containers

/-!
# Vocabulary for printed nodes
-/

namespace MplLayout

variable {τ α : Type}

/-- Class names and printed values contain no parentheses, keys neither commas nor closing
parentheses. -/
structure Node.Printable (name : τ → Str) (show_ : α → Str) (n : Node τ α) : Prop where
  names : ∀ p m, n.At p m → '(' ∉ name m.ty ∧ ')' ∉ name m.ty
  values : ∀ p m, n.At p m → '(' ∉ show_ m.value
  keys : ∀ p m, n.At p m → ∀ k ∈ m.keys, ',' ∉ k ∧ ')' ∉ k

/-- The trees have the same paths, and at the same path nodes of classes with the same name, with the
same printed value and the same child keys (in the same order). -/
def LooksLike (name : τ → Str) (show_ : α → Str) (a b : Node τ α) : Prop :=
  (∀ p, (∃ m, a.At p m) ↔ ∃ m, b.At p m) ∧
  ∀ p m m', a.At p m → b.At p m' → name m.ty = name m'.ty ∧ show_ m.value = show_ m'.value ∧ m.keys = m'.keys

end MplLayout
