import Verif.Model.Containers

/-!
# Vocabulary for stating tree properties

These definitions only mention the plain data of a tree (`children`), not the code's lookups.
-/

namespace MplLayout

variable {τ α : Type}

/-- `n.At p m`: starting at `n` and following the child keys in `p` one leads to the node `m`. -/
inductive Node.At : Node τ α → List Str → Node τ α → Prop
  | here (n : Node τ α) : Node.At n [] n
  | down {n c m : Node τ α} {k : Str} {p : List Str} :
      (k, c) ∈ n.children → Node.At c p m → Node.At n (k :: p) m

/-- No node of the tree has two children with the same key.  Every Python tree has this property,
because children are kept in a `dict`. -/
def Node.WF (n : Node τ α) : Prop := ∀ p m, n.At p m → m.keys.Nodup

/-- No child key in the tree contains a `/`.  Trees built through `add_child` have this property;
a tree built from a hand-written dictionary need not have it. -/
def Node.SlashFree (n : Node τ α) : Prop := ∀ p m, n.At p m → ∀ k ∈ m.keys, '/' ∉ k

/-- A key all of whose `/`-separated components are non-empty: `a`, `a/b`, but not `a/`, `/b`. -/
def ProperKey (key : Str) : Prop := ∀ w ∈ splitAll key, w ≠ []

instance (key : Str) : Decidable (ProperKey key) := by unfold ProperKey; infer_instance

/-- The listing key of the node at path `p`: every component preceded by a slash. -/
def slashed (p : List Str) : Str := p.flatMap ('/' :: ·)

/-- Depth-first order of paths below `n`: a node comes before its descendants, and siblings (with
everything below them) come in the order of their parent's children. -/
inductive Node.Before : Node τ α → List Str → List Str → Prop
  | root {n : Node τ α} {k : Str} {q : List Str} : Node.Before n [] (k :: q)
  | child {n c : Node τ α} {k : Str} {p q : List Str} :
      (k, c) ∈ n.children → Node.Before c p q → Node.Before n (k :: p) (k :: q)
  | sibling {n : Node τ α} {k k' : Str} {p q a b c : List Str} :
      n.keys = a ++ k :: (b ++ k' :: c) → Node.Before n (k :: p) (k' :: q)

mutual
/-- All values in a subtree, a node before its children. -/
def Node.allValues : Node τ α → List α
  | .mk _ v cs => v :: Node.allValuesL cs
/-- All values below a list of children. -/
def Node.allValuesL : List (Str × Node τ α) → List α
  | [] => []
  | (_, c) :: cs => Node.allValues c ++ Node.allValuesL cs
end

mutual
/-- Executable test of `WF` and `SlashFree` together, for examples. -/
def Node.goodB : Node τ α → Bool
  | .mk _ _ cs => decide (cs.map (·.1)).Nodup && Node.goodBL cs
/-- `goodB` for every child, and no `/` in its key. -/
def Node.goodBL : List (Str × Node τ α) → Bool
  | [] => true
  | (k, c) :: cs => decide ('/' ∉ k) && Node.goodB c && Node.goodBL cs
end

end MplLayout
