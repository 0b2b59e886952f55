import Verif.Model.Primitives

/-!
# Nodes as JAX pytrees

`containers.py:504-527` and `primitives.py:562-576` register the node classes with
`jax.tree_util`: a node is flattened to the pair of its value and its dictionary of children, and
rebuilt by `from_tree`.  The rest is done by `jax.tree_util`, modelled here as documented: the
leaves of a pair are those of its components in order, and a dictionary is flattened in the order
of its sorted keys and rebuilt in that order.

Simplifications: every value is a leaf (an array; not `None`, a tuple, list or dictionary), and the
class of every node in the tree is a registered one (all primitive classes that are instantiated
are; an object of another class would be a leaf itself).
-/

namespace MplLayout

variable {τ α β : Type}

/-- Python's `s <= t` for strings: lexicographic by code points. -/
def strLe : Str → Str → Bool
  | [], _ => true
  | _ :: _, [] => false
  | a :: s, b :: t => if a = b then strLe s t else decide (a.toNat < b.toNat)

/-- Insert an entry into a dictionary sorted by keys. -/
def insertKey (kv : Str × β) : List (Str × β) → List (Str × β)
  | [] => [kv]
  | y :: ys => if strLe kv.1 y.1 then kv :: y :: ys else y :: insertKey kv ys

/-- `sorted(d.items(), key=lambda kv: kv[0])`, as `jax.tree_util` does for dictionaries. -/
def sortKeys (cs : List (Str × β)) : List (Str × β) := cs.foldr insertKey []

mutual
/-- `containers.py:512-515`, `_flatten_node`, applied recursively by `jax.tree_util.tree_flatten`:
the leaves. -/
def Node.jaxLeaves : Node τ α → List α
  | .mk _ v cs => v :: (sortKeys (Node.jaxLeavesL cs)).flatMap (·.2)
/-- The leaves of the children, with their keys. -/
def Node.jaxLeavesL : List (Str × Node τ α) → List (Str × List α)
  | [] => []
  | (k, c) :: cs => (k, c.jaxLeaves) :: Node.jaxLeavesL cs
end

mutual
/-- The `treedef` returned by `tree_flatten`: classes and sorted keys. -/
def Node.treedef : Node τ α → Node τ Unit
  | .mk t _ cs => .mk t () (sortKeys (Node.treedefL cs))
/-- The `treedef`s of the children, with their keys. -/
def Node.treedefL : List (Str × Node τ α) → List (Str × Node τ Unit)
  | [] => []
  | (k, c) :: cs => (k, c.treedef) :: Node.treedefL cs
end

mutual
/-- `containers.py:517-519`, `_unflatten_node`, with `from_tree` (`containers.py:42-55`), applied
recursively by `tree_unflatten`: consumes the leaves from the front. -/
def Node.jaxBuild : Node τ Unit → List α → Py (Node τ α × List α)
  | .mk _ _ _, [] => .error .valueError
  | .mk t _ cs, v :: vs => do
    let (children, rest) ← Node.jaxBuildL cs vs
    .ok (.mk t v children, rest)
/-- The dictionary of children. -/
def Node.jaxBuildL : List (Str × Node τ Unit) → List α → Py (List (Str × Node τ α) × List α)
  | [], vs => .ok ([], vs)
  | (k, c) :: cs, vs => do
    let (n, rest) ← Node.jaxBuild c vs
    let (ns, rest') ← Node.jaxBuildL cs rest
    .ok ((k, n) :: ns, rest')
end

/-- `jax.tree_util.tree_unflatten(treedef, leaves)`: too few or too many leaves are a
`ValueError`. -/
def Node.jaxUnflatten (d : Node τ Unit) (leaves : List α) : Py (Node τ α) := do
  let (n, rest) ← d.jaxBuild leaves
  if rest = [] then .ok n else .error .valueError

/-- `jax.tree_util.tree_map(f, node)`. -/
def Node.jaxMap (f : α → β) (n : Node τ α) : Py (Node τ β) :=
  n.treedef.jaxUnflatten (n.jaxLeaves.map f)

end MplLayout
