import Verif.Model.Primitives
import Verif.Spec.Containers
import Mathlib.Data.List.Forall2

/-!
# Vocabulary for stating properties of primitives
-/

namespace MplLayout

variable {τ α K : Type}

/-- The documented class hierarchy, as (class, base class): a `Quadrilateral` is a `Polygon`; points
and lines are static primitives; everything is a primitive. -/
def PrimType.bases : List (PrimType × PrimType) :=
  [(.primitive, .primitiveNode), (.staticPrimitive, .primitive), (.point, .staticPrimitive),
   (.line, .staticPrimitive), (.polygon, .primitive), (.quadrilateral, .polygon), (.axes, .primitive)]

/-- `t` is `u` or a (direct or indirect) subclass of `u`. -/
inductive PrimType.IsA : PrimType → PrimType → Prop
  | refl (t : PrimType) : IsA t t
  | step {t u v : PrimType} : (t, u) ∈ PrimType.bases → IsA u v → IsA t v

/-- The classes of children that a primitive of the given class may have. -/
def PrimType.Accepts : PrimType → List PrimType → Prop
  | .primitiveNode, _ | .primitive, _ | .staticPrimitive, _ => True
  | .point, ts => ts = []
  | .line, ts => ∃ a b, ts = [a, b] ∧ a.IsA .point ∧ b.IsA .point
  | .polygon, ts => ∀ t ∈ ts, t.IsA .line
  | .quadrilateral, ts => ts.length = 4 ∧ ∀ t ∈ ts, t.IsA .line
  | .axes, ts => ∃ k ≤ 4, List.Forall₂ IsA ts
      (.quadrilateral :: (List.replicate k [.quadrilateral, .point]).flatten)

/-- A child class fits one entry of a signature. -/
def SigItem.Fits (C : ClassTable τ) (t : τ) : SigItem τ → Prop
  | .any => C.sub t C.node = true
  | .cls u => C.sub t u = true
  | .ellipsis => False

/-- Child classes match a declared tuple of types: position by position, or, for a tuple ending in
`...`, as some number of repetitions of the types before it. -/
def SigMatches (C : ClassTable τ) (ts : List τ) (types : List (SigItem τ)) : Prop :=
  (types.getLast? = some .ellipsis ∧
    ∃ n, List.Forall₂ (SigItem.Fits C) ts (List.replicate n types.dropLast).flatten) ∨
  (types.getLast? ≠ some .ellipsis ∧ List.Forall₂ (SigItem.Fits C) ts types)

/-- A tuple of types that makes sense: `...` only at the end, after at least one type. -/
def SigWellFormed (types : List (SigItem τ)) : Prop :=
  .ellipsis ∉ types.dropLast ∧ types ≠ [.ellipsis]

/-- The key `Line{i}`. -/
def lineKey (i : Nat) : Str := k!"Line" ++ natStr i

/-- `q` is a closed loop through `pts`: its children are `Line0 … Line(n-1)`, and `Line i` goes from
`pts[i]` to `pts[(i+1) % n]` (the very same point primitives, object identities included). -/
def ClosedLoop (q : Prim K) (pts : List (Prim K)) : Prop :=
  q.keys = (List.range pts.length).map lineKey ∧
  ∀ (i : Nat) (hi : i < pts.length), ∃ l : Prim K,
    (lineKey i, l) ∈ q.children ∧ l.ty = .line ∧ l.value.arr = [] ∧
    l.children = [(k!"Point0", pts[i]),
      (k!"Point1", pts[(i + 1) % pts.length]'(Nat.mod_lt _ (by omega)))]

/-- `id` determines the value within a tree (two live Python objects never share an identity). -/
def IdentOK {ι : Type} (ident : α → ι) (n : Node τ α) : Prop :=
  ∀ p q a b, n.At p a → n.At q b → ident a.value = ident b.value → a.value = b.value

end MplLayout
