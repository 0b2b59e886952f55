import Verif.Model.Primitives

/-!
# The `value` argument of primitives (`primitives.py:111-121, 172-186`)

`Model/Primitives.lean` takes one-dimensional `numpy` arrays as values.  Here the argument is any Python object and
arrays have any shape.  Not modelled: entries that are not numbers, and `numpy`'s limit of 64 dimensions.
-/

namespace MplLayout

variable {K : Type}

/-- A number or a list or tuple of such things. -/
inductive Nested (K : Type) where
  | num (x : K)
  | seq (xs : List (Nested K))

mutual
/-- The shape that `np.array` gives to nested sequences: `None` for ragged ones. -/
def Nested.shape : Nested K → Option (List Nat)
  | .num _ => some []
  | .seq xs => match Nested.shapes xs with
    | none => none
    | some none => some [0]
    | some (some s) => some (xs.length :: s)
/-- The common shape of the items: `some none` if there are no items. -/
def Nested.shapes : List (Nested K) → Option (Option (List Nat))
  | [] => some none
  | x :: xs => match Nested.shape x, Nested.shapes xs with
    | some s, some none => some (some s)
    | some s, some (some s') => if s = s' then some (some s) else none
    | _, _ => none
end

mutual
/-- The numbers in row-major order. -/
def Nested.entries : Nested K → List K
  | .num x => [x]
  | .seq xs => Nested.entriesL xs
/-- The numbers of all items. -/
def Nested.entriesL : List (Nested K) → List K
  | [] => []
  | x :: xs => Nested.entries x ++ Nested.entriesL xs
end

/-- An array of any shape, with its object identity. -/
structure NdArr (K : Type) where
  id : Nat
  shape : List Nat
  entries : List K

/-- `np.array(xs)` for a list or tuple: a new object, or `ValueError` for ragged sequences. -/
def npArray (xs : List (Nested K)) : Alloc (NdArr K) := fun n =>
  match (Nested.seq xs).shape with
  | some s => .ok (⟨n, s, Nested.entriesL xs⟩, n + 1)
  | none => .error .valueError

/-- `len(a)`: the first dimension; `TypeError` for an array without dimensions. -/
def NdArr.len (a : NdArr K) : Py Nat :=
  match a.shape with
  | [] => .error .typeError
  | n :: _ => .ok n

/-- The kinds of objects that `Primitive.__init__` tells apart (`primitives.py:178-185`). -/
inductive ValueObj (K : Type) where
  /-- `None` -/
  | none
  /-- a list or a tuple -/
  | seq (xs : List (Nested K))
  /-- an `np.ndarray` -/
  | ndarray (a : NdArr K)
  /-- a `jax.numpy.ndarray` -/
  | jax (a : NdArr K)
  /-- anything else -/
  | other

/-- `primitives.py:178-185`: the array, and whether it is an `np.ndarray`.  `dflt` are the numbers of
`default_value()`. -/
def valueOf (dflt : List K) : ValueObj K → Alloc (Bool × NdArr K)
  | .none => do
    let a ← npArray (dflt.map .num)
    pure (true, a)
  | .seq xs => do
    let a ← npArray xs
    pure (true, a)
  | .ndarray a => pure (true, a)
  | .jax a => pure (false, a)
  | .other => liftPy (.error .typeError)

/-- `primitives.py:111-145`, `PrimitiveNode.__init__(value, children)` of class `t`, with the type check of `value`
(114) and `len(value) == param_size` (121).  Children are primitives (115-117: in the model they always are). -/
def primNodeInitNd (C : ClassTable τ) (t : τ) (isNumpy : Bool) (v : NdArr K) (children : List (Str × Node τ (NdArr K))) :
    Py (Node τ (NdArr K)) := do
  if !isNumpy then .error .assertionError
  else
    let n ← v.len
    if n ≠ C.size t then .error .assertionError
    else
      let prims := children.map (·.2.ty)
      match C.sig t with
      | .tuple types => validatePrims C prims types
      | .anyOf alts => if ← anyMatch C prims alts then .ok () else .error .valueError
      .ok (.mk t v children)

/-- `primitives.py:172-194`, `Primitive.__init__(value, prims)` of class `t` when `init_children` returns `keys` and
`prims`. -/
def primInitNd (t : PrimType) (dflt : List K) (value : ValueObj K) (keys : List Str)
    (prims : List (Node PrimType (NdArr K))) : Alloc (Node PrimType (NdArr K)) := do
  let (isNumpy, v) ← valueOf dflt value
  liftPy (primNodeInitNd PrimType.table t isNumpy v (dictOfZip keys prims))

/-- `primitives.py:276-301`, `Point(value)`. -/
def newPointNd [PyNum K] (value : ValueObj K) : Alloc (Node PrimType (NdArr K)) := primInitNd .point [0, 0] value [] []

end MplLayout
