import Verif.Model.Containers
import Verif.Model.Num

/-!
# Model of `src/mpllayout/primitives.py`

Not modelled: registration as `jax` pytrees (`primitives.py:563-576`), `isinstance` checks that
values are `np.ndarray` (`primitives.py:114-117`: in the model they always are), error messages.
-/

namespace MplLayout

/-- A `numpy` array as Python sees it: an object identity (`id(value)`, used by
`primitives.py:607`) and its entries.  Simplification: arrays are one-dimensional and never mutated
in place (the code never does). -/
structure PVal (K : Type) where
  id : Nat
  arr : List K
deriving DecidableEq

/-! ## Signatures and `validate_prims` -/

/-- One entry of `prim_types` (`primitives.py:21`): `None`, a class, or `...`. -/
inductive SigItem (τ : Type) where
  | any
  | cls (t : τ)
  | ellipsis
deriving DecidableEq

/-- `primitives.py:22`, `PrimTypesSignature`: a tuple of types, or a set of alternatives
(a Python `set`; listed here in some order). -/
inductive Sig (τ : Type) where
  | tuple (ts : List (SigItem τ))
  | anyOf (alts : List (List (SigItem τ)))

/-- The class hierarchy of primitives: `issubclass`, the class `PrimitiveNode` and the class
attribute `signature` (`primitives.py:109`). -/
structure ClassTable (τ : Type) where
  sub : τ → τ → Bool
  node : τ
  size : τ → Nat
  sig : τ → Sig τ

variable {τ α β ι K : Type}

/-- `primitives.py:45-49`: a trailing `...` repeats the types before it
`len(prims) // len(types before)` times. -/
def expandTypes (nPrims : Nat) (types : List (SigItem τ)) : Py (List (SigItem τ)) :=
  match types.getLast? with
  | some .ellipsis =>
    let unit := types.dropLast
    if unit.length = 0 then .error .zeroDivision
    else .ok (List.replicate (nPrims / unit.length) unit).flatten
  | _ => .ok types

/-- `primitives.py:64-68`: `all(issubclass(t, s) for t, s in zip(..))`, short-circuiting.
`issubclass(t, ...)` raises `TypeError`. -/
def allSub (C : ClassTable τ) : List τ → List (SigItem τ) → Py Bool
  | t :: ts, s :: ss =>
    match s with
    | .ellipsis => .error .typeError
    | .any => if C.sub t C.node then allSub C ts ss else .ok false
    | .cls u => if C.sub t u then allSub C ts ss else .ok false
  | _, _ => .ok true

/-- `primitives.py:25-71`, `validate_prims`; only the classes of the primitives matter. -/
def validatePrims (C : ClassTable τ) (prims : List τ) (types : List (SigItem τ)) : Py Unit := do
  let types ← expandTypes prims.length types
  if prims.length ≠ types.length then .error .valueError
  else if ← allSub C prims types then .ok ()
  else .error .valueError

/-- `primitives.py:131-140`: `any(match(prims, types) for types in signature)`; only `ValueError`
counts as a mismatch. -/
def anyMatch (C : ClassTable τ) (prims : List τ) : List (List (SigItem τ)) → Py Bool
  | [] => .ok false
  | a :: as => match validatePrims C prims a with
    | .ok () => .ok true
    | .error .valueError => anyMatch C prims as
    | .error e => .error e

/-- `primitives.py:111-145`, `PrimitiveNode.__init__(value, children)` of class `t`. -/
def primNodeInit (C : ClassTable τ) (t : τ) (v : PVal K) (children : List (Str × Node τ (PVal K))) :
    Py (Node τ (PVal K)) := do
  if v.arr.length ≠ C.size t then .error .assertionError
  else
    let prims := children.map (·.2.ty)
    match C.sig t with
    | .tuple types => validatePrims C prims types
    | .anyOf alts => if ← anyMatch C prims alts then .ok () else .error .valueError
    .ok (.mk t v children)

/-! ## The shipped classes -/

/-- The classes of `primitives.py`. -/
inductive PrimType where
  | primitiveNode | primitive | staticPrimitive | point | line | polygon | quadrilateral | axes
deriving DecidableEq, Repr

namespace PrimType

/-- The base class (`primitives.py:148,232,276,303,330,387,436`). -/
def parent : PrimType → Option PrimType
  | .primitiveNode => none
  | .primitive => some .primitiveNode
  | .staticPrimitive => some .primitive
  | .point => some .staticPrimitive
  | .line => some .staticPrimitive
  | .polygon => some .primitive
  | .quadrilateral => some .polygon
  | .axes => some .primitive

/-- `issubclass(t, u)`: `u` is reached from `t` through base classes (at most four steps). -/
def sub (t u : PrimType) : Bool :=
  let step := fun (o : Option PrimType) => o.bind parent
  let a := some t
  a == some u || step a == some u || step (step a) == some u || step (step (step a)) == some u

/-- First component of `signature` (`primitives.py:109,288,315,352,407,470`); subclasses without
their own attribute inherit it. -/
def size : PrimType → Nat
  | .point => 2
  | _ => 0

/-- Second component of `signature`. -/
def sig : PrimType → Sig PrimType
  | .primitiveNode | .primitive | .staticPrimitive => .tuple [.any, .ellipsis]
  | .point => .tuple []
  | .line => .tuple [.cls .point, .cls .point]
  | .polygon => .tuple [.cls .line, .ellipsis]
  | .quadrilateral => .tuple [.cls .line, .cls .line, .cls .line, .cls .line]
  | .axes => .anyOf ((List.range 5).map fun k =>
      .cls .quadrilateral :: (List.replicate k [.cls .quadrilateral, .cls .point]).flatten)

/-- The class table of `primitives.py`. -/
def table : ClassTable PrimType := ⟨sub, .primitiveNode, size, sig⟩

end PrimType

/-- A primitive. -/
abbrev Prim (K : Type) := Node PrimType (PVal K)

/-- Python code that creates arrays: threads the next unused object identity. -/
abbrev Alloc := StateT Nat Py

/-- `np.array(entries)`: a new object. -/
def newArray (arr : List K) : Alloc (PVal K) := fun n => .ok (⟨n, arr⟩, n + 1)

/-- Raise the outcome of a computation without allocations. -/
def liftPy (x : Py α) : Alloc α := fun n => match x with
  | .ok a => .ok (a, n)
  | .error e => .error e

/-- `primitives.py:172-194`, `Primitive.__init__` once `value` is known: the children are
`{key: prim for key, prim in zip(child_keys, child_prims)}`. -/
def primInit (t : PrimType) (v : PVal K) (keys : List Str) (prims : List (Prim K)) :
    Py (Prim K) :=
  primNodeInit PrimType.table t v (dictOfZip keys prims)

/-- `primitives.py:178-185`: `value = default_value()` if no value was given.  (A given list or
tuple becomes a new array; the caller of the model does that with `newArray`.) -/
def orDefault (dflt : List K) : Option (PVal K) → Alloc (PVal K)
  | none => newArray dflt
  | some v => pure v

/-- `primitives.py:276-301`, `Point(value, prims)`: `prims` is ignored (`init_children`, 290-292). -/
def newPoint [PyNum K] (value : Option (PVal K)) : Alloc (Prim K) := do
  let v ← orDefault [0, 0] value
  liftPy (primInit .point v [] [])

/-- `primitives.py:303-327`, `Line(value, prims)`. -/
def newLine [PyNum K] (value : Option (PVal K)) (prims : Option (List (Prim K))) :
    Alloc (Prim K) := do
  let v ← orDefault [] value
  let ps ← match prims with
    | some ps => pure ps
    | none => do
      let a ← newArray [0, 0]
      let p0 ← newPoint (some a)
      let b ← newArray [0, 1]
      let p1 ← newPoint (some b)
      pure [p0, p1]
  liftPy (primInit .line v [k!"Point0", k!"Point1"] ps)

/-- `primitives.py:367-370`: one new `Line` for every pair of points. -/
def polygonLines [PyNum K] : List (Prim K × Prim K) → Alloc (List (Prim K))
  | [] => pure []
  | (a, b) :: rest => do
    let v ← newArray []
    let l ← newLine (some v) (some [a, b])
    let ls ← polygonLines rest
    pure (l :: ls)

/-- `primitives.py:362-372`, `Polygon.init_children(points)`. -/
def polygonChildren [PyNum K] (points : List (Prim K)) : Alloc (List Str × List (Prim K)) := do
  let lines ← polygonLines (points.zip (points.drop 1 ++ points.take 1))
  pure ((List.range lines.length).map (fun n => k!"Line" ++ natStr n), lines)

/-- `[Point((x, y)) for x, y in zip(xs, ys)]` (`primitives.py:384,425`). -/
def newPoints [PyNum K] : List (K × K) → Alloc (List (Prim K))
  | [] => pure []
  | (x, y) :: rest => do
    let a ← newArray [x, y]
    let p ← newPoint (some a)
    let ps ← newPoints rest
    pure (p :: ps)

/-- `primitives.py:378-384`, `Polygon.default_prims(size)`: `2*np.pi/size` raises
`ZeroDivisionError` for `size = 0`. -/
def polygonDefault [PyNum K] (size : Nat) : Alloc (List (Prim K)) :=
  if size = 0 then liftPy (.error .zeroDivision)
  else newPoints ((List.range size).map fun (i : Nat) =>
    let a : K := ((2 : Nat) : K) * PyNum.pi / ((size : Nat) : K) * ((i : Nat) : K)
    (PyNum.cos a, PyNum.sin a))

/-- `primitives.py:354-360`, `Polygon(value, prims, size)`. -/
def newPolygon [PyNum K] (value : Option (PVal K)) (prims : Option (List (Prim K)))
    (size : Nat := 3) : Alloc (Prim K) := do
  let v ← orDefault [] value
  let ps ← match prims with
    | some ps => pure ps
    | none => polygonDefault size
  let (keys, lines) ← polygonChildren ps
  liftPy (primInit .polygon v keys lines)

/-- `primitives.py:409-425`, `Quadrilateral(value, children)`; the default is a unit square. -/
def newQuadrilateral [PyNum K] (value : Option (PVal K)) (prims : Option (List (Prim K))) :
    Alloc (Prim K) := do
  let v ← orDefault [] value
  let ps ← match prims with
    | some ps => pure ps
    | none => newPoints [(0, 0), (1, 0), (1, 1), (0, 1)]
  let (keys, lines) ← polygonChildren ps
  liftPy (primInit .quadrilateral v keys lines)

/-- `primitives.py:492-521`, keys of `Axes.init_children`. -/
def axesKeys (xaxis yaxis twinx twiny : Bool) : List Str :=
  let x := if xaxis then [k!"XAxis", k!"XAxisLabel"] else []
  let tx := if xaxis && twinx then [k!"TwinXAxis", k!"TwinXAxisLabel"] else []
  let y := if yaxis then [k!"YAxis", k!"YAxisLabel"] else []
  let ty := if yaxis && twiny then [k!"TwinYAxis", k!"TwinYAxisLabel"] else []
  [k!"Frame"] ++ (x ++ y) ++ (tx ++ ty)

/-- `(Quadrilateral(), Point())` if `b`, else `()` (`primitives.py:541-553`). -/
def axisPrims [PyNum K] (b : Bool) : Alloc (List (Prim K)) :=
  if b then do
    let q ← newQuadrilateral none none
    let p ← newPoint none
    pure [q, p]
  else pure []

/-- `primitives.py:533-559`, `Axes.default_prims`. -/
def axesDefault [PyNum K] (xaxis yaxis twinx twiny : Bool) : Alloc (List (Prim K)) := do
  let x ← axisPrims xaxis
  let tx ← axisPrims (xaxis && twinx)
  let y ← axisPrims yaxis
  let ty ← axisPrims (yaxis && twiny)
  let frame ← newQuadrilateral none none
  pure ([frame] ++ (x ++ y) ++ (tx ++ ty))

/-- `primitives.py:481-490`, `Axes(value, prims, xaxis, yaxis, twinx, twiny)`. -/
def newAxes [PyNum K] (value : Option (PVal K)) (prims : Option (List (Prim K)))
    (xaxis yaxis twinx twiny : Bool) : Alloc (Prim K) := do
  let v ← orDefault [] value
  let ps ← match prims with
    | some ps => pure ps
    | none => axesDefault xaxis yaxis twinx twiny
  liftPy (primInit .axes v (axesKeys xaxis yaxis twinx twiny) ps)

/-! ## Unique values -/

/-- Local variables of `filter_unique_values_from_prim` (`primitives.py:602-604`). -/
structure FilterState (ι α : Type) where
  valueIdToIdx : List (ι × Nat) := []
  values : List α := []
  primToIdx : List (Str × Nat) := []

/-- One round of the loop, `primitives.py:606-616`.  `ident` is Python's `id`. -/
def filterStep [DecidableEq ι] (ident : α → ι) (s : FilterState ι α) (kv : Str × α) :
    FilterState ι α :=
  match s.valueIdToIdx.lookup (ident kv.2) with
  | none =>
    let i := s.values.length
    { valueIdToIdx := s.valueIdToIdx ++ [(ident kv.2, i)]
      values := s.values ++ [kv.2]
      primToIdx := dictSet s.primToIdx kv.1 i }
  | some i => { s with primToIdx := dictSet s.primToIdx kv.1 i }

/-- `primitives.py:583-618`, `filter_unique_values_from_prim(root_prim)`:
`(prim_to_idx, values)`. -/
def filterUnique [DecidableEq ι] (ident : α → ι) (n : Node τ α) : List (Str × Nat) × List α :=
  let s := ((n.iterFlat []).map fun kn => (kn.1, kn.2.value)).foldl (filterStep ident) {}
  (s.primToIdx, s.values)

/-- `values[prim_to_idx[key]]` (`primitives.py:640-641`). -/
def lookupValue (idx : List (Str × Nat)) (values : List β) (key : Str) : Py β :=
  match dictGet idx key with
  | none => .error (.keyError key)
  | some i => match values[i]? with
    | none => .error .indexError
    | some v => .ok v

/-- `primitives.py:643-647`: the flat structures with the new values. -/
def newStructs (idx : List (Str × Nat)) (values : List β) :
    List (FlatStruct τ α) → Py (List (FlatStruct τ β))
  | [] => .ok []
  | s :: ss => do
    let v ← lookupValue idx values s.key
    let rest ← newStructs idx values ss
    .ok (⟨s.key, s.ty, v, s.childKeys⟩ :: rest)

/-- `primitives.py:620-648`, `build_prim_from_unique_values(flat_prim, prim_to_idx, values)`. -/
def buildPrim (flat : List (FlatStruct τ α)) (idx : List (Str × Nat)) (values : List β) :
    Py (Node τ β) := do
  let structs ← newStructs idx values flat
  let r ← unflatten structs
  .ok r.1

end MplLayout
