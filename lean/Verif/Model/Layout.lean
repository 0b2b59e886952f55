import Verif.Model.Constructions

/-!
# Model of `src/mpllayout/layout.py` and of `solver.py:253-284`

Simplifications (whole file): the four trees of a layout are pure values; the constraint objects
given to two `add_constraint` calls are never the same Python object (a constraint object that is
added under two keys would be mutated at both places by a later `add_constraint` below one of
them; `Model/ConsHeap.lean` models this, and C94 shows that it makes no difference for keys without
`/`).  Sharing of whole trees between two layouts is modelled in `Model/LayoutHeap.lean`.
-/

namespace MplLayout

variable {K : Type}

/-- `layout.py:62-87`: the state of a `Layout`. -/
structure Layout (K : Type) where
  prim : Prim K
  cons : Cons K
  keys : KeysNode
  params : ParamsNode K
  counter : ItemCounter

/-- The class of the root constraint, `ConstraintNode`, whose `assem` is never called
(`layout.py:119-122` drops the root). -/
def rootClass : ConsClass K :=
  { name := k!"ConstraintNode", assem := fun _ _ => .error .notImplemented }

/-- The value `None` of the root constraint (`layout.py:75`); never used. -/
def rootVal : ConsVal K := ⟨[], fun _ => .ok [], ⟨[], [], 0⟩⟩

namespace Layout

/-- `layout.py:62-87`, `Layout()`; `id` is the identity of the new empty array (line 73).  The
values `None` of the keys and parameter roots (lines 77, 79) are never used; here `[]`. -/
def empty (id : Nat) : Layout K :=
  ⟨.mk .primitiveNode ⟨id, []⟩ [], .mk rootClass rootVal [], .mk () [] [], .mk () [] [], {}⟩

/-- `layout.py:103-132`, `flat_constraints()`.  The constraint nodes stand for their methods
`assem_atleast_1d` (line 130). -/
def flatConstraints (l : Layout K) : List (Cons K) × List (List Str) × List (List (Param K)) :=
  (((l.cons.iterFlat []).map (·.2)).drop 1,
   ((l.keys.iterFlat []).map (·.2.value)).drop 1,
   ((l.params.iterFlat []).map (·.2.value)).drop 1)

/-- `layout.py:134-147`, `add_prim(prim, key)`: the layout afterwards and the outcome. -/
def addPrim (l : Layout K) (prim : Prim K) (key : Str) : Layout K × Py Unit :=
  match l.prim.addChild key prim with
  | .ok root => ({ l with prim := root }, .ok ())
  | .error e => (l, .error e)

/-- `layout.py:149-159`, `add_prims(prims)`: stops at the first exception. -/
def addPrims (l : Layout K) : List (Str × Prim K) → Layout K × Py Unit
  | [] => (l, .ok ())
  | (key, prim) :: ps => match l.addPrim prim key with
    | (l, .ok ()) => l.addPrims ps
    | (l, .error e) => (l, .error e)

end Layout

/-- `try: x except TypeError as exc: raise RuntimeError(...)` (`layout.py:197-205`). -/
def reraiseType {β : Type} (x : Py β) : Py β :=
  match x with
  | .error .typeError => .error .runtimeError
  | r => r

namespace Layout

/-- `layout.py:197-205`: the checks before anything is stored. -/
def check (l : Layout K) (c : Cons K) (primKeys : List Str) (param : List (Param K)) : Py Unit := do
  reraiseType (do
    let prims ← Cons.lookupPrims l.prim primKeys
    c.validatePrims prims)
  reraiseType (c.validateParams param)

/-- `layout.py:209`: parameters are stored last. -/
def storeParams (l : Layout K) (c : Cons K) (param : List (Param K)) (key : Str) :
    Layout K × Py Unit :=
  match (do let t ← c.rootParams param; l.params.addChild key t) with
  | .ok params => ({ l with params := params }, .ok ())
  | .error e => (l, .error e)

/-- `layout.py:208-209`: primitive keys, then parameters. -/
def storeKeys (l : Layout K) (c : Cons K) (primKeys : List Str) (param : List (Param K))
    (key : Str) : Layout K × Py Unit :=
  match (do let t ← c.rootPrimKeys primKeys; l.keys.addChild key t) with
  | .ok keys => ({ l with keys := keys }).storeParams c param key
  | .error e => (l, .error e)

/-- `layout.py:207-209`: the three stores, one after the other; an exception leaves the earlier
ones in place. -/
def store (l : Layout K) (c : Cons K) (primKeys : List Str) (param : List (Param K))
    (key : Str) : Layout K × Py Unit :=
  match l.cons.addChild key c with
  | .ok cons => ({ l with cons := cons }).storeKeys c primKeys param key
  | .error e => (l, .error e)

/-- `layout.py:195-209`: everything after the key is known. -/
def checkAndStore (l : Layout K) (c : Cons K) (primKeys : List Str) (param : List (Param K))
    (key : Str) : Layout K × Py Unit :=
  match l.check c primKeys param with
  | .ok () => l.store c primKeys param key
  | .error e => (l, .error e)

/-- Enough rounds for the loop of the item counter: one more than there are constraints, keys and
parameters at the top level (`Props.C51_auto_terminates`). -/
def counterFuel (l : Layout K) : Nat := l.cons.len + l.keys.len + l.params.len + 1

/-- `layout.py:188-192`, the automatic key: `_constraint_counter.add_item_to_nodes(constraint,
root_constraint, root_prim_keys, root_param)`. -/
def autoKey (l : Layout K) (c : Cons K) : ItemCounter × Py Str :=
  match l.counter.addItemToNodes c.ty.name
      [l.cons.contains, l.keys.contains, l.params.contains] l.counterFuel with
  | some r => r
  | none => (l.counter, .error .outOfFuel)

/-- `layout.py:161-209`, `add_constraint(constraint, prim_keys, param, key)`; `key = ""` asks for an
automatic key.  The layout afterwards and the outcome.  Simplification: `prim_keys` is a tuple of
strings and `param` a tuple. -/
def addConstraint (l : Layout K) (c : Cons K) (primKeys : List Str) (param : List (Param K))
    (key : Str) : Layout K × Py Unit :=
  if key = [] then
    match l.autoKey c with
    | (counter, .ok key) => ({ l with counter := counter }).checkAndStore c primKeys param key
    | (counter, .error e) => ({ l with counter := counter }, .error e)
  else l.checkAndStore c primKeys param key

/-- `solver.py:253-284`, `assem_constraint_residual(root_prim, *layout.flat_constraints())`: the
list of residual vectors. -/
def residualList (l : Layout K) (root : Prim K) : Py (List (List K)) := do
  let (cs, kss, pss) := l.flatConstraints
  -- Python looks the primitives up inside the loop; here all look-ups come first, which only
  -- changes which exception is raised if there are several.  `zip` stops at the shortest list.
  let n := min cs.length (min kss.length pss.length)
  let prims ← pyMap (Cons.lookupPrims root) (kss.take n)
  Cons.residuals cs prims pss

/-- `solver.py:116-119`: `jnp.concatenate(residuals)`. -/
def residual (l : Layout K) (root : Prim K) : Py (List K) := do
  let rs ← l.residualList root
  npConcat rs

end Layout

/-! ## Histories -/

/-- A call of a method of `Layout` that changes it. -/
inductive LayoutOp (K : Type) where
  | addPrim (prim : Prim K) (key : Str)
  | addPrims (prims : List (Str × Prim K))
  | addConstraint (c : Cons K) (primKeys : List Str) (param : List (Param K)) (key : Str)

/-- The layout after the call and the outcome of the call. -/
def Layout.step (l : Layout K) : LayoutOp K → Layout K × Py Unit
  | .addPrim prim key => l.addPrim prim key
  | .addPrims prims => l.addPrims prims
  | .addConstraint c primKeys param key => l.addConstraint c primKeys param key

/-- The layout after a sequence of calls; a caller that catches exceptions goes on with whatever
state the failed call left. -/
def Layout.run (l : Layout K) (ops : List (LayoutOp K)) : Layout K :=
  ops.foldl (fun l op => (l.step op).1) l

/-! ## `update_layout_constraints` -/

/-- The two axis objects of a `matplotlib` `Axes`. -/
structure MplAxes (K : Type) where
  xaxis : MplAxis K
  yaxis : MplAxis K

/-- `layout.py:247-255`: the replacement parameter of one constraint, if it is an axis thickness. -/
def thicknessParam (axs : List (Str × MplAxes K)) (c : Cons K) (primKeys : List Str) :
    Py (Option (List (Param K))) :=
  match c.ty.axisKind with
  | none => .ok none
  | some kind =>
    match primKeys with
    | [axisKey] =>
      let axesKey := (split1 axisKey).1
      match dictGet axs axesKey with
      | none => .error (.keyError axesKey)
      | some ax => .ok (some [.axis (match kind with | .x => ax.xaxis | .y => ax.yaxis)])
    | _ => .error .valueError

/-- `layout.py:238-255`: the loop over `iter_flat('', layout.root_constraint)`;
`d` is `constraintkey_to_param`. -/
def thicknessLoop (l : Layout K) (axs : List (Str × MplAxes K)) :
    List (Str × Cons K) → List (Str × List (Param K)) → Py (List (Str × List (Param K)))
  | [], d => .ok d
  | (key, c) :: rest, d =>
    let key := key.drop 1
    if key = [] then thicknessLoop l axs rest d
    else do
      let primKeys ← l.keys.getChild key
      let _ ← l.params.getChild key
      match ← thicknessParam axs c primKeys.value with
      | none => thicknessLoop l axs rest d
      | some p => thicknessLoop l axs rest (dictSet d key p)

/-- `layout.py:290-293`: `new_root_param[key] = root_constraint[key].root_params(param)` for every
entry. -/
def replaceParams (cons : Cons K) : List (Str × List (Param K)) → ParamsNode K → Py (ParamsNode K)
  | [], t => .ok t
  | (key, param) :: rest, t => do
    let c ← cons.getChild key
    let p ← Cons.rootParams c param
    let t ← t.setItem key p
    replaceParams cons rest t

/-- `layout.py:270-295`, `update_root_param(root_constraint, root_param, constraintkey_to_param)`.
The copy's nodes have class `Node` instead of `ParamsNode`; the model does not distinguish them. -/
def updateRootParam (cons : Cons K) (params : ParamsNode K) (d : List (Str × List (Param K))) :
    Py (ParamsNode K) := do
  let t ← copyNode () params
  replaceParams cons d t

/-- `layout.py:211-268`, `update_layout_constraints(layout, axs)`; the new layout has a new item
counter (line 263-268 passes none). -/
def updateLayoutConstraints (l : Layout K) (axs : List (Str × MplAxes K)) : Py (Layout K) := do
  let d ← thicknessLoop l axs (l.cons.iterFlat []) []
  let params ← updateRootParam l.cons l.params d
  .ok ⟨l.prim, l.cons, l.keys, params, {}⟩

end MplLayout
