import Verif.Model.Program

/-!
# Trees of objects

In Python a child of a node is a reference to another node object: two places may hold the same
object, and `add_child` changes the object that it finds in place, so the change shows at every
place (and in every variable) that holds this object.  `Model/Containers.lean` treats trees as
values instead.  Here nodes are objects on a heap, addressed by their position, and the programs of
`Model/Program.lean` run on that heap.

Simplification: constraint objects remain values (see `Model/ConsHeap.lean` for these).
-/

namespace MplLayout

variable {τ α K : Type}

/-- `containers.py:18-58`: a node object; its children are references. -/
structure Obj (τ α : Type) where
  ty : τ
  value : α
  children : List (Str × Nat)

/-- All node objects; the address of an object is its position. -/
abbrev Heap (τ α : Type) := List (Obj τ α)

namespace Heap

/-- Read the object at an address.  Addresses come from the heap itself, so the object exists. -/
def obj (h : Heap τ α) (a : Nat) : Py (Obj τ α) :=
  match h[a]? with
  | some o => .ok o
  | none => .error .runtimeError

/-- `containers.py:91-104`, `get_child` on the components of the key: the address of the object
found. -/
def getPath (h : Heap τ α) (a : Nat) : List Str → Py Nat
  | [] => .error .indexError
  | [k] => reraiseKey k (do
      let o ← h.obj a
      match dictGet o.children k with
      | some c => .ok c
      | none => .error (.keyError k))
  | k :: k' :: ks => reraiseKey (joinSlash (k :: k' :: ks)) (do
      let o ← h.obj a
      match dictGet o.children k with
      | some c => getPath h c (k' :: ks)
      | none => .error (.keyError k))

/-- `containers.py:91-101`, `get_child(key)` of the object at `a`. -/
def getChild (h : Heap τ α) (a : Nat) (key : Str) : Py Nat := h.getPath a (splitAll key)

/-- `containers.py:106-142`, `add_child` and `_add_child_nonrecursive` on the components of the
key: the heap afterwards.  Line 142 changes one object in place. -/
def addPath (h : Heap τ α) (a c : Nat) : List Str → Py (Heap τ α)
  | [] => .error .indexError
  | [k] => reraiseKey k (do
      let o ← h.obj a
      if dictHas o.children k then .error (.keyError k)
      else .ok (h.set a { o with children := dictSet o.children k c }))
  | k :: k' :: ks => reraiseKey (joinSlash (k :: k' :: ks)) (do
      let o ← h.obj a
      match dictGet o.children k with
      | some b => addPath h b c (k' :: ks)
      | none => .error (.keyError k))

/-- `containers.py:106-131`, `add_child(key, child)` of the object at `a`. -/
def addChild (h : Heap τ α) (a : Nat) (key : Str) (c : Nat) : Py (Heap τ α) :=
  h.addPath a c (splitAll key)

end Heap

/-! ## Constructors on the heap -/

/-- The part of the state that constructors change: the next identity of an array and the node
objects. -/
structure Store (K : Type) where
  next : Nat
  heap : Heap PrimType (PVal K)

/-- Python code that creates arrays and node objects. -/
abbrev HAlloc (K : Type) := StateT (Store K) Py

namespace HAlloc

/-- `np.array(entries)`: a new array. -/
def newArray (arr : List K) : HAlloc K (PVal K) :=
  fun s => .ok (⟨s.next, arr⟩, { s with next := s.next + 1 })

/-- Raise the outcome of a computation that allocates nothing. -/
def lift {β : Type} (x : Store K → Py β) : HAlloc K β := fun s => match x s with
  | .ok a => .ok (a, s)
  | .error e => .error e

/-- A new node object. -/
def newObj (o : Obj PrimType (PVal K)) : HAlloc K Nat :=
  fun s => .ok (s.heap.length, { s with heap := s.heap ++ [o] })

/-- The classes of the objects at the addresses. -/
def types (as : List Nat) (s : Store K) : Py (List PrimType) :=
  pyMap (fun a => do let o ← s.heap.obj a; .ok o.ty) as

/-- `primitives.py:111-145`: the checks of `PrimitiveNode.__init__` of class `t`. -/
def check (t : PrimType) (v : PVal K) (types : List PrimType) : Py Unit :=
  if v.arr.length ≠ PrimType.table.size t then .error .assertionError
  else match PrimType.table.sig t with
    | .tuple sig => validatePrims PrimType.table types sig
    | .anyOf alts => do
      if ← anyMatch PrimType.table types alts then .ok () else .error .valueError

/-- `primitives.py:172-194` and `111-145`, `Primitive.__init__` once `value` is known; the new
object refers to the given children. -/
def init (t : PrimType) (v : PVal K) (keys : List Str) (prims : List Nat) : HAlloc K Nat := do
  let children := dictOfZip keys prims
  let ts ← lift (types (children.map (·.2)))
  lift fun _ => check t v ts
  newObj ⟨t, v, children⟩

/-- `primitives.py:178-185`: `value = default_value()` if no value was given. -/
def orDefault (dflt : List K) : Option (PVal K) → HAlloc K (PVal K)
  | none => newArray dflt
  | some v => pure v

variable [PyNum K]

/-- `primitives.py:276-301`, `Point(value, prims)`. -/
def newPoint (value : Option (PVal K)) : HAlloc K Nat := do
  let v ← orDefault [0, 0] value
  init .point v [] []

/-- `primitives.py:303-327`, `Line(value, prims)`. -/
def newLine (value : Option (PVal K)) (prims : Option (List Nat)) : HAlloc K Nat := do
  let v ← orDefault [] value
  let ps ← match prims with
    | some ps => pure ps
    | none => do
      let a ← newArray [0, 0]
      let p0 ← newPoint (some a)
      let b ← newArray [0, 1]
      let p1 ← newPoint (some b)
      pure [p0, p1]
  init .line v [k!"Point0", k!"Point1"] ps

/-- `primitives.py:367-370`: one new `Line` for every pair of points; consecutive lines refer to
the same point object. -/
def polygonLines : List (Nat × Nat) → HAlloc K (List Nat)
  | [] => pure []
  | (a, b) :: rest => do
    let v ← newArray []
    let l ← newLine (some v) (some [a, b])
    let ls ← polygonLines rest
    pure (l :: ls)

/-- `primitives.py:362-372`, `Polygon.init_children(points)`. -/
def polygonChildren (points : List Nat) : HAlloc K (List Str × List Nat) := do
  let lines ← polygonLines (points.zip (points.drop 1 ++ points.take 1))
  pure ((List.range lines.length).map (fun n => k!"Line" ++ natStr n), lines)

/-- `[Point((x, y)) for x, y in zip(xs, ys)]` (`primitives.py:384,425`). -/
def newPoints : List (K × K) → HAlloc K (List Nat)
  | [] => pure []
  | (x, y) :: rest => do
    let a ← newArray [x, y]
    let p ← newPoint (some a)
    let ps ← newPoints rest
    pure (p :: ps)

/-- `primitives.py:378-384`, `Polygon.default_prims(size)`. -/
def polygonDefault (size : Nat) : HAlloc K (List Nat) :=
  if size = 0 then lift fun _ => .error .zeroDivision
  else newPoints ((List.range size).map fun (i : Nat) =>
    let a : K := ((2 : Nat) : K) * PyNum.pi / ((size : Nat) : K) * ((i : Nat) : K)
    (PyNum.cos a, PyNum.sin a))

/-- `primitives.py:354-360`, `Polygon(value, prims, size)`. -/
def newPolygon (value : Option (PVal K)) (prims : Option (List Nat)) (size : Nat := 3) :
    HAlloc K Nat := do
  let v ← orDefault [] value
  let ps ← match prims with
    | some ps => pure ps
    | none => polygonDefault size
  let (keys, lines) ← polygonChildren ps
  init .polygon v keys lines

/-- `primitives.py:409-425`, `Quadrilateral(value, children)`. -/
def newQuadrilateral (value : Option (PVal K)) (prims : Option (List Nat)) : HAlloc K Nat := do
  let v ← orDefault [] value
  let ps ← match prims with
    | some ps => pure ps
    | none => newPoints [(0, 0), (1, 0), (1, 1), (0, 1)]
  let (keys, lines) ← polygonChildren ps
  init .quadrilateral v keys lines

/-- `(Quadrilateral(), Point())` if `b`, else `()` (`primitives.py:541-553`). -/
def axisPrims (b : Bool) : HAlloc K (List Nat) :=
  if b then do
    let q ← newQuadrilateral none none
    let p ← newPoint none
    pure [q, p]
  else pure []

/-- `primitives.py:533-559`, `Axes.default_prims`. -/
def axesDefault (xaxis yaxis twinx twiny : Bool) : HAlloc K (List Nat) := do
  let x ← axisPrims xaxis
  let tx ← axisPrims (xaxis && twinx)
  let y ← axisPrims yaxis
  let ty ← axisPrims (yaxis && twiny)
  let frame ← newQuadrilateral none none
  pure ([frame] ++ (x ++ y) ++ (tx ++ ty))

/-- `primitives.py:481-490`, `Axes(value, prims, xaxis, yaxis, twinx, twiny)`. -/
def newAxes (value : Option (PVal K)) (prims : Option (List Nat))
    (xaxis yaxis twinx twiny : Bool) : HAlloc K Nat := do
  let v ← orDefault [] value
  let ps ← match prims with
    | some ps => pure ps
    | none => axesDefault xaxis yaxis twinx twiny
  init .axes v (axesKeys xaxis yaxis twinx twiny) ps

end HAlloc

/-! ## Programs on the heap -/

/-- The state of a program: arrays and node objects, the variables, the address of the layout's
root primitive, and the rest of the layout (`layout.py:62-87`), whose field `prim` is not used. -/
structure HSession (K : Type) where
  store : Store K
  arrays : List (PVal K)
  prims : List Nat
  root : Nat
  rest : Layout K

namespace HSession

/-- After `layout = Layout()` (`layout.py:62-87`): one node object, the root primitive. -/
def start : HSession K :=
  ⟨⟨1, [⟨.primitiveNode, ⟨0, []⟩, []⟩]⟩, [], [], 0, Layout.empty 0⟩

/-- Evaluate a `value` argument (`primitives.py:178-185`). -/
def value (s : HSession K) : ValueArg K → HAlloc K (Option (PVal K))
  | .default => pure none
  | .literal xs => do
    let v ← HAlloc.newArray xs
    pure (some v)
  | .var i => do
    let v ← HAlloc.lift fun _ => Session.var s.arrays i
    pure (some v)

/-- Evaluate a `prims` argument: references to the objects in the variables. -/
def args (s : HSession K) : Option (List Nat) → HAlloc K (Option (List Nat))
  | none => pure none
  | some is => do
    let ps ← HAlloc.lift fun _ => pyMap (Session.var s.prims) is
    pure (some ps)

/-- Evaluate a constructor call. -/
def eval [PyNum K] (s : HSession K) : PrimExpr K → HAlloc K Nat
  | .point v => do
    let v ← s.value v
    HAlloc.newPoint v
  | .line v ps => do
    let v ← s.value v
    let ps ← s.args ps
    HAlloc.newLine v ps
  | .polygon v ps size => do
    let v ← s.value v
    let ps ← s.args ps
    HAlloc.newPolygon v ps size
  | .quadrilateral v ps => do
    let v ← s.value v
    let ps ← s.args ps
    HAlloc.newQuadrilateral v ps
  | .axes v ps x y tx ty => do
    let v ← s.value v
    let ps ← s.args ps
    HAlloc.newAxes v ps x y tx ty

/-- `layout.py:134-147`, `add_prim(prim, key)` for the object at address `a`. -/
def addPrim (s : HSession K) (a : Nat) (key : Str) : HSession K × Py Unit :=
  match s.store.heap.addChild s.root key a with
  | .ok h => ({ s with store := { s.store with heap := h } }, .ok ())
  | .error e => (s, .error e)

/-- `layout.py:149-159`, `add_prims(prims)`. -/
def addPrims (s : HSession K) : List (Str × Nat) → HSession K × Py Unit
  | [] => (s, .ok ())
  | (key, a) :: ps => match s.addPrim a key with
    | (s, .ok ()) => s.addPrims ps
    | (s, .error e) => (s, .error e)

/-- `tuple(self.root_prim[key] for key in prim_keys)` (`layout.py:198`): of the objects found only
the classes matter to the check, so their children are left out. -/
def lookup (s : HSession K) (keys : List Str) : Py (List (Prim K)) :=
  pyMap (fun key => do
    let a ← s.store.heap.getChild s.root key
    let o ← s.store.heap.obj a
    .ok (.mk o.ty o.value [])) keys

/-- `layout.py:197-205`: the checks before anything is stored. -/
def check (s : HSession K) (c : Cons K) (primKeys : List Str) (param : List (Param K)) : Py Unit := do
  reraiseType (do
    let prims ← s.lookup primKeys
    c.validatePrims prims)
  reraiseType (c.validateParams param)

/-- `layout.py:195-209`: everything after the key is known.  `Layout.store` does not look at the
primitives. -/
def checkAndStore (s : HSession K) (c : Cons K) (primKeys : List Str) (param : List (Param K))
    (key : Str) : HSession K × Py Unit :=
  match s.check c primKeys param with
  | .ok () => ({ s with rest := (s.rest.store c primKeys param key).1 },
      (s.rest.store c primKeys param key).2)
  | .error e => (s, .error e)

/-- `layout.py:161-209`, `add_constraint(constraint, prim_keys, param, key)`. -/
def addConstraint (s : HSession K) (c : Cons K) (primKeys : List Str) (param : List (Param K))
    (key : Str) : HSession K × Py Unit :=
  if key = [] then
    match s.rest.autoKey c with
    | (counter, .ok key) =>
      ({ s with rest := { s.rest with counter := counter } }).checkAndStore c primKeys param key
    | (counter, .error e) => ({ s with rest := { s.rest with counter := counter } }, .error e)
  else s.checkAndStore c primKeys param key

/-- Execute a statement: the state afterwards and the outcome.  A constructor that raises leaves
nothing behind that anything refers to. -/
def step [PyNum K] (s : HSession K) : Stmt K → HSession K × Py Unit
  | .array xs =>
    ({ s with store := { s.store with next := s.store.next + 1 },
              arrays := s.arrays ++ [⟨s.store.next, xs⟩] }, .ok ())
  | .make e => match s.eval e s.store with
    | .ok (a, st) => ({ s with store := st, prims := s.prims ++ [a] }, .ok ())
    | .error e => (s, .error e)
  | .addPrim i key => match Session.var s.prims i with
    | .ok a => s.addPrim a key
    | .error e => (s, .error e)
  | .addPrims ps =>
    match pyMap (fun kp => do let a ← Session.var s.prims kp.2; .ok (kp.1, a)) ps with
    | .ok qs => s.addPrims qs
    | .error e => (s, .error e)
  | .addConstraint c primKeys param key => s.addConstraint c primKeys param key

/-- Execute a program whose exceptions are caught statement by statement. -/
def run [PyNum K] (s : HSession K) (prog : List (Stmt K)) : HSession K :=
  prog.foldl (fun s st => (s.step st).1) s


end HSession

end MplLayout
