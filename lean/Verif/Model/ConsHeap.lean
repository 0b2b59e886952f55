import Verif.Model.NodeHeap

/-!
# Constraints as objects

`layout.py:207`: `self.root_constraint.add_child(key, constraint)` stores a reference to the
constraint object that the caller passed; the caller may pass the same object again under another
key.  `Model/Layout.lean` treats constraints as values.  Here they are objects on a heap
(`Model/NodeHeap.lean`), and a program holds them in variables.

Simplification: primitives, primitive keys and parameters remain values (for primitives see
`Model/NodeHeap.lean`; `root_prim_keys` and `root_params` make new nodes at every call,
`constructions.py:316-364`).
-/

namespace MplLayout

variable {τ α K : Type}

namespace Heap

/-- `containers.py:164-172`, `key in node` for the object at `a`, on the components of the key. -/
def containsPath (h : Heap τ α) (a : Nat) : List Str → Py Bool
  | [] => .error .indexError
  | k :: ks => do
    let o ← h.obj a
    if joinSlash ks = [] then .ok (dictHas o.children k)
    else match dictGet o.children k with
      | some c => containsPath h c ks
      | none => .error (.keyError k)

/-- `containers.py:164-172`, `key in node` for the object at `a`. -/
def contains (h : Heap τ α) (a : Nat) (key : Str) : Py Bool := h.containsPath a (splitAll key)

/-- What a recursive function over the object at `a` and its children sees: the tree of values.  A
path without repetition has at most `h.length` objects; if the objects do not form a tree the
recursion does not end (Python: `RecursionError`). -/
def read (h : Heap τ α) : Nat → Nat → Py (Node τ α)
  | 0, _ => .error .outOfFuel
  | fuel + 1, a => do
    let o ← h.obj a
    let cs ← pyMap (fun kc => do let n ← read h fuel kc.2; .ok (kc.1, n)) o.children
    .ok (.mk o.ty o.value cs)

/-- The tree at an address. -/
def tree (h : Heap τ α) (a : Nat) : Py (Node τ α) := h.read (h.length + 1) a

end Heap

/-- A statement of a program that keeps constraint objects in variables. -/
inductive CStmt (K : Type) where
  /-- `c = SomeConstraint(...)`: the new objects, children before parents, the constraint itself
  last; children are given by their position in this list.  An object may occur below several
  parents (`num_constr * (construction,)`, `constructions.py:1567`). -/
  | make (objs : List (Obj (ConsClass K) (ConsVal K)))
  /-- `layout.add_prim(prim, key)` -/
  | addPrim (prim : Prim K) (key : Str)
  /-- `layout.add_constraint(c, prim_keys, param, key)` with `c` the constraint in variable `i` -/
  | addConstraint (i : Nat) (primKeys : List Str) (param : List (Param K)) (key : Str)

/-- The state of such a program: constraint objects, the variables, the address of the layout's root
constraint, and the rest of the layout (`layout.py:62-87`), whose field `cons` is not used. -/
structure CSession (K : Type) where
  heap : Heap (ConsClass K) (ConsVal K)
  vars : List Nat
  root : Nat
  rest : Layout K

namespace CSession

/-- After `layout = Layout()` (`layout.py:62-87`): one object, the root constraint. -/
def start : CSession K := ⟨[⟨rootClass, rootVal, []⟩], [], 0, Layout.empty 0⟩

/-- `layout.py:188-192`, the automatic key for a constraint of the given class. -/
def autoKey (s : CSession K) (cls : Str) : ItemCounter × Py Str :=
  let fuel := match s.heap.obj s.root with
    | .ok o => o.children.length + s.rest.keys.len + s.rest.params.len + 1
    | .error _ => 0
  match s.rest.counter.addItemToNodes cls
      [s.heap.contains s.root, s.rest.keys.contains, s.rest.params.contains] fuel with
  | some r => r
  | none => (s.rest.counter, .error .outOfFuel)

/-- `layout.py:208-209`: keys and parameters are computed from the constraint object as it is after
line 207 has stored it. -/
def storeRest (s : CSession K) (a : Nat) (primKeys : List Str) (param : List (Param K)) (key : Str) :
    CSession K × Py Unit :=
  match s.heap.tree a with
  | .ok c => ({ s with rest := (s.rest.storeKeys c primKeys param key).1 },
      (s.rest.storeKeys c primKeys param key).2)
  | .error e => (s, .error e)

/-- `layout.py:207-209`: the three stores; line 207 changes an object in place. -/
def store (s : CSession K) (a : Nat) (primKeys : List Str) (param : List (Param K)) (key : Str) :
    CSession K × Py Unit :=
  match s.heap.addChild s.root key a with
  | .ok h => ({ s with heap := h }).storeRest a primKeys param key
  | .error e => (s, .error e)

/-- `layout.py:195-209`: everything after the key is known.  The checks (lines 197-205) only look at
the signature of the constraint, so its children are left out. -/
def checkAndStore (s : CSession K) (a : Nat) (primKeys : List Str) (param : List (Param K))
    (key : Str) : CSession K × Py Unit :=
  match (do
    let o ← s.heap.obj a
    s.rest.check (.mk o.ty o.value []) primKeys param) with
  | .ok () => s.store a primKeys param key
  | .error e => (s, .error e)

/-- `layout.py:161-209`, `add_constraint(constraint, prim_keys, param, key)` for the object at `a`. -/
def addConstraint (s : CSession K) (a : Nat) (primKeys : List Str) (param : List (Param K))
    (key : Str) : CSession K × Py Unit :=
  if key = [] then
    match s.heap.obj a with
    | .ok o => match s.autoKey o.ty.name with
      | (counter, .ok key) =>
        ({ s with rest := { s.rest with counter := counter } }).checkAndStore a primKeys param key
      | (counter, .error e) => ({ s with rest := { s.rest with counter := counter } }, .error e)
    | .error e => (s, .error e)
  else s.checkAndStore a primKeys param key

/-- Execute a statement: the state afterwards and the outcome. -/
def step (s : CSession K) : CStmt K → CSession K × Py Unit
  | .make objs =>
    ({ s with
        heap := s.heap ++ objs.map fun o =>
          { o with children := o.children.map fun kc => (kc.1, s.heap.length + kc.2) }
        vars := s.vars ++ [s.heap.length + (objs.length - 1)] }, .ok ())
  | .addPrim prim key =>
    ({ s with rest := (s.rest.addPrim prim key).1 }, (s.rest.addPrim prim key).2)
  | .addConstraint i primKeys param key => match Session.var s.vars i with
    | .ok a => s.addConstraint a primKeys param key
    | .error e => (s, .error e)

/-- Execute a program whose exceptions are caught statement by statement. -/
def run (s : CSession K) (prog : List (CStmt K)) : CSession K :=
  prog.foldl (fun s st => (s.step st).1) s

/-- The layout that a reader of the four trees sees (`layout.py:89-132`). -/
def layout (s : CSession K) : Py (Layout K) := do
  let c ← s.heap.tree s.root
  .ok { s.rest with cons := c }

end CSession

end MplLayout
