import Verif.Model.Layout

/-!
# User programs

A user of the library makes arrays and primitives, keeps them in variables, builds other primitives
from them, and adds them and constraints to one layout (`README.md`, `examples/*.py`).  Whether two
primitives share a point is decided here, by which objects the program passes where.

Simplifications: the program has no control flow (it stands for the sequence of calls that a run
makes, each of which may raise and be caught), one layout, and no calls other than the constructors
of `primitives.py` and the methods of `Layout`.  `add_prim` with a key below an existing primitive
changes that primitive in place, which variables may also name; this effect is modelled in
`Model/NodeHeap.lean` (C79), and `Stmt.TopLevel` (`Spec/Program.lean`) excludes such calls here.
-/

namespace MplLayout

variable {K : Type}

/-- The argument `value` of a constructor (`primitives.py:172-185`): `None`, a list or tuple (which
becomes a new array, line 180-181), or an array that the program keeps in a variable. -/
inductive ValueArg (K : Type) where
  | default
  | literal (xs : List K)
  | var (i : Nat)

/-- A call of a constructor (`primitives.py:276-561`); primitives are passed as variables. -/
inductive PrimExpr (K : Type) where
  | point (v : ValueArg K)
  | line (v : ValueArg K) (prims : Option (List Nat))
  | polygon (v : ValueArg K) (prims : Option (List Nat)) (size : Nat)
  | quadrilateral (v : ValueArg K) (prims : Option (List Nat))
  | axes (v : ValueArg K) (prims : Option (List Nat)) (xaxis yaxis twinx twiny : Bool)

/-- One statement. -/
inductive Stmt (K : Type) where
  /-- `a = np.array(xs)` -/
  | array (xs : List K)
  /-- `p = Constructor(…)` -/
  | make (e : PrimExpr K)
  /-- `layout.add_prim(p, key)` -/
  | addPrim (i : Nat) (key : Str)
  /-- `layout.add_prims({key: p, …})` -/
  | addPrims (ps : List (Str × Nat))
  /-- `layout.add_constraint(c, prim_keys, param, key)` -/
  | addConstraint (c : Cons K) (primKeys : List Str) (param : List (Param K)) (key : Str)

/-- The state of a program: the first unused object identity, the variables and the layout. -/
structure Session (K : Type) where
  next : Nat
  arrays : List (PVal K)
  prims : List (Prim K)
  layout : Layout K

namespace Session

/-- After `layout = Layout()` (`layout.py:62-87`), whose root primitive holds a new empty array. -/
def start : Session K := ⟨1, [], [], Layout.empty 0⟩

/-- An unknown variable is a `NameError`; here `RuntimeError`. -/
def var {α : Type} (xs : List α) (i : Nat) : Py α :=
  match xs[i]? with
  | some a => .ok a
  | none => .error .runtimeError

/-- Evaluate a `value` argument (`primitives.py:178-185`). -/
def value (s : Session K) : ValueArg K → Alloc (Option (PVal K))
  | .default => pure none
  | .literal xs => do
    let v ← newArray xs
    pure (some v)
  | .var i => do
    let v ← liftPy (var s.arrays i)
    pure (some v)

/-- Evaluate a `prims` argument. -/
def args (s : Session K) : Option (List Nat) → Alloc (Option (List (Prim K)))
  | none => pure none
  | some is => do
    let ps ← liftPy (pyMap (var s.prims) is)
    pure (some ps)

/-- Evaluate a constructor call. -/
def eval [PyNum K] (s : Session K) : PrimExpr K → Alloc (Prim K)
  | .point v => do
    let v ← s.value v
    newPoint v
  | .line v ps => do
    let v ← s.value v
    let ps ← s.args ps
    newLine v ps
  | .polygon v ps size => do
    let v ← s.value v
    let ps ← s.args ps
    newPolygon v ps size
  | .quadrilateral v ps => do
    let v ← s.value v
    let ps ← s.args ps
    newQuadrilateral v ps
  | .axes v ps x y tx ty => do
    let v ← s.value v
    let ps ← s.args ps
    newAxes v ps x y tx ty

/-- The call of a method of the layout that a statement makes, if it is one and its variables exist. -/
def call (s : Session K) : Stmt K → Py (LayoutOp K)
  | .addPrim i key => do
    let p ← var s.prims i
    .ok (.addPrim p key)
  | .addPrims ps => do
    let qs ← pyMap (fun kp => do let p ← var s.prims kp.2; .ok (kp.1, p)) ps
    .ok (.addPrims qs)
  | .addConstraint c primKeys param key => .ok (.addConstraint c primKeys param key)
  | .array _ | .make _ => .error .runtimeError

/-- Call a method of the layout (`layout.py:134-209`). -/
def stepCall (s : Session K) : Py (LayoutOp K) → Session K × Py Unit
  | .ok op => ({ s with layout := (s.layout.step op).1 }, (s.layout.step op).2)
  | .error e => (s, .error e)

/-- Execute a statement: the state afterwards and the outcome.  A constructor that raises leaves
nothing behind. -/
def step [PyNum K] (s : Session K) : Stmt K → Session K × Py Unit
  | .array xs => ({ s with next := s.next + 1, arrays := s.arrays ++ [⟨s.next, xs⟩] }, .ok ())
  | .make e => match s.eval e s.next with
    | .ok (p, n) => ({ s with next := n, prims := s.prims ++ [p] }, .ok ())
    | .error e => (s, .error e)
  | .addPrim i key => s.stepCall (s.call (.addPrim i key))
  | .addPrims ps => s.stepCall (s.call (.addPrims ps))
  | .addConstraint c primKeys param key => s.stepCall (s.call (.addConstraint c primKeys param key))

/-- Execute a program whose exceptions are caught statement by statement. -/
def run [PyNum K] (s : Session K) (prog : List (Stmt K)) : Session K :=
  prog.foldl (fun s st => (s.step st).1) s

end Session

end MplLayout
