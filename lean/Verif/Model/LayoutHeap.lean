import Verif.Model.Layout
import Mathlib.Logic.Function.Basic

/-!
# Layouts as objects that share trees

`layout.py:263-268`: the layout returned by `update_layout_constraints` is a new object whose
`root_prim`, `root_constraint` and `root_prim_keys` are the *same* tree objects as those of its
argument, and whose `root_param` and item counter are new.  Here a layout object is five addresses
into a store.

Simplification: a whole tree is one cell (no two trees have a node in common).
-/

namespace MplLayout

variable {K : Type}

/-- A `Layout` object: the addresses of its trees and of its item counter (`layout.py:62-87`). -/
structure LayoutRef where
  prim : Nat
  cons : Nat
  keys : Nat
  params : Nat
  counter : Nat
deriving DecidableEq

/-- The store: what is at each address, and the first unused address. -/
structure World (K : Type) where
  prims : Nat → Prim K
  conss : Nat → Cons K
  keyss : Nat → KeysNode
  paramss : Nat → ParamsNode K
  counters : Nat → ItemCounter
  next : Nat

namespace World

/-- The state of a layout object. -/
def read (w : World K) (r : LayoutRef) : Layout K :=
  ⟨w.prims r.prim, w.conss r.cons, w.keyss r.keys, w.paramss r.params, w.counters r.counter⟩

/-- In-place changes of the trees of a layout object. -/
def write (w : World K) (r : LayoutRef) (l : Layout K) : World K :=
  { w with
    prims := Function.update w.prims r.prim l.prim
    conss := Function.update w.conss r.cons l.cons
    keyss := Function.update w.keyss r.keys l.keys
    paramss := Function.update w.paramss r.params l.params
    counters := Function.update w.counters r.counter l.counter }

/-- A new layout object with a state of its own (`layout.py:62-87` without arguments, and what was
done to it since). -/
def alloc (w : World K) (l : Layout K) : World K × LayoutRef :=
  let r : LayoutRef := ⟨w.next, w.next, w.next, w.next, w.next⟩
  ({ w.write r l with next := w.next + 1 }, r)

/-- `layout.py:134-209`: a call of a method of the layout object `r`, which changes its trees in
place. -/
def step (w : World K) (r : LayoutRef) (op : LayoutOp K) : World K × Py Unit :=
  (w.write r ((w.read r).step op).1, ((w.read r).step op).2)

/-- A sequence of calls on layout objects. -/
def run (w : World K) (ops : List (LayoutRef × LayoutOp K)) : World K :=
  ops.foldl (fun w op => (w.step op.1 op.2).1) w

/-- `layout.py:211-268`, `update_layout_constraints(layout, axs)`: the new object shares three
trees with `r` (lines 263-267); its parameter tree (line 257, `copy`) and its counter
(`layout.py:84`) are new.  If it raises, nothing has changed. -/
def update (w : World K) (r : LayoutRef) (axs : List (Str × MplAxes K)) : Py (World K × LayoutRef) := do
  let l' ← updateLayoutConstraints (w.read r) axs
  let r' : LayoutRef := { r with params := w.next, counter := w.next }
  .ok ({ w.write r' l' with next := w.next + 1 }, r')

end World

end MplLayout
