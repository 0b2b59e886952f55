import Verif.Model.Containers

/-!
# `Node.__getitem__` with every kind of key (`containers.py:225-248`)

`node[key]` for strings, integers, booleans, slices (with any step) and other objects.  Simplification: the
ends and the step of a slice are integers or `None` (other objects make Python raise `TypeError`).
-/

namespace MplLayout

/-- One end of the slice of a sequence of `len` items, as `PySlice_AdjustIndices` adjusts it (called by
`list(self.children.values())[key]`, `containers.py:246`). -/
def adjustIndex (len : Nat) (neg : Bool) (i : Int) : Int :=
  if i < 0 then
    let j := i + len
    if j < 0 then (if neg then -1 else 0) else j
  else if (len : Int) ≤ i then (if neg then (len : Int) - 1 else len)
  else i

/-- The number of items between `start` and `stop` (the result of `PySlice_AdjustIndices`; `containers.py:246`). -/
def sliceCount (start stop step : Int) : Nat :=
  if step < 0 then
    if stop < start then ((start - stop - 1) / (-step) + 1).toNat else 0
  else
    if start < stop then ((stop - start - 1) / step + 1).toNat else 0

/-- `xs[start:stop:step]` for a Python list (`containers.py:246`). -/
def pySliceStep {β : Type} (xs : List β) (start stop step : Option Int) : Py (List β) :=
  let s := step.getD 1
  if s = 0 then .error .valueError
  else
    let neg : Bool := decide (s < 0)
    let a : Int := match start with
      | none => if neg then (xs.length : Int) - 1 else 0
      | some i => adjustIndex xs.length neg i
    let b : Int := match stop with
      | none => if neg then -1 else xs.length
      | some i => adjustIndex xs.length neg i
    .ok ((List.range (sliceCount a b s)).filterMap fun i : Nat => xs[(a + i * s).toNat]?)

/-- What may stand in `node[...]` (`containers.py:225`): `other` is an object that is neither a string nor
an integer nor a slice.  `bool` is a subclass of `int` in Python. -/
inductive ItemKey where
  | str (key : Str)
  | int (i : Int)
  | bool (b : Bool)
  | slice (start stop step : Option Int)
  | other

/-- What `node[...]` returns (`containers.py:225`): a node or a list of nodes. -/
inductive Item (τ α : Type) where
  | one (n : Node τ α)
  | many (ns : List (Node τ α))

namespace Node

variable {τ α : Type}

/-- `containers.py:225-248`, `__getitem__`. -/
def getItem (n : Node τ α) : ItemKey → Py (Item τ α)
  | .str k => do .ok (.one (← n.getChild k))
  | .int i => do .ok (.one (← pyIndex n.values i))
  | .bool b => do .ok (.one (← pyIndex n.values (if b then 1 else 0)))
  | .slice a b s => do .ok (.many (← pySliceStep n.values a b s))
  | .other => .error .typeError

end Node

end MplLayout
