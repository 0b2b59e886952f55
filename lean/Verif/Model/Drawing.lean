import Verif.Model.Shipped

/-!
# Model of `src/mpllayout/matplotlibutils.py`

What the functions tell `matplotlib` to do, in order.  Not modelled: how `matplotlib` reacts to these
calls, and which calls were already made when an exception is raised (an exception discards the list
here).
-/

namespace MplLayout

variable {K : Type} [PyNum K]

/-- `x, y = array`. -/
def unpack2 : Arr K → Py (K × K)
  | .vec [x, y] => .ok (x, y)
  | _ => .error .valueError

/-- `matplotlibutils.py:167-186`, `width_and_height_from_quad(quad)`. -/
def widthAndHeight (quad : Prim K) : Py (K × K) := do
  let bl ← quad.getChild k!"Line0/Point0"
  let (xmin, ymin) ← unpack2 (.vec bl.value.arr)
  let tr ← quad.getChild k!"Line1/Point1"
  let (xmax, ymax) ← unpack2 (.vec tr.value.arr)
  .ok (xmax - xmin, ymax - ymin)

/-- `matplotlibutils.py:189-226`, `rect_from_box(quad, fig_origin, fig_size)`:
`(xmin, ymin, width, height)`. -/
def rectFromBox (quad : Prim K) (figOrigin figSize : Arr K) : Py (K × K × K × K) := do
  let bl ← quad.getChild k!"Line0/Point0"
  let d ← Arr.sub (.vec bl.value.arr) figOrigin
  let (xmin, ymin) ← unpack2 (← Arr.div d figSize)
  let tr ← quad.getChild k!"Line1/Point1"
  let d ← Arr.sub (.vec tr.value.arr) figOrigin
  let (xmax, ymax) ← unpack2 (← Arr.div d figSize)
  .ok (xmin, ymin, xmax - xmin, ymax - ymin)

/-- `np.linalg.norm(res)` for a one-dimensional array. -/
def norm1 (xs : List K) : K := PyNum.sqrt (Arr.sumList (xs.map fun x => x * x))

/-- `np.argmin` of a nonempty list: the first smallest entry, together with its value.
Simplification: `nan` entries compare false here, while `numpy` treats them as smallest. -/
def argmin {α : Type} (best : α × K) : List (α × K) → α × K
  | [] => best
  | x :: xs => argmin (if PyNum.lt x.2 best.2 then x else best) xs

/-- `matplotlibutils.py:131-164`, `find_axis_position(axes_frame, axis)`: the position, and whether
the warning is issued (`not np.isclose(min, 0)`: the smallest residual, which is not negative, is
not at most `1e-8`).  The dictionary `{"reverse": True}` is passed as the parameter `reverse` and is
only used as a condition, so it is modelled by `True`. -/
def findAxisPosition (frame axis : Prim K) : Py (con.Side × Bool) := do
  let res (i j : Str) : Py K := do
    let l0 ← frame.getChild i
    let l1 ← axis.getChild j
    let r ← ct.coincidentLines.call [l0, l1] [.bool true]
    .ok (norm1 r)
  let bottom ← res k!"Line0" k!"Line2"
  let top ← res k!"Line2" k!"Line0"
  let left ← res k!"Line3" k!"Line1"
  let right ← res k!"Line1" k!"Line3"
  let m := argmin (.bottom, bottom) [(con.Side.top, top), (.left, left), (.right, right)]
  .ok (m.1, !PyNum.le m.2 (1 / ((100000000 : Nat) : K)))

/-- A call on a `matplotlib` object; axes are numbered in the order in which they were added to the
figure. -/
inductive DrawCall (K : Type) where
  /-- `plt.figure(figsize)` (`matplotlibutils.py:52`) -/
  | newFigure (w h : K)
  /-- `fig.add_axes(rect)` returning axes number `ax` -/
  | addAxes (ax : Nat) (rect : K × K × K × K)
  /-- `fig.set_size_inches` -/
  | setSize (w h : K)
  /-- `ax.set_position(rect)` -/
  | setPosition (ax : Nat) (rect : K × K × K × K)
  /-- `ax.xaxis/yaxis.set_label_coords(x, y, transform=fig.transFigure)` -/
  | setLabelCoords (ax : Nat) (axis : AxisKind) (x y : K)
  /-- `ax.xaxis/yaxis.set_ticks_position(side)` -/
  | setTicksPosition (ax : Nat) (axis : AxisKind) (side : con.Side)
deriving DecidableEq

/-- The prefix `X` or `Y`. -/
def AxisKind.pre : AxisKind → Str
  | .x => k!"X"
  | .y => k!"Y"

/-- `matplotlibutils.py:111-118`: place the axis label, if the axes has one. -/
def labelCalls (root axesPrim : Prim K) (figSize : Arr K) (key : Str) (ax : Nat)
    (kind : AxisKind) : Py (List (DrawCall K)) := do
  let axisLabel := kind.pre ++ k!"AxisLabel"
  if ← axesPrim.contains axisLabel then
    let p ← root.getChild (key ++ k!"/" ++ axisLabel)
    let d ← Arr.div (.vec p.value.arr) figSize
    let (x, y) ← unpack2 d
    .ok [.setLabelCoords ax kind x y]
  else .ok []

/-- `matplotlibutils.py:121-127`: place the ticks, if the axes has an axis box. -/
def tickCalls (root axesPrim : Prim K) (key : Str) (ax : Nat) (frame : Prim K)
    (kind : AxisKind) : Py (List (DrawCall K)) := do
  let axisBbox := kind.pre ++ k!"Axis"
  if ← axesPrim.contains axisBbox then
    let axisQuad ← root.getChild (key ++ k!"/" ++ axisBbox)
    let pos ← findAxisPosition frame axisQuad
    .ok [.setTicksPosition ax kind pos.1]
  else .ok []

/-- `matplotlibutils.py:108-127`: the body of the inner loop, for the axes `ax` with the given key
and frame. -/
def updateAxis (root : Prim K) (figSize : Arr K) (key : Str) (ax : Nat) (frame : Prim K)
    (kind : AxisKind) : Py (List (DrawCall K)) := do
  let axesPrim ← root.getChild key
  let labels ← labelCalls root axesPrim figSize key ax kind
  let ticks ← tickCalls root axesPrim key ax frame kind
  .ok (labels ++ ticks)

/-- `matplotlibutils.py:98-127`: the body of the outer loop. -/
def updateAxes (root : Prim K) (figOrigin figSize : Arr K) (kv : Str × Nat) :
    Py (List (DrawCall K)) := do
  let quad ← root.getChild (kv.1 ++ k!"/Frame")
  let rect ← rectFromBox quad figOrigin figSize
  let x ← updateAxis root figSize kv.1 kv.2 quad .x
  let y ← updateAxis root figSize kv.1 kv.2 quad .y
  .ok (.setPosition kv.2 rect :: (x ++ y))

/-- `matplotlibutils.py:66-129`, `update_subplots(root_prim, fig_key, fig, axs)`. -/
def updateSubplots (root : Prim K) (figKey : Str) (axs : List (Str × Nat)) :
    Py (List (DrawCall K)) := do
  let quad ← root.getChild figKey
  let origin ← quad.getChild k!"Line0/Point0"
  let (w, h) ← widthAndHeight quad
  let rest ← pyMap (updateAxes root (.vec origin.value.arr) (.vec [w, h])) axs
  .ok (.setSize w h :: rest.flatten)

/-- Python `sub in s` for strings. -/
def hasSub (sub : Str) : Str → Bool
  | [] => sub.isPrefixOf []
  | c :: cs => sub.isPrefixOf (c :: cs) || hasSub sub cs

/-- `matplotlibutils.py:54-56`: the requested keys, or those containing `Axes`. -/
def axesKeysOf (root : Prim K) : Option (List Str) → List Str
  | some keys => keys
  | none => root.keys.filter (hasSub k!"Axes")

/-- `matplotlibutils.py:22-64`, `subplots(root_prim, fig_key, axs_keys)`: the calls, and the returned
dictionary of axes. -/
def subplots (root : Prim K) (figKey : Str) (axsKeys : Option (List Str)) :
    Py (List (DrawCall K) × List (Str × Nat)) := do
  let keys := axesKeysOf root axsKeys
  let created := (List.range keys.length).map fun i => DrawCall.addAxes i ((0, 0, 1, 1) : K × K × K × K)
  let keyToAx := dictOfZip keys (List.range keys.length)
  let calls ← updateSubplots root figKey keyToAx
  .ok (.newFigure 1 1 :: (created ++ calls), keyToAx)

end MplLayout
