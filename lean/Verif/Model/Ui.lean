import Verif.Model.Drawing

/-!
# Model of `src/mpllayout/ui.py`

What is drawn for which primitive.  A colour is the number between 0 and 1 that
is given to the colour map.  Not modelled: the colour map itself, fonts and offsets, `figure_prims`
(`ui.py:236-278`: axes decoration around `plot_prims`), and how `matplotlib` draws.
-/

namespace MplLayout

variable {K : Type} [PyNum K]

/-- `ui.py:41-54`, `rotation_from_line(line)`, in degrees. -/
def rotationFromLine (line : Prim K) : Py K := do
  let v ← con.lineVectorA [line]
  let u ← Arr.div v (Arr.norm v)
  let ux ← u.get 0
  let theta := ((180 : Nat) : K) / PyNum.pi * PyNum.acos ux
  let uy ← u.get 1
  .ok (if PyNum.lt uy 0 then theta + ((180 : Nat) : K) else theta)

/-- Something added to the axes. -/
inductive Artist (K : Type) where
  /-- `ax.plot([x], [y], marker=".")` -/
  | marker (x y alpha : K)
  /-- `ax.plot(xs, ys)` -/
  | path (xs ys : List K) (alpha : K)
  /-- `ax.add_patch(Polygon(verts, closed=True))` -/
  | patch (verts : List (List K)) (alpha : K)
  /-- `ax.annotate(label, (x, y), rotation=theta)`; `none` if there is no label text -/
  | text (label : Option Str) (pos : List K) (rotation : K) (alpha : K)

/-- `ui.py:22-39`, `plot_point`. -/
def plotPoint (p : Prim K) (label : Option Str) (alpha : K) : Py (List (Artist K)) := do
  let (x, y) ← unpack2 (.vec p.value.arr)
  .ok [.marker x y alpha, .text label [x, y] 0 alpha]

/-- `ui.py:56-82`, `plot_line`. -/
def plotLine (line : Prim K) (label : Option Str) (alpha : K) : Py (List (Artist K)) := do
  let len ← con.lengthA [line]
  let isZero ← match len with
    | .scalar x => .ok (!PyNum.truthy x)
    | .vec _ => .error .valueError
  if isZero then .ok []
  else do
    let xs ← pyMap (fun p : Prim K => (Arr.vec p.value.arr).get 0) line.values
    let ys ← pyMap (fun p : Prim K => (Arr.vec p.value.arr).get 1) line.values
    let half : K := 1 / ((2 : Nat) : K)
    let theta ← rotationFromLine line
    .ok [.path xs ys alpha,
      .text label [half * Arr.sumList xs, half * Arr.sumList ys] theta alpha]

/-- `ui.py:84-119`, `plot_polygon`. -/
def plotPolygon (polygon : Prim K) (label : Option Str) (alpha : K) : Py (List (Artist K)) := do
  let l0 ← polygon.getChild k!"Line0"
  let origin ← l0.getChild k!"Point0"
  let points ← pyMap (fun i => do
    let l ← polygon.getChild (k!"Line" ++ natStr i)
    l.getChild k!"Point0") (List.range polygon.len)
  let patch := Artist.patch (points.map (·.value.arr)) (1 / ((10 : Nat) : K) * alpha)
  match label with
  | none => .ok [patch]
  | some s => .ok [patch, .text (some s) origin.value.arr 0 alpha]

/-- `ui.py:185-214`, `make_plot(prim)` applied to the primitive; `plot_generic_prim`
(`ui.py:121-122`) draws nothing. -/
def plotOne (p : Prim K) (label : Option Str) (alpha : K) : Py (List (Artist K)) :=
  if p.ty.sub .point then plotPoint p label alpha
  else if p.ty.sub .line then plotLine p label alpha
  else if p.ty.sub .polygon then plotPolygon p label alpha
  else .ok []

/-- `ui.py:157-168`, the opacity of a primitive of the given height at the given depth. -/
def plotAlpha (primHeight depth : Nat) : K :=
  let s : K := if primHeight = 0 then 1 else ((primHeight - depth : Nat) : K) / ((primHeight : Nat) : K)
  1 * s + 1 / ((5 : Nat) : K) * (1 - s)

/-- One call of a plot function: the key and the primitive it was called for, its colour and opacity
and what it draws. -/
structure PlotCall (K : Type) where
  key : Str
  prim : Prim K
  color : K
  alpha : K
  artists : List (Artist K)

/-- `ui.py:144-172`: plot one primitive; `prim_height - depth` is never negative
(`prim_height = node_height + depth`). `color` is in `**kwargs`. -/
def plotNode (prim : Prim K) (key : Str) (color : K) (maxLabelDepth : Nat) : Py (PlotCall K) := do
  let splitKey := splitAll key
  let primHeight := prim.nodeHeight + splitKey.length - 1
  let depth := splitKey.length - 1
  let label := if depth > maxLabelDepth ∨ key = [] then none
    else some (List.replicate depth '.' ++ '/' :: splitKey.getLastD [])
  let alpha : K := plotAlpha primHeight depth
  let artists ← plotOne prim label alpha
  .ok ⟨key, prim, color, alpha, artists⟩

mutual
/-- `ui.py:124-182`, `plot_prim(ax, prim, prim_key, max_label_depth, color=color)`. -/
def plotPrim (maxLabelDepth : Nat) (color : K) (key : Str) : Prim K → Py (List (PlotCall K))
  | .mk t v cs => do
    let c ← plotNode (.mk t v cs) key color maxLabelDepth
    if t.sub .line then .ok [c]
    else do
      let rest ← plotPrimL maxLabelDepth color key cs
      .ok (c :: rest)
/-- `ui.py:174-182`: the loop over the children. -/
def plotPrimL (maxLabelDepth : Nat) (color : K) (key : Str) : List (Str × Prim K) → Py (List (PlotCall K))
  | [] => .ok []
  | (k, c) :: cs => do
    let a ← plotPrim maxLabelDepth color (key ++ '/' :: k) c
    let b ← plotPrimL maxLabelDepth color key cs
    .ok (a ++ b)
end

/-- `ui.py:217-233`, `plot_prims(ax, root_prim)`: the top-level primitives in order, the colour of
number `i` of `n` is `cmap(i / n)`. -/
def plotPrims (root : Prim K) : Py (List (PlotCall K)) := do
  let css ← pyMap (fun kci : (Str × Prim K) × Nat =>
    plotPrim 99 (((kci.2 : Nat) : K) / ((root.len : Nat) : K)) kci.1.1 kci.1.2) root.children.zipIdx
  .ok css.flatten

end MplLayout
