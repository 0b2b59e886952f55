import Verif.Model.Layout
import Verif.Spec.Constructions
import Verif.Spec.Shift
import Verif.Spec.Drawing

/-!
# Vocabulary for stating properties of layouts
-/

namespace MplLayout

variable {K τ α : Type}

namespace Layout

/-- Constraints, primitive keys and parameters are paired: there is a list of paths, each non-root
constraint node exactly once, such that the three flat lists have, position by position, the
constraint node at that path, the primitive keys at that path and the parameters at that path. -/
def Paired (l : Layout K) : Prop :=
  ∃ ps : List (List Str), ps.Nodup ∧ (∀ p, p ∈ ps ↔ p ≠ [] ∧ ∃ c, l.cons.At p c) ∧
    List.Forall₂ (fun p c => l.cons.At p c) ps l.flatConstraints.1 ∧
    List.Forall₂ (fun p ks => ∃ n, l.keys.At p n ∧ n.value = ks) ps l.flatConstraints.2.1 ∧
    List.Forall₂ (fun p qs => ∃ n, l.params.At p n ∧ n.value = qs) ps l.flatConstraints.2.2

/-- Every primitive key stored for a constraint names a primitive of the layout whose class is the
one that the constraint declares for that argument (or a subclass), and each constraint has as many
keys as it declares arguments. -/
def NoDangling (l : Layout K) : Prop :=
  ∀ p (c : Cons K) (ks : KeysNode), p ≠ [] → l.cons.At p c → l.keys.At p ks →
    List.Forall₂ (fun key t => ∃ prim, l.prim.getChild key = .ok prim ∧ prim.ty.IsA t)
      ks.value c.value.sig.primTypes

end Layout

/-- `b` has everything that `a` has: each node of `a` is in `b` with the same class and value
(possibly with more children). -/
def Node.Extends (b a : Node τ α) : Prop :=
  ∀ p m, a.At p m → ∃ m', b.At p m' ∧ m'.ty = m.ty ∧ m'.value = m.value

/-- The argument trees of a constraint can be built and have one node for each constraint node. -/
structure Cons.Fits (c : Cons K) (primKeys : List Str) (param : List (Param K)) : Prop where
  wf : c.WF
  aligned : c.Aligned param
  keys : ∃ t, c.rootPrimKeys primKeys = .ok t
  params : ∃ t, c.rootParams param = .ok t

/-- Trees given to a call are trees (no key twice at one node), and class names have no `/`. -/
def LayoutOp.Trees : LayoutOp K → Prop
  | .addPrim prim _ => prim.WF
  | .addPrims prims => ∀ kp ∈ prims, kp.2.WF
  | .addConstraint c _ _ _ => c.WF ∧ '/' ∉ c.ty.name

/-- Trees given to a call are trees (no key twice at one node), and the argument trees of a
constraint that is given as many primitive keys and parameters as it declares can be built. -/
def LayoutOp.Regular : LayoutOp K → Prop
  | .addPrim prim _ => prim.WF
  | .addPrims prims => ∀ kp ∈ prims, kp.2.WF
  | .addConstraint c primKeys param _ => '/' ∉ c.ty.name ∧
      (primKeys.length = c.value.sig.primTypes.length →
        param.length = c.value.sig.paramTypes.length → c.Fits primKeys param)

/-- A constraint with its arguments. -/
structure Added (K : Type) where
  c : Cons K
  primKeys : List Str
  param : List (Param K)

/-- What a call with the given outcome adds. -/
def LayoutOp.addedBy : LayoutOp K → Py Unit → List (Added K)
  | .addConstraint c primKeys param _, .ok () => [⟨c, primKeys, param⟩]
  | _, _ => []

/-- The constraints that a sequence of calls, starting with layout `l`, adds successfully, in the
order of the calls. -/
def Layout.added (l : Layout K) : List (LayoutOp K) → List (Added K)
  | [] => []
  | op :: ops => op.addedBy (l.step op).2 ++ (l.step op).1.added ops

/-- Constraints are added at the top level: automatic keys, or keys without `/`. -/
def LayoutOp.TopLevel : LayoutOp K → Prop
  | .addConstraint _ _ _ key => '/' ∉ key
  | _ => True

/-- The value that a constraint has for the primitives of a tree: the constraint called with the
primitives found under its keys and with its parameters. -/
def Added.Value (a : Added K) (root : Prim K) (v : List K) : Prop :=
  ∃ prims, List.Forall₂ (fun k p => root.getChild k = .ok p) a.primKeys prims ∧
    a.c.call prims a.param = .ok v

/-! ## Which primitives a constraint uses -/

mutual
/-- Every primitive that a descendant of the constraint is given exists and has the class that the
descendant declares, when the constraint itself is given the primitives `prims`. -/
def Cons.RefsOK : Cons K → List (Prim K) → Prop
  | .mk _ v cs, prims => Cons.RefsOKL prims cs v.childPrimKeys
/-- `RefsOK` for a list of children with their argument keys. -/
def Cons.RefsOKL (prims : List (Prim K)) : List (Str × Cons K) → List (List Str) → Prop
  | (_, c) :: cs, ks :: kss =>
    (∃ childPrims, pyMap (resolve prims) ks = .ok childPrims ∧
      List.Forall₂ (fun (p : Prim K) t => p.ty.IsA t) childPrims c.value.sig.primTypes ∧
      Cons.RefsOK c childPrims) ∧ Cons.RefsOKL prims cs kss
  | _, _ => True
end

/-- The primitive has a child under `k`, of class `t` or a subclass. -/
def Prim.HasChild (p : Prim K) (k : Str) (t : PrimType) : Prop :=
  ∃ q : Prim K, p.getChild k = .ok q ∧ q.ty.IsA t

/-- All lines of the tree have two end points, all quadrilaterals four edges, and all axes the
listed parts (key and class). -/
def Prim.Shaped (parts : List (Str × PrimType)) (p : Prim K) : Prop :=
  ∀ path (n : Prim K), p.At path n →
    (n.ty.IsA .line → ∀ k ∈ [k!"Point0", k!"Point1"], n.HasChild k .point) ∧
    (n.ty.IsA .quadrilateral →
      ∀ k ∈ [k!"Line0", k!"Line1", k!"Line2", k!"Line3"], n.HasChild k .line) ∧
    (n.ty.IsA .axes → ∀ kt ∈ parts, n.HasChild kt.1 kt.2)

/-- The parts of an axes with the given options, with their classes. -/
def axesParts (xaxis yaxis twinx twiny : Bool) : List (Str × PrimType) :=
  (axesKeys xaxis yaxis twinx twiny).map fun k =>
    (k, if k ∈ [k!"XAxisLabel", k!"YAxisLabel", k!"TwinXAxisLabel", k!"TwinYAxisLabel"]
      then .point else .quadrilateral)

/-- Primitives made by the constructors `Point`, `Line`, `Polygon`, `Quadrilateral` and `Axes`, the
supplied primitives being made in the same way.  Every axes has at least the listed parts, and if
its primitives are supplied then there is one for each of its parts. -/
inductive Prim.Made [PyNum K] (parts : List (Str × PrimType)) : Prim K → Prop
  | point {v n q n'} (h : newPoint v n = .ok (q, n')) : Made parts q
  | line {v ps n q n'} (hp : ∀ l, ps = some l → ∀ p ∈ l, Made parts p)
      (h : newLine v ps n = .ok (q, n')) : Made parts q
  | polygon {v ps size n q n'} (hp : ∀ l, ps = some l → ∀ p ∈ l, Made parts p)
      (h : newPolygon v ps size n = .ok (q, n')) : Made parts q
  | quadrilateral {v ps n q n'} (hp : ∀ l, ps = some l → ∀ p ∈ l, Made parts p)
      (h : newQuadrilateral v ps n = .ok (q, n')) : Made parts q
  | axes {v ps x y tx ty n q n'} (hp : ∀ l, ps = some l → ∀ p ∈ l, Made parts p)
      (hl : ∀ l, ps = some l → l.length = (axesKeys x y tx ty).length)
      (hparts : parts ⊆ axesParts x y tx ty)
      (h : newAxes v ps x y tx ty n = .ok (q, n')) : Made parts q

/-! ## Shipped constraints -/

/-- A number, array, `bool`, list or tuple. -/
def Param.ArrayLike : Param K → Prop
  | .num _ | .arr _ | .bool _ | .seq _ => True
  | .none | .axis _ => False

/-- Sizes and parameters that make sense: grids have at least one row and one column; a dimension is
a number or array-like; an axis thickness is given `None` or an axis that can be measured; a grid
gets enough margins.  (The leaf constraints take any parameters here: what they cannot use they
refuse only when they are evaluated.) -/
def Shipped.ParamsOK : Shipped → List (Param Flt) → Prop
  | .width, ps | .height, ps | .margin _ _, ps | .outerMarginArray _ _, ps =>
    ∀ p ∈ ps, p.ArrayLike
  | .axisThickness _, ps => ∀ p ∈ ps, p = .none ∨ ∃ a t, p = .axis a ∧
      (ct.getAxisThickness a).1 = .ok t
  | .rectilinearGrid rows cols, _ => 1 ≤ rows ∧ 1 ≤ cols
  | .grid rows cols, ps => 1 ≤ rows ∧ 1 ≤ cols ∧ ∃ a b c d as bs cs ds, ps = [a, b, c, d] ∧
      a.iter = .ok as ∧ b.iter = .ok bs ∧ c.iter = .ok cs ∧ d.iter = .ok ds ∧
      cols - 1 ≤ cs.length ∧ rows - 1 ≤ ds.length ∧ (∀ p ∈ cs, p.ArrayLike) ∧
      ∀ p ∈ ds, p.ArrayLike
  | _, _ => True

/-- The grid sizes alone. -/
def Shipped.SizeOK : Shipped → Prop
  | .rectilinearGrid rows cols | .grid rows cols => 1 ≤ rows ∧ 1 ≤ cols
  | _ => True

/-- The parts of an axes that a constraint uses, with their classes. -/
def Shipped.parts : Shipped → List (Str × PrimType)
  | .positionAxis axis _ twin =>
    [(k!"Frame", .quadrilateral), (axisBoxKey axis, .quadrilateral)] ++
      if twin then [(twinBoxKey axis, .quadrilateral)] else []
  | .positionAxisLabel axis twin =>
    [(k!"Frame", .quadrilateral), (axisLabelKey axis twin, .point)]
  | _ => []

/-- A call that adds trees, or one of the shipped constraints with sizes and parameters that make
sense.  (Numbers of arguments and primitive keys may still be wrong: such a call is refused.) -/
def LayoutOp.Sensible : LayoutOp Flt → Prop
  | .addPrim prim _ => prim.WF
  | .addPrims prims => ∀ kp ∈ prims, kp.2.WF
  | .addConstraint c _ param _ => ∃ s : Shipped, s.build = .ok c ∧ s.SizeOK ∧ s.ParamsOK param

/-- A call that adds primitives made by the constructors, or one of the shipped constraints with any
parameters, which uses only those parts of axes that all axes have. -/
def LayoutOp.MadeIn (parts : List (Str × PrimType)) : LayoutOp Flt → Prop
  | .addPrim prim _ => prim.Made parts
  | .addPrims prims => ∀ kp ∈ prims, Prim.Made parts kp.2
  | .addConstraint c _ _ _ => ∃ s : Shipped, s.build = .ok c ∧ s.SizeOK ∧ s.parts ⊆ parts

/-- The four trees are the same (the counter of automatic keys may differ). -/
def Layout.SameTrees (l l' : Layout K) : Prop :=
  l.prim = l'.prim ∧ l.cons = l'.cons ∧ l.keys = l'.keys ∧ l.params = l'.params

/-! ## `update_layout_constraints` -/

/-- The x axis or the y axis of an axes. -/
def MplAxes.axis (ax : MplAxes K) : AxisKind → MplAxis K
  | .x => ax.xaxis
  | .y => ax.yaxis

/-- There is an `XAxisThickness` (`YAxisThickness`) constraint at path `p`. -/
def Layout.ThicknessAt [PyNum K] (l : Layout K) (p : List Str) (kind : AxisKind) : Prop :=
  p ≠ [] ∧ ∃ c, l.cons.At p c ∧ ct.axisThickness kind = .ok c

/-- The constraint at path `p` was given the single primitive key `key`. -/
def Layout.HasKey (l : Layout K) (p : List Str) (key : Str) : Prop :=
  ∃ ks, l.keys.At p ks ∧ ks.value = [key]

/-- `l'` is `l` with refreshed axis thicknesses: the same primitives, constraints and primitive
keys; each thickness constraint has the axis of the axes named by the first part of its primitive
key as parameter and that axis' measured thickness as parameter of its `Height`; all other
parameters are as in `l`. -/
structure Layout.Refreshed [PyNum K] (l l' : Layout K) (axs : List (Str × MplAxes K)) : Prop where
  prim : l'.prim = l.prim
  cons : l'.cons = l.cons
  keys : l'.keys = l.keys
  axis : ∀ p kind, l.ThicknessAt p kind → ∃ axisKey name rest ax t m h,
    l.HasKey p axisKey ∧ splitAll axisKey = name :: rest ∧ dictGet axs name = some ax ∧
    (ct.getAxisThickness (ax.axis kind)).1 = .ok t ∧
    l'.params.At p m ∧ m.value = [.axis (ax.axis kind)] ∧
    l'.params.At (p ++ [k!"Height"]) h ∧ h.value = [.num t]
  rest : ∀ p m, l.params.At p m → (∀ q kind, q <+: p → ¬ l.ThicknessAt q kind) →
    ∃ m', l'.params.At p m' ∧ m'.value = m.value

end MplLayout
