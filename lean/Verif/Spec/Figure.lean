import Verif.Props.Drawing
import Verif.Props.Grid
import Verif.Props.Geometry
import Verif.Spec.Program

/-!
# Vocabulary for figures made of boxes and points

A figure program makes points, boxes and axes and asks for things.  What it asks for is stated here as
plain equations between the sides of rectangles and the coordinates of points.
-/

namespace MplLayout

open Flt

/-- Where the boxes and the points of a figure are, by their keys. -/
structure Placement where
  box : Str → Rect
  point : Str → ℝ × ℝ

/-- An edge of a box. -/
structure Edge where
  box : Str
  side : con.Side

/-- The name of an edge (`primitives.py:396-426`: the first line of a quadrilateral is its bottom, and the
lines run counter-clockwise). -/
def lineOf : con.Side → Str
  | .bottom => k!"Line0"
  | .right => k!"Line1"
  | .top => k!"Line2"
  | .left => k!"Line3"

def Edge.key (e : Edge) : Str := e.box ++ '/' :: lineOf e.side

/-- Where an edge starts, going counter-clockwise around the box. -/
def Edge.start (e : Edge) (P : Placement) : ℝ × ℝ :=
  match e.side with
  | .bottom => ((P.box e.box).x0, (P.box e.box).y0)
  | .right => ((P.box e.box).x1, (P.box e.box).y0)
  | .top => ((P.box e.box).x1, (P.box e.box).y1)
  | .left => ((P.box e.box).x0, (P.box e.box).y1)

/-- Where an edge ends. -/
def Edge.stop (e : Edge) (P : Placement) : ℝ × ℝ :=
  match e.side with
  | .bottom => ((P.box e.box).x1, (P.box e.box).y0)
  | .right => ((P.box e.box).x1, (P.box e.box).y1)
  | .top => ((P.box e.box).x0, (P.box e.box).y1)
  | .left => ((P.box e.box).x0, (P.box e.box).y0)

/-- A point, or a corner of a box as the start or the end of an edge. -/
inductive Spot where
  | point (key : Str)
  | first (e : Edge)
  | last (e : Edge)

def Spot.key : Spot → Str
  | .point key => key
  | .first e => e.key ++ k!"/Point0"
  | .last e => e.key ++ k!"/Point1"

def Spot.place (P : Placement) : Spot → ℝ × ℝ
  | .point key => P.point key
  | .first e => e.start P
  | .last e => e.stop P

def Spot.boxes : Spot → List Str
  | .point _ => []
  | .first e | .last e => [e.box]

def Spot.points : Spot → List Str
  | .point key => [key]
  | .first _ | .last _ => []

/-- What a program can ask for. -/
inductive Demand where
  | box (b : Str)
  | width (b : Str) (v : ℝ)
  | height (b : Str) (v : ℝ)
  | aspect (b : Str) (v : ℝ)
  | inner (side : con.Side) (b c : Str) (v : ℝ)
  | outer (side : con.Side) (b c : Str) (v : ℝ)
  | row (b c : Str)
  | column (b c : Str)
  | length (e : Edge) (v : ℝ)
  | xLength (e : Edge) (v : ℝ)
  | yLength (e : Edge) (v : ℝ)
  | lengthAlong (e : Edge) (u : ℝ × ℝ) (v : ℝ)
  | relative (e e' : Edge) (v : ℝ)
  | collinear (e e' : Edge)
  | midX (e e' : Edge) (v : ℝ)
  | midY (e e' : Edge) (v : ℝ)
  | fix (s : Spot) (x y : ℝ)
  | coincident (s s' : Spot)
  | xDistance (s s' : Spot) (v : ℝ)
  | yDistance (s s' : Spot) (v : ℝ)
  | distanceAlong (s s' : Spot) (u : ℝ × ℝ) (v : ℝ)
  | toLine (s : Spot) (e : Edge) (reverse : Bool) (v : ℝ)
  | axisAt (a : Str) (kind : AxisKind) (side : con.Side) (twin : Bool)
  | thickness (b : Str) (kind : AxisKind) (p : Param Flt) (v : ℝ)
  | label (a : Str) (kind : AxisKind) (twin : Bool) (v : ℝ)
  | cells (R C : Nat) (bs : List Str)
  | grid (R C : Nat) (bs : List Str) (ws hs ms ns : Nat → ℝ)

/-- The class of the constraint. -/
def Demand.kind : Demand → Shipped
  | .box _ => .box
  | .width _ _ => .width
  | .height _ _ => .height
  | .aspect _ _ => .aspectRatio
  | .inner side _ _ _ => .margin false side
  | .outer side _ _ _ => .margin true side
  | .row _ _ => .align true
  | .column _ _ => .align false
  | .length _ _ => .length
  | .xLength _ _ => .xLength
  | .yLength _ _ => .yLength
  | .lengthAlong _ _ _ => .directedLength
  | .relative _ _ _ => .relativeLength
  | .collinear _ _ => .collinear
  | .midX _ _ _ => .midpointXDistance
  | .midY _ _ _ => .midpointYDistance
  | .fix _ _ _ => .fix
  | .coincident _ _ => .coincident
  | .xDistance _ _ _ => .xDistance
  | .yDistance _ _ _ => .yDistance
  | .distanceAlong _ _ _ _ => .directedDistance
  | .toLine _ _ _ _ => .pointToLineDistance
  | .axisAt _ kind side twin => .positionAxis kind side twin
  | .thickness _ kind _ _ => .axisThickness kind
  | .label _ kind twin _ => .positionAxisLabel kind twin
  | .cells R C _ => .rectilinearGrid R C
  | .grid R C _ _ _ _ _ => .grid R C

/-- The keys of the constrained primitives. -/
def Demand.keys : Demand → List Str
  | .box b | .width b _ | .height b _ | .aspect b _ | .thickness b _ _ _ => [b]
  | .inner _ b c _ | .outer _ b c _ | .row b c | .column b c => [b, c]
  | .length e _ | .xLength e _ | .yLength e _ | .lengthAlong e _ _ => [e.key]
  | .relative e e' _ | .collinear e e' | .midX e e' _ | .midY e e' _ => [e.key, e'.key]
  | .fix s _ _ => [s.key]
  | .coincident s s' | .xDistance s s' _ | .yDistance s s' _ | .distanceAlong s s' _ _ => [s.key, s'.key]
  | .toLine s e _ _ => [s.key, e.key]
  | .axisAt a _ _ _ | .label a _ _ _ => [a]
  | .cells _ _ bs | .grid _ _ bs _ _ _ _ => bs

/-- The parameters. -/
noncomputable def Demand.params : Demand → List (Param Flt)
  | .box _ | .row _ _ | .column _ _ | .collinear _ _ | .coincident _ _ | .axisAt _ _ _ _ => []
  | .width _ v | .height _ v | .aspect _ v | .inner _ _ _ v | .outer _ _ _ v | .length _ v | .xLength _ v
  | .yLength _ v | .relative _ _ v | .midX _ _ v | .midY _ _ v | .xDistance _ _ v | .yDistance _ _ v
  | .label _ _ _ v => [.num (fin v)]
  | .lengthAlong _ u v | .distanceAlong _ _ u v => [.arr [fin u.1, fin u.2], .num (fin v)]
  | .fix _ x y => [.arr [fin x, fin y]]
  | .toLine _ _ r v => [.bool r, .num (fin v)]
  | .thickness _ _ p _ => [p]
  | .cells _ _ _ => []
  | .grid R C _ ws hs ms ns =>
    [Props.arrOf (C - 1) ws, Props.arrOf (R - 1) hs, Props.arrOf (C - 1) ms, Props.arrOf (R - 1) ns]

/-- The boxes that it is about. -/
def Demand.boxes : Demand → List Str
  | .box b | .width b _ | .height b _ | .aspect b _ | .thickness b _ _ _ => [b]
  | .inner _ b c _ | .outer _ b c _ | .row b c | .column b c => [b, c]
  | .length e _ | .xLength e _ | .yLength e _ | .lengthAlong e _ _ => [e.box]
  | .relative e e' _ | .collinear e e' | .midX e e' _ | .midY e e' _ => [e.box, e'.box]
  | .fix s _ _ => s.boxes
  | .coincident s s' | .xDistance s s' _ | .yDistance s s' _ | .distanceAlong s s' _ _ => s.boxes ++ s'.boxes
  | .toLine s e _ _ => s.boxes ++ [e.box]
  | .axisAt a kind _ twin => [a ++ k!"/Frame", a ++ '/' :: axisBoxKey kind] ++
      if twin then [a ++ '/' :: twinBoxKey kind] else []
  | .label a _ _ _ => [a ++ k!"/Frame"]
  | .cells _ _ bs | .grid _ _ bs _ _ _ _ => bs

/-- The points that it is about. -/
def Demand.points : Demand → List Str
  | .fix s _ _ => s.points
  | .coincident s s' | .xDistance s s' _ | .yDistance s s' _ | .distanceAlong s s' _ _ => s.points ++ s'.points
  | .toLine s _ _ _ => s.points
  | .label a kind twin _ => [a ++ '/' :: axisLabelKey kind twin]
  | _ => []

/-- The axes that it is about. -/
def Demand.axes : Demand → List Str
  | .axisAt a _ _ _ | .label a _ _ _ => [a]
  | _ => []

/-- The box in a row and a column, if the boxes are listed row by row. -/
def cellOf (C : Nat) (bs : List Str) (P : Placement) (r c : Nat) : Rect := P.box (bs.getD (r * C + c) [])

/-- The box `b` lies along a side of the frame `f`, outside of it and as long as the side. -/
def Rect.Carries (f : Rect) (side : con.Side) (b : Rect) : Prop :=
  match side with
  | .top => b.y0 = f.y1 ∧ b.x0 = f.x0 ∧ b.x1 = f.x1
  | .bottom => b.y1 = f.y0 ∧ b.x0 = f.x0 ∧ b.x1 = f.x1
  | .left => b.x1 = f.x0 ∧ b.y0 = f.y0 ∧ b.y1 = f.y1
  | .right => b.x0 = f.x1 ∧ b.y0 = f.y0 ∧ b.y1 = f.y1

/-- It holds in a placement. -/
def Demand.Holds (P : Placement) : Demand → Prop
  | .box _ => True
  | .width b v => (P.box b).x1 - (P.box b).x0 = v
  | .height b v => (P.box b).y1 - (P.box b).y0 = v
  | .aspect b v => (P.box b).y1 ≠ (P.box b).y0 ∧ |(P.box b).x1 - (P.box b).x0| = v * |(P.box b).y1 - (P.box b).y0|
  | .inner .left b c v => (P.box b).x0 - (P.box c).x0 = v
  | .inner .right b c v => (P.box c).x1 - (P.box b).x1 = v
  | .inner .bottom b c v => (P.box b).y0 - (P.box c).y0 = v
  | .inner .top b c v => (P.box c).y1 - (P.box b).y1 = v
  | .outer .left b c v => (P.box b).x0 - (P.box c).x1 = v
  | .outer .right b c v => (P.box c).x0 - (P.box b).x1 = v
  | .outer .bottom b c v => (P.box b).y0 - (P.box c).y1 = v
  | .outer .top b c v => (P.box c).y0 - (P.box b).y1 = v
  | .row b c => (P.box b).y0 = (P.box c).y0 ∧ (P.box b).y1 = (P.box c).y1
  | .column b c => (P.box b).x0 = (P.box c).x0 ∧ (P.box b).x1 = (P.box c).x1
  | .length e v => dist2 (e.start P) (e.stop P) = v
  | .xLength e v => (e.stop P).1 - (e.start P).1 = v
  | .yLength e v => (e.stop P).2 - (e.start P).2 = v
  | .lengthAlong e u v => ((e.stop P).1 - (e.start P).1) * u.1 + ((e.stop P).2 - (e.start P).2) * u.2 = v
  | .relative e e' v => dist2 (e.start P) (e.stop P) = v * dist2 (e'.start P) (e'.stop P)
  | .collinear e e' => Props.OnOneLine (e.start P) (e.stop P) (e'.start P) (e'.stop P)
  | .midX e e' v => ((e'.start P).1 + (e'.stop P).1) / 2 - ((e.start P).1 + (e.stop P).1) / 2 = v
  | .midY e e' v => ((e'.start P).2 + (e'.stop P).2) / 2 - ((e.start P).2 + (e.stop P).2) / 2 = v
  | .fix s x y => s.place P = (x, y)
  | .coincident s s' => s.place P = s'.place P
  | .xDistance s s' v => (s'.place P).1 - (s.place P).1 = v
  | .yDistance s s' v => (s'.place P).2 - (s.place P).2 = v
  | .distanceAlong s s' u v =>
    ((s'.place P).1 - (s.place P).1) * u.1 + ((s'.place P).2 - (s.place P).2) * u.2 = v
  | .toLine s e r v => (if r then - Props.leftOf (e.start P) (e.stop P) (s.place P)
      else Props.leftOf (e.start P) (e.stop P) (s.place P)) = v
  | .axisAt a kind side twin => (P.box (a ++ k!"/Frame")).Carries side (P.box (a ++ '/' :: axisBoxKey kind)) ∧
      (twin = true → (P.box (a ++ k!"/Frame")).Carries side.opposite (P.box (a ++ '/' :: twinBoxKey kind)))
  | .thickness b .x _ v => (P.box b).y1 - (P.box b).y0 = v
  | .thickness b .y _ v => (P.box b).x1 - (P.box b).x0 = v
  | .label a .x twin v => (P.point (a ++ '/' :: axisLabelKey .x twin)).1
      = (P.box (a ++ k!"/Frame")).x0 + v * ((P.box (a ++ k!"/Frame")).x1 - (P.box (a ++ k!"/Frame")).x0)
  | .label a .y twin v => (P.point (a ++ '/' :: axisLabelKey .y twin)).2
      = (P.box (a ++ k!"/Frame")).y0 + v * ((P.box (a ++ k!"/Frame")).y1 - (P.box (a ++ k!"/Frame")).y0)
  | .cells R C bs => Props.GridAligned R C (cellOf C bs P)
  | .grid R C bs ws hs ms ns => Props.GridLaidOut R C (cellOf C bs P) ws hs ms ns

/-- The boxes that give a demand its direction are not degenerate: the first box of an alignment, the boxes
of a grid, the line of `Collinear` and of the distance to a line, and the frame of an axis label. -/
def Demand.Regular (P : Placement) : Demand → Prop
  | .row b _ => (P.box b).x0 ≠ (P.box b).x1
  | .column b _ => (P.box b).y0 ≠ (P.box b).y1
  | .collinear e _ | .toLine _ e _ _ => e.start P ≠ e.stop P
  | .cells _ _ bs | .grid _ _ bs _ _ _ _ => ∀ b ∈ bs, (P.box b).Proper
  | .label a .x _ _ => (P.box (a ++ k!"/Frame")).x0 < (P.box (a ++ k!"/Frame")).x1
  | .label a .y _ _ => (P.box (a ++ k!"/Frame")).y0 < (P.box (a ++ k!"/Frame")).y1
  | _ => True

/-- The parameter of an axis thickness is nothing or an axis, and stands for the number `v`; a grid has a cell
and as many boxes as cells. -/
def Demand.ParamOK : Demand → Prop
  | .thickness _ _ p v => ct.axisThicknessParams [p] = .ok [[.num (fin v)]] ∧
      (p = .none ∨ ∃ a t, p = .axis a ∧ (ct.getAxisThickness a).1 = .ok t)
  | .cells R C bs | .grid R C bs _ _ _ _ => 1 ≤ R ∧ 1 ≤ C ∧ bs.length = R * C
  | _ => True

/-- A primitive that the program makes with its default coordinates. -/
inductive Make where
  | point (key : Str)
  | quad (key : Str)
  | axes (key : Str) (xaxis yaxis twinx twiny : Bool)

def Make.key : Make → Str
  | .point key | .quad key | .axes key _ _ _ _ => key

/-- The boxes that it brings. -/
def Make.boxes : Make → List Str
  | .point _ => []
  | .quad key => [key]
  | .axes key x y tx ty => ([k!"Frame"] ++ (if x then [k!"XAxis"] else []) ++ (if y then [k!"YAxis"] else []) ++
      (if x && tx then [k!"TwinXAxis"] else []) ++ (if y && ty then [k!"TwinYAxis"] else [])).map
        fun part => key ++ '/' :: part

/-- The points that it brings. -/
def Make.points : Make → List Str
  | .point key => [key]
  | .quad _ => []
  | .axes key x y tx ty => ((if x then [k!"XAxisLabel"] else []) ++ (if y then [k!"YAxisLabel"] else []) ++
      (if x && tx then [k!"TwinXAxisLabel"] else []) ++ (if y && ty then [k!"TwinYAxisLabel"] else [])).map
        fun part => key ++ '/' :: part

/-- The axes that it brings. -/
def Make.axesKeys : Make → List Str
  | .axes key _ _ _ _ => [key]
  | _ => []

/-- The constructor call. -/
def Make.expr : Make → PrimExpr Flt
  | .point _ => .point .default
  | .quad _ => .quadrilateral .default none
  | .axes _ x y tx ty => .axes .default none x y tx ty

/-- One step of a figure program: make a primitive and add it to the layout, or ask for something. -/
inductive FigItem where
  | make (m : Make)
  | ask (d : Demand)

/-- The statements of a figure program; `tool` gives the constraint objects, `n` counts the primitives. -/
noncomputable def figProgram (tool : Shipped → Cons Flt) : Nat → List FigItem → List (Stmt Flt)
  | _, [] => []
  | n, .make m :: items => .make m.expr :: .addPrim n m.key :: figProgram tool (n + 1) items
  | n, .ask d :: items => .addConstraint (tool d.kind) d.keys d.params [] :: figProgram tool n items

/-- What it makes, in order. -/
def figMakes : List FigItem → List Make
  | [] => []
  | .make m :: items => m :: figMakes items
  | .ask _ :: items => figMakes items

/-- What it asks for, in order. -/
def figDemands : List FigItem → List Demand
  | [] => []
  | .make _ :: items => figDemands items
  | .ask d :: items => d :: figDemands items

/-- Every demand is about boxes, points and axes that were made before it. -/
def FigInScope (boxes points axes : List Str) : List FigItem → Prop
  | [] => True
  | .make m :: items => FigInScope (boxes ++ m.boxes) (points ++ m.points) (axes ++ m.axesKeys) items
  | .ask d :: items => (d.boxes ⊆ boxes ∧ d.points ⊆ points ∧ d.axes ⊆ axes) ∧ FigInScope boxes points axes items

/-- A figure program: keys are distinct names, demands are about things that exist, and every box that a
demand is about is also asked to be a box. -/
structure FigOK (items : List FigItem) : Prop where
  slash : ∀ m ∈ figMakes items, '/' ∉ m.key
  nodup : ((figMakes items).map Make.key).Nodup
  scope : FigInScope [] [] [] items
  params : ∀ d ∈ figDemands items, d.ParamOK
  boxed : ∀ d ∈ figDemands items, ∀ b ∈ d.boxes, .box b ∈ figDemands items

/-- The constraint objects are what the classes make. -/
def ToolsFor (tool : Shipped → Cons Flt) (items : List FigItem) : Prop :=
  ∀ d ∈ figDemands items, d.kind.build = .ok (tool d.kind)

/-- The boxes of the program and its points are in these places. -/
def PlacedIn (items : List FigItem) (P : Placement) (r : Prim Flt) : Prop :=
  (∀ b, .box b ∈ figDemands items → ∃ q, r.getChild b = .ok q ∧ IsRect q (P.box b)) ∧
  ∀ m ∈ figMakes items, ∀ k ∈ m.points, ∃ p, r.getChild k = .ok p ∧ IsPoint p (P.point k)

end MplLayout
