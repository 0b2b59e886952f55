import Verif.Lemmas.FirstStep
import Verif.Props.OneStep

/-!
# Aspect ratios other than 1

C101 covers squares only.  What the first step of the solver does with other aspect ratios, and why they cannot be
added to C101.
-/

namespace MplLayout.Props

open Flt Solver

variable {tool : Shipped → Cons Flt} {items : List FigItem}

/-- C101, the first step: if a program asks for the demands of `C101_onestep` and any aspect ratios, one iteration
of the solver leads to a placement that satisfies the equations between coordinates, with `width - height = v - 1`
instead of `width / height = v`. -/
theorem C101_first_step (num : Numerics Flt) (hnum : Exact num) (hF : FigOK items) (hT : ToolsFor tool items)
    (hone : ∀ d ∈ figDemands items, d.Steps) (hne : figDemands items ≠ [])
    (hsat : ∃ P : Placement, ∀ d ∈ figDemands items, d.Linear P) (base : Nat) (a b : ℝ) :
    ∃ r info, solve num ((Session.start : Session Flt).run (figProgram tool 0 items)).layout base (fin a) (fin b) 1
        k!"newton" = .ok (r, info) ∧ Moves tool items r ∧
      ∃ P, PlacedIn items P r ∧ ∀ d ∈ figDemands items, d.Linear P := by
  obtain ⟨s, ts, h⟩ := figRan hF hT
  obtain ⟨P, hP⟩ := hsat
  rw [h.does.run]
  exact h.first_step num hnum hF hT hone hne hP base a b

/-- A box at the origin, with a width and an aspect ratio. -/
def oneBox (W v : ℝ) : List FigItem :=
  [.make (.quad k!"Figure"), .ask (.box k!"Figure"), .ask (.fix (.first ⟨k!"Figure", .bottom⟩) 0 0),
   .ask (.width k!"Figure" W), .ask (.aspect k!"Figure" v)]

theorem oneBox_ok (W v : ℝ) : FigOK (oneBox W v) where
  slash := by simp only [oneBox, figMakes, List.forall_mem_cons]; decide
  nodup := by simp [oneBox, figMakes]
  scope := by
    simp [oneBox, FigInScope, Demand.boxes, Demand.points, Demand.axes, Spot.boxes, Spot.points, Make.boxes,
      Make.points, Make.axesKeys]
  params := by simp [oneBox, figDemands, Demand.ParamOK]
  boxed := by simp [oneBox, figDemands, Demand.boxes, Spot.boxes]

/-- C101, a box with a width and an aspect ratio: after one iteration it has the height `W + 1 - v`, where
`W / v` was asked for. -/
theorem C101_aspect_step (num : Numerics Flt) (hnum : Exact num) (W v : ℝ) (base : Nat) (a b : ℝ) :
    ∃ r info, solve num ((Session.start : Session Flt).run (figProgram shippedTool 0 (oneBox W v))).layout base
        (fin a) (fin b) 1 k!"newton" = .ok (r, info) ∧
      ∃ q, r.getChild k!"Figure" = .ok q ∧ IsRect q ⟨0, 0, W, W + 1 - v⟩ := by
  obtain ⟨r, info, h1, -, P, hP, hd⟩ := C101_first_step num hnum (oneBox_ok W v) (toolsFor _)
    (by simp [oneBox, figDemands, Demand.Steps, Demand.OneStep, Demand.kind, Shipped.IsAffine])
    (by simp [oneBox, figDemands])
    ⟨⟨fun _ => ⟨0, 0, W, W + 1 - v⟩, fun _ => (0, 0)⟩, by
      simp [oneBox, figDemands, Demand.Linear, Demand.Straight, Demand.Holds, Spot.place, Edge.start]
      ring⟩ base a b
  refine ⟨r, info, h1, ?_⟩
  simp only [oneBox, figDemands, List.forall_mem_cons, Demand.Linear, Demand.Straight, Demand.Holds, Spot.place,
    Edge.start, Prod.mk.injEq] at hd
  obtain ⟨-, ⟨d1, d2⟩, d3, d4, -⟩ := hd
  obtain ⟨q, g1, g2⟩ := hP.1 k!"Figure" (by simp [oneBox, figDemands])
  have : P.box k!"Figure" = ⟨0, 0, W, W + 1 - v⟩ := by apply rect_eq <;> linarith
  rw [this] at g2
  exact ⟨q, g1, g2⟩

/-- C101 cannot be extended to all aspect ratios: a box of width 1 and aspect ratio 2 exists (of height 1 / 2), but
the first iteration of the solver makes the box flat, where the aspect ratio is not defined and has no derivative;
and with width 1 and a larger aspect ratio it turns the box over. -/
theorem C101_aspect_counterexample (num : Numerics Flt) (hnum : Exact num) (v : ℝ) (hv : 2 ≤ v) (base : Nat) (a b : ℝ) :
    (∃ P : Placement, P.box k!"Figure" = ⟨0, 0, 1, 1 / v⟩ ∧ ∀ d ∈ figDemands (oneBox 1 v), d.Holds P) ∧
    ∃ r info, solve num ((Session.start : Session Flt).run (figProgram shippedTool 0 (oneBox 1 v))).layout base
        (fin a) (fin b) 1 k!"newton" = .ok (r, info) ∧
      ∃ q R, r.getChild k!"Figure" = .ok q ∧ IsRect q R ∧ R.y1 ≤ R.y0 ∧ (v = 2 → R.y1 = R.y0) := by
  refine ⟨⟨⟨fun _ => ⟨0, 0, 1, 1 / v⟩, fun _ => (0, 0)⟩, rfl, ?_⟩, ?_⟩
  · have h0 : v ≠ 0 := by linarith
    simp [oneBox, figDemands, Demand.Holds, Spot.place, Edge.start, h0, abs_of_pos (show 0 < v by linarith)]
  · obtain ⟨r, info, h1, q, h2, h3⟩ := C101_aspect_step num hnum 1 v base a b
    exact ⟨r, info, h1, q, _, h2, h3, by simp only; linarith, fun e => by simp only; linarith⟩

end MplLayout.Props
