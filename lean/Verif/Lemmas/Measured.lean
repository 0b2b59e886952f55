import Verif.Spec.Measured
import Verif.Props.OneStep
import Verif.Props.Tutorial

/-!
# The second pass of a figure program
-/

namespace MplLayout.Props

open Flt Solver

variable {tool : Shipped → Cons Flt} {items items' : List FigItem} {view : List (Str × MplAxes Flt)}

theorem forall₂_left {α β : Type} {R : α → β → Prop} {as : List α} {bs : List β} (h : List.Forall₂ R as bs) {a : α}
    (ha : a ∈ as) : ∃ b ∈ bs, R a b := by
  induction h with
  | nil => cases ha
  | cons h _ ih =>
    rcases List.mem_cons.mp ha with rfl | ha
    · exact ⟨_, by simp, h⟩
    · obtain ⟨b, hb, h⟩ := ih ha
      exact ⟨b, List.mem_cons_of_mem _ hb, h⟩

theorem forall₂_right {α β : Type} {R : α → β → Prop} {as : List α} {bs : List β} (h : List.Forall₂ R as bs) {b : β}
    (hb : b ∈ bs) : ∃ a ∈ as, R a b := forall₂_left h.flip hb

theorem measured_makes (h : List.Forall₂ (FigItem.Measured view) items items') : figMakes items' = figMakes items := by
  induction h with
  | nil => rfl
  | cons h _ ih => cases h <;> simp only [figMakes, ih]

theorem measured_demands (h : List.Forall₂ (FigItem.Measured view) items items') :
    List.Forall₂ (Demand.Measured view) (figDemands items) (figDemands items') := by
  induction h with
  | nil => exact .nil
  | cons h _ ih =>
    cases h with
    | make m => exact ih
    | ask h => exact .cons h ih

theorem _root_.MplLayout.Demand.Measured.alike {d d' : Demand} (h : d.Measured view d') :
    d'.kind = d.kind ∧ d'.keys = d.keys ∧ d'.boxes = d.boxes ∧ d'.points = d.points ∧ d'.axes = d.axes ∧
      ∀ b, d' = .box b ↔ d = .box b := by
  cases h with
  | thickness => exact ⟨rfl, rfl, rfl, rfl, rfl, fun b => by simp⟩
  | same => exact ⟨rfl, rfl, rfl, rfl, rfl, fun _ => Iff.rfl⟩

theorem measured_scope (h : List.Forall₂ (FigItem.Measured view) items items') : ∀ {bs ps as : List Str},
    FigInScope bs ps as items → FigInScope bs ps as items' := by
  induction h with
  | nil => intros; trivial
  | cons h _ ih =>
    intro bs ps as hs
    cases h with
    | make m => exact ih hs
    | ask h =>
      obtain ⟨_, _, e1, e2, e3, _⟩ := h.alike
      exact ⟨by rw [e1, e2, e3]; exact hs.1, ih hs.2⟩

theorem measured_ok (h : List.Forall₂ (FigItem.Measured view) items items') (hF : FigOK items) : FigOK items' where
  slash := by rw [measured_makes h]; exact hF.slash
  nodup := by rw [measured_makes h]; exact hF.nodup
  scope := measured_scope h hF.scope
  params := by
    intro d' hd'
    obtain ⟨d, hd, hm⟩ := forall₂_right (measured_demands h) hd'
    have hm : d.Measured view d' := hm
    cases hm with
    | thickness ha hax hside ht =>
      refine ⟨?_, .inr ⟨_, _, rfl, by rw [C45_measure_partial _ _ hside]⟩⟩
      simp only [ct.axisThicknessParams, C45_measure_partial _ _ hside, ht, bind, Except.bind]
    | same => exact hF.params _ hd
  boxed := by
    intro d' hd' b hb
    obtain ⟨d, hd, hm⟩ := forall₂_right (measured_demands h) hd'
    have hm : d.Measured view d' := hm
    rw [hm.alike.2.2.1] at hb
    obtain ⟨c, hc, hm'⟩ := forall₂_left (measured_demands h) (hF.boxed d hd b hb)
    rwa [(hm'.alike.2.2.2.2.2 b).mpr rfl] at hc

theorem measured_tools (h : List.Forall₂ (FigItem.Measured view) items items') (hT : ToolsFor tool items) :
    ToolsFor tool items' := by
  intro d' hd'
  obtain ⟨d, hd, hm⟩ := forall₂_right (measured_demands h) hd'
  have hm : d.Measured view d' := hm
  rw [hm.alike.1]
  exact hT d hd

theorem demand_axisKind {d : Demand} {c : Cons Flt} (hc : d.kind.build = .ok c)
    (h : ∀ b kind p v, d ≠ .thickness b kind p v) : c.ty.axisKind = none := by
  have key : ∀ {c' : Cons Flt}, d.kind.build = .ok c' → c'.ty.axisKind = none → c.ty.axisKind = none := by
    intro c' h1 h2
    rw [hc] at h1
    rw [Except.ok.inj h1]
    exact h2
  cases d with
  | box => exact key (box_eq) rfl
  | width => exact key (ct_width_eq) rfl
  | height => exact key (ct_height_eq) rfl
  | aspect => exact key (ct_aspectRatio_eq) rfl
  | row => exact key (align_eq true) rfl
  | column => exact key (align_eq false) rfl
  | length => exact key (ct_length_eq) rfl
  | xLength => exact key (ct_xLength_eq) rfl
  | yLength => exact key (ct_yLength_eq) rfl
  | lengthAlong => exact key (ct_directedLength_eq) rfl
  | relative => exact key (relativeLength_eq) rfl
  | midX => exact key (ct_midpointXDistance_eq) rfl
  | midY => exact key (ct_midpointYDistance_eq) rfl
  | fix => exact key (ct_fix_eq) rfl
  | xDistance => exact key (ct_xDistance_eq) rfl
  | yDistance => exact key (ct_yDistance_eq) rfl
  | distanceAlong => exact key (ct_directedDistance_eq) rfl
  | toLine => exact key (ct_pointToLineDistance_eq) rfl
  | label a kind twin => exact key (label_eq kind twin) (by cases kind <;> rfl)
  | cells => exact key (rectilinearGrid_eq _ _) rfl
  | grid => exact key (grid_eq (ct_margin_eq true .right) (ct_margin_eq true .bottom) _ _) rfl
  | inner side => cases side <;> exact key (ct_margin_eq _ _) rfl
  | outer side => cases side <;> exact key (ct_margin_eq _ _) rfl
  | collinear => exact key rfl rfl
  | coincident => exact key rfl rfl
  | axisAt a kind side twin => exact key (position_eq kind side twin) (by cases kind <;> cases twin <;> rfl)
  | thickness b kind p v => exact absurd rfl (h b kind p v)

/-- `update_layout_constraints` amounts to running the program with the measured axes. -/
theorem measured_with (hT : ToolsFor tool items) (h : List.Forall₂ (FigItem.Measured view) items items') : ∀ n,
    List.Forall₂ (StmtWith view) (figProgram tool n items) (figProgram tool n items') := by
  induction h with
  | nil => intro n; exact .nil
  | @cons i i' items items' h _ ih =>
    intro n
    cases h with
    | make m =>
      exact .cons (.inl ⟨rfl, by intro _ _ _ _ e; cases e⟩) (.cons (.inl ⟨rfl, by intro _ _ _ _ e; cases e⟩)
        (ih (fun d hd => hT d hd) (n + 1)))
    | @ask d d' h =>
      refine .cons ?_ (ih (fun d hd => hT d (List.mem_cons_of_mem _ hd)) n)
      have hd := hT d (by simp [figDemands])
      cases h with
      | @thickness a part kind p v t ax side ha hax hside ht =>
        refine .inr ⟨_, _, _, _, _, rfl, rfl, ?_⟩
        exact .thickness (hc := hd) (hn := by rw [splitAll_append_slash, splitAll_noslash ha]; rfl) (hax := hax)
          (ht := by rw [C45_measure_partial _ _ hside])
      | same h => exact stmtWith_same (demand_axisKind hd h)

/-- The second pass of any figure program. -/
theorem measured_update (hF : FigOK items) (hT : ToolsFor tool items)
    (h : List.Forall₂ (FigItem.Measured view) items items') :
    ∃ l', updateLayoutConstraints ((Session.start : Session Flt).run (figProgram tool 0 items)).layout view = .ok l' ∧
      l'.SameTrees ((Session.start : Session Flt).run (figProgram tool 0 items')).layout := by
  have hrel : List.Forall₂ (LayoutOp.WithAxes view) ((Session.start : Session Flt).ops (figProgram tool 0 items))
      ((Session.start : Session Flt).ops (figProgram tool 0 items')) :=
    ops_withAxes (measured_with hT h 0) rfl rfl rfl
  obtain ⟨l', u1, u2⟩ := C77_rebuild 0 view _ _ (fig_sensible hF hT) (fig_topLevel hF) hrel
  refine ⟨l', ?_, ?_⟩
  · rw [← u1, Session.run_ops]; rfl
  · rw [Session.run_ops]; exact u2

end MplLayout.Props
