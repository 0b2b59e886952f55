import Verif.Lemmas.Refresh
import Verif.Props.EndToEnd
import Verif.Props.LayoutUpdate
import Verif.Lemmas.Readme
import Verif.Props.Readme

/-!
# C77: `update_layout_constraints` is building the layout again with the current axes
-/

namespace MplLayout.Props

open Solver Flt

/-- C77, rebuilding: on a layout made by calls with shipped constraints at the top level,
`update_layout_constraints(root_constraint, root_constraint_param, axs)` gives the trees of the layout
made by the same calls with the current axes given to the thickness constraints. -/
theorem C77_rebuild (id : Nat) (axs : List (Str × MplAxes Flt)) (ops ops' : List (LayoutOp Flt))
    (hs : ∀ op ∈ ops, op.Sensible) (ht : ∀ op ∈ ops, op.TopLevel)
    (hax : List.Forall₂ (LayoutOp.WithAxes axs) ops ops') :
    ∃ l', updateLayoutConstraints ((Layout.empty id).run ops) axs = .ok l' ∧
      l'.SameTrees ((Layout.empty id).run ops') := by
  obtain ⟨h1, h2, h3⟩ := Sim.run hax hs ht (Sim.refl_empty (axs := axs) id) (Layout.Inv.empty id)
    (Layout.Inv.empty id)
  exact h1.update ((TopOK.empty id).run hs ht) h2 h3

theorem solve_trees {l r : Layout Flt} (h : l.SameTrees r) (num : Numerics Flt) (base : Nat)
    (absTol relTol : Flt) (maxIter : Int) (method : Str) :
    solve num l base absTol relTol maxIter method = solve num r base absTol relTol maxIter method := by
  obtain ⟨h1, h2, h3, h4⟩ := h
  cases l; cases r
  simp only at h1 h2 h3 h4
  subst h1 h2 h3 h4
  rfl

/-- C77, solving: so does solving it, with any numerics, tolerances and method. -/
theorem C77_solve (id : Nat) (axs : List (Str × MplAxes Flt)) (ops ops' : List (LayoutOp Flt))
    (hs : ∀ op ∈ ops, op.Sensible) (ht : ∀ op ∈ ops, op.TopLevel)
    (hax : List.Forall₂ (LayoutOp.WithAxes axs) ops ops') :
    ∃ l', updateLayoutConstraints ((Layout.empty id).run ops) axs = .ok l' ∧
      ∀ (num : Numerics Flt) (base : Nat) (absTol relTol : Flt) (maxIter : Int) (method : Str),
        solve num l' base absTol relTol maxIter method =
          solve num ((Layout.empty id).run ops') base absTol relTol maxIter method := by
  obtain ⟨l', h1, h2⟩ := C77_rebuild id axs ops ops' hs ht hax
  exact ⟨l', h1, fun num base a b m me => solve_trees h2 num base a b m me⟩

/-- C77, thickness: with exact numerics, affine constraints that can all be satisfied with the current
axes, the solution of the updated layout satisfies them all; in particular the box of an axis that is
kept at its thickness by a thickness constraint is as thick as the axis is measured. -/
theorem C77_thickness (num : Numerics Flt) (hnum : Exact num) (id : Nat)
    (axs : List (Str × MplAxes Flt)) (ops ops' : List (LayoutOp Flt))
    (hs : ∀ op ∈ ops, op.Sensible) (ht : ∀ op ∈ ops, op.TopLevel)
    (hax : List.Forall₂ (LayoutOp.WithAxes axs) ops ops')
    (haff : ∀ op ∈ ops', op.Uses Shipped.IsAffine)
    (l : Layout Flt) (hl : l = (Layout.empty id).run ops) (hok : PrimOK l.prim) (hfin : l.prim.Finite)
    (r' : Prim Flt) (hr' : PrimOK r') (hs' : SameStructure l.prim r') (hf' : r'.Finite)
    (hsat : ∀ c ∈ (Layout.empty id).added ops', ∃ v, c.Value r' v ∧ Zeros v)
    (hne : (Layout.empty id).added ops' ≠ [])
    (base : Nat) (a b : ℝ) (maxIter : Int) (hmax : 1 ≤ maxIter) :
    ∃ l' r info, updateLayoutConstraints l axs = .ok l' ∧
      solve num l' base (fin a) (fin b) maxIter k!"newton" = .ok (r, info) ∧ r.Finite ∧
      (∀ c ∈ (Layout.empty id).added ops', ∃ v, c.Value r v ∧ Zeros v) ∧
      ∀ kind axisKey m side v box R,
        Asks ((Layout.empty id).added ops') (ct.axisThickness kind) [axisKey] [.axis m] →
        m.ticksPosition = sideName side → thicknessOf m side = fin v →
        r.getChild axisKey = .ok box → IsRect box R → Rect.across R kind = v := by
  obtain ⟨l', h1, h2⟩ := C77_rebuild id axs ops ops' hs ht hax
  have hs2 : ∀ op ∈ ops', op.Sensible := by
    intro op' hop'
    obtain ⟨i, hi, rfl⟩ := List.getElem_of_mem hop'
    have hlen := hax.length_eq
    exact withAxes_sensible (hax.get (by omega) hi) (hs _ (List.getElem_mem _))
  have ht2 : ∀ op ∈ ops', op.TopLevel := by
    intro op' hop'
    obtain ⟨i, hi, rfl⟩ := List.getElem_of_mem hop'
    have hlen := hax.length_eq
    have hw := hax.get (by omega) hi
    have h0 := ht _ (List.getElem_mem (l := ops) (n := i) (by omega))
    simp only [List.get_eq_getElem] at hw
    revert h0 hw
    generalize ops[i] = o, ops'[i] = o'
    intro hw h0
    cases hw with
    | thickness => exact h0
    | same => exact h0
  have hprim : ((Layout.empty id).run ops').prim = l.prim := by
    obtain ⟨g, _, _⟩ := Sim.run hax hs ht (Sim.refl_empty (axs := axs) id) (Layout.Inv.empty id)
      (Layout.Inv.empty id)
    rw [hl]; exact g.prim
  obtain ⟨r, info, e1, e2, e3⟩ := C57_constraints num hnum id ops' haff hs2 ht2 _ rfl
    (by rw [hprim]; exact hok) (by rw [hprim]; exact hfin) r' hr' (by rw [hprim]; exact hs') hf' hsat hne
    base a b maxIter hmax
  refine ⟨l', r, info, hl ▸ h1, ?_, e2, e3, ?_⟩
  · rw [solve_trees h2]; exact e1
  · intro kind axisKey m side v box R hasks hm hv hb hR
    exact (C45_constraint hR m side hm hv).mp (asks_satisfied e3 hasks (.cons hb .nil))

/-! ### An instance -/

/-- An x axis at the bottom of a figure of height 4, whose tick labels reach from 0.05 to 0.15. -/
noncomputable def pastAxis : MplAxis Flt :=
  ⟨true, fun _ => some ⟨fin 0, fin (1/20), fin 1, fin (1/5)⟩, k!"bottom", fin 5, fin 4,
    ⟨fin 0, fin (3/20), fin 1, fin 1⟩⟩

/-- A quadrilateral `ax` that should be a box with the thickness of the x axis `m`. -/
noncomputable def boxOps (m : Param Flt) : List (LayoutOp Flt) :=
  [.addPrim (unitQuad 1) k!"ax",
   .addConstraint ((ct.box).toOption.getD ct.coincident) [k!"ax"] [] k!"B",
   .addConstraint (thicknessT .x) [k!"ax"] [m] k!"T"]

noncomputable def pastAxes : List (Str × MplAxes Flt) := [(k!"ax", ⟨pastAxis, pastAxis⟩)]

theorem boxOps_sensible : ∀ op ∈ boxOps .none, op.Sensible := by
  intro op h
  simp only [boxOps, List.mem_cons, List.not_mem_nil, or_false] at h
  rcases h with rfl | rfl | rfl
  · exact unitQuad_WF 1
  · exact ⟨.box, rfl, trivial, trivial⟩
  · exact ⟨.axisThickness .x, thickness_eq .x, trivial, by intro p hp; simp at hp; exact .inl hp⟩

theorem boxOps_top (m : Param Flt) : ∀ op ∈ boxOps m, op.TopLevel := by
  intro op h
  simp only [boxOps, List.mem_cons, List.not_mem_nil, or_false] at h
  rcases h with rfl | rfl | rfl
  · trivial
  · show '/' ∉ k!"B"; decide
  · show '/' ∉ k!"T"; decide

theorem boxOps_axes : List.Forall₂ (LayoutOp.WithAxes pastAxes) (boxOps .none) (boxOps (.axis pastAxis)) := by
  refine .cons (.same ?_) (.cons (.same ?_) (.cons ?_ .nil))
  · intro kind c ks ps key e; cases e
  · intro kind c ks ps key e hc
    cases e
    rw [thickness_eq] at hc
    cases kind <;> exact absurd (congrArg (fun x => x.toOption.map fun y => y.ty.name) hc) (by decide)
  · exact .thickness (thickness_eq .x) (rest := []) rfl (ax := ⟨pastAxis, pastAxis⟩) rfl
      (congrArg Prod.fst (C45_measure_partial pastAxis .bottom rfl))

theorem boxOps_affine : ∀ op ∈ boxOps (.axis pastAxis), op.Uses Shipped.IsAffine := by
  intro op h
  simp only [boxOps, List.mem_cons, List.not_mem_nil, or_false] at h
  rcases h with rfl | rfl | rfl
  · exact unitQuad_WF 1
  · exact ⟨.box, rfl, trivial, trivial⟩
  · exact ⟨.axisThickness .x, thickness_eq .x, trivial, trivial⟩

/-- `C77_thickness` applies: the box gets the thickness 4 * (0.15 - 0.05). -/
example (num : Numerics Flt) (hnum : Exact num) (base : Nat) :
    ∃ l' r info, updateLayoutConstraints ((Layout.empty 0).run (boxOps .none)) pastAxes = .ok l' ∧
      solve num l' base (fin 0) (fin 0) 1 k!"newton" = .ok (r, info) ∧
      ∀ box R, r.getChild k!"ax" = .ok box → IsRect box R → R.y1 - R.y0 = 2 / 5 := by
  let prog : List (Stmt Flt) := [.make (.quadrilateral .default none), .addPrim 0 k!"ax"]
  have hp : Plain prog := by
    intro st hst
    simp only [prog, List.mem_cons, List.not_mem_nil, or_false] at hst
    rcases hst with rfl | rfl
    · exact ⟨trivial, (fun xs e => nomatch e), trivial⟩
    · refine ⟨?_, trivial, trivial⟩
      show '/' ∉ k!"ax"; decide
  have e : ((Layout.empty 0).run (boxOps .none)).prim = ((Session.start : Session Flt).run prog).layout.prim := by
    rfl
  have hok := (plain_ok hp).primOK
  have hfin := plain_finite hp
  rw [← e] at hok hfin
  let R : Rect := ⟨0, 0, 2, 2 / 5⟩
  have hS := place_solved [(1, R)] hok hfin
  have hq : IsRect ((unitQuad 1).mapV (place [(1, R)])) R := place_quad (by simp) (List.mem_cons_self ..)
  have hg : ((((Layout.empty 0).run (boxOps .none)).prim).mapV (place [(1, R)])).getChild k!"ax"
      = .ok ((unitQuad 1).mapV (place [(1, R)])) := by
    rw [Node.getChild_mapV]; rfl
  have hthick : thicknessOf pastAxis .bottom = fin (4 * (3 / 20 - 1 / 20)) := rfl
  have hadd : (Layout.empty 0).added (boxOps (.axis pastAxis))
      = [⟨(ct.box).toOption.getD ct.coincident, [k!"ax"], []⟩,
         ⟨thicknessT .x, [k!"ax"], [.axis pastAxis]⟩] := rfl
  obtain ⟨l', r, info, h1, h2, _, _, h5⟩ := C77_thickness num hnum 0 pastAxes _ _ boxOps_sensible
    (boxOps_top _) boxOps_axes boxOps_affine _ rfl hok hfin _ hS.okB hS.same hS.fin
    (by
      intro c hc
      rw [hadd] at hc
      simp only [List.mem_cons, List.not_mem_nil, or_false] at hc
      rcases hc with rfl | rfl
      · exact value_of_sat (c := ct.box) rfl (.cons hg .nil)
          ((C33_box hq).mpr ⟨_, _, _, _, rfl, rfl, rfl, rfl⟩)
      · refine value_of_sat (thickness_eq .x) (.cons hg .nil)
          ((C45_constraint hq pastAxis .bottom rfl hthick).mpr ?_)
        norm_num [Rect.across, R])
    (by rw [hadd]; simp) base 0 0 1 (by omega)
  refine ⟨l', r, info, h1, h2, fun box R' hb hR => ?_⟩
  have := h5 .x k!"ax" pastAxis .bottom _ box R' ⟨_, thickness_eq .x, by rw [hadd]; simp⟩ rfl hthick hb hR
  simp only [Rect.across] at this
  rw [this]
  norm_num

end MplLayout.Props
