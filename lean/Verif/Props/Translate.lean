import Verif.Lemmas.ShiftSolve
import Verif.Props.Canonical
import Verif.Props.Smooth

/-!
# C75: moving all primitives moves the solved geometry
-/

namespace MplLayout

open Flt

/-- The same call with its primitives moved by `t`. -/
noncomputable def LayoutOp.shift (t : ℝ × ℝ) : LayoutOp Flt → LayoutOp Flt
  | .addPrim prim key => .addPrim (shiftPrim t prim) key
  | .addPrims prims => .addPrims (prims.map fun kp => (kp.1, shiftPrim t kp.2))
  | .addConstraint c ks ps key => .addConstraint c ks ps key

namespace Props

open Solver

/-- C75, calls: after any calls with any constraints, a user who put every primitive `t` away from
where it was has the same layout with its primitives moved, and the next call has the same outcome. -/
theorem C75_calls (id : Nat) (ops : List (LayoutOp Flt)) (t : ℝ × ℝ) (l l' : Layout Flt)
    (hl : l = (Layout.empty id).run ops)
    (hl' : l' = (Layout.empty id).run (ops.map (LayoutOp.shift t))) :
    l' = { l with prim := shiftPrim t l.prim } ∧
      ∀ op : LayoutOp Flt, (l'.step (op.shift t)).2 = (l.step op).2 := by
  let f : PVal Flt → PVal Flt := fun v => ⟨v.id, shiftL t v.arr⟩
  have hmap : LayoutOp.shift t = LayoutOp.mapP f := by funext op; cases op <;> rfl
  have hl2 : l' = l.mapP f := by
    rw [hl', hmap, hl, ← run_mapP]; rfl
  exact ⟨hl2, fun op => by rw [hl2, hmap, step_mapP]⟩

/-- C75: a user who makes the same calls, but puts every primitive `t` away from where it was, gets,
for affine constraints other than `Fix` (whose parameter is
a position), the same solved geometry, moved by `t`, whether or not the constraints can be satisfied
and whether or not they determine the geometry. -/
theorem C75_translation (num num' : Numerics Flt) (hnum : Exact num) (hnum' : Exact num') (id : Nat)
    (ops : List (LayoutOp Flt)) (hops : ∀ op ∈ ops, op.Uses fun s => s.IsAffine ∧ s ≠ .fix)
    (t : ℝ × ℝ) (l l' : Layout Flt) (hl : l = (Layout.empty id).run ops)
    (hl' : l' = (Layout.empty id).run (ops.map (LayoutOp.shift t)))
    (hok : PrimOK l.prim) (hfin : l.prim.Finite) (hpl : Planar l.prim)
    (s0 : ℝ) (h0 : l.Misfit l.prim s0) (base base' : Nat) (a b a' b' : ℝ) (maxIter maxIter' : Int)
    (hmax : 1 ≤ maxIter) (hmax' : 1 ≤ maxIter') :
    ∃ r info r' info', solveNewton num l base (fin a) (fin b) maxIter = .ok (r, info) ∧
      solveNewton num' l' base' (fin a') (fin b') maxIter' = .ok (r', info') ∧
      SameGeometry r' (shiftPrim t r) := by
  let f : PVal Flt → PVal Flt := fun v => ⟨v.id, shiftL t v.arr⟩
  have hmap : LayoutOp.shift t = LayoutOp.mapP f := by funext op; cases op <;> rfl
  have hl2 : l' = l.mapP f := by
    rw [hl', hmap, hl, ← run_mapP]; rfl
  have hprim : l'.prim = shiftPrim t l.prim := by rw [hl2]; rfl
  have hres : ∀ p, l'.residual p = l.residual p := by rw [hl2]; exact fun _ => rfl
  have hmis : ∀ p s, l'.Misfit p s ↔ l.Misfit p s := fun p s => by simp only [Layout.Misfit, hres]
  have hops1 : ∀ op ∈ ops, op.Uses Shipped.IsAffine := by
    intro op h
    have := hops op h
    cases op with
    | addPrim p k => exact this
    | addPrims ps => exact this
    | addConstraint c ks ps k => obtain ⟨s, e, h1, h2, _⟩ := this; exact ⟨s, e, h1, h2⟩
  have hops' : ∀ op ∈ ops.map (LayoutOp.shift t), op.Uses Shipped.IsAffine := by
    intro op' h
    obtain ⟨op, ho, rfl⟩ := List.mem_map.mp h
    have := hops1 op ho
    cases op with
    | addPrim p k => exact WF_mapV _ this
    | addPrims ps =>
      intro kp hkp
      obtain ⟨kp0, h1, rfl⟩ := List.mem_map.mp hkp
      exact WF_mapV _ (this kp0 h1)
    | addConstraint c ks ps k => exact this
  have hsi : AllN SIP l.cons := by
    rw [hl]
    exact run_all (P := SIP) (fun _ _ _ _ => rfl) (fun op ho => uses_trees (hops op ho))
      (fun c ks ps k hm => by obtain ⟨s, e, _, _, h⟩ := hops _ hm; exact SIP_shipped s h e) id
  have hok' : PrimOK l'.prim := by rw [hprim]; exact shift_ok hok
  have hfin' : l'.prim.Finite := by rw [hprim]; exact shift_finite hpl hfin
  have hstr : SameStructure l.prim l'.prim := by rw [hprim]; exact shift_same hok.wf
  have tog : ∀ u r, GoodGeo l r → GoodGeo l (shiftPrim u r) := fun u r h =>
    ⟨shift_ok h.ok, SameStructure.trans' h.str (shift_same h.ok.wf),
      shift_finite (planar_same h.str hpl) h.fin⟩
  have g1 : ∀ r, GoodGeo l r → GoodGeo l' r := fun r h =>
    ⟨h.ok, SameStructure.trans' (SameStructure.symm' hstr) h.str, h.fin⟩
  have g2 : ∀ r, GoodGeo l' r → GoodGeo l r := fun r h => ⟨h.ok, SameStructure.trans' hstr h.str, h.fin⟩
  have hm : ∀ u r, GoodGeo l r → ∀ s, l.Misfit (shiftPrim u r) s ↔ l.Misfit r s := fun u r h s => by
    simp only [Layout.Misfit, residual_shift hsi u (planar_same h.str hpl)]
  have hle : ∀ r, Least l' r ↔ Least l r := by
    intro r
    constructor
    · rintro ⟨s, h1, h2⟩
      refine ⟨s, (hmis _ _).mp h1, fun q hq => ?_⟩
      obtain ⟨s', h3, h4⟩ := h2 q (g1 q hq)
      exact ⟨s', (hmis _ _).mp h3, h4⟩
    · rintro ⟨s, h1, h2⟩
      refine ⟨s, (hmis _ _).mpr h1, fun q hq => ?_⟩
      obtain ⟨s', h3, h4⟩ := h2 q (g2 q hq)
      exact ⟨s', (hmis _ _).mpr h3, h4⟩
  have hls : ∀ u r, GoodGeo l r → Least l r → Least l (shiftPrim u r) := by
    rintro u r hr ⟨s, h1, h2⟩
    exact ⟨s, (hm u r hr s).mpr h1, h2⟩
  obtain ⟨ps, hps⟩ := represents_exists hok
  have gp : GoodGeo l l.prim := ⟨hok, SameStructure.refl hok.wf, hfin⟩
  obtain ⟨r, info, e1, hb⟩ := newton_best hnum hops1 (congrArg Layout.cons hl) hok hfin gp h0 base a b maxIter hmax
  obtain ⟨r', info', e2, hb'⟩ := newton_best hnum' hops' (congrArg Layout.cons hl') hok' hfin' (g1 _ gp) ((hmis _ _).mpr h0)
    base' a' b' maxIter' hmax'
  refine ⟨r, info, r', info', e1, e2, Best.transfer (φ := shiftPrim t) (ψ := shiftPrim (-t)) hok hok'
    (fun r hr => g1 _ (tog t r hr)) (fun r hr => tog (-t) r (g2 r hr))
    (fun r hr h => (hle _).mpr (hls t r hr h)) (fun r hr h => hls (-t) r (g2 r hr) ((hle _).mp h))
    hps (represents_str hstr hps) (fun r s hr h => ?_) (fun r s hr h => ?_) hb hb'⟩
  · rw [hprim]; exact moved_shift hr.str h
  · have := moved_shift (t := -t) hr.str h
    rw [hprim] at this
    exact moved_geometry (shift_back hpl hfin hok.wf) this

/-- The two lines of `clashL`, moved. -/
example : ∃ r info r' info',
    solveNewton exactNum clashL 10 (fin 0) (fin 0) 1 = .ok (r, info) ∧
    solveNewton exactNum ((Layout.empty 0).run (clashOps.map (LayoutOp.shift (5, -2)))) 20 (fin 1) (fin 0) 5
      = .ok (r', info') ∧
    SameGeometry r' (shiftPrim (5, -2) r) := by
  refine C75_translation exactNum exactNum exactNum_exact exactNum_exact 0 clashOps (fun op h => ?_) (5, -2)
    clashL _ rfl rfl ?_ ?_ ?_ _ (by rw [clashL_prim]; exact clashL_misfit _ _ _ _ _ _ _ _ _ _ _ _) 10 20
    0 0 1 0 1 5 (by norm_num) (by norm_num)
  · refine uses_mono (fun s h => ?_) (clashOps_x op h).1
    subst h
    exact ⟨trivial, by simp⟩
  · rw [clashL_prim]; exact forkTree_ok (by decide) _ _ _ _ _ _
  · rw [clashL_prim]; exact forkTree_finite _ _ _ _ _ _ _ _ _ _ _ _
  · rw [clashL_prim]
    intro path m hm
    rcases forkTree_at hm with ⟨_, rfl⟩ | ⟨_, rfl⟩ | ⟨_, rfl⟩ | ⟨_, rfl⟩ | ⟨_, rfl⟩ | ⟨_, rfl⟩ | ⟨_, rfl⟩ <;>
      simp [forkTree, sLn, sPt, Node.value_mk]

end Props

end MplLayout
