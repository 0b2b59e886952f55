import Verif.Lemmas.Rename
import Verif.Props.LeastSquares
import Verif.Props.LayoutRefs

/-!
# C90: the names of primitives do not matter
-/

namespace MplLayout.Props

open Solver Flt

variable {K : Type}

/-- C90, building: whatever calls are made, with other names for the primitives exactly the same calls
succeed; the same primitives are then found under the new names, and the constraints, their automatic
keys and their parameters are the same, with the primitive keys renamed. -/
theorem C90_calls (ρ : Str → Str) (hρ : Renaming ρ) (id : Nat) (ops : List (LayoutOp K)) (l l' : Layout K)
    (hl : l = (Layout.empty id).run ops) (hl' : l' = (Layout.empty id).run (ops.map (LayoutOp.rename ρ))) :
    (Layout.empty id).successes (ops.map (LayoutOp.rename ρ)) = (Layout.empty id).successes ops ∧
    (∀ key, (l'.prim.getChild (renameKey ρ key)).toOption = (l.prim.getChild key).toOption) ∧
    l'.prim.keys = l.prim.keys.map ρ ∧ l'.cons = l.cons ∧ l'.params = l.params ∧
    l'.keys = l.keys.mapV (List.map (renameKey ρ)) := by
  have h := run_rename hρ ops (Layout.empty id)
  have h0 : ((Layout.empty id : Layout K).rename ρ) = Layout.empty id := rfl
  rw [h0, ← hl', ← hl] at h
  refine ⟨h.2, ?_⟩
  rw [h.1]
  exact ⟨fun key => getChild_rename hρ _ _, keys_rename _, rfl, rfl, rfl⟩

/-- C90, solving: with other names for the primitives of a layout the solver does exactly the same,
for every method, tolerance and iteration limit and whatever the numerical routines do: it fails in the
same way, or returns the same errors and the same primitives under their new names.  (The calls are
ones whose constraints come with fitting arguments, and no stored primitive key dangles.) -/
theorem C90_solve [PyNum K] (ρ : Str → Str) (hρ : Renaming ρ) (id : Nat) (ops : List (LayoutOp K))
    (l l' : Layout K) (hl : l = (Layout.empty id).run ops)
    (hl' : l' = (Layout.empty id).run (ops.map (LayoutOp.rename ρ))) (hr : ∀ op ∈ ops, op.Regular)
    (hok : PrimOK l.prim) (hd : l.NoDangling) (num : Numerics K) (base : Nat) (absTol relTol : K)
    (maxIter : Int) (method : Str) :
    solve num l' base absTol relTol maxIter method
      = (solve num l base absTol relTol maxIter method).map fun ri => (ri.1.rename ρ, ri.2) := by
  have h := (run_rename hρ ops (Layout.empty id)).1
  have h0 : ((Layout.empty id : Layout K).rename ρ) = Layout.empty id := rfl
  rw [h0, ← hl', ← hl] at h
  have hp : l.Paired := by rw [hl]; exact ((Layout.Inv.empty id).run hr).paired
  rw [h]
  exact solve_rename hρ l hok hp hd num base absTol relTol maxIter method

/-- C90, drawing: with other names for the primitives the same figure is drawn, with the same axes in
the same order, returned under their new names; or drawing fails for both.  If the axes are not listed,
then the new names must contain `Axes` exactly if the old ones do. -/
theorem C90_drawing [PyNum K] (ρ : Str → Str) (hρ : Renaming ρ) (p : Prim K) (fig : Str)
    (axs : Option (List Str))
    (h : axs = none → ∀ k ∈ p.keys, '/' ∉ k ∧ hasSub k!"Axes" (ρ k) = hasSub k!"Axes" k) :
    (subplots (p.rename ρ) (renameKey ρ fig) (axs.map (List.map (renameKey ρ)))).toOption
      = (subplots p fig axs).toOption.map fun cd => (cd.1, cd.2.map fun kv => (renameKey ρ kv.1, kv.2)) :=
  subplots_rename hρ p fig axs h

/-- Why that condition is needed: `subplots` draws the axes whose names contain `Axes`. -/
theorem C90_axes_names [PyNum K] (p : Prim K) :
    axesKeysOf (Prim.rename (fun s => 'z' :: s) p) none = (axesKeysOf p none).map (fun s => 'z' :: s) ∧
    (p.keys = [k!"Axes0"] → axesKeysOf p none = [k!"Axes0"] ∧
      axesKeysOf (Prim.rename List.reverse p) none = []) := by
  constructor
  · simp only [axesKeysOf, keys_rename, List.filter_map]
    congr 1
  · intro h
    simp only [axesKeysOf, keys_rename, h]
    exact ⟨rfl, rfl⟩

/-! ## An example -/

/-- Every name gets the prefix `z`. -/
theorem zRenaming : Renaming fun s => 'z' :: s :=
  ⟨fun a b h => (List.cons.inj h).2, fun s h => by simpa using h⟩

theorem clashOps_made : ∀ op ∈ clashOps, op.MadeIn (axesParts false false false false) := by
  intro op h
  simp only [clashOps, forkOps, List.cons_append, List.nil_append, List.mem_cons, List.not_mem_nil, or_false] at h
  have pt : ∀ (i : Nat) (a b : ℝ), Prim.Made (axesParts false false false false) (sPt i a b) := fun i a b =>
    .point (v := some ⟨i, [fin a, fin b]⟩) (n := 0) rfl
  rcases h with rfl | rfl | rfl | rfl | rfl
  · refine .line (v := some ⟨4, []⟩) (ps := some [sPt 1 0 0, sPt 2 3 0]) (n := 0) (n' := 0) ?_ rfl
    rintro l ⟨⟩ p hp
    simp only [List.mem_cons, List.not_mem_nil, or_false] at hp
    rcases hp with rfl | rfl <;> exact pt _ _ _
  · refine .line (v := some ⟨5, []⟩) (ps := some [sPt 1 0 0, sPt 3 3 0]) (n := 0) (n' := 0) ?_ rfl
    rintro l ⟨⟩ p hp
    simp only [List.mem_cons, List.not_mem_nil, or_false] at hp
    rcases hp with rfl | rfl <;> exact pt _ _ _
  all_goals exact ⟨.xLength, rfl, trivial, by simp [Shipped.parts]⟩

theorem clashOps_regular : ∀ op ∈ clashOps, op.Regular := by
  intro op h
  have hm := clashOps_made op h
  refine Sensible.regular ?_
  simp only [clashOps, forkOps, List.cons_append, List.nil_append, List.mem_cons, List.not_mem_nil, or_false] at h
  rcases h with rfl | rfl | rfl | rfl | rfl
  · exact (Prim.Made.sw hm).1
  · exact (Prim.Made.sw hm).1
  all_goals exact ⟨.xLength, rfl, trivial, trivial⟩

theorem clashL_noDangling : clashL.NoDangling :=
  C48_shipped_partial false false false false 0 clashOps clashOps_made

/-- The line `U/…` is `zU/…` there, with the same geometry. -/
example (num : Numerics Flt) (r : Prim Flt) (info : SolverInfo Flt)
    (h : solve num clashL 10 (fin 0) (fin 0) 5 k!"newton" = .ok (r, info)) :
    (∀ key, renameKey (fun s => 'z' :: s) (k!"U/" ++ key) = k!"zU/" ++ key) ∧
    solve num ((Layout.empty 0).run (clashOps.map (LayoutOp.rename fun s => 'z' :: s))) 10 (fin 0) (fin 0) 5
      k!"newton" = .ok (r.rename fun s => 'z' :: s, info) := by
  constructor
  · intro key
    exact renameKey_slash (ρ := fun s => 'z' :: s) k!"U" key
  · rw [C90_solve _ zRenaming 0 clashOps clashL _ rfl rfl clashOps_regular
      (by rw [clashL_prim]; exact forkTree_ok (by decide) _ _ _ _ _ _) clashL_noDangling, h]
    rfl

end MplLayout.Props
