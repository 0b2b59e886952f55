import Verif.Lemmas.Canonical

/-!
# Layouts with additional constraints
-/

namespace MplLayout.Solver

open Flt

theorem sum_sq_nonneg (v : List ℝ) : 0 ≤ (v.map (· ^ 2)).sum := by
  apply List.sum_nonneg
  simp only [List.mem_map, forall_exists_index, and_imp, forall_apply_eq_imp_iff₂]
  exact fun x _ => sq_nonneg x

theorem sum_sq_zero {v : List ℝ} (h : (v.map (· ^ 2)).sum = 0) : ∀ x ∈ v, x = 0 := by
  induction v with
  | nil => simp
  | cons x v ih =>
    simp only [List.map_cons, List.sum_cons] at h
    have h1 := sq_nonneg x
    have h2 := sum_sq_nonneg v
    have hx : x = 0 := pow_eq_zero_iff (two_ne_zero) |>.mp (by linarith)
    intro y hy
    rcases List.mem_cons.mp hy with rfl | hy
    · exact hx
    · exact ih (by linarith) y hy

/-- A misfit as a sum over the added constraints. -/
theorem misfit_iff {id : Nat} {ops : List (LayoutOp Flt)} (hr : ∀ op ∈ ops, op.Regular)
    (ht : ∀ op ∈ ops, op.TopLevel) {r : Prim Flt}
    (h1 : ∀ k p, ((Layout.empty id).run ops).prim.getChild k = .ok p →
      ∃ p', r.getChild k = .ok p' ∧ p'.ty = p.ty) {as : List (Added Flt)}
    (hp : ((Layout.empty id).added ops).Perm as) {s : ℝ} :
    ((Layout.empty id).run ops).Misfit r s ↔ as ≠ [] ∧
      ∃ vs : List (List ℝ), List.Forall₂ (fun a v => Added.Value a r (v.map fin)) as vs ∧
        s = (vs.map fun v => (v.map (· ^ 2)).sum).sum := by
  have lift : ∀ (as : List (Added Flt)) (ws : List (List Flt)), List.Forall₂ (fun a w => a.Value r w) as ws →
      ∀ v : List ℝ, ws.flatten = v.map fin → ∃ vs : List (List ℝ), vs.flatten = v ∧ ws = vs.map (List.map fin) ∧
        List.Forall₂ (fun a v => Added.Value a r (v.map fin)) as vs := by
    intro as ws h
    induction h with
    | nil => 
      intro v hv
      cases v with
      | nil => exact ⟨[], rfl, rfl, .nil⟩
      | cons => cases hv
    | cons h hs ih =>
      intro v hv
      rw [List.flatten_cons] at hv
      obtain ⟨v1, v2, rfl, e1, e2⟩ := List.map_eq_append_iff.mp hv.symm
      obtain ⟨vs, e3, e4, e5⟩ := ih v2 e2.symm
      exact ⟨v1 :: vs, by rw [List.flatten_cons, e3], by rw [List.map_cons, e1, e4], .cons (by rw [e1]; exact h) e5⟩
  have sums : ∀ vs : List (List ℝ), (vs.flatten.map (· ^ 2)).sum = (vs.map fun v => (v.map (· ^ 2)).sum).sum := by
    intro vs
    induction vs with
    | nil => rfl
    | cons v vs ih => rw [List.flatten_cons, List.map_append, List.sum_append, ih]; rfl
  have drop : ∀ (as : List (Added Flt)) (vs : List (List ℝ)), List.Forall₂ (fun a v => Added.Value a r (v.map fin)) as vs →
      List.Forall₂ (fun a w => a.Value r w) as (vs.map (List.map fin)) := by
    intro as vs h
    rw [List.forall₂_map_right_iff]
    exact h
  constructor
  · rintro ⟨v, e1, rfl⟩
    obtain ⟨hne, ws, e2, e3⟩ := (Props.C50_residual_partial id ops hr ht r h1 _).mp e1
    obtain ⟨vs, k1, _, k3⟩ := lift _ _ e2 v e3.symm
    obtain ⟨vs', e4, e5⟩ := List.perm_comp_forall₂ hp.symm k3
    refine ⟨fun e => hne (by rw [e] at hp; exact hp.eq_nil), vs', e4, ?_⟩
    rw [← k1, sums]
    exact (e5.map _).sum_eq.symm
  · rintro ⟨hne, vs, e1, rfl⟩
    obtain ⟨vs', e4, e5⟩ := List.perm_comp_forall₂ hp e1
    refine ⟨vs'.flatten, (Props.C50_residual_partial id ops hr ht r h1 _).mpr
      ⟨fun e => hne (by rw [e] at hp; exact hp.symm.eq_nil), _, drop _ _ e4, by rw [List.map_flatten]⟩, ?_⟩
    rw [sums]
    exact (e5.map _).sum_eq.symm

theorem forall₂_append_split {α β : Type} {R : α → β → Prop} {as bs : List α} {vs : List β}
    (h : List.Forall₂ R (as ++ bs) vs) : ∃ v1 v2, List.Forall₂ R as v1 ∧ List.Forall₂ R bs v2 ∧ vs = v1 ++ v2 := by
  induction as generalizing vs with
  | nil => exact ⟨[], vs, .nil, h, rfl⟩
  | cons a as ih =>
    cases h with
    | cons h hs =>
      obtain ⟨v1, v2, h1, h2, rfl⟩ := ih hs
      exact ⟨_ :: v1, v2, .cons h h1, h2, rfl⟩

/-- The misfit with additional constraints: not smaller, and equal exactly if these are satisfied. -/
theorem misfit_extra {id id' : Nat} {ops ops' : List (LayoutOp Flt)} (hr : ∀ op ∈ ops, op.Regular)
    (hr' : ∀ op ∈ ops', op.Regular) (ht : ∀ op ∈ ops, op.TopLevel) (ht' : ∀ op ∈ ops', op.TopLevel)
    {extra : List (Added Flt)} (hp : ((Layout.empty id').added ops').Perm ((Layout.empty id).added ops ++ extra))
    (hne : (Layout.empty id).added ops ≠ []) {r : Prim Flt}
    (h1 : ∀ k p, ((Layout.empty id).run ops).prim.getChild k = .ok p →
      ∃ p', r.getChild k = .ok p' ∧ p'.ty = p.ty)
    (h2 : ∀ k p, ((Layout.empty id').run ops').prim.getChild k = .ok p →
      ∃ p', r.getChild k = .ok p' ∧ p'.ty = p.ty) :
    (∀ s', ((Layout.empty id').run ops').Misfit r s' → ∃ s, ((Layout.empty id).run ops).Misfit r s ∧ s ≤ s' ∧
      (s = s' → ∀ a ∈ extra, ∃ w, a.Value r w ∧ Zeros w)) ∧
    ∀ s, ((Layout.empty id).run ops).Misfit r s → (∀ a ∈ extra, ∃ w, a.Value r w ∧ Zeros w) →
      ((Layout.empty id').run ops').Misfit r s := by
  constructor
  · intro s' h
    obtain ⟨hn', vs, e1, rfl⟩ := (misfit_iff hr' ht' h2 hp).mp h
    obtain ⟨vs1, vs2, e2, e3, rfl⟩ : ∃ vs1 vs2, List.Forall₂ (fun a v => Added.Value a r (v.map fin)) ((Layout.empty id).added ops) vs1 ∧
        List.Forall₂ (fun a v => Added.Value a r (v.map fin)) extra vs2 ∧ vs = vs1 ++ vs2 :=
      by
      exact forall₂_append_split e1
    have hnn : 0 ≤ (vs2.map fun v => (v.map (· ^ 2)).sum).sum := by
      apply List.sum_nonneg
      simp only [List.mem_map, forall_exists_index, and_imp, forall_apply_eq_imp_iff₂]
      exact fun v _ => sum_sq_nonneg v
    refine ⟨_, (misfit_iff hr ht h1 (.refl _)).mpr ⟨hne, vs1, e2, rfl⟩, ?_, fun he => ?_⟩
    · rw [List.map_append, List.sum_append]; linarith
    · rw [List.map_append, List.sum_append] at he
      have hz : (vs2.map fun v => (v.map (· ^ 2)).sum).sum = 0 := by linarith
      clear he hnn hp e1 h hn'
      induction e3 with
      | nil => simp
      | cons ha hs ih =>
        rename_i a v as vs
        simp only [List.map_cons, List.sum_cons] at hz
        have k1 := sum_sq_nonneg v
        have k2 : 0 ≤ (vs.map fun v => (v.map (· ^ 2)).sum).sum := by
          apply List.sum_nonneg
          simp only [List.mem_map, forall_exists_index, and_imp, forall_apply_eq_imp_iff₂]
          exact fun v _ => sum_sq_nonneg v
        intro b hb
        rcases List.mem_cons.mp hb with rfl | hb
        · refine ⟨_, ha, fun x hx => ?_⟩
          obtain ⟨y, hy, rfl⟩ := List.mem_map.mp hx
          rw [sum_sq_zero (by linarith) y hy]
        · exact ih (by linarith) b hb
  · intro s h hz
    obtain ⟨_, vs, e1, rfl⟩ := (misfit_iff hr ht h1 (.refl _)).mp h
    have : ∃ ws : List (List ℝ), List.Forall₂ (fun a v => Added.Value a r (v.map fin)) extra ws ∧
        (ws.map fun v => (v.map (· ^ 2)).sum).sum = 0 := by
      clear hp
      induction extra with
      | nil => exact ⟨[], .nil, rfl⟩
      | cons a as ih =>
        obtain ⟨ws, k1, k2⟩ := ih fun b hb => hz b (by simp [hb])
        obtain ⟨w, k3, k4⟩ := hz a (by simp)
        have hw : w = (List.replicate w.length (0 : ℝ)).map fin := by
          rw [List.map_replicate, List.eq_replicate_iff]
          exact ⟨rfl, k4⟩
        refine ⟨List.replicate w.length 0 :: ws, .cons (by rw [← hw]; exact k3) k1, ?_⟩
        simp [k2]
    obtain ⟨ws, k1, k2⟩ := this
    refine (misfit_iff hr' ht' h2 hp).mpr ⟨by simp [hne], vs ++ ws, List.rel_append e1 k1, ?_⟩
    rw [List.map_append, List.sum_append, k2, add_zero]

end MplLayout.Solver
