import Verif.Lemmas.SolverRuns
import Mathlib.Analysis.Calculus.FDeriv.Mul
import Mathlib.Analysis.Calculus.FDeriv.Comp
import Mathlib.Analysis.Calculus.FDeriv.RestrictScalars
import Mathlib.Analysis.Calculus.Deriv.Inv
import Mathlib.Analysis.SpecialFunctions.Sqrt
import Mathlib.Analysis.SpecialFunctions.Complex.LogDeriv
import Mathlib.Analysis.Complex.Basic
import Mathlib.Analysis.Calculus.ContDiff.Operations

/-!
# Differentiability of the shipped constraints
-/

namespace MplLayout

open Flt Cons

section cls
variable {n : Nat} {x0 : Fin n → ℝ}

/-- Functions that are twice continuously differentiable at `x0`, or have no finite value there. -/
def DiffC (x0 : Fin n → ℝ) (g : (Fin n → ℝ) → Flt) : Prop :=
  g x0 = bad ∨ ∃ F : (Fin n → ℝ) → ℝ, (∀ᶠ y in nhds x0, g y = fin (F y)) ∧ ContDiffAt ℝ 2 F x0

theorem DiffC.const (c : Flt) : DiffC x0 (fun _ => c) := by
  cases c with
  | bad => exact .inl rfl
  | fin c => exact .inr ⟨fun _ => c, .of_forall fun _ => rfl, contDiffAt_const⟩

theorem DiffC.add {f g : (Fin n → ℝ) → Flt} (hf : DiffC x0 f) (hg : DiffC x0 g) :
    DiffC x0 (fun x => f x + g x) := by
  rcases hf with hf | ⟨F, hf, df⟩
  · exact .inl (by simp only [hf, bad_add])
  rcases hg with hg | ⟨G, hg, dg⟩
  · exact .inl (by simp only [hg, add_bad])
  exact .inr ⟨fun x => F x + G x, by filter_upwards [hf, hg] with y h1 h2; simp only [h1, h2, fin_add],
    df.add dg⟩

theorem DiffC.sub {f g : (Fin n → ℝ) → Flt} (hf : DiffC x0 f) (hg : DiffC x0 g) :
    DiffC x0 (fun x => f x - g x) := by
  rcases hf with hf | ⟨F, hf, df⟩
  · exact .inl (by simp only [hf, bad_sub])
  rcases hg with hg | ⟨G, hg, dg⟩
  · exact .inl (by simp only [hg, sub_bad])
  exact .inr ⟨fun x => F x - G x, by filter_upwards [hf, hg] with y h1 h2; simp only [h1, h2, fin_sub],
    df.sub dg⟩

theorem DiffC.mul {f g : (Fin n → ℝ) → Flt} (hf : DiffC x0 f) (hg : DiffC x0 g) :
    DiffC x0 (fun x => f x * g x) := by
  rcases hf with hf | ⟨F, hf, df⟩
  · exact .inl (by simp only [hf, bad_mul])
  rcases hg with hg | ⟨G, hg, dg⟩
  · exact .inl (by simp only [hg, mul_bad])
  exact .inr ⟨fun x => F x * G x, by filter_upwards [hf, hg] with y h1 h2; simp only [h1, h2, fin_mul],
    df.mul dg⟩

theorem DiffC.neg {f : (Fin n → ℝ) → Flt} (hf : DiffC x0 f) : DiffC x0 (fun x => - f x) := by
  rcases hf with hf | ⟨F, hf, df⟩
  · exact .inl (by simp only [hf, neg_bad])
  exact .inr ⟨fun x => - F x, by filter_upwards [hf] with y h1; simp only [h1, fin_neg], df.neg⟩

theorem DiffC.div {f g : (Fin n → ℝ) → Flt} (hf : DiffC x0 f) (hg : DiffC x0 g) :
    DiffC x0 (fun x => f x / g x) := by
  rcases hf with hf | ⟨F, hf, df⟩
  · exact .inl (by simp only [hf, bad_div])
  rcases hg with hg | ⟨G, hg, dg⟩
  · exact .inl (by simp only [hg, div_bad])
  by_cases h0 : G x0 = 0
  · exact .inl (by simp only [hf.self_of_nhds, hg.self_of_nhds, h0, div_zero'])
  have hne : ∀ᶠ y in nhds x0, G y ≠ 0 := dg.continuousAt.eventually_ne h0
  exact .inr ⟨fun x => F x / G x, by
    filter_upwards [hf, hg, hne] with y h1 h2 h3; simp only [h1, h2, fin_div h3], by
      exact df.div dg h0⟩

theorem DiffC.sqrt {f : (Fin n → ℝ) → Flt} (hf : DiffC x0 f) (h0 : f x0 ≠ fin 0) :
    DiffC x0 (fun x => PyNum.sqrt (f x)) := by
  rcases hf with hf | ⟨F, hf, df⟩
  · exact .inl (by simp only [hf]; rfl)
  have hx := hf.self_of_nhds
  rw [hx] at h0
  have h0' : F x0 ≠ 0 := fun h => h0 (by rw [h])
  rcases lt_or_gt_of_ne h0' with hneg | hpos
  · refine .inl ?_
    simp only [hx]
    exact if_pos hneg
  · have hp : ∀ᶠ y in nhds x0, 0 < F y := df.continuousAt.eventually_const_lt hpos
    exact .inr ⟨fun x => Real.sqrt (F x), by
      filter_upwards [hf, hp] with y h1 h2; simp only [h1, fin_sqrt h2.le], df.sqrt h0'⟩

theorem DiffC.atan2 {f g : (Fin n → ℝ) → Flt} (hf : DiffC x0 f) (hg : DiffC x0 g)
    (h0 : ∀ a, f x0 = fin 0 → g x0 = fin a → 0 < a) :
    DiffC x0 (fun x => PyNum.atan2 (f x) (g x)) := by
  rcases hf with hf | ⟨F, hf, df⟩
  · exact .inl (by simp only [hf]; rfl)
  rcases hg with hg | ⟨G, hg, dg⟩
  · exact .inl (by simp only [hg, hf.self_of_nhds]; rfl)
  refine .inr ⟨fun x => Complex.arg ⟨G x, F x⟩, by
    filter_upwards [hf, hg] with y h1 h2; simp only [h1, h2, fin_atan2], ?_⟩
  have hs : (⟨G x0, F x0⟩ : ℂ) ∈ Complex.slitPlane := by
    by_cases h : F x0 = 0
    · exact .inl (h0 _ (by rw [hf.self_of_nhds, h]) hg.self_of_nhds)
    · exact .inr h
  have hc : ContDiffAt ℝ 2 (fun x => (⟨G x, F x⟩ : ℂ)) x0 := by
    have h1 : ContDiffAt ℝ 2 (fun x => (G x : ℂ) + (F x : ℂ) * Complex.I) x0 :=
      (Complex.ofRealCLM.contDiff.contDiffAt.comp x0 dg).add
        ((Complex.ofRealCLM.contDiff.contDiffAt.comp x0 df).mul contDiffAt_const)
    refine h1.congr_of_eventuallyEq (.of_forall fun x => ?_)
    exact Complex.mk_eq_add_mul_I _ _
  have hl : ContDiffAt ℝ 2 Complex.log (⟨G x0, F x0⟩ : ℂ) := (Complex.contDiffAt_log hs).restrict_scalars ℝ
  have := Complex.imCLM.contDiff.contDiffAt.comp x0 (ContDiffAt.comp x0 hl hc)
  refine this.congr_of_eventuallyEq (.of_forall fun x => ?_)
  simp [Complex.log_im]

theorem diffC_lin : LinClass (DiffC x0) where
  const := .const
  add := .add
  sub := .sub
  smul c _ h := (DiffC.const c).mul h
  muls c _ h := h.mul (.const c)

theorem diffC_sum (gs : List ((Fin n → ℝ) → Flt)) {acc : (Fin n → ℝ) → Flt} (h : ∀ g ∈ gs, DiffC x0 g)
    (ha : DiffC x0 acc) : DiffC x0 (fun x => (gs.map (· x)).foldl (· + ·) (acc x)) := by
  induction gs generalizing acc with
  | nil => simpa using ha
  | cons g gs ih => exact ih (fun g hg => h g (by simp [hg])) (ha.add (h g (by simp)))

/-- Some entry is not zero, or there is none. -/
def NZ (v : List Flt) : Prop := v = [] ∨ ∃ a ∈ v, a ≠ fin 0

theorem foldl_bad : ∀ (v : List Flt) (acc : Flt), (acc = bad ∨ bad ∈ v) → v.foldl (· + ·) acc = bad
  | [], acc, h => by simpa using h
  | a :: v, acc, h => by
    refine foldl_bad v _ ?_
    rcases h with rfl | h
    · exact .inl (bad_add a)
    · rcases List.mem_cons.mp h with rfl | h
      · exact .inl (add_bad acc)
      · exact .inr h

theorem sumSq_ne {v : List Flt} (h : ∃ a ∈ v, a ≠ fin 0) :
    Arr.sumList (v.map fun x => x * x) ≠ fin 0 := by
  by_cases hb : bad ∈ v
  · have : bad ∈ v.map fun x => x * x := List.mem_map.mpr ⟨bad, hb, bad_mul _⟩
    rw [Arr.sumList, foldl_bad _ _ (.inr this)]
    exact nofun
  · obtain ⟨w, rfl⟩ : ∃ w : List ℝ, v = w.map fin := by
      obtain ⟨x, hx⟩ := exists_vec (v := v) (fun a ha => by
        cases a with
        | bad => exact absurd ha hb
        | fin x => exact ⟨x, rfl⟩) rfl
      exact ⟨List.ofFn x, hx.trans (vec_eq x)⟩
    rw [sumSq_fin]
    intro e
    rw [fin_inj] at e
    obtain ⟨a, ha, hne⟩ := h
    obtain ⟨x, hx, rfl⟩ := List.mem_map.mp ha
    have : x ^ 2 ≤ (w.map fun x => x ^ 2).sum :=
      List.single_le_sum (by simp only [List.mem_map]; rintro _ ⟨y, _, rfl⟩; positivity) _
        (List.mem_map.mpr ⟨x, hx, rfl⟩)
    rw [e] at this
    exact hne (by rw [pow_eq_zero_iff two_ne_zero |>.mp (le_antisymm this (sq_nonneg x))])

theorem diffC_norm (gs : List ((Fin n → ℝ) → Flt)) (h : ∀ g ∈ gs, DiffC x0 g)
    (hz : NZ (gs.map (· x0))) :
    DiffC x0 (fun x => PyNum.sqrt (Arr.sumList ((gs.map (· x)).map fun a => a * a))) := by
  rcases hz with hz | hz
  · have : gs = [] := by simpa using hz
    subst this
    exact DiffC.const _
  · refine DiffC.sqrt ?_ (sumSq_ne hz)
    have := diffC_sum (x0 := x0) (gs.map fun g x => g x * g x) (acc := fun _ => 0) (by
      intro g hg
      obtain ⟨g', hg', rfl⟩ := List.mem_map.mp hg
      exact (h g' hg').mul (h g' hg')) (.const 0)
    simpa only [Arr.sumList, List.map_map, Function.comp_def] using this

end cls

/-! ## Evaluations -/

section eval
variable {X : Type} {A : (X → Flt) → Prop}

theorem Tame.bind2 {F H : X → Py (Arr Flt)} {K : Arr Flt → Arr Flt → Py (Arr Flt)} (hF : Tame A F)
    (hH : Tame A H) (hK : ∀ a b, InA A a → InA A b → Tame A (fun x => K (evA x a) (evA x b))) :
    Tame A (fun x => do let a ← F x; let b ← H x; K a b) := by
  obtain ⟨r, h1, h2⟩ := hF
  obtain ⟨s, h3, h4⟩ := hH
  simp only [h1, h3]
  cases r with
  | error e => exact Tame.error e
  | ok a =>
    cases s with
    | error e => exact Tame.error e
    | ok b => exact hK a b (h2 a rfl) (h4 b rfl)

theorem tame_map {op : Flt → Flt} {a : Arr (X → Flt)} (h : ∀ g ∈ a.atleast1d, A fun x => op (g x)) :
    Tame A (fun x => .ok ((evA x a).map op)) := by
  cases a with
  | scalar g =>
    exact Tame.ok (a := .scalar fun x => op (g x)) (InA.scalar.mpr (h g (by simp [Arr.atleast1d])))
  | vec gs =>
    refine Tame.congr (fun x => ?_) (Tame.ok (a := .vec (gs.map fun g x => op (g x))) fun g hg => ?_)
    · simp [evA, Arr.map, Function.comp_def]
    · obtain ⟨g', hg', rfl⟩ := List.mem_map.mp hg
      exact h g' hg'

variable {n : Nat} {x0 : Fin n → ℝ}

theorem tame_mul2 {a b : Arr ((Fin n → ℝ) → Flt)} (ha : InA (DiffC x0) a) (hb : InA (DiffC x0) b) :
    Tame (DiffC x0) (fun x => Arr.binop (· * ·) (evA x a) (evA x b)) :=
  tame_binop fun f hf g hg => (ha f hf).mul (hb g hg)

theorem tame_div2 {a b : Arr ((Fin n → ℝ) → Flt)} (ha : InA (DiffC x0) a) (hb : InA (DiffC x0) b) :
    Tame (DiffC x0) (fun x => Arr.div (evA x a) (evA x b)) :=
  tame_binop fun f hf g hg => (ha f hf).div (hb g hg)

theorem tame_dot2 {a b : Arr ((Fin n → ℝ) → Flt)} (ha : InA (DiffC x0) a) (hb : InA (DiffC x0) b) :
    Tame (DiffC x0) (fun x => Arr.dot (evA x a) (evA x b)) := by
  cases a with
  | scalar g => cases b <;> exact tame_mul2 ha hb
  | vec gs =>
    cases b with
    | scalar y => exact tame_mul2 ha hb
    | vec hs =>
      by_cases hl : gs.length = hs.length
      · refine Tame.congr (fun x => ?_) (Tame.ok (a := .scalar fun x =>
          ((List.zipWith (fun g h x => g x * h x) gs hs).map (· x)).foldl (· + ·) 0)
          (InA.scalar.mpr (diffC_sum _ ?_ (.const 0))))
        · simp only [evA, Arr.dot, List.length_map, hl, if_true, Arr.sumList, List.zipWith_map,
            List.map_zipWith]
        · intro k hk
          rw [List.mem_iff_getElem] at hk
          obtain ⟨i, hi, rfl⟩ := hk
          rw [List.getElem_zipWith]
          exact (ha _ (List.getElem_mem _)).mul (hb _ (List.getElem_mem _))
      · exact Tame.congr (fun x => by simp [evA, Arr.dot, hl]) (Tame.error Err.typeError)

theorem tame_cross2 {a b : Arr ((Fin n → ℝ) → Flt)} (ha : InA (DiffC x0) a) (hb : InA (DiffC x0) b) :
    Tame (DiffC x0) (fun x => Arr.cross (evA x a) (evA x b)) := by
  cases a with
  | scalar g => exact Tame.error .valueError
  | vec gs =>
  cases b with
  | scalar g =>
    refine Tame.congr (fun x => ?_) (Tame.error .valueError)
    simp only [evA]
    unfold Arr.cross
    split <;> first | rfl | simp_all
  | vec hs =>
    have hc := DiffC.const (x0 := x0)
    rcases gs with _ | ⟨a, _ | ⟨b, _ | ⟨e, _ | ⟨_, gs⟩⟩⟩⟩
    · exact Tame.error .valueError
    · exact Tame.error .valueError
    · have h1 := ha a (by simp [Arr.atleast1d])
      have h2 := ha b (by simp [Arr.atleast1d])
      rcases hs with _ | ⟨c, _ | ⟨d, _ | ⟨f, _ | ⟨_, hs⟩⟩⟩⟩
      · exact Tame.error .valueError
      · exact Tame.error .valueError
      · have h3 := hb c (by simp [Arr.atleast1d])
        have h4 := hb d (by simp [Arr.atleast1d])
        exact Tame.ok (a := .scalar fun x => a x * d x - b x * c x)
          (InA.scalar.mpr ((h1.mul h4).sub (h2.mul h3)))
      · have h3 := hb c (by simp [Arr.atleast1d])
        have h4 := hb d (by simp [Arr.atleast1d])
        have h5 := hb f (by simp [Arr.atleast1d])
        refine Tame.ok (a := .vec [fun x => b x * f x - 0 * d x, fun x => 0 * c x - a x * f x,
          fun x => a x * d x - b x * c x]) (InA.vec.mpr fun g hg => ?_)
        simp only [List.mem_cons, List.not_mem_nil, or_false] at hg
        rcases hg with rfl | rfl | rfl
        · exact (h2.mul h5).sub ((hc 0).mul h4)
        · exact ((hc 0).mul h3).sub (h1.mul h5)
        · exact (h1.mul h4).sub (h2.mul h3)
      · exact Tame.error .valueError
    · have h1 := ha a (by simp [Arr.atleast1d])
      have h2 := ha b (by simp [Arr.atleast1d])
      have h0 := ha e (by simp [Arr.atleast1d])
      rcases hs with _ | ⟨c, _ | ⟨d, _ | ⟨f, _ | ⟨_, hs⟩⟩⟩⟩
      · exact Tame.error .valueError
      · exact Tame.error .valueError
      · have h3 := hb c (by simp [Arr.atleast1d])
        have h4 := hb d (by simp [Arr.atleast1d])
        refine Tame.ok (a := .vec [fun x => b x * 0 - e x * d x, fun x => e x * c x - a x * 0,
          fun x => a x * d x - b x * c x]) (InA.vec.mpr fun g hg => ?_)
        simp only [List.mem_cons, List.not_mem_nil, or_false] at hg
        rcases hg with rfl | rfl | rfl
        · exact (h2.mul (hc 0)).sub (h0.mul h4)
        · exact (h0.mul h3).sub (h1.mul (hc 0))
        · exact (h1.mul h4).sub (h2.mul h3)
      · have h3 := hb c (by simp [Arr.atleast1d])
        have h4 := hb d (by simp [Arr.atleast1d])
        have h5 := hb f (by simp [Arr.atleast1d])
        refine Tame.ok (a := .vec [fun x => b x * f x - e x * d x, fun x => e x * c x - a x * f x,
          fun x => a x * d x - b x * c x]) (InA.vec.mpr fun g hg => ?_)
        simp only [List.mem_cons, List.not_mem_nil, or_false] at hg
        rcases hg with rfl | rfl | rfl
        · exact (h2.mul h5).sub (h0.mul h4)
        · exact (h0.mul h3).sub (h1.mul h5)
        · exact (h1.mul h4).sub (h2.mul h3)
      · exact Tame.error .valueError
    · refine Tame.congr (fun x => ?_) (Tame.error .valueError)
      simp only [evA, List.map_cons]
      unfold Arr.cross
      split <;> first | rfl | simp_all

end eval

end MplLayout
