import Verif.Lemmas.OneStepPlaced
import Verif.Props.Figure
import Verif.Props.JacfwdNewton

/-!
# Solving figures in one step
-/

namespace MplLayout

open Flt Props Solver

/-- The tangent of the function along a direction vanishes at 1. -/
def TanF {n : Nat} (x d : Fin n → ℝ) (g : (Fin n → ℝ) → Flt) : Prop :=
  ∃ h : ℝ → ℝ, (∀ᶠ t in nhds 0, g (x + t • d) = fin (h t)) ∧ TanZero h

section
variable {n : Nat} {x d : Fin n → ℝ} {g : (Fin n → ℝ) → Flt}

theorem tanF_iff {h : ℝ → ℝ} (e : ∀ᶠ t in nhds 0, g (x + t • d) = fin (h t)) : TanF x d g ↔ TanZero h := by
  refine ⟨?_, fun hz => ⟨h, e, hz⟩⟩
  rintro ⟨h', e', hz⟩
  refine (tanZero_congr ?_).mp hz
  filter_upwards [e, e'] with t h1 h2
  rw [h1] at h2
  exact (fin_inj.mp h2).symm

theorem tanF_affine {a : Fin n → ℝ} {c : ℝ} (e : ∀ y, g y = fin (∑ i, a i * y i + c)) :
    TanF x d g ↔ g (x + d) = fin 0 := by
  have h1 : ∀ t : ℝ, g (x + t • d) = fin ((∑ i, a i * x i + c) + (∑ i, a i * d i) * t + 0 * t ^ 2) := by
    intro t
    rw [e]
    congr 1
    simp only [Pi.add_apply, Pi.smul_apply, smul_eq_mul, mul_add, Finset.sum_add_distrib]
    rw [Finset.sum_mul, Finset.sum_congr rfl fun i _ => (by ring : a i * (t * d i) = a i * d i * t)]
    ring
  rw [tanF_iff (.of_forall h1), tanZero_poly]
  have := h1 1
  rw [one_smul] at this
  rw [this, fin_inj]
  constructor <;> intro h <;> linarith

/-- The equations of the Newton step, one by one. -/
theorem tangents {m : Nat} {res : List Flt → Py (List Flt)} {M : Matrix (Fin m) (Fin n) ℝ}
    {r : Fin m → ℝ} (hM : IsJacobian res x M) (hr : res (vec x) = .ok (vec r)) {G : List ((Fin n → ℝ) → Flt)}
    (hG : ∀ y, res (vec y) = .ok (G.map (· y))) :
    M.mulVec d = -r ↔ ∀ g ∈ G, TanF x d g := by
  obtain ⟨F, h1, h2⟩ := hM
  have hF0 : F x = r := by
    have := h1.self_of_nhds
    rw [hr] at this
    exact (vec_inj (Except.ok.inj this)).symm
  have hlen : G.length = m := by
    have := hG x
    rw [hr] at this
    simpa [vec] using (congrArg List.length (Except.ok.inj this)).symm
  have hline : HasDerivAt (fun t : ℝ => x + t • d) d 0 := by
    have := ((hasDerivAt_id (0 : ℝ)).smul_const d).const_add x
    simpa using this
  have hx0 : x + (0 : ℝ) • d = x := by simp
  have h3 : HasDerivAt (fun t : ℝ => F (x + t • d)) (M.mulVec d) 0 := by
    have h2' : HasFDerivAt F (LinearMap.toContinuousLinearMap M.mulVecLin) (x + (0 : ℝ) • d) := by rwa [hx0]
    exact h2'.comp_hasDerivAt 0 hline
  have h4 : ∀ i : Fin m, HasDerivAt (fun t : ℝ => F (x + t • d) i) (M.mulVec d i) 0 := hasDerivAt_pi.mp h3
  have hev : ∀ᶠ t : ℝ in nhds 0, res (vec (x + t • d)) = .ok (vec (F (x + t • d))) := by
    have hc : Filter.Tendsto (fun t : ℝ => x + t • d) (nhds 0) (nhds x) := by
      have := hline.continuousAt.tendsto
      rwa [hx0] at this
    exact hc.eventually h1
  have h5 : ∀ i : Fin m, TanF x d (G[i]'(by rw [hlen]; exact i.2)) ↔ M.mulVec d i = -r i := by
    intro i
    have he : ∀ᶠ t in nhds (0 : ℝ), (G[i]'(by rw [hlen]; exact i.2)) (x + t • d) = fin (F (x + t • d) i) := by
      filter_upwards [hev] with t ht
      rw [hG] at ht
      have := congrArg (fun l => l[i.1]?) (Except.ok.inj ht)
      simpa [vec, hlen] using this
    rw [tanF_iff he, tanZero_iff (h4 i)]
    simp only [zero_smul, add_zero, hF0]
    constructor <;> intro h <;> linarith
  constructor
  · intro e g hg
    obtain ⟨i, hi, rfl⟩ := List.getElem_of_mem hg
    have hi' : i < m := by rw [← hlen]; exact hi
    refine (h5 ⟨i, hi'⟩).mpr ?_
    rw [e]; rfl
  · intro h
    funext i
    exact (h5 i).mp (h _ (List.getElem_mem _))

end

/-! ## The value of a demand as a function of the coordinates -/

/-- The values of the nodes, and of a new root. -/
def optVal (l : Layout Flt) (base n : Nat) (x : Fin n → ℝ) : Option (PVal Flt) → PVal Flt
  | none => ⟨0, []⟩
  | some v => paramVal l base n x v

theorem optVal_A {l : Layout Flt} {base n : Nat} {A : ((Fin n → ℝ) → Flt) → Prop} (V : ValA A (paramVal l base n)) :
    ValA A (optVal l base n) := by
  intro v
  cases v with
  | none => exact ⟨[], by simp, fun x => rfl⟩
  | some v => exact V v

theorem value_family {l : Layout Flt} {base n : Nat} {T : Prim Flt} {d : Demand} (hd : d.ParamOK) {c : Cons Flt}
    (e : d.kind.build = .ok c) {A : ((Fin n → ℝ) → Flt) → Prop} {G : Node PrimType (Option (PVal Flt)) → Prop}
    (htame : AllN (TameP A (optVal l base n) G) c)
    (hG : ∀ k p, k ∈ d.keys → (T.mapV some).getChild k = .ok p → ∀ path q, p.At path q → G q) {x : Fin n → ℝ} {v : List Flt}
    (hv : Added.Value ⟨c, d.keys, d.params⟩ (T.mapV (paramVal l base n x)) v) :
    ∃ gs : List ((Fin n → ℝ) → Flt), (∀ g ∈ gs, A g) ∧
      ∀ y, Added.Value ⟨c, d.keys, d.params⟩ (T.mapV (paramVal l base n y)) (gs.map (· y)) := by
  obtain ⟨prims, hp, hc⟩ := hv
  have hT : ∀ y, (T.mapV some).mapV (optVal l base n y) = T.mapV (paramVal l base n y) := by
    intro y
    rw [Node.mapV_mapV]; rfl
  obtain ⟨tp, h1, h2⟩ : ∃ tp : List (Node PrimType (Option (PVal Flt))),
      List.Forall₂ (fun k p => (T.mapV some).getChild k = .ok p) d.keys tp ∧
      prims = tp.map (·.mapV (optVal l base n x)) := by
    simp only at hp
    clear hc
    generalize d.keys = ks at hp
    induction hp with
    | nil => exact ⟨[], .nil, rfl⟩
    | @cons k p ks ps h _ ih =>
      obtain ⟨tp, i1, i2⟩ := ih
      rw [← hT, Node.getChild_mapV] at h
      cases hk : (T.mapV some).getChild k with
      | error e => rw [hk] at h; cases h
      | ok q =>
        rw [hk] at h
        exact ⟨q :: tp, .cons hk i1, by rw [List.map_cons, ← i2]; congr 1; exact (Except.ok.inj h).symm⟩
  obtain ⟨r, g1, g2⟩ := call_famG (f := optVal l base n) none (fun _ => rfl) (c := c) (ps := d.params) tp
    (fun p hp path q hq => by
      obtain ⟨i, hi, rfl⟩ := List.getElem_of_mem hp
      have hi' : i < d.keys.length := by rw [h1.length_eq]; exact hi
      exact hG _ _ (List.getElem_mem hi') ((List.forall₂_iff_get.mp h1).2 i hi' hi) path q hq)
    (fun hk hl => (shipped_fits d.kind (Demand.paramsOK hd).1 e (by simp [Cons.argKeys, hk]) hl (Demand.paramsOK hd).2).2)
    htame
  have hx := g1 x
  simp only at hc
  rw [← h2, hc] at hx
  cases r with
  | error e => cases hx
  | ok gs =>
    refine ⟨gs, g2 gs rfl, fun y => ⟨tp.map (·.mapV (optVal l base n y)), ?_, g1 y⟩⟩
    simp only
    rw [List.forall₂_map_right_iff]
    refine h1.imp fun k p hk => ?_
    rw [← hT, Node.getChild_mapV, hk]
    rfl

end MplLayout
