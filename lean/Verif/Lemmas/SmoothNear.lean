import Verif.Lemmas.SmoothSolve

/-!
# Constraints that are differentiable at a geometry are differentiable nearby
-/

namespace MplLayout

open Flt

variable {n : Nat} {α τ : Type}

/-- Finitely many nodes. -/
theorem tree_eventually {F : Filter (Fin n → ℝ)} {P : (Fin n → ℝ) → Node τ α → Prop} (T : Node τ α)
    (h : ∀ path m, T.At path m → ∀ᶠ y in F, P y m) : ∀ᶠ y in F, ∀ path m, T.At path m → P y m := by
  induction T using Node.induct with
  | _ t v cs ih =>
    have h1 : ∀ᶠ y in F, ∀ kc ∈ cs, ∀ path m, kc.2.At path m → P y m := by
      have h2 : ∀ kc ∈ cs, ∀ᶠ y in F, ∀ path m, kc.2.At path m → P y m := fun kc hc =>
        ih kc.1 kc.2 hc fun path m hm => h (kc.1 :: path) m (.down hc hm)
      clear h ih
      induction cs with
      | nil => exact .of_forall fun y => nofun
      | cons kc cs ih =>
        filter_upwards [h2 kc (List.mem_cons_self ..), ih fun k hk => h2 k (List.mem_cons_of_mem _ hk)] with y a b
        intro k hk
        rcases List.mem_cons.mp hk with rfl | hk
        · exact a
        · exact b k hk
    filter_upwards [h1, h [] _ (.here _)] with y a b
    intro path m hm
    cases hm with
    | here => exact b
    | down hc hm => exact a _ hc _ _ hm

theorem affF_cases {g : (Fin n → ℝ) → Flt} (h : AffF g) :
    (∀ y, g y = bad) ∨ ∃ F : (Fin n → ℝ) → ℝ, Continuous F ∧ ∀ y, g y = fin (F y) := by
  rcases h with h | ⟨a, c, h⟩
  · exact .inl h
  · exact .inr ⟨_, by fun_prop, h⟩

variable {f : (Fin n → ℝ) → α → PVal Flt} {x : Fin n → ℝ}

/-- The vector of a line depends on the coordinates in an affine way. -/
theorem line_near (V : ValA (AffF (n := n)) f) (p : Node PrimType α) {Q : List Flt → Prop}
    (hQ : ∀ gs : List ((Fin n → ℝ) → Flt), (∀ g ∈ gs, AffF g) → Q (gs.map (· x)) → ∀ᶠ y in nhds x, Q (gs.map (· y)))
    (h : ∀ a b, (p.mapV (f x)).values = [a, b] → ∀ v, Arr.sub (.vec b.value.arr) (.vec a.value.arr) = .ok (.vec v) → Q v) :
    ∀ᶠ y in nhds x, ∀ a b, (p.mapV (f y)).values = [a, b] → ∀ v,
      Arr.sub (.vec b.value.arr) (.vec a.value.arr) = .ok (.vec v) → Q v := by
  obtain ⟨r, h1, h2⟩ := tame_lineVector (G := fun _ => True) affF_lin.toLinSpace V [p] (by simp)
  simp only [List.map_cons, List.map_nil] at h1
  have hval : ∀ y a b, (p.mapV (f y)).values = [a, b] → ∀ v,
      Arr.sub (.vec b.value.arr) (.vec a.value.arr) = .ok (.vec v) → r.map (evA y) = .ok (.vec v) := by
    intro y a b e v e'
    rw [← h1 y]
    simp only [con.lineVectorA, e]
    exact e'
  cases r with
  | error e => exact .of_forall fun y a b e v e' => by cases hval y a b e v e'
  | ok w =>
    obtain ⟨a, b, e1, v, e2, e3⟩ := lineVec_vec (f := f) p x (h1 x)
    cases w with
    | scalar g => cases e2
    | vec gs =>
      have hx := h a b e1 v e3
      have e4 := hval x a b e1 v e3
      simp only [Except.map, evA, Except.ok.injEq, Arr.vec.injEq] at e4
      rw [← e4] at hx
      filter_upwards [hQ gs (h2 _ rfl) hx] with y hy a b e v e'
      have e5 := hval y a b e v e'
      simp only [Except.map, evA, Except.ok.injEq, Arr.vec.injEq] at e5
      rw [← e5]
      exact hy

theorem noZero_near (V : ValA (AffF (n := n)) f) (T : Node PrimType α) (h : Prim.NoZeroLines (T.mapV (f x))) :
    ∀ᶠ y in nhds x, Prim.NoZeroLines (T.mapV (f y)) := by
  have := tree_eventually (F := nhds x) (P := fun y p => ∀ a b, (p.mapV (f y)).values = [a, b] → ∀ v,
      Arr.sub (.vec b.value.arr) (.vec a.value.arr) = .ok (.vec v) → v = [] ∨ ∃ x ∈ v, x ≠ .fin 0) T
    fun path m hm => line_near V m (fun gs hg hx => ?_) fun a b e v e' =>
      h path _ a b ((At_mapV _).mpr ⟨m, hm, rfl⟩) e v e'
  · filter_upwards [this] with y hy path m a b hm
    obtain ⟨m0, h0, rfl⟩ := (At_mapV _).mp hm
    exact hy path m0 h0 a b
  · rcases hx with hx | ⟨z, hz, hne⟩
    · exact .of_forall fun y => .inl (by simpa using hx)
    · obtain ⟨g, hg', rfl⟩ := List.mem_map.mp hz
      rcases affF_cases (hg g hg') with hb | ⟨F, hF, hb⟩
      · exact .of_forall fun y => .inr ⟨g y, List.mem_map_of_mem hg', by rw [hb]; simp⟩
      · have hne : F x ≠ 0 := by rw [hb] at hne; simpa using hne
        filter_upwards [hF.continuousAt.eventually_ne hne] with y hy
        exact .inr ⟨g y, List.mem_map_of_mem hg', by rw [hb]; simpa using hy⟩

theorem noLeft_near (V : ValA (AffF (n := n)) f) (T : Node PrimType α) (h : Prim.NoLeftLines (T.mapV (f x))) :
    ∀ᶠ y in nhds x, Prim.NoLeftLines (T.mapV (f y)) := by
  have := tree_eventually (F := nhds x) (P := fun y p => ∀ a b, (p.mapV (f y)).values = [a, b] → ∀ v,
      Arr.sub (.vec b.value.arr) (.vec a.value.arr) = .ok (.vec v) → ∀ x rest, v = .fin x :: .fin 0 :: rest → 0 < x) T
    fun path m hm => line_near V m (fun gs hg hx => ?_) fun a b e v e' =>
      fun z rest e'' => h path _ a b ((At_mapV _).mpr ⟨m, hm, rfl⟩) e z rest (e'' ▸ e')
  · filter_upwards [this] with y hy path m a b hm
    obtain ⟨m0, h0, rfl⟩ := (At_mapV _).mp hm
    exact fun e z rest e' => hy path m0 h0 a b e _ e' z rest rfl
  · rcases gs with _ | ⟨g1, _ | ⟨g2, gs⟩⟩
    · exact .of_forall fun y z rest e => by simp at e
    · exact .of_forall fun y z rest e => by simp at e
    · rcases affF_cases (hg g1 (by simp)) with hb | ⟨F, hF, hb⟩
      · exact .of_forall fun y z rest e => by simp [hb] at e
      rcases affF_cases (hg g2 (by simp)) with hc | ⟨G, hG, hc⟩
      · exact .of_forall fun y z rest e => by simp [hc] at e
      by_cases h0 : G x = 0
      · have hpos : 0 < F x := hx (F x) (gs.map (· x)) (by simp [hb, hc, h0])
        filter_upwards [hF.continuousAt.eventually (lt_mem_nhds hpos)] with y hy z rest e
        simp only [List.map_cons, hb, List.cons.injEq, fin_inj] at e
        rw [← e.1]; exact hy
      · filter_upwards [hG.continuousAt.eventually_ne h0] with y hy z rest e
        simp only [List.map_cons, hc, List.cons.injEq, fin_inj] at e
        exact absurd e.2.1 hy

end MplLayout
