import Verif.Spec.Ui
import Verif.Props.Drawing2

/-!
# Plotting primitives (C65, C66)
-/

namespace MplLayout.Props

open Flt

variable {l p q : Prim Flt} {a b c d : ℝ × ℝ}

/-! ## C65 -/

/-- `θ` (in degrees) is the direction in which the line from `a` to `b` points. -/
def DirectionOf (θ : ℝ) (a b : ℝ × ℝ) : Prop :=
  dist2 a b * Real.cos (θ * Real.pi / 180) = b.1 - a.1 ∧
  dist2 a b * Real.sin (θ * Real.pi / 180) = b.2 - a.2

/-- What `rotation_from_line` computes: for lines that do not point down the direction; for lines that
point down the direction of the line mirrored at a vertical axis. -/
theorem rotation_spec (h : IsLine l a b) (hne : a ≠ b) : ∃ θ : ℝ, rotationFromLine l = .ok (fin θ) ∧
    0 ≤ θ ∧ θ ≤ 360 ∧
    (a.2 ≤ b.2 → DirectionOf θ a b) ∧
    (b.2 < a.2 → DirectionOf θ (-a.1, a.2) (-b.1, b.2)) := by
  have hd := dist2_pos hne
  have hsq := dist2_sq a b
  set D := dist2 a b with hD
  have hx : -1 ≤ (b.1 - a.1) / D ∧ (b.1 - a.1) / D ≤ 1 := by
    have : (b.1 - a.1) ^ 2 ≤ D ^ 2 := by rw [hsq]; nlinarith [sq_nonneg (b.2 - a.2)]
    have := abs_le_of_sq_le_sq' this hd.le
    rw [le_div_iff₀ hd, div_le_iff₀ hd]
    constructor <;> linarith [this.1, this.2]
  have hpi := Real.pi_pos
  have hrot : rotationFromLine l = .ok (if b.2 - a.2 < 0 then
      fin (180 / Real.pi * Real.arccos ((b.1 - a.1) / D) + 180)
      else fin (180 / Real.pi * Real.arccos ((b.1 - a.1) / D))) := by
    have hn : Arr.div (.vec [fin (b.1 - a.1), fin (b.2 - a.2)])
        (Arr.norm (.vec [fin (b.1 - a.1), fin (b.2 - a.2)]))
        = .ok (.vec [fin ((b.1 - a.1) / D), fin ((b.2 - a.2) / D)]) := by
      have h1 : con.unitLineVectorA [l] = Arr.div (.vec [fin (b.1 - a.1), fin (b.2 - a.2)])
          (Arr.norm (.vec [fin (b.1 - a.1), fin (b.2 - a.2)])) := by
        simp only [con.unitLineVectorA, IsLine.vec h, bind, Except.bind]
      rw [← h1, IsLine.unit h hne]
    have hac : PyNum.acos (fin ((b.1 - a.1) / D)) = fin (Real.arccos ((b.1 - a.1) / D)) :=
      if_pos hx
    have hlt : PyNum.lt (fin ((b.2 - a.2) / D)) 0 = decide (b.2 - a.2 < 0) := by
      have : ((b.2 - a.2) / D < 0) ↔ b.2 - a.2 < 0 := by
        rw [div_lt_iff₀ hd, zero_mul]
      exact decide_eq_decide.mpr this
    have hpi' : ((180 : ℕ) : Flt) / PyNum.pi = fin (180 / Real.pi) := by
      have : ((180 : ℕ) : Flt) / PyNum.pi = fin ((180 : ℕ) : ℝ) / fin Real.pi := rfl
      rw [this, fin_div hpi.ne']; norm_num
    have g0 : ∀ x y : Flt, (Arr.vec [x, y]).get 0 = .ok x := fun _ _ => rfl
    have g1 : ∀ x y : Flt, (Arr.vec [x, y]).get 1 = .ok y := fun _ _ => rfl
    simp only [rotationFromLine, IsLine.vec h, hn, bind, Except.bind, g0, g1, hac, hlt, hpi', fin_mul,
      decide_eq_true_eq]
    rfl
  set A := Real.arccos ((b.1 - a.1) / D) with hA
  have hA0 : 0 ≤ A := Real.arccos_nonneg _
  have hA1 : A ≤ Real.pi := Real.arccos_le_pi _
  have hcos : Real.cos A = (b.1 - a.1) / D := Real.cos_arccos hx.1 hx.2
  have hsin : Real.sin A = |b.2 - a.2| / D := by
    rw [hA, Real.sin_arccos]
    rw [show 1 - ((b.1 - a.1) / D) ^ 2 = (|b.2 - a.2| / D) ^ 2 by
      rw [div_pow, div_pow, sq_abs]; field_simp; rw [hsq]; ring]
    exact Real.sqrt_sq (by positivity)
  have hdeg : 180 / Real.pi * A * Real.pi / 180 = A := by field_simp
  have h1 : 180 / Real.pi * A ≤ 180 := by
    rw [div_mul_eq_mul_div, div_le_iff₀ hpi]; nlinarith
  by_cases hlt : b.2 - a.2 < 0
  · refine ⟨180 / Real.pi * A + 180, by rw [hrot, if_pos hlt], by positivity, by linarith, ?_, ?_⟩
    · intro h; linarith
    · intro _
      have : (180 / Real.pi * A + 180) * Real.pi / 180 = A + Real.pi := by
        rw [add_mul, add_div, hdeg]; ring
      have hDm : dist2 (-a.1, a.2) (-b.1, b.2) = D := by
        simp only [hD, dist2]; congr 1; ring
      simp only [DirectionOf, this, hDm, Real.cos_add_pi, Real.sin_add_pi, hcos, hsin,
        abs_of_neg hlt]
      constructor <;> field_simp <;> ring
  · refine ⟨180 / Real.pi * A, by rw [hrot, if_neg hlt], by positivity, by linarith, ?_, ?_⟩
    · intro _
      simp only [DirectionOf, hdeg, hcos, hsin, abs_of_nonneg (not_lt.mp hlt), ← hD]
      constructor <;> field_simp
    · intro h; exact absurd (by linarith) hlt

/-- C65: `rotation_from_line` returns the direction of the line, for lines that do not point down and for
vertical lines.  Missing: the other lines that point down (see `C65_counterexample`). -/
theorem C65_rotation_partial (h : IsLine l a b) (hne : a ≠ b) (hdir : a.2 ≤ b.2 ∨ a.1 = b.1) :
    ∃ θ : ℝ, rotationFromLine l = .ok (fin θ) ∧ 0 ≤ θ ∧ θ ≤ 360 ∧ DirectionOf θ a b := by
  obtain ⟨θ, h1, h2, h3, h4, h5⟩ := rotation_spec h hne
  refine ⟨θ, h1, h2, h3, ?_⟩
  by_cases hle : a.2 ≤ b.2
  · exact h4 hle
  · have hx := hdir.resolve_left hle
    obtain ⟨k1, k2⟩ := h5 (not_le.mp hle)
    have hDm : dist2 (-a.1, a.2) (-b.1, b.2) = dist2 a b := by
      simp only [dist2]; congr 1; ring
    rw [hDm] at k1 k2
    simp only at k1 k2
    exact ⟨by rw [k1, hx]; ring, k2⟩

/-- The code violates C65 for every other line: the returned angle is not the direction. -/
theorem C65_violation (h : IsLine l a b) (hd : b.2 < a.2) (hx : a.1 ≠ b.1) :
    ∃ θ : ℝ, rotationFromLine l = .ok (fin θ) ∧ ¬ DirectionOf θ a b := by
  have hne : a ≠ b := fun h => hx (h ▸ rfl)
  obtain ⟨θ, h1, h2, h3, h4, h5⟩ := rotation_spec h hne
  refine ⟨θ, h1, fun hdir => ?_⟩
  obtain ⟨k1, k2⟩ := h5 hd
  have hDm : dist2 (-a.1, a.2) (-b.1, b.2) = dist2 a b := by
    simp only [dist2]; congr 1; ring
  rw [hDm] at k1
  have := hdir.1
  rw [k1] at this
  simp only at this
  apply hx; linarith

/-- A line from (0, 0) to (1, -1) points at 315 degrees; `rotation_from_line` says 225. -/
theorem C65_counterexample : rotationFromLine (realLine (0, 0) (1, -1)) = .ok (fin 225) ∧
    DirectionOf 315 (0, 0) (1, -1) ∧ ¬ DirectionOf 225 (0, 0) (1, -1) := by
  have hD : dist2 (0, 0) (1, -1) = Real.sqrt 2 := by
    simp only [dist2]; congr 1; norm_num
  have h2 : Real.sqrt 2 * Real.sqrt 2 = 2 := Real.mul_self_sqrt (by norm_num)
  have c225 : Real.cos (225 * Real.pi / 180) = -(Real.sqrt 2 / 2) := by
    rw [show (225 : ℝ) * Real.pi / 180 = Real.pi / 4 + Real.pi by ring, Real.cos_add_pi, Real.cos_pi_div_four]
  have c315 : Real.cos (315 * Real.pi / 180) = Real.sqrt 2 / 2 := by
    rw [show (315 : ℝ) * Real.pi / 180 = 2 * Real.pi - Real.pi / 4 by ring, Real.cos_two_pi_sub,
      Real.cos_pi_div_four]
  have s315 : Real.sin (315 * Real.pi / 180) = -(Real.sqrt 2 / 2) := by
    rw [show (315 : ℝ) * Real.pi / 180 = 2 * Real.pi - Real.pi / 4 by ring, Real.sin_two_pi_sub,
      Real.sin_pi_div_four]
  refine ⟨?_, ⟨?_, ?_⟩, ?_⟩
  · have hacos : Real.arccos (Real.sqrt 2 / 2) = Real.pi / 4 := by
      rw [← Real.cos_pi_div_four, Real.arccos_cos] <;> linarith [Real.pi_pos]
    obtain ⟨θ, h1, h2', h3, h4, h5⟩ := rotation_spec (isLine_realLine (0, 0) (1, -1)) (by simp)
    obtain ⟨k1, k2⟩ := h5 (by norm_num)
    have hDm : dist2 (-(0:ℝ), (0:ℝ)) (-1, -1) = Real.sqrt 2 := by
      simp only [dist2]; congr 1; norm_num
    simp only [hDm] at k1 k2
    rw [h1]
    congr 2
    -- the angle is in [0, 360] with both sine and cosine -√2/2
    have hs : 0 < Real.sqrt 2 := by positivity
    have e1 : Real.cos (θ * Real.pi / 180) = Real.cos (225 * Real.pi / 180) := by
      rw [c225]
      have : Real.sqrt 2 * Real.cos (θ * Real.pi / 180) = Real.sqrt 2 * -(Real.sqrt 2 / 2) := by
        rw [k1]; linarith
      exact mul_left_cancel₀ hs.ne' this
    have e2 : Real.sin (θ * Real.pi / 180) < 0 := by
      by_contra hc
      have := mul_nonneg hs.le (not_lt.mp hc)
      rw [k2] at this; norm_num at this
    have hθ : 180 < θ := by
      by_contra hc
      have : 0 ≤ Real.sin (θ * Real.pi / 180) := by
        apply Real.sin_nonneg_of_nonneg_of_le_pi
        · have := Real.pi_pos; positivity
        · rw [div_le_iff₀ (by norm_num)]; nlinarith [Real.pi_pos, not_lt.mp hc]
      linarith
    have e3 : Real.cos (2 * Real.pi - θ * Real.pi / 180) = Real.cos (2 * Real.pi - 225 * Real.pi / 180) := by
      rw [Real.cos_two_pi_sub, Real.cos_two_pi_sub, e1]
    have hpi := Real.pi_pos
    have := Real.injOn_cos ⟨by nlinarith, by nlinarith⟩ ⟨by nlinarith, by nlinarith⟩ e3
    have : θ * Real.pi = 225 * Real.pi := by linarith
    exact mul_right_cancel₀ hpi.ne' this
  · rw [hD, c315]; simp only; linarith
  · rw [hD, s315]; simp only; linarith
  · rintro ⟨h, -⟩
    rw [hD, c225] at h
    simp only at h
    linarith

/-- The hypotheses of `C65_rotation_partial` are met by a line straight down. -/
example : ∃ θ : ℝ, rotationFromLine (realLine (2, 3) (2, 1)) = .ok (fin θ) ∧ 0 ≤ θ ∧ θ ≤ 360 ∧
    DirectionOf θ (2, 3) (2, 1) :=
  C65_rotation_partial (isLine_realLine _ _) (by simp) (.inr rfl)

/-! ## C66 -/

section
variable {K : Type}

mutual
/-- The primitives drawn when `n` is plotted, with their paths, in order. -/
def shown : Prim K → List (List Str × Prim K)
  | .mk t v cs => ([], .mk t v cs) :: (if t.sub .line then [] else shownL cs)
/-- The same for a list of children. -/
def shownL : List (Str × Prim K) → List (List Str × Prim K)
  | [] => []
  | (k, c) :: cs => (shown c).map (fun pm => (k :: pm.1, pm.2)) ++ shownL cs
end

theorem mem_shownL (cs : List (Str × Prim K)) (pm : List Str × Prim K) :
    pm ∈ shownL cs ↔ ∃ k c p, (k, c) ∈ cs ∧ (p, pm.2) ∈ shown c ∧ pm.1 = k :: p := by
  induction cs with
  | nil => simp [shownL]
  | cons kc cs ih =>
    obtain ⟨k, c⟩ := kc
    simp only [shownL, List.mem_append, List.mem_map, ih, List.mem_cons, Prod.mk.injEq]
    constructor
    · rintro (⟨x, hx, rfl⟩ | ⟨k', c', p, h1, h2, h3⟩)
      · exact ⟨k, c, x.1, .inl ⟨rfl, rfl⟩, hx, rfl⟩
      · exact ⟨k', c', p, .inr h1, h2, h3⟩
    · rintro ⟨k', c', p, ⟨rfl, rfl⟩ | h1, h2, h3⟩
      · exact .inl ⟨(p, pm.2), h2, by rw [← h3]⟩
      · exact .inr ⟨k', c', p, h1, h2, h3⟩

theorem mem_shown (n : Prim K) (p : List Str) (m : Prim K) : (p, m) ∈ shown n ↔ Shown n p m := by
  induction n using Node.induct generalizing p with
  | _ t v cs ih =>
    simp only [shown, List.mem_cons]
    constructor
    · rintro (h | h)
      · cases h; exact .here _
      · by_cases ht : t.sub .line = true
        · simp [ht] at h
        · simp only [ht, Bool.false_eq_true, if_false, mem_shownL] at h
          obtain ⟨k, c, q, h1, h2, h3⟩ := h
          subst h3
          exact .down (fun hl => ht ((PrimType.sub_iff _ _).mpr hl)) h1 ((ih k c h1 q).mp h2)
    · intro h
      cases h with
      | here => exact .inl rfl
      | down h1 h2 h3 =>
        rename_i c k q
        right
        have ht : ¬ t.sub .line = true := fun hl => h1 ((PrimType.sub_iff _ _).mp hl)
        simp only [ht, Bool.false_eq_true, if_false, mem_shownL]
        exact ⟨k, c, q, h2, (ih k c h2 q).mpr h3, rfl⟩

theorem shownL_nodup {cs : List (Str × Prim K)} (hk : (cs.map (·.1)).Nodup)
    (h : ∀ kc ∈ cs, ((shown kc.2).map (·.1)).Nodup) : ((shownL cs).map (·.1)).Nodup := by
  induction cs with
  | nil => simp [shownL]
  | cons kc cs ih =>
    obtain ⟨k, c⟩ := kc
    simp only [List.map_cons, List.nodup_cons] at hk
    simp only [shownL, List.map_append, List.map_map]
    rw [List.nodup_append]
    refine ⟨?_, ih hk.2 fun kc hkc => h kc (List.mem_cons_of_mem _ hkc), ?_⟩
    · have := h (k, c) List.mem_cons_self
      have e : (shown c).map ((·.1) ∘ fun pm => (k :: pm.1, pm.2)) = ((shown c).map (·.1)).map (k :: ·) := by
        simp [List.map_map, Function.comp_def]
      rw [e]
      exact this.map (List.cons_injective)
    · rintro x hx y hy rfl
      obtain ⟨pm, h1, rfl⟩ := List.mem_map.mp hx
      obtain ⟨pm', h2, h3⟩ := List.mem_map.mp hy
      obtain ⟨k', c', p, h4, h5, h6⟩ := (mem_shownL _ _).mp h2
      rw [h6] at h3
      simp only [Function.comp_apply, List.cons.injEq] at h3
      exact hk.1 (h3.1 ▸ List.mem_map.mpr ⟨_, h4, rfl⟩)

theorem shown_nodup {n : Prim K} (h : n.WF) : ((shown n).map (·.1)).Nodup := by
  induction n using Node.induct with
  | _ t v cs ih =>
    simp only [shown, List.map_cons, List.nodup_cons]
    have hk : (cs.map (·.1)).Nodup := h [] _ (.here _)
    by_cases ht : t.sub .line = true
    · simp [ht]
    · simp only [ht, Bool.false_eq_true, if_false]
      refine ⟨?_, shownL_nodup hk fun kc hkc => ih kc.1 kc.2 hkc fun p m hm => h _ _ (.down hkc hm)⟩
      intro hm
      obtain ⟨pm, h1, h2⟩ := List.mem_map.mp hm
      obtain ⟨k', c', p, h4, h5, h6⟩ := (mem_shownL _ _).mp h1
      rw [h6] at h2
      cases h2

theorem Shown.at {n m : Prim K} {p : List Str} (h : Shown n p m) : n.At p m := by
  induction h with
  | here n => exact .here n
  | down _ h _ ih => exact .down h ih

theorem At.slashFree {n m : Prim K} {p : List Str} (hs : n.SlashFree) (h : n.At p m) :
    ∀ w ∈ p, '/' ∉ w := by
  induction h with
  | here => simp
  | @down n c m k p hc hm ih =>
    simp only [List.mem_cons, forall_eq_or_imp]
    exact ⟨hs [] n (.here _) k (List.mem_map.mpr ⟨_, hc, rfl⟩),
      ih fun p m hm => hs _ _ (.down hc hm)⟩

end

section
variable {K : Type} [PyNum K]

/-- The call made for one primitive. -/
def IsCallFor (maxDepth : Nat) (key : Str) (prim : Prim K) (c : PlotCall K) : Prop :=
  ∃ color, plotNode prim key color maxDepth = .ok c

theorem plotNode_key {prim : Prim K} {key : Str} {d : Nat} {c : PlotCall K}
    (h : IsCallFor d key prim c) : c.key = key ∧ c.prim = prim := by
  obtain ⟨color, h⟩ := h
  simp only [plotNode] at h
  obtain ⟨a, h1, h2⟩ := bind_ok' h
  cases h2
  exact ⟨rfl, rfl⟩

theorem plotNode_color {prim : Prim K} {key : Str} {color : K} {d : Nat} {c : PlotCall K}
    (h : plotNode prim key color d = .ok c) : c.color = color := by
  simp only [plotNode] at h
  obtain ⟨a, h1, h2⟩ := bind_ok' h
  cases h2
  rfl

theorem plotPrim_color (d : Nat) (color : K) (n : Prim K) : ∀ (key : Str) (calls : List (PlotCall K)),
    plotPrim d color key n = .ok calls → ∀ c ∈ calls, c.color = color := by
  induction n using Node.induct with
  | _ t v cs ih =>
    intro key calls h
    simp only [plotPrim] at h
    obtain ⟨c, h1, h2⟩ := bind_ok' h
    have hL : ∀ (cs' : List (Str × Prim K)), (∀ kc ∈ cs', kc ∈ cs) → ∀ calls',
        plotPrimL d color key cs' = .ok calls' → ∀ c ∈ calls', c.color = color := by
      intro cs'
      induction cs' with
      | nil => intro _ calls' h; cases h; simp
      | cons kc cs' ih' =>
        intro hsub calls' h
        obtain ⟨k, c'⟩ := kc
        simp only [plotPrimL] at h
        obtain ⟨xs, g1, g2⟩ := bind_ok' h
        obtain ⟨ys, g3, g4⟩ := bind_ok' g2
        cases g4
        intro c hc
        rcases List.mem_append.mp hc with hc | hc
        · exact ih k c' (hsub _ List.mem_cons_self) _ _ g1 c hc
        · exact ih' (fun kc hkc => hsub _ (List.mem_cons_of_mem _ hkc)) _ g3 c hc
    by_cases ht : t.sub .line = true
    · simp only [ht, if_true] at h2
      cases h2
      simpa using plotNode_color h1
    · simp only [ht, Bool.false_eq_true, if_false] at h2
      obtain ⟨rest, h3, h4⟩ := bind_ok' h2
      cases h4
      intro c' hc'
      rcases List.mem_cons.mp hc' with rfl | hc'
      · exact plotNode_color h1
      · exact hL cs (fun _ h => h) _ h3 c' hc'

theorem plotPrim_calls (d : Nat) (color : K) (n : Prim K) : ∀ (key : Str) (calls : List (PlotCall K)),
    plotPrim d color key n = .ok calls →
    List.Forall₂ (fun pm c => IsCallFor d (key ++ slashed pm.1) pm.2 c) (shown n) calls := by
  induction n using Node.induct with
  | _ t v cs ih =>
    intro key calls h
    simp only [plotPrim] at h
    obtain ⟨c, h1, h2⟩ := bind_ok' h
    have hL : ∀ (cs' : List (Str × Prim K)), (∀ kc ∈ cs', kc ∈ cs) → ∀ calls',
        plotPrimL d color key cs' = .ok calls' →
        List.Forall₂ (fun pm c => IsCallFor d (key ++ slashed pm.1) pm.2 c) (shownL cs') calls' := by
      intro cs'
      induction cs' with
      | nil => intro _ calls' h; cases h; exact .nil
      | cons kc cs' ih' =>
        intro hsub calls' h
        obtain ⟨k, c'⟩ := kc
        simp only [plotPrimL] at h
        obtain ⟨xs, g1, g2⟩ := bind_ok' h
        obtain ⟨ys, g3, g4⟩ := bind_ok' g2
        cases g4
        have i1 := ih k c' (hsub _ List.mem_cons_self) _ _ g1
        have i2 := ih' (fun kc hkc => hsub _ (List.mem_cons_of_mem _ hkc)) _ g3
        simp only [shownL]
        refine List.rel_append ?_ i2
        rw [List.forall₂_map_left_iff]
        refine i1.imp fun pm c hc => ?_
        have : key ++ '/' :: k ++ slashed pm.1 = key ++ slashed (k :: pm.1) := by simp [slashed]
        rwa [this] at hc
    simp only [shown]
    by_cases ht : t.sub .line = true
    · simp only [ht, if_true] at h2 ⊢
      cases h2
      exact .cons ⟨color, by simpa [slashed] using h1⟩ .nil
    · simp only [ht, Bool.false_eq_true, if_false] at h2 ⊢
      obtain ⟨rest, h3, h4⟩ := bind_ok' h2
      cases h4
      exact .cons ⟨color, by simpa [slashed] using h1⟩ (hL cs (fun _ h => h) _ h3)

theorem plotPrims_calls {root : Prim K} {calls : List (PlotCall K)} (h : plotPrims root = .ok calls) :
    List.Forall₂ (fun pm c => IsCallFor 99 (joinSlash pm.1) pm.2 c) (shownL root.children) calls := by
  simp only [plotPrims] at h
  obtain ⟨css, h1, h2⟩ := bind_ok' h
  cases h2
  clear h
  generalize hn : root.len = n at h1
  clear hn
  generalize root.children = cs at h1
  generalize 0 = j at h1
  induction cs generalizing css j with
  | nil => cases h1; exact .nil
  | cons kc cs ih =>
    simp only [List.zipIdx_cons, pyMap] at h1
    obtain ⟨xs, g1, g2⟩ := bind_ok' h1
    obtain ⟨ys, g3, g4⟩ := bind_ok' g2
    cases g4
    obtain ⟨k, c⟩ := kc
    simp only [shownL, List.flatten_cons]
    refine List.rel_append ?_ (ih _ _ g3)
    rw [List.forall₂_map_left_iff]
    refine (plotPrim_calls 99 _ c _ _ g1).imp fun pm c hc => ?_
    have : k ++ slashed pm.1 = joinSlash (k :: pm.1) := by
      by_cases hp : pm.1 = []
      · rw [hp]; simp [slashed, joinSlash]
      · rw [Node.slashed_eq hp, joinSlash_cons hp]
    rwa [this] at hc

end

/-- C66: when `plot_prims` succeeds it has drawn exactly the primitives below the root other than those
below a line, each exactly once, under its key. -/
theorem C66_each_once {root : Prim Flt} {calls : List (PlotCall Flt)} (hw : root.WF)
    (hs : root.SlashFree) (h : plotPrims root = .ok calls) :
    (calls.map (·.key)).Nodup ∧
    ∀ key m, (∃ c ∈ calls, c.key = key ∧ c.prim = m) ↔
      ∃ k child p, (k, child) ∈ root.children ∧ Shown child p m ∧ key = joinSlash (k :: p) := by
  have hc := plotPrims_calls h
  have hkeys : calls.map (·.key) = (shownL root.children).map (fun pm => joinSlash pm.1) := by
    have : List.Forall₂ (fun a b => a = b) ((shownL root.children).map (fun pm => joinSlash pm.1))
        (calls.map (·.key)) := by
      rw [List.forall₂_map_left_iff, List.forall₂_map_right_iff]
      exact hc.imp fun pm c h => (plotNode_key h).1.symm
    exact (List.forall₂_eq_eq_eq ▸ this : _ = _).symm
  have hat : ∀ pm ∈ shownL root.children, root.At pm.1 pm.2 ∧ pm.1 ≠ [] := by
    intro pm hpm
    obtain ⟨k, c, p, h1, h2, h3⟩ := (mem_shownL _ _).mp hpm
    rw [h3]
    exact ⟨.down h1 (Shown.at ((mem_shown _ _ _).mp h2)), by simp⟩
  constructor
  · rw [hkeys]
    have hn : ((shownL root.children).map (·.1)).Nodup :=
      shownL_nodup (hw [] root (.here _)) fun kc hkc => shown_nodup fun p m hm => hw _ _ (.down hkc hm)
    have : (shownL root.children).map (fun pm => joinSlash pm.1)
        = ((shownL root.children).map (·.1)).map joinSlash := by simp [List.map_map, Function.comp_def]
    rw [this]
    refine hn.map_on ?_
    intro x hx y hy hxy
    obtain ⟨pm, hpm, rfl⟩ := List.mem_map.mp hx
    obtain ⟨pm', hpm', rfl⟩ := List.mem_map.mp hy
    obtain ⟨a1, a2⟩ := hat pm hpm
    obtain ⟨b1, b2⟩ := hat pm' hpm'
    have := congrArg splitAll hxy
    rwa [splitAll_joinSlash a2 (At.slashFree hs a1), splitAll_joinSlash b2 (At.slashFree hs b1)] at this
  · intro key m
    constructor
    · rintro ⟨c, hc', rfl, rfl⟩
      have : ∃ pm ∈ shownL root.children, IsCallFor 99 (joinSlash pm.1) pm.2 c := by
        clear hkeys hat h
        generalize shownL root.children = ss at hc
        induction hc with
        | nil => cases hc'
        | cons h1 _ ih =>
          rcases List.mem_cons.mp hc' with rfl | hm
          · exact ⟨_, List.mem_cons_self, h1⟩
          · obtain ⟨pm, h2, h3⟩ := ih hm
            exact ⟨pm, List.mem_cons_of_mem _ h2, h3⟩
      obtain ⟨pm, h1, h2⟩ := this
      obtain ⟨e1, e2⟩ := plotNode_key h2
      obtain ⟨k, ch, p, h3, h4, h5⟩ := (mem_shownL _ _).mp h1
      exact ⟨k, ch, p, h3, by rw [e2]; exact (mem_shown _ _ _).mp h4, by rw [e1, h5]⟩
    · rintro ⟨k, ch, p, h1, h2, rfl⟩
      have hm : (k :: p, m) ∈ shownL root.children :=
        (mem_shownL _ _).mpr ⟨k, ch, p, h1, (mem_shown _ _ _).mpr h2, rfl⟩
      clear hkeys hat h
      generalize shownL root.children = ss at hc hm
      have : ∃ c ∈ calls, IsCallFor 99 (joinSlash (k :: p)) m c := by
        induction hc with
        | nil => cases hm
        | cons h1 _ ih =>
          rcases List.mem_cons.mp hm with e | hm
          · subst e; exact ⟨_, List.mem_cons_self, h1⟩
          · obtain ⟨c, h2, h3⟩ := ih hm
            exact ⟨c, List.mem_cons_of_mem _ h2, h3⟩
      obtain ⟨c, hc1, hc2⟩ := this
      exact ⟨c, hc1, plotNode_key hc2⟩

theorem mem_calls {root : Prim Flt} {calls : List (PlotCall Flt)} (h : plotPrims root = .ok calls)
    {c : PlotCall Flt} (hc : c ∈ calls) : plotNode c.prim c.key c.color 99 = .ok c := by
  have := plotPrims_calls h
  clear h
  generalize shownL root.children = ss at this
  induction this with
  | nil => cases hc
  | cons h1 _ ih =>
    rcases List.mem_cons.mp hc with rfl | hm
    · obtain ⟨e1, e2⟩ := plotNode_key h1
      rw [e1, e2]
      obtain ⟨color, h1⟩ := h1
      rw [plotNode_color h1]; exact h1
    · exact ih hm

theorem plotAlpha_eq (h depth : Nat) :
    (plotAlpha (h + depth) depth : Flt) =
      fin (1 / 5 + 4 / 5 * (if h + depth = 0 then 1 else (h : ℝ) / (h + depth))) := by
  have h5 : (1 : Flt) / ((5 : ℕ) : Flt) = fin (1 / 5) := by
    rw [one_eq, fin_natCast, fin_div (by norm_num)]; norm_num
  simp only [plotAlpha, Nat.add_sub_cancel, h5]
  by_cases h0 : h + depth = 0
  · simp only [h0, if_true, one_eq, fin_mul, fin_sub, fin_add]
    norm_num
  · have hne : ((h + depth : ℕ) : ℝ) ≠ 0 := by exact_mod_cast h0
    simp only [h0, if_false, fin_natCast, fin_div hne, one_eq, fin_mul, fin_sub, fin_add]
    congr 1
    push_cast
    ring

/-- C66, opacity: every primitive is drawn with an opacity between 0.2 and 1: 0.2 plus 0.8 times its
height divided by its height plus its depth. -/
theorem C66_opacity {root : Prim Flt} {calls : List (PlotCall Flt)} (h : plotPrims root = .ok calls)
    {c : PlotCall Flt} (hc : c ∈ calls) : ∃ α : ℝ, c.alpha = fin α ∧ 1 / 5 ≤ α ∧ α ≤ 1 ∧
      (c.prim.nodeHeight + (splitAll c.key).length ≠ 1 →
        α = 1 / 5 + 4 / 5 * (c.prim.nodeHeight : ℝ) /
          (c.prim.nodeHeight + ((splitAll c.key).length - 1))) := by
  have h1 := mem_calls h hc
  simp only [plotNode] at h1
  obtain ⟨arts, h2, h3⟩ := bind_ok' h1
  have ha : c.alpha = plotAlpha (c.prim.nodeHeight + (splitAll c.key).length - 1)
      ((splitAll c.key).length - 1) := by
    have := Except.ok.inj h3
    conv_lhs => rw [← this]
  have hl : 1 ≤ (splitAll c.key).length := List.length_pos_of_ne_nil (splitAll_ne_nil _)
  obtain ⟨m, hm⟩ : ∃ m, (splitAll c.key).length = m + 1 := ⟨_, (Nat.sub_add_cancel hl).symm⟩
  rw [hm, Nat.add_sub_cancel, ← Nat.add_assoc, Nat.add_sub_cancel, plotAlpha_eq] at ha
  refine ⟨_, ha, ?_, ?_, ?_⟩
  · have : (0:ℝ) ≤ if c.prim.nodeHeight + m = 0 then 1 else (c.prim.nodeHeight : ℝ) / (c.prim.nodeHeight + m) := by
      split <;> positivity
    linarith
  · have : (if c.prim.nodeHeight + m = 0 then (1:ℝ) else (c.prim.nodeHeight : ℝ) / (c.prim.nodeHeight + m)) ≤ 1 := by
      split
      · exact le_refl _
      · apply div_le_one_of_le₀ <;> [skip; positivity]
        have : (0:ℝ) ≤ m := by positivity
        linarith
    linarith
  · intro hne
    rw [hm] at hne ⊢
    have : ¬ (c.prim.nodeHeight + m = 0) := by omega
    rw [if_neg this]
    push_cast
    ring

/-- Every call has drawn what `make_plot` draws for its primitive. -/
theorem call_artists {root : Prim Flt} {calls : List (PlotCall Flt)} (h : plotPrims root = .ok calls)
    {c : PlotCall Flt} (hc : c ∈ calls) : ∃ label, plotOne c.prim label c.alpha = .ok c.artists := by
  have h1 := mem_calls h hc
  simp only [plotNode] at h1
  obtain ⟨arts, h2, h3⟩ := bind_ok' h1
  have := Except.ok.inj h3
  have e1 : c.alpha = plotAlpha (c.prim.nodeHeight + (splitAll c.key).length - 1)
    ((splitAll c.key).length - 1) := (congrArg PlotCall.alpha this).symm
  have e2 : c.artists = arts := (congrArg PlotCall.artists this).symm
  rw [← e1] at h2
  rw [e2]
  exact ⟨_, h2⟩

theorem isA_line_not_point {t : PrimType} (h : t.IsA .line) : t.sub .point = false := by
  have := (PrimType.sub_iff _ _).mpr h
  cases t <;> revert this <;> decide

theorem isA_polygon_not {t : PrimType} (h : t.IsA .polygon) : t.sub .point = false ∧ t.sub .line = false := by
  have := (PrimType.sub_iff _ _).mpr h
  cases t <;> revert this <;> decide

theorem isA_quad_polygon {t : PrimType} (h : t.IsA .quadrilateral) : t.IsA .polygon := by
  have := (PrimType.sub_iff _ _).mpr h
  refine (PrimType.sub_iff _ _).mp ?_
  cases t <;> revert this <;> decide

theorem plotOne_point (h : IsPoint p a) (label : Option Str) (α : Flt) :
    plotOne p label α = .ok [.marker (fin a.1) (fin a.2) α, .text label [fin a.1, fin a.2] 0 α] := by
  have hs : p.ty.sub .point = true := (PrimType.sub_iff _ _).mpr h.1
  simp only [plotOne, hs, if_true, plotPoint, h.2, up, unpack2, bind, Except.bind]

theorem plotOne_line (h : IsLine l a b) (label : Option Str) (α : Flt) :
    (a = b → plotOne l label α = .ok []) ∧
    (a ≠ b → ∃ θ, rotationFromLine l = .ok θ ∧
      plotOne l label α = .ok [.path [fin a.1, fin b.1] [fin a.2, fin b.2] α,
        .text label [fin ((a.1 + b.1) / 2), fin ((a.2 + b.2) / 2)] θ α]) := by
  have hs : l.ty.sub .line = true := (PrimType.sub_iff _ _).mpr h.1
  have hn := isA_line_not_point h.1
  have hlen := IsLine.length h
  constructor
  · rintro rfl
    have : PyNum.truthy (fin (0:ℝ)) = false := by
      show decide ((0:ℝ) ≠ 0) = false
      simp
    simp only [plotOne, hn, hs, if_true, Bool.false_eq_true, if_false, plotLine, hlen, dist2_self, bind,
      Except.bind, this, Bool.not_false]
  · intro hne
    have : PyNum.truthy (fin (dist2 a b)) = true := by
      show decide (dist2 a b ≠ 0) = true
      simp [(dist2_pos hne).ne']
    obtain ⟨θ, hθ, -⟩ := rotation_spec h hne
    obtain ⟨-, p0, p1, hc, hp, hq⟩ := h
    have hv : l.values = [p0, p1] := by simp [Node.values, hc]
    have g0 : ∀ x y : Flt, (Arr.vec [x, y]).get 0 = .ok x := fun _ _ => rfl
    have g1 : ∀ x y : Flt, (Arr.vec [x, y]).get 1 = .ok y := fun _ _ => rfl
    have half : (1 : Flt) / ((2 : ℕ) : Flt) = fin (1 / 2) := by
      rw [one_eq, fin_natCast, fin_div (by norm_num)]; norm_num
    have hsum : ∀ x y : ℝ, Arr.sumList [fin x, fin y] = fin (x + y) := by
      intro x y
      show (0 : Flt) + fin x + fin y = _
      rw [zero_eq, fin_add, fin_add, zero_add]
    refine ⟨fin θ, hθ, ?_⟩
    simp only [plotOne, hn, hs, if_true, Bool.false_eq_true, if_false, plotLine, hlen, this, bind,
      Except.bind, Bool.not_true, hv, pyMap, hp.2, hq.2, up, g0, g1, hθ, half, hsum, fin_mul]
    norm_num [div_eq_mul_inv, mul_comm]

theorem closedLoop_line {q : Prim Flt} {pts : List (Prim Flt)} (hq : ClosedLoop q pts) {i : Nat}
    (hi : i < pts.length) : ∃ l0 : Prim Flt, q.getChild (lineKey i) = .ok l0 ∧
      l0.getChild k!"Point0" = .ok pts[i] := by
  obtain ⟨hk, hl⟩ := hq
  obtain ⟨l0, h1, -, -, h2⟩ := hl i hi
  have hn : q.keys.Nodup := by
    rw [hk]
    exact List.nodup_range.map fun i j h => natStr_injective (List.append_cancel_left h)
  refine ⟨l0, HasPart.getChild ⟨hn, h1⟩ ?_, (getChild_line h2).1⟩
  simp [lineKey, slash_notMem_natStr]

theorem pyMap_range_getElem {α : Type} {f : Nat → Py α} {ys : List α} {n : Nat} (hn : n = ys.length)
    (h : ∀ i (hi : i < ys.length), f i = .ok ys[i]) : pyMap f (List.range n) = .ok ys := by
  subst hn
  have : ∀ (k : Nat) (zs : List α), (∀ i (hi : i < zs.length), f (k + i) = .ok zs[i]) →
      pyMap f (List.range' k zs.length) = .ok zs := by
    intro k zs
    induction zs generalizing k with
    | nil => intro _; rfl
    | cons z zs ih =>
      intro hz
      have h0 := hz 0 (by simp)
      have hr := ih (k + 1) fun i hi => by
        have := hz (i + 1) (by simpa using hi)
        rw [show k + 1 + i = k + (i + 1) by omega]
        simpa using this
      simp only [List.length_cons, List.range'_succ, pyMap, bind, Except.bind]
      rw [show k = k + 0 by rfl, h0]
      simp only [hr, Nat.add_zero, List.getElem_cons_zero]
  rw [List.range_eq_range']
  exact this 0 ys fun i hi => by rw [Nat.zero_add]; exact h i hi

theorem plotOne_polygon {q : Prim Flt} {pts : List (Prim Flt)} (ht : q.ty.IsA .polygon)
    (hq : ClosedLoop q pts) (hne : pts ≠ []) (label : Option Str) (α : Flt) :
    ∃ text : List (Artist Flt), (∀ x ∈ text, x.IsShape = false) ∧
      plotOne q label α = .ok (.patch (pts.map (·.value.arr)) (1 / ((10 : Nat) : Flt) * α) :: text) := by
  obtain ⟨n1, n2⟩ := isA_polygon_not ht
  have hs : q.ty.sub .polygon = true := (PrimType.sub_iff _ _).mpr ht
  have hlen : q.len = pts.length := by
    have := congrArg List.length hq.1
    simpa [Node.keys, Node.len] using this
  have h0 : 0 < pts.length := List.length_pos_of_ne_nil hne
  obtain ⟨l0, g1, g2⟩ := closedLoop_line hq h0
  have g1' : q.getChild k!"Line0" = .ok l0 := g1
  have hpts : pyMap (fun i => do
      let l ← q.getChild (k!"Line" ++ natStr i)
      l.getChild k!"Point0") (List.range q.len) = .ok pts := by
    refine pyMap_range_getElem hlen fun i hi => ?_
    obtain ⟨li, e1, e2⟩ := closedLoop_line hq hi
    have e1' : q.getChild (k!"Line" ++ natStr i) = .ok li := e1
    simp only [e1', bind, Except.bind, e2]
  cases label with
  | none =>
    refine ⟨[], by simp, ?_⟩
    simp only [plotOne, n1, n2, hs, if_true, Bool.false_eq_true, if_false, plotPolygon, g1', g2, bind,
      Except.bind]
    simp only [bind, Except.bind] at hpts
    rw [hpts]
  | some s =>
    refine ⟨[.text (some s) pts[0].value.arr 0 α], by simp [Artist.IsShape], ?_⟩
    simp only [plotOne, n1, n2, hs, if_true, Bool.false_eq_true, if_false, plotPolygon, g1', g2, bind,
      Except.bind]
    simp only [bind, Except.bind] at hpts
    rw [hpts]

/-- C66, what is drawn for a point, a line and a polygon: a marker at the coordinates; the segment (or
nothing, if its length is zero); the polygon through its points at a tenth of the opacity. -/
theorem C66_shapes {root : Prim Flt} {calls : List (PlotCall Flt)} (h : plotPrims root = .ok calls)
    {c : PlotCall Flt} (hc : c ∈ calls) :
    (∀ a, IsPoint c.prim a → c.artists.filter Artist.IsShape = [.marker (fin a.1) (fin a.2) c.alpha]) ∧
    (∀ a b, IsLine c.prim a b → a ≠ b → c.artists.filter Artist.IsShape =
      [.path [fin a.1, fin b.1] [fin a.2, fin b.2] c.alpha]) ∧
    (∀ a, IsLine c.prim a a → c.artists.filter Artist.IsShape = []) ∧
    (∀ pts, c.prim.ty.IsA .polygon → ClosedLoop c.prim pts → pts ≠ [] →
      c.artists.filter Artist.IsShape =
        [.patch (pts.map (·.value.arr)) (1 / ((10 : Nat) : Flt) * c.alpha)]) := by
  obtain ⟨label, hl⟩ := call_artists h hc
  refine ⟨fun a ha => ?_, fun a b hab hne => ?_, fun a ha => ?_, fun pts ht hcl hne => ?_⟩
  · rw [plotOne_point ha] at hl
    rw [← Except.ok.inj hl]; rfl
  · obtain ⟨θ, -, hθ⟩ := (plotOne_line hab label c.alpha).2 hne
    rw [hθ] at hl
    rw [← Except.ok.inj hl]; rfl
  · rw [(plotOne_line ha label c.alpha).1 rfl] at hl
    rw [← Except.ok.inj hl]; rfl
  · obtain ⟨text, h1, h2⟩ := plotOne_polygon ht hcl hne label c.alpha
    rw [h2] at hl
    rw [← Except.ok.inj hl]
    simp only [List.filter_cons, Artist.IsShape, if_true]
    congr 1
    rw [List.filter_eq_nil_iff]
    intro x hx
    simp [h1 x hx]

/-- A primitive that can be drawn: a point, a line, a polygon with at least one line, or a primitive of
another class (a container such as an axes). -/
def Drawable (m : Prim Flt) : Prop :=
  (∃ a, IsPoint m a) ∨ (∃ a b, IsLine m a b) ∨
  (m.ty.IsA .polygon ∧ ∃ pts, ClosedLoop m pts ∧ pts ≠ []) ∨
  (¬ m.ty.IsA .point ∧ ¬ m.ty.IsA .line ∧ ¬ m.ty.IsA .polygon)

theorem plotOne_ok {m : Prim Flt} (h : Drawable m) (label : Option Str) (α : Flt) :
    ∃ as, plotOne m label α = .ok as := by
  rcases h with ⟨a, h⟩ | ⟨a, b, h⟩ | ⟨ht, pts, h, hne⟩ | ⟨h1, h2, h3⟩
  · exact ⟨_, plotOne_point h _ _⟩
  · by_cases hab : a = b
    · exact ⟨_, (plotOne_line h _ _).1 hab⟩
    · obtain ⟨θ, -, h⟩ := (plotOne_line h label α).2 hab
      exact ⟨_, h⟩
  · obtain ⟨text, -, h⟩ := plotOne_polygon ht h hne label α
    exact ⟨_, h⟩
  · have k : ∀ u, ¬ m.ty.IsA u → m.ty.sub u = false := fun u hu =>
      Bool.eq_false_iff.mpr fun h => hu ((PrimType.sub_iff _ _).mp h)
    exact ⟨[], by simp [plotOne, k _ h1, k _ h2, k _ h3]⟩

/-- C66: `plot_prims` succeeds if every primitive to be drawn is drawable. -/
theorem C66_succeeds {root : Prim Flt}
    (h : ∀ k child p m, (k, child) ∈ root.children → Shown child p m → Drawable m) :
    ∃ calls, plotPrims root = .ok calls := by
  have node : ∀ (m : Prim Flt) key color d, Drawable m → ∃ c, plotNode m key color d = .ok c := by
    intro m key color d hm
    simp only [plotNode]
    obtain ⟨as, has⟩ := plotOne_ok hm
      (if (splitAll key).length - 1 > d ∨ key = [] then none
        else some (List.replicate ((splitAll key).length - 1) '.' ++ '/' :: (splitAll key).getLastD []))
      (plotAlpha (m.nodeHeight + (splitAll key).length - 1) ((splitAll key).length - 1))
    exact ⟨_, by rw [has]; rfl⟩
  have tree : ∀ (n : Prim Flt) color key d, (∀ p m, Shown n p m → Drawable m) →
      ∃ cs, plotPrim d color key n = .ok cs := by
    intro n
    induction n using Node.induct with
    | _ t v cs ih =>
      intro color key d hd
      obtain ⟨c, hc⟩ := node _ key color d (hd [] _ (.here _))
      simp only [plotPrim, hc, bind, Except.bind]
      by_cases ht : t.sub .line = true
      · exact ⟨_, by simp only [ht, if_true]; rfl⟩
      · have hL : ∀ cs' : List (Str × Prim Flt), (∀ kc ∈ cs', kc ∈ cs) →
            ∃ r, plotPrimL d color key cs' = .ok r := by
          intro cs'
          induction cs' with
          | nil => intro _; exact ⟨_, rfl⟩
          | cons kc cs' ih' =>
            intro hsub
            obtain ⟨r, hr⟩ := ih' fun kc hkc => hsub _ (List.mem_cons_of_mem _ hkc)
            obtain ⟨k, c'⟩ := kc
            obtain ⟨x, hx⟩ := ih k c' (hsub _ List.mem_cons_self) color (key ++ '/' :: k) d fun p m hm =>
              hd _ _ (.down (fun hl => ht ((PrimType.sub_iff _ _).mpr hl)) (hsub _ List.mem_cons_self) hm)
            exact ⟨_, by simp only [plotPrimL, hx, hr, bind, Except.bind]; rfl⟩
        obtain ⟨r, hr⟩ := hL cs fun _ h => h
        exact ⟨_, by simp only [ht, Bool.false_eq_true, if_false, hr]; rfl⟩
  obtain ⟨css, hcss⟩ := pyMap_total (f := fun kci : (Str × Prim Flt) × Nat =>
      plotPrim 99 (((kci.2 : Nat) : Flt) / ((root.len : Nat) : Flt)) kci.1.1 kci.1.2)
    (xs := root.children.zipIdx) fun kci hk => tree kci.1.2 _ kci.1.1 99 fun p m hm =>
      h kci.1.1 kci.1.2 p m (List.fst_mem_of_mem_zipIdx hk) hm
  exact ⟨_, by simp only [plotPrims, hcss, bind, Except.bind]; rfl⟩

theorem shown_line {l : Prim Flt} (h : IsLine l a b) {p : List Str} {m : Prim Flt} (hm : Shown l p m) :
    m = l := by
  cases hm with
  | here => rfl
  | down h1 _ _ => exact absurd h.1 h1

theorem closedLoop_realRect (r : Rect) : ClosedLoop (realRect r) [realPoint (r.x0, r.y0),
    realPoint (r.x1, r.y0), realPoint (r.x1, r.y1), realPoint (r.x0, r.y1)] := by
  refine ⟨?_, fun i hi => ?_⟩
  · show [k!"Line0", k!"Line1", k!"Line2", k!"Line3"] = (List.range 4).map lineKey
    decide +kernel
  simp only [List.length_cons, List.length_nil] at hi
  have : i = 0 ∨ i = 1 ∨ i = 2 ∨ i = 3 := by omega
  rcases this with rfl | rfl | rfl | rfl
  · exact ⟨_, List.mem_cons_self, rfl, rfl, rfl⟩
  · exact ⟨_, List.mem_cons_of_mem _ List.mem_cons_self, rfl, rfl, rfl⟩
  · exact ⟨_, List.mem_cons_of_mem _ (List.mem_cons_of_mem _ List.mem_cons_self), rfl, rfl, rfl⟩
  · refine ⟨realLine (r.x0, r.y1) (r.x0, r.y0), ?_, rfl, rfl, by simp [realLine]⟩
    exact List.mem_cons_of_mem _ (List.mem_cons_of_mem _ (List.mem_cons_of_mem _ List.mem_cons_self))

theorem shown_realRect (r : Rect) {p : List Str} {m : Prim Flt} (hm : Shown (realRect r) p m) :
    Drawable m := by
  cases hm with
  | here => exact .inr (.inr (.inl ⟨isA_quad_polygon (.refl _), _, closedLoop_realRect r, by simp⟩))
  | down _ h1 h2 =>
    rename_i c _ _ _
    have : ∃ a b, IsLine c a b := by
      simp only [realRect, realQuad, Node.children, List.mem_cons, Prod.mk.injEq, List.not_mem_nil,
        or_false] at h1
      rcases h1 with ⟨-, rfl⟩ | ⟨-, rfl⟩ | ⟨-, rfl⟩ | ⟨-, rfl⟩ <;> exact ⟨_, _, isLine_realLine _ _⟩
    obtain ⟨a, b, hl⟩ := this
    rw [shown_line hl h2]
    exact .inr (.inl ⟨a, b, hl⟩)

/-- The hypotheses of the C66 theorems are met: a figure box and an axes with a frame, an axis box and a
label can be plotted. -/
example (f r r' : Rect) (pt : ℝ × ℝ) : ∃ calls, plotPrims (oneFigure f r r' pt) = .ok calls := by
  refine C66_succeeds fun k child p m hc hm => ?_
  simp only [oneFigure, Node.children, List.mem_cons, Prod.mk.injEq, List.not_mem_nil, or_false] at hc
  rcases hc with ⟨-, rfl⟩ | ⟨-, rfl⟩
  · exact shown_realRect f hm
  · cases hm with
    | here =>
      refine .inr (.inr (.inr ?_))
      have ht : (oneAxes r r' pt).ty = .axes := rfl
      rw [ht]
      refine ⟨?_, ?_, ?_⟩ <;> rw [← PrimType.sub_iff] <;> decide
    | down _ h1 h2 =>
      simp only [oneAxes, Node.children, List.mem_cons, Prod.mk.injEq, List.not_mem_nil, or_false] at h1
      rcases h1 with ⟨-, rfl⟩ | ⟨-, rfl⟩ | ⟨-, rfl⟩
      · exact shown_realRect r h2
      · exact shown_realRect r' h2
      · cases h2 with
        | here => exact .inl ⟨_, isPoint_realPoint _⟩
        | down _ h3 _ => simp [realPoint] at h3

end MplLayout.Props
