import Verif.Props.Drawing
import Verif.Props.Shift
import Verif.Lemmas.DrawShift

/-!
# Figures and axes (C62–C64)
-/

namespace MplLayout.Props

open Flt Cons

variable {root ax frame box fig p : Prim Flt} {a b c d A B C D : ℝ × ℝ}

/-! ## C62 -/

/-- The position `(x, y, w, h)` given to `matplotlib`, in units of a figure with lower left corner `A`
and upper right corner `C`, is the box with lower left corner `a` and upper right corner `c`. -/
def Reproduces (A C : ℝ × ℝ) (pos : ℝ × ℝ × ℝ × ℝ) (a c : ℝ × ℝ) : Prop :=
  A.1 + pos.1 * (C.1 - A.1) = a.1 ∧ A.2 + pos.2.1 * (C.2 - A.2) = a.2 ∧
  pos.2.2.1 * (C.1 - A.1) = c.1 - a.1 ∧ pos.2.2.2 * (C.2 - A.2) = c.2 - a.2

/-- A position as numbers of the program. -/
def up4 (pos : ℝ × ℝ × ℝ × ℝ) : Flt × Flt × Flt × Flt :=
  (fin pos.1, fin pos.2.1, fin pos.2.2.1, fin pos.2.2.2)

theorem reproduces_unique {A C a c : ℝ × ℝ} {pos pos' : ℝ × ℝ × ℝ × ℝ} (hw : C.1 ≠ A.1)
    (he : C.2 ≠ A.2) (h : Reproduces A C pos a c) (h' : Reproduces A C pos' a c) : pos = pos' := by
  obtain ⟨x, y, w, e⟩ := pos
  obtain ⟨x', y', w', e'⟩ := pos'
  obtain ⟨h1, h2, h3, h4⟩ := h
  obtain ⟨g1, g2, g3, g4⟩ := h'
  simp only at h1 h2 h3 h4 g1 g2 g3 g4
  have hw' := sub_ne_zero.mpr hw
  have he' := sub_ne_zero.mpr he
  have e1 : x = x' := mul_right_cancel₀ hw' (by linarith)
  have e2 : y = y' := mul_right_cancel₀ he' (by linarith)
  have e3 : w = w' := mul_right_cancel₀ hw' (by linarith)
  have e4 : e = e' := mul_right_cancel₀ he' (by linarith)
  rw [e1, e2, e3, e4]

/-- C62: for a figure box of nonzero size, `update_subplots` sets the figure size to the size of the
figure box, and the positions it gives to an axes are exactly those that reproduce the frame of the
axes: lower left corner and size (`a` and `c` are the frame's lower left and upper right corner). -/
theorem C62_positions {figKey : Str} {axs : List (Str × Nat)}
    (hfig : root.getChild figKey = .ok fig) (hq : IsQuad fig A B C D)
    (hw : C.1 ≠ A.1) (he : C.2 ≠ A.2)
    (hshape : ∀ kv ∈ axs, ∃ a b c d, AxesShape root kv.1 a b c d)
    (hids : (axs.map Prod.snd).Nodup) :
    ∃ calls, updateSubplots root figKey axs = .ok calls ∧
      (∀ w e, .setSize w e ∈ calls ↔ w = fin (C.1 - A.1) ∧ e = fin (C.2 - A.2)) ∧
      ∀ key i a b c d, (key, i) ∈ axs → AxesShape root key a b c d → ∀ rect,
        .setPosition i rect ∈ calls ↔ ∃ pos, rect = up4 pos ∧ Reproduces A C pos a c := by
  obtain ⟨rest, hrest, hiff⟩ := updateSubplots_spec hfig hq hw he hshape
  have hw' := sub_ne_zero.mpr hw
  have he' := sub_ne_zero.mpr he
  refine ⟨_, hrest, ?_, ?_⟩
  · intro w e
    simp only [List.mem_cons, DrawCall.setSize.injEq, hiff]
    constructor
    · rintro (h | ⟨kv, hkv, ax', frame', _, _, _, _, g1, g2, g3, h | ⟨k, ⟨_, _, _, _, h⟩ | ⟨_, _, _, _, _, h⟩⟩⟩)
      · exact h
      · cases h
      · cases h
      · cases h
    · exact .inl
  · intro key i a b c d hmem hsh rect
    obtain ⟨ax, frame, h1, h2, h3, -⟩ := hsh
    have hrep : Reproduces A C ((a.1 - A.1) / (C.1 - A.1), (a.2 - A.2) / (C.2 - A.2),
        (c.1 - A.1) / (C.1 - A.1) - (a.1 - A.1) / (C.1 - A.1),
        (c.2 - A.2) / (C.2 - A.2) - (a.2 - A.2) / (C.2 - A.2)) a c := by
      refine ⟨?_, ?_, ?_, ?_⟩ <;> simp only <;> field_simp <;> ring
    simp only [List.mem_cons, reduceCtorEq, false_or, hiff]
    constructor
    · rintro ⟨kv, hkv, ax', frame', _, _, _, _, g1, g2, g3, h | ⟨k, ⟨_, _, _, _, h⟩ | ⟨_, _, _, _, _, h⟩⟩⟩
      · simp only [DrawCall.setPosition.injEq] at h
        obtain ⟨e1, rfl⟩ := h
        have : kv = (key, i) := List.inj_on_of_nodup_map hids hkv hmem e1.symm
        subst this
        rw [h1] at g1
        cases g1
        have := h2.unique g2
        subst this
        obtain ⟨rfl, rfl, rfl, rfl⟩ := IsQuad.inj h3 g3
        exact ⟨_, rfl, hrep⟩
      · cases h
      · cases h
    · rintro ⟨pos, rfl, hpos⟩
      have := reproduces_unique hw he hpos hrep
      subst this
      exact ⟨(key, i), hmem, ax, frame, a, b, c, d, h1, h2, h3, .inl rfl⟩

/-- C62: the figure's own box gets the position `(0, 0, 1, 1)`. -/
theorem C62_whole (hq : IsQuad fig A B C D) (hw : C.1 ≠ A.1) (he : C.2 ≠ A.2) :
    rectFromBox fig (.vec [fin A.1, fin A.2]) (.vec [fin (C.1 - A.1), fin (C.2 - A.2)])
      = .ok (fin 0, fin 0, fin 1, fin 1) := by
  have hw' := sub_ne_zero.mpr hw
  have he' := sub_ne_zero.mpr he
  rw [rectFromBox_eq hq hw' he']
  simp [div_self hw', div_self he']

/-- C62: positions of boxes inside the figure are inside the unit square (and exactly those). -/
theorem C62_unit_square {pos : ℝ × ℝ × ℝ × ℝ} (hw : A.1 < C.1) (he : A.2 < C.2)
    (h : Reproduces A C pos a c) :
    (A.1 ≤ a.1 ∧ A.2 ≤ a.2 ∧ c.1 ≤ C.1 ∧ c.2 ≤ C.2) ↔
      (0 ≤ pos.1 ∧ 0 ≤ pos.2.1 ∧ pos.1 + pos.2.2.1 ≤ 1 ∧ pos.2.1 + pos.2.2.2 ≤ 1) := by
  obtain ⟨x, y, w, e⟩ := pos
  obtain ⟨h1, h2, h3, h4⟩ := h
  simp only at *
  have hw' : 0 < C.1 - A.1 := by linarith
  have he' : 0 < C.2 - A.2 := by linarith
  have k1 : A.1 ≤ a.1 ↔ 0 ≤ x := by
    rw [← h1]
    constructor
    · intro h; exact nonneg_of_mul_nonneg_left (by linarith) hw'
    · intro h; have := mul_nonneg h hw'.le; linarith
  have k2 : A.2 ≤ a.2 ↔ 0 ≤ y := by
    rw [← h2]
    constructor
    · intro h; exact nonneg_of_mul_nonneg_left (by linarith) he'
    · intro h; have := mul_nonneg h he'.le; linarith
  have k3 : c.1 ≤ C.1 ↔ x + w ≤ 1 := by
    have : C.1 - c.1 = (1 - (x + w)) * (C.1 - A.1) := by linarith
    constructor
    · intro h; have := nonneg_of_mul_nonneg_left (a := 1 - (x + w)) (by linarith) hw'; linarith
    · intro h; have := mul_nonneg (sub_nonneg.mpr h) hw'.le; linarith
  have k4 : c.2 ≤ C.2 ↔ y + e ≤ 1 := by
    have : C.2 - c.2 = (1 - (y + e)) * (C.2 - A.2) := by linarith
    constructor
    · intro h; have := nonneg_of_mul_nonneg_left (a := 1 - (y + e)) (by linarith) he'; linarith
    · intro h; have := mul_nonneg (sub_nonneg.mpr h) he'.le; linarith
  rw [k1, k2, k3, k4]

/-- The hypotheses of `C62_positions` are met: a frame `[2, 4] × [2, 3]` in a figure `[1, 6] × [1, 5]`. -/
example : ∃ calls, updateSubplots (oneFigure ⟨1, 1, 6, 5⟩ ⟨2, 2, 4, 3⟩ ⟨2, 1, 4, 2⟩ (3, 1)) k!"Figure"
      [(k!"Axes", 0)] = .ok calls ∧
    .setSize (fin 5) (fin 4) ∈ calls ∧
    .setPosition 0 (up4 (1/5, 1/4, 2/5, 1/4)) ∈ calls := by
  obtain ⟨calls, h1, h2, h3⟩ := C62_positions
    (root := oneFigure ⟨1, 1, 6, 5⟩ ⟨2, 2, 4, 3⟩ ⟨2, 1, 4, 2⟩ (3, 1)) (figKey := k!"Figure")
    (axs := [(k!"Axes", 0)]) rfl (isRect_realRect _) (by norm_num) (by norm_num)
    (by simp only [List.mem_singleton, forall_eq]; exact ⟨_, _, _, _, oneFigure_shape _ _ _ _⟩) (by simp)
  refine ⟨calls, h1, (h2 _ _).mpr ⟨?_, ?_⟩, (h3 _ _ _ _ _ _ (by simp) (oneFigure_shape _ _ _ _) _).mpr
    ⟨_, rfl, ?_⟩⟩
  · congr 1; norm_num
  · congr 1; norm_num
  · refine ⟨?_, ?_, ?_, ?_⟩ <;> norm_num

/-! ## C63 -/

/-- Is this call about an axis label? -/
def isLabelCall : DrawCall Flt → Bool
  | .setLabelCoords .. => true
  | _ => false

/-- C63: moving the whole tree (with its figure box) by any `t` changes no call of `update_subplots`
other than those that place axis labels: the figure size, the axes positions and the tick positions
are the same, in the same order (and so is any exception).  Missing from the property: axis labels,
see `C63_counterexample`. -/
theorem C63_translation_partial (hr : Planar root) {figKey : Str}
    (hfig : root.getChild figKey = .ok fig) (hq : IsQuad fig A B C D) (axs : List (Str × Nat))
    (t : ℝ × ℝ) :
    (updateSubplots (shiftPrim t root) figKey axs).map (·.filter (! isLabelCall ·))
      = (updateSubplots root figKey axs).map (·.filter (! isLabelCall ·)) := by
  rw [updateSubplots_shift hr hfig (widthAndHeight_eq hq)]
  cases updateSubplots root figKey axs with
  | error e => rfl
  | ok calls =>
    simp only [Except.map]
    congr 1
    induction calls with
    | nil => rfl
    | cons x xs ih =>
      simp only [List.map_cons, List.filter_cons, ih]
      cases x <;> rfl

/-- C63, exact effect: the labels move by `t` divided by the size of the figure, everything else
stays. -/
theorem C63_labels_partial (hr : Planar root) {figKey : Str}
    (hfig : root.getChild figKey = .ok fig) (hq : IsQuad fig A B C D) (hw : C.1 ≠ A.1)
    (he : C.2 ≠ A.2) (axs : List (Str × Nat)) (t : ℝ × ℝ) {calls : List (DrawCall Flt)}
    (hc : updateSubplots root figKey axs = .ok calls) :
    ∃ calls', updateSubplots (shiftPrim t root) figKey axs = .ok calls' ∧
      List.Forall₂ (fun x y =>
        (isLabelCall x = false ∧ y = x) ∨
        ∃ i kind u v, x = .setLabelCoords i kind u v ∧
          y = .setLabelCoords i kind (u + fin (t.1 / (C.1 - A.1))) (v + fin (t.2 / (C.2 - A.2))))
        calls calls' := by
  refine ⟨_, by rw [updateSubplots_shift hr hfig (widthAndHeight_eq hq), hc]; rfl, ?_⟩
  rw [List.forall₂_map_right_iff, List.forall₂_same]
  intro x _
  cases x with
  | setLabelCoords i kind u v =>
    refine .inr ⟨i, kind, u, v, rfl, ?_⟩
    rw [moveLabel, fin_div (sub_ne_zero.mpr hw), fin_div (sub_ne_zero.mpr he)]
  | _ => exact .inl ⟨rfl, rfl⟩

theorem planar_of_children {t : PrimType} {v : PVal Flt} {cs : List (Str × Prim Flt)}
    (hv : v.arr.length = 0 ∨ v.arr.length = 2) (h : ∀ kc ∈ cs, Planar kc.2) :
    Planar (.mk t v cs) := by
  intro path n hn
  cases hn with
  | here => exact hv
  | down hm hr => exact h _ hm _ _ hr

theorem planar_realRect (r : Rect) : Planar (realRect r) :=
  planar_of_children (.inl rfl) (by
    simp only [List.mem_cons, List.not_mem_nil, or_false]
    rintro kc (rfl | rfl | rfl | rfl) <;> exact planar_realLine _ _)

theorem planar_oneFigure (f r r' : Rect) (l : ℝ × ℝ) : Planar (oneFigure f r r' l) := by
  refine planar_of_children (.inl rfl) ?_
  simp only [List.mem_cons, List.not_mem_nil, or_false]
  rintro kc (rfl | rfl)
  · exact planar_realRect f
  · refine planar_of_children (.inl rfl) ?_
    simp only [List.mem_cons, List.not_mem_nil, or_false]
    rintro kc (rfl | rfl | rfl)
    · exact planar_realRect r
    · exact planar_realRect r'
    · exact planar_of_children (.inr rfl) (by simp)

/-- The code violates C63: in a figure `[0, 5] × [0, 4]` the x label is placed at x = 3/5; after moving
everything by 5 to the right it is placed at x = 8/5, outside the figure. -/
theorem C63_counterexample : ∃ calls calls',
    updateSubplots (oneFigure ⟨0, 0, 5, 4⟩ ⟨1, 1, 4, 3⟩ ⟨1, 1/2, 4, 1⟩ (3, 0)) k!"Figure"
      [(k!"Axes", 0)] = .ok calls ∧
    updateSubplots (shiftPrim (5, 0) (oneFigure ⟨0, 0, 5, 4⟩ ⟨1, 1, 4, 3⟩ ⟨1, 1/2, 4, 1⟩ (3, 0)))
      k!"Figure" [(k!"Axes", 0)] = .ok calls' ∧
    .setLabelCoords 0 .x (fin (3/5)) (fin 0) ∈ calls ∧
    .setLabelCoords 0 .x (fin (8/5)) (fin 0) ∈ calls' ∧
    .setLabelCoords 0 .x (fin (3/5)) (fin 0) ∉ calls' := by
  have hfig : (oneFigure ⟨0, 0, 5, 4⟩ ⟨1, 1, 4, 3⟩ ⟨1, 1/2, 4, 1⟩ (3, 0)).getChild k!"Figure"
    = .ok (realRect ⟨0, 0, 5, 4⟩) := rfl
  obtain ⟨rest, hrest, hiff⟩ := updateSubplots_spec (axs := [(k!"Axes", 0)]) hfig (isRect_realRect _)
    (by norm_num) (by norm_num)
    (by simp only [List.mem_singleton, forall_eq]; exact ⟨_, _, _, _, oneFigure_shape _ _ _ _⟩)
  obtain ⟨h1, h2, h3⟩ := oneAxes_part ⟨1, 1, 4, 3⟩ ⟨1, 1/2, 4, 1⟩ (3, 0)
  have hlab : ∀ u v, DrawCall.setLabelCoords 0 .x u v ∈ rest ↔ u = fin (3/5) ∧ v = fin 0 := by
    intro u v
    rw [hiff]
    simp only [List.mem_singleton, exists_eq_left, AxesCall]
    constructor
    · rintro ⟨ax', frame', _, _, _, _, g1, g2, g3, h | ⟨k, ⟨p', l, k1, k2, h⟩ | ⟨_, _, _, _, _, h⟩⟩⟩
      · cases h
      · simp only [DrawCall.setLabelCoords.injEq, true_and] at h
        obtain ⟨rfl, rfl, rfl⟩ := h
        have g1' : (Except.ok (oneAxes ⟨1, 1, 4, 3⟩ ⟨1, 1/2, 4, 1⟩ (3, 0)) : Py (Prim Flt)) = .ok ax' := g1
        cases g1'
        have := h3.unique k1
        subst this
        have := IsPoint.inj (isPoint_realPoint _) k2
        subst this
        norm_num
      · cases h
    · rintro ⟨rfl, rfl⟩
      refine ⟨_, _, _, _, _, _, rfl, h1, isRect_realRect _, .inr ⟨.x, .inl ⟨_, _, h3, isPoint_realPoint _, ?_⟩⟩⟩
      norm_num
  have hs := updateSubplots_shift (t := (5, 0)) (planar_oneFigure ⟨0, 0, 5, 4⟩ ⟨1, 1, 4, 3⟩ ⟨1, 1/2, 4, 1⟩ (3, 0))
    hfig (widthAndHeight_eq (isRect_realRect _)) [(k!"Axes", 0)]
  rw [hrest] at hs
  refine ⟨_, _, hrest, hs, by simp [hlab], ?_, ?_⟩
  · rw [List.mem_map]
    refine ⟨.setLabelCoords 0 .x (fin (3/5)) (fin 0), by simp [hlab], ?_⟩
    simp only [moveLabel, DrawCall.setLabelCoords.injEq, true_and]
    rw [fin_div (by norm_num), fin_div (by norm_num)]
    constructor <;> simp only [fin_add, fin.injEq] <;> norm_num
  · rw [List.mem_map]
    rintro ⟨x, hx, h⟩
    cases x with
    | setLabelCoords i kind u v =>
      simp only [moveLabel, DrawCall.setLabelCoords.injEq] at h
      obtain ⟨rfl, rfl, h4, h5⟩ := h
      simp only [List.mem_cons, reduceCtorEq, false_or, hlab] at hx
      obtain ⟨rfl, rfl⟩ := hx
      rw [fin_div (by norm_num)] at h4
      simp only [fin_add, fin.injEq] at h4
      norm_num at h4
    | _ => simp [moveLabel] at h

/-! ## C64 -/

/-- The axes added to the figure, in order. -/
def addedAxes (calls : List (DrawCall Flt)) : List Nat :=
  calls.filterMap fun | .addAxes i _ => some i | _ => none

/-- The axes that are given a position, in order. -/
def placedAxes (calls : List (DrawCall Flt)) : List Nat :=
  calls.filterMap fun | .setPosition i _ => some i | _ => none

theorem updateAxis_plain {sz : Arr Flt} {key : Str} {i : Nat} {kind : AxisKind}
    {cs : List (DrawCall Flt)} (h : updateAxis root sz key i frame kind = .ok cs) :
    addedAxes cs = [] ∧ placedAxes cs = [] := by
  simp only [updateAxis] at h
  obtain ⟨axp, h1, h⟩ := bind_ok' h
  obtain ⟨ls, h2, h⟩ := bind_ok' h
  obtain ⟨ts, h3, h⟩ := bind_ok' h
  cases h
  have k1 : addedAxes ls = [] ∧ placedAxes ls = [] := by
    simp only [labelCalls] at h2
    obtain ⟨b, g1, g2⟩ := bind_ok' h2
    cases b
    · simp only [Bool.false_eq_true, if_false] at g2; cases g2; exact ⟨rfl, rfl⟩
    · simp only [if_true] at g2
      obtain ⟨p, g3, g2⟩ := bind_ok' g2
      obtain ⟨d, g4, g2⟩ := bind_ok' g2
      obtain ⟨xy, g5, g2⟩ := bind_ok' g2
      cases g2; exact ⟨rfl, rfl⟩
  have k2 : addedAxes ts = [] ∧ placedAxes ts = [] := by
    simp only [tickCalls] at h3
    obtain ⟨b, g1, g2⟩ := bind_ok' h3
    cases b
    · simp only [Bool.false_eq_true, if_false] at g2; cases g2; exact ⟨rfl, rfl⟩
    · simp only [if_true] at g2
      obtain ⟨p, g3, g2⟩ := bind_ok' g2
      obtain ⟨d, g4, g2⟩ := bind_ok' g2
      cases g2; exact ⟨rfl, rfl⟩
  simp only [addedAxes, placedAxes, List.filterMap_append] at *
  rw [k1.1, k1.2, k2.1, k2.2]
  exact ⟨rfl, rfl⟩

theorem updateAxes_plain {o sz : Arr Flt} {axs : List (Str × Nat)} {css : List (List (DrawCall Flt))}
    (h4 : pyMap (updateAxes root o sz) axs = .ok css) :
    addedAxes css.flatten = [] ∧ placedAxes css.flatten = axs.map (·.2) := by
  induction axs generalizing css with
  | nil => cases h4; exact ⟨rfl, rfl⟩
  | cons kv axs ih =>
    simp only [pyMap] at h4
    obtain ⟨c, k1, h5⟩ := bind_ok' h4
    obtain ⟨rest, k2, h6⟩ := bind_ok' h5
    cases h6
    obtain ⟨i1, i2⟩ := ih k2
    have : addedAxes c = [] ∧ placedAxes c = [kv.2] := by
      simp only [updateAxes] at k1
      obtain ⟨q, g1, k1⟩ := bind_ok' k1
      obtain ⟨r, g2, k1⟩ := bind_ok' k1
      obtain ⟨xs, g3, k1⟩ := bind_ok' k1
      obtain ⟨ys, g4, k1⟩ := bind_ok' k1
      cases k1
      have e1 := updateAxis_plain g3
      have e2 := updateAxis_plain g4
      simp only [addedAxes, placedAxes, List.filterMap_append, List.filterMap_cons] at *
      rw [e1.1, e1.2, e2.1, e2.2]
      exact ⟨rfl, rfl⟩
    simp only [addedAxes, placedAxes, List.flatten_cons, List.filterMap_append] at *
    rw [i1, i2, this.1, this.2]
    exact ⟨rfl, rfl⟩

theorem updateSubplots_plain {figKey : Str} {axs : List (Str × Nat)} {cs : List (DrawCall Flt)}
    (h : updateSubplots root figKey axs = .ok cs) :
    addedAxes cs = [] ∧ placedAxes cs = axs.map (·.2) := by
  simp only [updateSubplots] at h
  obtain ⟨q, h1, h⟩ := bind_ok' h
  obtain ⟨o, h2, h⟩ := bind_ok' h
  obtain ⟨we, h3, h⟩ := bind_ok' h
  obtain ⟨css, h4, h⟩ := bind_ok' h
  cases h
  exact updateAxes_plain h4

theorem subplots_spec {figKey : Str} {req : Option (List Str)} {calls : List (DrawCall Flt)}
    {axs : List (Str × Nat)} (h : subplots root figKey req = .ok (calls, axs)) :
    addedAxes calls = List.range (axesKeysOf root req).length ∧
    placedAxes calls = axs.map (·.2) ∧
    axs = dictOfZip (axesKeysOf root req) (List.range (axesKeysOf root req).length) := by
  simp only [subplots] at h
  obtain ⟨cs, h1, h2⟩ := bind_ok' h
  simp only [Except.ok.injEq, Prod.mk.injEq] at h2
  obtain ⟨rfl, rfl⟩ := h2
  obtain ⟨k1, k2⟩ := updateSubplots_plain h1
  refine ⟨?_, ?_, rfl⟩
  · simp only [addedAxes, List.filterMap_cons, List.filterMap_append] at *
    rw [k1, List.append_nil, List.filterMap_map]
    exact List.filterMap_some
  · simp only [placedAxes, List.filterMap_cons, List.filterMap_append] at *
    rw [k2, List.filterMap_map]
    simp [List.filterMap_eq_nil_iff, Function.comp_def]

/-- C64, requested keys: `subplots` with distinct requested keys adds one axes per key, in order, gives
each of them a position and returns them under their keys. -/
theorem C64_requested {figKey : Str} {keys : List Str} (hn : keys.Nodup)
    {calls : List (DrawCall Flt)} {axs : List (Str × Nat)}
    (h : subplots root figKey (some keys) = .ok (calls, axs)) :
    addedAxes calls = List.range keys.length ∧ placedAxes calls = List.range keys.length ∧
    axs = keys.zip (List.range keys.length) := by
  obtain ⟨h1, h2, h3⟩ := subplots_spec h
  have h3' : axs = keys.zip (List.range keys.length) := h3.trans (dictOfZip_of_nodup hn)
  refine ⟨h1, ?_, h3'⟩
  rw [h2, h3']
  exact List.map_snd_zip (by simp)

theorem hasSub_iff (sub s : Str) : hasSub sub s = true ↔ sub <:+: s := by
  induction s with
  | nil => simp [hasSub]
  | cons c s ih =>
    simp only [hasSub, Bool.or_eq_true, ih, List.isPrefixOf_iff_prefix, List.infix_cons_iff]

/-- C64, default keys: the axes are the top-level primitives whose key contains `Axes`, in order. -/
theorem C64_default {figKey : Str} (hr : root.keys.Nodup)
    {calls : List (DrawCall Flt)} {axs : List (Str × Nat)}
    (h : subplots root figKey none = .ok (calls, axs)) :
    addedAxes calls = List.range axs.length ∧ placedAxes calls = List.range axs.length ∧
    axs.map (·.2) = List.range axs.length ∧
    (axs.map (·.1)).Sublist root.keys ∧
    ∀ k, k ∈ axs.map (·.1) ↔ k ∈ root.keys ∧ k!"Axes" <:+: k := by
  obtain ⟨h1, h2, h3⟩ := subplots_spec h
  have hn : (axesKeysOf root none).Nodup := hr.sublist List.filter_sublist
  rw [dictOfZip_of_nodup hn] at h3
  have hk : axs.map (·.1) = axesKeysOf root none := by rw [h3]; exact List.map_fst_zip (by simp)
  have hi : axs.map (·.2) = List.range (axesKeysOf root none).length := by
    rw [h3]; exact List.map_snd_zip (by simp)
  have hl : axs.length = (axesKeysOf root none).length := by rw [← hk, List.length_map]
  refine ⟨by rw [hl]; exact h1, by rw [hl, ← hi]; exact h2, by rw [hl]; exact hi, ?_, ?_⟩
  · rw [hk]; exact List.filter_sublist
  · intro k
    rw [hk]
    simp [axesKeysOf, hasSub_iff]

/-- The hypotheses of `C64_default` are met, and the second part of the key is enough. -/
example : ∃ calls, subplots (oneFigure ⟨0, 0, 5, 4⟩ ⟨1, 1, 4, 3⟩ ⟨1, 1/2, 4, 1⟩ (3, 0)) k!"Figure" none
    = .ok (calls, [(k!"Axes", 0)]) := by
  have hfig : (oneFigure ⟨0, 0, 5, 4⟩ ⟨1, 1, 4, 3⟩ ⟨1, 1/2, 4, 1⟩ (3, 0)).getChild k!"Figure"
    = .ok (realRect ⟨0, 0, 5, 4⟩) := rfl
  obtain ⟨rest, hrest, hiff⟩ := updateSubplots_spec (axs := [(k!"Axes", 0)]) hfig (isRect_realRect _)
    (by norm_num) (by norm_num)
    (by simp only [List.mem_singleton, forall_eq]; exact ⟨_, _, _, _, oneFigure_shape _ _ _ _⟩)
  have hk : axesKeysOf (oneFigure ⟨0, 0, 5, 4⟩ ⟨1, 1, 4, 3⟩ ⟨1, 1/2, 4, 1⟩ (3, 0)) none = [k!"Axes"] := by
    show ([k!"Figure", k!"Axes"]).filter (hasSub k!"Axes") = _
    decide
  have hd : dictOfZip [k!"Axes"] (List.range 1) = [(k!"Axes", 0)] := rfl
  exact ⟨_, by simp only [subplots, hk, List.length_singleton, hd, hrest, bind, Except.bind]; rfl⟩

/-- Requesting a key twice adds two axes of which only the second is placed and returned. -/
theorem C64_duplicate {figKey key : Str} {calls : List (DrawCall Flt)} {axs : List (Str × Nat)}
    (h : subplots root figKey (some [key, key]) = .ok (calls, axs)) :
    addedAxes calls = [0, 1] ∧ placedAxes calls = [1] ∧ axs = [(key, 1)] := by
  obtain ⟨h1, h2, h3⟩ := subplots_spec h
  have h3' : axs = [(key, 1)] := by
    rw [h3]
    simp [axesKeysOf, dictOfZip, dictOfPairs, List.range, List.range.loop, dictSet]
  refine ⟨h1, by rw [h2, h3']; rfl, h3'⟩

end MplLayout.Props
