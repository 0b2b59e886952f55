import Verif.Lemmas.Shift
import Verif.Props.Grid

/-!
# Translation invariance of the shipped constraints (C42)
-/

namespace MplLayout.Props

open Flt Cons

/-- C42: for every constraint class other than `Fix` (with any constructor arguments), every list of
primitives with points in the plane and every parameters, moving all the primitives by `t` does not
change what the constraint returns (a residual, or the same exception). -/
theorem C42_translation (s : Shipped) (hs : s ≠ .fix) {c : Cons Flt} (hc : s.build = .ok c)
    (t : ℝ × ℝ) (prims : List (Prim Flt)) (params : List (Param Flt)) (hp : ∀ p ∈ prims, Planar p) :
    c.call (prims.map (shiftPrim t)) params = c.call prims params :=
  call_shift (SIP_shipped s hs hc) t prims params hp

/-- `shiftPrim` is what the property means by translating: points, lines and quadrilaterals move. -/
theorem shiftPrim_isPoint {p : Prim Flt} {a : ℝ × ℝ} (h : IsPoint p a) (t : ℝ × ℝ) :
    IsPoint (shiftPrim t p) (a.1 + t.1, a.2 + t.2) := by
  obtain ⟨h1, h2⟩ := h
  cases p with
  | mk ty v cs =>
    refine ⟨h1, ?_⟩
    have h3 : v.arr = [fin a.1, fin a.2] := h2
    show shiftL t v.arr = _
    rw [h3]
    rfl

/-- Lines move with their end points. -/
theorem shiftPrim_isLine {l : Prim Flt} {a b : ℝ × ℝ} (h : IsLine l a b) (t : ℝ × ℝ) :
    IsLine (shiftPrim t l) (a.1 + t.1, a.2 + t.2) (b.1 + t.1, b.2 + t.2) := by
  obtain ⟨h1, p, q, hc, hp, hq⟩ := h
  cases l with
  | mk ty v cs =>
    refine ⟨h1, shiftPrim t p, shiftPrim t q, ?_, shiftPrim_isPoint hp t, shiftPrim_isPoint hq t⟩
    have hc' : cs = _ := hc
    subst hc'
    rfl

/-- Quadrilaterals move with their vertices. -/
theorem shiftPrim_isQuad {q : Prim Flt} {a b c d : ℝ × ℝ} (h : IsQuad q a b c d) (t : ℝ × ℝ) :
    IsQuad (shiftPrim t q) (a.1 + t.1, a.2 + t.2) (b.1 + t.1, b.2 + t.2) (c.1 + t.1, c.2 + t.2)
      (d.1 + t.1, d.2 + t.2) := by
  obtain ⟨h1, l0, l1, l2, l3, hc, h2, h3, h4, h5⟩ := h
  cases q with
  | mk ty v cs =>
    refine ⟨h1, shiftPrim t l0, shiftPrim t l1, shiftPrim t l2, shiftPrim t l3, ?_,
      shiftPrim_isLine h2 t, shiftPrim_isLine h3 t, shiftPrim_isLine h4 t, shiftPrim_isLine h5 t⟩
    have hc' : cs = _ := hc
    subst hc'
    rfl

/-- `Fix` is really different: its residual moves with the point. -/
theorem C42_fix_moves {p : Prim Flt} {a : ℝ × ℝ} (h : IsPoint p a) (t v : ℝ × ℝ) :
    ReturnsPy ct.fix [p] [.arr [fin v.1, fin v.2]] [a.1 - v.1, a.2 - v.2] ∧
    ReturnsPy ct.fix [shiftPrim t p] [.arr [fin v.1, fin v.2]]
      [a.1 + t.1 - v.1, a.2 + t.2 - v.2] :=
  ⟨(ev_ct_fix h v).returnsPy ct_fix_eq, (ev_ct_fix (shiftPrim_isPoint h t) v).returnsPy ct_fix_eq⟩

theorem planar_realLine (a b : ℝ × ℝ) : Planar (realLine a b) := by
  intro path n hn
  cases hn with
  | here => exact .inl rfl
  | down hm hr =>
    simp only [Node.children, realLine, List.mem_cons, Prod.mk.injEq, List.not_mem_nil, or_false] at hm
    obtain ⟨-, rfl⟩ | ⟨-, rfl⟩ := hm <;>
    · cases hr with
      | here => exact .inr rfl
      | down hm _ => cases hm

/-- The hypotheses of `C42_translation` are met: `Length` of a slanted line, which is 5. -/
example (t : ℝ × ℝ) : ∃ c, Shipped.length.build = .ok c ∧
    c.call [realLine (0, 0) (3, 4)] [.num (fin 4)] = .ok [fin 1] ∧
    c.call [shiftPrim t (realLine (0, 0) (3, 4))] [.num (fin 4)] = .ok [fin 1] := by
  have h1 := (ev_ct_length (isLine_realLine (0, 0) (3, 4)) 4).returns
  have h2 : dist2 (0, 0) (3, 4) - 4 = 1 := by
    have : ((3:ℝ) - 0) ^ 2 + (4 - 0) ^ 2 = 5 ^ 2 := by norm_num
    simp only [dist2, this]
    rw [Real.sqrt_sq (by norm_num)]; norm_num
  rw [h2] at h1
  refine ⟨_, ct_length_eq, h1, ?_⟩
  have := C42_translation .length (by simp) ct_length_eq t [realLine (0, 0) (3, 4)] [.num (fin 4)]
    (by simp [planar_realLine])
  exact this.trans h1

end MplLayout.Props
