import Verif.Lemmas.Sizes
import Verif.Lemmas.Made
import Verif.Props.Constructions
import Verif.Props.Grid

/-!
# C31: declared output sizes (`constructions.py`, `constraints.py`)

`Cons.Sized` says that in the recursive evaluation every node returns as many entries as its
signature declares.
-/

namespace MplLayout.Props

open Cons

/-- The number of entries that a construction and its descendants declare together. -/
def declared (c : Cons Flt) : Nat := (c.allValues.map (·.sig.valueSize)).sum

theorem declared_mk (cls : ConsClass Flt) (v : ConsVal Flt) (cs : List (Str × Cons Flt)) :
    declared (.mk cls v cs) = v.sig.valueSize + (cs.map fun kc => declared kc.2).sum := by
  simp only [declared, Node.allValues, List.map_cons, List.sum_cons]
  congr 1
  induction cs with
  | nil => rfl
  | cons kc cs ih =>
    obtain ⟨k, c⟩ := kc
    simp only [Node.allValuesL, List.map_append, List.sum_append, List.map_cons, List.sum_cons, ih]
    try rfl

theorem eval_length (c : Cons Flt) : ∀ (prims : List (Prim Flt)) (ps : List (Param Flt)) (v : List Flt),
    c.Sized prims ps → c.Aligned ps → c.eval prims ps = .ok v → v.length = declared c := by
  induction c using Node.induct with
  | _ cls v cs ih =>
  intro prims ps r hs ha he
  obtain ⟨hs1, hs2⟩ := hs
  obtain ⟨ha1, ha2⟩ := ha
  simp only [eval, py_bind_ok] at he
  obtain ⟨own, e1, pss, e2, rest, e3, e4⟩ := he
  cases e4
  rw [List.length_append, declared_mk, hs1 own e1]
  congr 1
  have hs3 := hs2 pss e2
  obtain ⟨ha3, ha4⟩ := ha2 pss e2
  clear hs1 hs2 ha2 e1 e2
  generalize v.childPrimKeys = kss at *
  induction cs generalizing kss pss rest with
  | nil => cases kss <;> cases pss <;> cases e3 <;> rfl
  | cons kc cs ih2 =>
    obtain ⟨k, c⟩ := kc
    cases kss with
    | nil => simp at ha1
    | cons ks kss =>
    cases pss with
    | nil => simp at ha3
    | cons q pss =>
      simp only [evalL, py_bind_ok] at e3
      obtain ⟨cps, f1, w, f2, r', f3, f4⟩ := e3
      cases f4
      simp only [SizedL] at hs3
      simp only [AlignedL] at ha4
      rw [List.length_append, List.map_cons, List.sum_cons]
      congr 1
      · exact ih k c (by simp) cps q w (hs3.1 cps f1) ha4.1 f2
      · exact ih2 (fun k' c' h => ih k' c' (List.mem_cons_of_mem _ h)) pss r' (by simpa using ha3) ha4.2 kss
          (by simpa using ha1) f3 hs3.2

/-- C31, for every shipped constraint that does not contain a `CoincidentLines`, of any grid size, on
all well-formed plane primitives and all parameters of sensible sizes: each node returns as many
entries as it declares. -/
theorem C31_sizes_partial (s : Shipped) (hn : ¬ s.UsesCoincidentLines) (hsz : s.SizeOK) (c : Cons Flt)
    (e : s.build = .ok c) (prims : List (Prim Flt)) (params : List (Param Flt))
    (ha : c.Accepts prims params) (hsh : ∀ p ∈ prims, p.Shaped s.parts ∧ p.Planar)
    (hp : s.ParamsSized params) : c.Sized prims params := by
  have hs : ∀ kt ∈ s.parts, '/' ∉ kt.1 := by
    cases s with
    | positionAxis axis side twin => exact absurd trivial hn
    | positionAxisLabel axis twin => cases axis <;> cases twin <;> decide
    | _ => intro kt h; cases h
  exact shipped_sized s hn hs e ha.2 hp (shipped_good s hsz (shipped_parts_self s) e).static.typed prims
    ha.1 fun p hm => ⟨(hsh p hm).1, (hsh p hm).2⟩

/-- C31: what the caller sees.  The residual has as many entries as the constraint and its
descendants declare together. -/
theorem C31_residual_length_partial (s : Shipped) (hn : ¬ s.UsesCoincidentLines) (hsz : s.SizeOK)
    (c : Cons Flt) (e : s.build = .ok c) (prims : List (Prim Flt)) (params : List (Param Flt))
    (hsh : ∀ p ∈ prims, p.Shaped s.parts ∧ p.Planar) (hp : s.ParamsSized params)
    (hok : s.ParamsOK params) (v : List Flt) (h : c.call prims params = .ok v) :
    v.length = declared c := by
  have hg := shipped_good s hsz (shipped_parts_self s) e
  have hacc : c.Accepts prims params := by
    by_contra hna
    have := C22_bad_arguments c prims params hna
    rw [h] at this
    cases this
  have hal := (hg.pfits params hacc.2 hok).aligned
  have := (C21_call_is_recursive_evaluation_partial c hg.static.wf prims params hal v).mp h
  exact eval_length c prims params v (C31_sizes_partial s hn hsz c e prims params hacc hsh hp) hal this.2

/-- C31 for the leaf constructions behind the constraints (no parameters, a direction, or a flag). -/
theorem C31_constructions (parts : List (Str × PrimType)) (prims : List (Prim Flt))
    (hsh : ∀ p ∈ prims, p.Shaped parts ∧ p.Planar) :
    (∀ c ∈ shippedLeaves0, ∀ ps, c.Accepts prims ps → c.Sized prims ps) ∧
    (∀ c ∈ shippedDirected, ∀ d, c.Accepts prims [.arr d] → c.Sized prims [.arr d]) ∧
    (∀ c ∈ shippedFlagged, ∀ ps, c.Accepts prims ps → c.Sized prims ps) := by
  have hso : ∀ p ∈ prims, Sound parts p := fun p hm => ⟨(hsh p hm).1, (hsh p hm).2⟩
  refine ⟨fun c hc ps ha => ?_, fun c hc d ha => ?_, fun c hc ps ha => ?_⟩
  · simp only [shippedLeaves0, List.mem_cons, List.not_mem_nil, or_false] at hc
    rcases hc with rfl | rfl | rfl | rfl | rfl | rfl | rfl | rfl | rfl | rfl | rfl | rfl | rfl
    · exact (own_coordinate ps).leaf rfl prims ha.1 hso
    · exact (own_xDistance ps).leaf rfl prims ha.1 hso
    · exact (own_yDistance ps).leaf rfl prims ha.1 hso
    · exact (own_lineVector ps).leaf rfl prims ha.1 hso
    · exact (own_unitLineVector ps).leaf rfl prims ha.1 hso
    · exact (own_length ps).leaf rfl prims ha.1 hso
    · exact (own_xLength ps).leaf rfl prims ha.1 hso
    · exact (own_yLength ps).leaf rfl prims ha.1 hso
    · exact (own_midpoint ps).leaf rfl prims ha.1 hso
    · exact (own_midpointXDistance ps).leaf rfl prims ha.1 hso
    · exact (own_midpointYDistance ps).leaf rfl prims ha.1 hso
    · exact (own_angle ps).leaf rfl prims ha.1 hso
    · exact (own_aspectRatio ps).leaf rfl prims ha.1 hso
  · simp only [shippedDirected, List.mem_cons, List.not_mem_nil, or_false] at hc
    rcases hc with rfl | rfl | rfl
    · exact (own_directedDistance d).leaf rfl prims ha.1 hso
    · exact (own_directedLength d).leaf rfl prims ha.1 hso
    · exact (own_midpointDirectedDistance d).leaf rfl prims ha.1 hso
  · simp only [shippedFlagged, List.mem_cons, List.not_mem_nil, or_false] at hc
    rcases hc with rfl | rfl | rfl
    · exact (own_pointOnLineDistance ps).leaf rfl prims ha.1 hso
    · exact (own_pointToLineDistance ps).leaf rfl prims ha.1 hso
    · exact (own_relativePointOnLineDistance ps).leaf rfl prims ha.1 hso

/-- C31 is violated: `CoincidentLines` declares two entries and returns four, for all lines. -/
theorem C31_counterexample (l l' : Prim Flt) (a b c d : ℝ × ℝ) (h : IsLine l a b)
    (h' : IsLine l' c d) (reverse : Bool) :
    (ct.coincidentLines : Cons Flt).value.sig.valueSize = 2 ∧
    (∃ v, (ct.coincidentLines : Cons Flt).call [l, l'] [.bool reverse] = .ok v ∧ v.length = 4) ∧
    ¬ (ct.coincidentLines : Cons Flt).Sized [l, l'] [.bool reverse] := by
  have hev := ev_coincidentLines h h' (r := .bool reverse) (t := reverse) rfl
  obtain ⟨v, hv, hl⟩ : ∃ v, (ct.coincidentLines : Cons Flt).call [l, l'] [.bool reverse] = .ok v ∧
      v.length = 4 := by
    refine ⟨_, (C21_call_is_recursive_evaluation_partial _ (leaf_WF _ _) _ _ ?_ _).mpr
      ⟨⟨.cons h.1 (.cons h'.1 .nil), rfl⟩, hev.ev⟩, ?_⟩
    · exact (leaf_consistent _ _ _ rfl).aligned
    · cases reverse <;> rfl
  refine ⟨rfl, ⟨v, hv, hl⟩, ?_⟩
  intro hs
  have hal : (ct.coincidentLines : Cons Flt).Aligned [.bool reverse] := (leaf_consistent _ _ _ rfl).aligned
  have hcall := (C21_call_is_recursive_evaluation_partial _ (leaf_WF _ _) _ _ hal v).mp hv
  have := eval_length _ _ _ v hs hal hcall.2
  rw [hl] at this
  exact absurd this (by decide)

/-! Examples: a well-formed plane quadrilateral; and a grid of two rows and three columns. -/

theorem planar_mk {t : PrimType} {v : PVal Flt} {cs : List (Str × Prim Flt)}
    (h : t = .point → v.arr.length = 2) (hc : ∀ kc ∈ cs, Prim.Planar kc.2) :
    Prim.Planar (.mk t v cs) := by
  intro path n hn hty
  generalize hN : (Node.mk t v cs : Prim Flt) = N at hn
  cases hn with
  | here => subst hN; exact h (isA_point hty)
  | @down _ c _ k p hm hrest => subst hN; exact hc (k, c) hm p n hrest hty

theorem realLine_sound (parts : List (Str × PrimType)) (a b : ℝ × ℝ) :
    (realLine a b).SW parts ∧ (realLine a b).Planar := by
  refine ⟨sw_line sw_point sw_point (.refl _) (.refl _), planar_mk (by rintro ⟨⟩) ?_⟩
  intro kc hkc
  simp only [List.mem_cons, List.not_mem_nil, or_false] at hkc
  rcases hkc with rfl | rfl <;> exact planar_mk (fun _ => rfl) (by simp)

theorem realQuad_sound (parts : List (Str × PrimType)) (a b c d : ℝ × ℝ) :
    (realQuad a b c d).Shaped parts ∧ (realQuad a b c d).Planar := by
  suffices h : Prim.SW parts (realQuad a b c d) ∧ (realQuad a b c d).Planar from ⟨h.1.2, h.2⟩
  refine ⟨shaped_mk (show [k!"Line0", k!"Line1", k!"Line2", k!"Line3"].Nodup by decide) ?_
    (by rintro ⟨⟩) ?_ (by rintro ⟨⟩), planar_mk (by rintro ⟨⟩) ?_⟩
  · intro kc hkc
    simp only [List.mem_cons, List.not_mem_nil, or_false] at hkc
    rcases hkc with rfl | rfl | rfl | rfl <;> exact (realLine_sound parts _ _).1
  · intro _ k hk
    simp only [List.mem_cons, List.not_mem_nil, or_false] at hk
    rcases hk with rfl | rfl | rfl | rfl
    · exact ⟨realLine a b, by simp, .refl _⟩
    · exact ⟨realLine b c, by simp, .refl _⟩
    · exact ⟨realLine c d, by simp, .refl _⟩
    · exact ⟨realLine d a, by simp, .refl _⟩
  · intro kc hkc
    simp only [List.mem_cons, List.not_mem_nil, or_false] at hkc
    rcases hkc with rfl | rfl | rfl | rfl <;> exact (realLine_sound parts _ _).2

/-- A quadrilateral and a parameter meet the hypotheses. -/
example (a b c d : ℝ × ℝ) (x : ℝ) : (cstr widthT).Sized [realQuad a b c d] [.num (.fin x)] :=
  C31_sizes_partial .width (fun h => h) trivial _ ct_width_eq _ _
    ⟨.cons (.refl _) .nil, rfl⟩ (by
      intro p hp
      rw [List.mem_singleton.mp hp]
      exact realQuad_sound _ a b c d) (by
      intro p hp xs hx
      rw [List.mem_singleton.mp hp] at hx
      cases hx)

/-- A grid of two rows and three columns returns as many entries as it declares: four for each of
seven pairs of boxes, one for each of three relative sizes and one for each of three margins. -/
example (r : Rect) (v : List Flt) (c : Cons Flt) (e : (Shipped.grid 2 3).build = .ok c)
    (h : c.call (List.replicate 6 (realRect r)) [.arr [1, 1], .arr [1], .arr [1, 1], .arr [1]] = .ok v) :
    v.length = declared c := by
  refine C31_residual_length_partial (.grid 2 3) (fun h => h) ⟨by decide, by decide⟩ c e _ _ ?_ ?_ ?_ v h
  · intro p hp
    rw [List.eq_of_mem_replicate hp]
    exact realQuad_sound _ _ _ _ _
  · intro p hp qs hq q hm
    simp only [List.mem_cons, List.not_mem_nil, or_false] at hp
    rcases hp with rfl | rfl | rfl | rfl <;> cases hq <;>
      simp only [List.mem_cons, List.map_cons, List.map_nil, List.not_mem_nil, or_false, or_self] at hm <;>
      subst hm <;> exact FitsSize_num _
  · exact ⟨by decide, by decide, _, _, _, _, _, _, _, _, rfl, rfl, rfl, rfl, rfl, by decide, by decide,
      by simp [Param.ArrayLike], by simp [Param.ArrayLike]⟩

end MplLayout.Props
