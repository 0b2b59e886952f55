import Verif.Props.Ui

/-!
# C91: labels and colours of plotted primitives
-/

namespace MplLayout.Props

open Flt

theorem calls_color {root : Prim Flt} {calls : List (PlotCall Flt)} (h : plotPrims root = .ok calls)
    {c : PlotCall Flt} (hc : c ∈ calls) : ∃ (i : ℕ) (k : Str) (child : Prim Flt) (p : List Str), root.children[i]? = some (k, child) ∧
      Shown child p c.prim ∧ c.key = joinSlash (k :: p) ∧
      c.color = ((i : Nat) : Flt) / ((root.children.length : Nat) : Flt) := by
  simp only [plotPrims] at h
  obtain ⟨css, h1, h2⟩ := bind_ok' h
  cases h2
  obtain ⟨cs, hcs, hc⟩ := List.mem_flatten.mp hc
  obtain ⟨⟨⟨k, child⟩, i⟩, hk, e⟩ := pyMap_ok_mem h1 hcs
  have hcol := plotPrim_color 99 _ _ _ _ e c hc
  have hcalls := plotPrim_calls 99 _ _ _ _ e
  obtain ⟨pm, hpm, hcall⟩ : ∃ pm ∈ shown child, IsCallFor 99 (k ++ slashed pm.1) pm.2 c := by
    clear hcol e hcs
    generalize shown child = ss at hcalls
    induction hcalls with
    | nil => cases hc
    | cons h _ ih =>
      rcases List.mem_cons.mp hc with rfl | hc
      · exact ⟨_, by simp, h⟩
      · obtain ⟨pm, h1, h2⟩ := ih hc
        exact ⟨pm, by simp [h1], h2⟩
  obtain ⟨e1, e2⟩ := plotNode_key hcall
  refine ⟨i, k, child, pm.1, ?_, by rw [e2]; exact (mem_shown _ _ _).mp hpm, ?_, hcol⟩
  · have := List.mem_zipIdx_iff_getElem?.mp hk
    exact this
  · rw [e1]
    by_cases hp : pm.1 = []
    · rw [hp]; simp [slashed, joinSlash]
    · rw [Node.slashed_eq hp, joinSlash_cons hp]

/-- C91, colours: primitive number `i` of the `n` primitives of the root (from 0), and everything drawn
inside it, gets the colour that the colour map has at `i / n`. -/
theorem C91_colors {root : Prim Flt} {calls : List (PlotCall Flt)} (h : plotPrims root = .ok calls)
    {c : PlotCall Flt} (hc : c ∈ calls) : ∃ (i : ℕ) (k : Str) (child : Prim Flt) (p : List Str), root.children[i]? = some (k, child) ∧
      Shown child p c.prim ∧ c.key = joinSlash (k :: p) ∧
      c.color = fin ((i : ℝ) / root.children.length) := by
  obtain ⟨i, k, child, p, h1, h2, h3, h4⟩ := calls_color h hc
  refine ⟨i, k, child, p, h1, h2, h3, ?_⟩
  have : 0 < root.children.length := by
    have := (List.getElem?_eq_some_iff.mp h1).1
    omega
  rw [h4, fin_natCast, fin_natCast, fin_div (by exact_mod_cast this.ne')]

/-- C91, colours: two drawn primitives have the same colour exactly if they belong to the same
primitive of the root. -/
theorem C91_same_color {root : Prim Flt} {calls : List (PlotCall Flt)} (hw : root.WF) (hs : root.SlashFree)
    (h : plotPrims root = .ok calls) {c c' : PlotCall Flt} (hc : c ∈ calls) (hc' : c' ∈ calls) :
    c.color = c'.color ↔ (splitAll c.key).head? = (splitAll c'.key).head? := by
  obtain ⟨i, k, ch, p, h1, h2, h3, h4⟩ := C91_colors h hc
  obtain ⟨i', k', ch', p', h1', h2', h3', h4'⟩ := C91_colors h hc'
  have split : ∀ {k : Str} {ch : Prim Flt} {p : List Str} {m : Prim Flt} {i : Nat},
      root.children[i]? = some (k, ch) → Shown ch p m → splitAll (joinSlash (k :: p)) = k :: p := by
    intro k ch p m i e hsh
    exact splitAll_joinSlash (by simp) (At.slashFree hs (.down (List.mem_of_getElem? e) (Shown.at hsh)))
  rw [h3, h3', split h1 h2, split h1' h2', h4, h4']
  have hpos : (0 : ℝ) < root.children.length := by
    have := (List.getElem?_eq_some_iff.mp h1).1
    exact_mod_cast (by omega : 0 < root.children.length)
  have hnd : (root.children.map (·.1)).Nodup := hw [] root (.here _)
  simp only [fin.injEq, List.head?_cons, Option.some.injEq]
  rw [div_left_inj' hpos.ne', Nat.cast_inj]
  constructor
  · rintro rfl
    rw [h1] at h1'
    exact (Prod.mk.inj (Option.some.inj h1')).1
  · rintro rfl
    have e : (root.children.map (·.1))[i]? = some k := by rw [List.getElem?_map, h1]; rfl
    have e' : (root.children.map (·.1))[i']? = some k := by rw [List.getElem?_map, h1']; rfl
    obtain ⟨b1, b2⟩ := List.getElem?_eq_some_iff.mp e
    obtain ⟨b1', b2'⟩ := List.getElem?_eq_some_iff.mp e'
    exact (hnd.getElem_inj_iff).mp (b2.trans b2'.symm)

/-- The text for the primitive at a path: one dot for each primitive above it, a slash and its own key;
none more than 99 levels down. -/
def labelText (k : Str) (p : List Str) : Option Str :=
  if p.length > 99 then none else some (List.replicate p.length '.' ++ k!"/" ++ (k :: p).getLast (by simp))

/-- C91, labels: a point has its label at its coordinates, a line at its middle, turned by the line's
rotation (but a line of length zero has none), a polygon at its first point; the text shows the depth
and the last part of the key.  (Primitives with an empty key have no text.) -/
theorem C91_labels {root : Prim Flt} {calls : List (PlotCall Flt)} (hs : root.SlashFree)
    (h : plotPrims root = .ok calls) {c : PlotCall Flt} (hc : c ∈ calls) (hne : c.key ≠ []) :
    ∃ k p, c.key = joinSlash (k :: p) ∧ root.At (k :: p) c.prim ∧
    (∀ a, IsPoint c.prim a → c.artists.filter (!Artist.IsShape ·) =
      [.text (labelText k p) [fin a.1, fin a.2] 0 c.alpha]) ∧
    (∀ a b, IsLine c.prim a b → a ≠ b → ∃ θ, rotationFromLine c.prim = .ok θ ∧
      c.artists.filter (!Artist.IsShape ·) =
        [.text (labelText k p) [fin ((a.1 + b.1) / 2), fin ((a.2 + b.2) / 2)] θ c.alpha]) ∧
    (∀ a, IsLine c.prim a a → c.artists.filter (!Artist.IsShape ·) = []) ∧
    (∀ pts p0, c.prim.ty.IsA .polygon → ClosedLoop c.prim pts → pts.head? = some p0 →
      c.artists.filter (!Artist.IsShape ·) =
        (labelText k p).toList.map fun s => .text (some s) p0.value.arr 0 c.alpha) := by
  obtain ⟨i, k, ch, p, h1, h2, h3, h4⟩ := calls_color h hc
  have hat : root.At (k :: p) c.prim := .down (List.mem_of_getElem? h1) (Shown.at h2)
  have hsp : splitAll c.key = k :: p := by
    rw [h3]; exact splitAll_joinSlash (by simp) (At.slashFree hs hat)
  refine ⟨k, p, h3, hat, ?_⟩
  have hl : plotOne c.prim (labelText k p) c.alpha = .ok c.artists := by
    have h0 := mem_calls h hc
    simp only [plotNode, hsp] at h0
    obtain ⟨as, g1, g2⟩ := bind_ok' h0
    have ga := Except.ok.inj g2
    have e1 : c.artists = as := by conv_lhs => rw [← ga]
    have e2 : c.alpha = plotAlpha (c.prim.nodeHeight + (k :: p).length - 1) ((k :: p).length - 1) := by
      conv_lhs => rw [← ga]
    rw [e1, e2, ← g1]
    congr 1
    simp only [labelText, List.length_cons, Nat.add_sub_cancel, hne, or_false]
    split
    · rfl
    · rw [List.getLastD_eq_getLast?, List.getLast?_eq_getLast_of_ne_nil (by simp : k :: p ≠ [])]
      simp
  refine ⟨fun a ha => ?_, fun a b hab hne => ?_, fun a ha => ?_, fun pts p0 ht hcl hp0 => ?_⟩
  · rw [plotOne_point ha] at hl
    rw [← Except.ok.inj hl]; rfl
  · obtain ⟨θ, hr, hθ⟩ := (plotOne_line hab (labelText k p) c.alpha).2 hne
    rw [hθ] at hl
    exact ⟨θ, hr, by rw [← Except.ok.inj hl]; rfl⟩
  · rw [(plotOne_line ha (labelText k p) c.alpha).1 rfl] at hl
    rw [← Except.ok.inj hl]; rfl
  · obtain ⟨q0, pts', rfl⟩ : ∃ q0 pts', pts = q0 :: pts' := by
      cases pts with
      | nil => simp at hp0
      | cons a b => exact ⟨a, b, rfl⟩
    obtain rfl : q0 = p0 := by simpa using hp0
    obtain ⟨n1, n2⟩ := isA_polygon_not ht
    have hsb : c.prim.ty.sub .polygon = true := (PrimType.sub_iff _ _).mpr ht
    obtain ⟨l0, g1, g2⟩ := closedLoop_line hcl (by simp : 0 < (q0 :: pts').length)
    have g1' : c.prim.getChild k!"Line0" = .ok l0 := g1
    simp only [plotOne, n1, n2, hsb, if_true, Bool.false_eq_true, if_false, plotPolygon, g1', g2, bind,
      Except.bind] at hl
    split at hl
    · cases hl
    · cases hlab : labelText k p with
      | none => rw [hlab] at hl; rw [← Except.ok.inj hl]; rfl
      | some s => rw [hlab] at hl; rw [← Except.ok.inj hl]; rfl

/-- In a figure with two primitives these have the colours at 0 and 1/2; the label point of the axes is
marked `./XAxisLabel`. -/
example (f r r' : Rect) (pt : ℝ × ℝ) (calls : List (PlotCall Flt))
    (h : plotPrims (oneFigure f r r' pt) = .ok calls) (c : PlotCall Flt) (hc : c ∈ calls) :
    c.color = fin 0 ∨ c.color = fin (1 / 2) := by
  obtain ⟨i, k, ch, p, h1, -, -, h4⟩ := C91_colors h hc
  have hlen : (oneFigure f r r' pt).children.length = 2 := rfl
  have hi := (List.getElem?_eq_some_iff.mp h1).1
  rw [hlen] at hi h4
  have : i = 0 ∨ i = 1 := by omega
  rcases this with rfl | rfl
  · left; rw [h4]; norm_num
  · right; rw [h4]; norm_num

example : labelText k!"Axes" [k!"XAxisLabel"] = some k!"./XAxisLabel" := by decide

end MplLayout.Props
