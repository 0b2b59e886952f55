import Verif.Lemmas.Shift
import Verif.Lemmas.Drawing

/-! Drawing a translated tree. -/

namespace MplLayout

open Flt

/-- What drawing does with the axis labels of a tree moved by `t`: with figure size `w` × `e` the label
coordinates change by `t / (w, e)`. -/
noncomputable def moveLabel (t : ℝ × ℝ) (w e : Flt) : DrawCall Flt → DrawCall Flt
  | .setLabelCoords ax kind x y => .setLabelCoords ax kind (x + fin t.1 / w) (y + fin t.2 / e)
  | c => c

variable {t : ℝ × ℝ}

theorem add_div_flt (x w : Flt) (s : ℝ) : (x + fin s) / w = x / w + fin s / w := by
  cases x with
  | bad => simp
  | fin x =>
    cases w with
    | bad => simp
    | fin w =>
      by_cases hw : w = 0
      · subst hw; simp [div_zero']
      · simp [fin_div hw, add_div]

theorem widthAndHeight_shift {q : Prim Flt} (h : Planar q) :
    widthAndHeight (shiftPrim t q) = widthAndHeight q := by
  simp only [widthAndHeight, getChild_shift]
  cases h0 : q.getChild k!"Line0/Point0" with
  | error e => rfl
  | ok p =>
    simp only [Except.map, bind, Except.bind, shiftPrim_arr]
    rcases planar_cases (h.getChild h0).val with hp | ⟨x, y, hp⟩
    · rw [hp]; rfl
    · rw [hp]
      simp only [shiftL, unpack2]
      cases h1 : q.getChild k!"Line1/Point1" with
      | error e => rfl
      | ok p' =>
        simp only [shiftPrim_arr]
        rcases planar_cases (h.getChild h1).val with hp' | ⟨x', y', hp'⟩
        · rw [hp']; rfl
        · rw [hp']
          simp only [shiftL, sub_shift_flt]

theorem rectFromBox_shift {q : Prim Flt} (h : Planar q) {o : List Flt}
    (ho : o.length = 0 ∨ o.length = 2) (sz : Arr Flt) :
    rectFromBox (shiftPrim t q) (.vec (shiftL t o)) sz = rectFromBox q (.vec o) sz := by
  simp only [rectFromBox, getChild_shift]
  cases h0 : q.getChild k!"Line0/Point0" with
  | error e => rfl
  | ok p =>
    simp only [Except.map, bind, Except.bind, shiftPrim_arr, sub_shift (h.getChild h0).val ho]
    cases h1 : q.getChild k!"Line1/Point1" with
    | error e => rfl
    | ok p' => simp only [shiftPrim_arr, sub_shift (h.getChild h1).val ho]

theorem findAxisPosition_shift {f q : Prim Flt} (hf : Planar f) (hq : Planar q) :
    findAxisPosition (shiftPrim t f) (shiftPrim t q) = findAxisPosition f q := by
  have key : ∀ i j : Str,
      (do let l0 ← (shiftPrim t f).getChild i
          let l1 ← (shiftPrim t q).getChild j
          let r ← ct.coincidentLines.call [l0, l1] [.bool true]
          (.ok (norm1 r) : Py Flt)) =
      (do let l0 ← f.getChild i
          let l1 ← q.getChild j
          let r ← ct.coincidentLines.call [l0, l1] [.bool true]
          (.ok (norm1 r) : Py Flt)) := by
    intro i j
    simp only [getChild_shift]
    cases h0 : f.getChild i with
    | error e => rfl
    | ok l0 =>
      cases h1 : q.getChild j with
      | error e => rfl
      | ok l1 =>
        simp only [Except.map, bind, Except.bind]
        have := call_shift (SIP_shipped .coincidentLines (by simp) rfl) t [l0, l1] [.bool true]
          (by simp [hf.getChild h0, hq.getChild h1])
        simp only [List.map_cons, List.map_nil] at this
        rw [this]
  simp only [findAxisPosition]
  rw [key, key, key, key]

theorem pre_noslash (kind : AxisKind) (s : Str) (hs : '/' ∉ s) : '/' ∉ kind.pre ++ s := by
  cases kind <;> simp [AxisKind.pre, hs]

theorem contains_shift (p : Prim Flt) (kind : AxisKind) {s : Str} (hs : '/' ∉ s) :
    (shiftPrim t p).contains (kind.pre ++ s) = p.contains (kind.pre ++ s) := by
  rw [Node.contains_noslash _ (pre_noslash kind s hs), Node.contains_noslash _ (pre_noslash kind s hs),
    shiftPrim, Node.keys_mapV]

theorem updateAxis_shift {root frame : Prim Flt} (hr : Planar root) (hf : Planar frame) (w e : Flt)
    (key : Str) (i : Nat) (kind : AxisKind) :
    updateAxis (shiftPrim t root) (.vec [w, e]) key i (shiftPrim t frame) kind
      = (updateAxis root (.vec [w, e]) key i frame kind).map (·.map (moveLabel t w e)) := by
  simp only [updateAxis, getChild_shift]
  cases h0 : root.getChild key with
  | error er => rfl
  | ok ax =>
    have hL : labelCalls (shiftPrim t root) (shiftPrim t ax) (.vec [w, e]) key i kind
        = (labelCalls root ax (.vec [w, e]) key i kind).map (·.map (moveLabel t w e)) := by
      simp only [labelCalls, contains_shift ax kind (s := k!"AxisLabel") (by decide), getChild_shift]
      cases ax.contains (kind.pre ++ k!"AxisLabel") with
      | error er => rfl
      | ok b =>
        cases b with
        | false => rfl
        | true =>
          simp only [bind, Except.bind, if_true]
          cases h1 : root.getChild (key ++ k!"/" ++ (kind.pre ++ k!"AxisLabel")) with
          | error er => rfl
          | ok p =>
            simp only [Except.map, shiftPrim_arr]
            rcases planar_cases (hr.getChild h1).val with hp | ⟨x, y, hp⟩
            · rw [hp]; rfl
            · rw [hp]
              have s2 : ∀ u v : Flt, Arr.div (.vec [u, v]) (.vec [w, e]) = .ok (.vec [u / w, v / e]) :=
                fun _ _ => rfl
              simp only [shiftL, s2, unpack2, add_div_flt, List.map_cons, List.map_nil, moveLabel]
    have hT : tickCalls (shiftPrim t root) (shiftPrim t ax) key i (shiftPrim t frame) kind
        = (tickCalls root ax key i frame kind).map (·.map (moveLabel t w e)) := by
      simp only [tickCalls, contains_shift ax kind (s := k!"Axis") (by decide), getChild_shift]
      cases ax.contains (kind.pre ++ k!"Axis") with
      | error er => rfl
      | ok b =>
        cases b with
        | false => rfl
        | true =>
          simp only [bind, Except.bind, if_true]
          cases h1 : root.getChild (key ++ k!"/" ++ (kind.pre ++ k!"Axis")) with
          | error er => rfl
          | ok p =>
            simp only [Except.map, findAxisPosition_shift hf (hr.getChild h1)]
            cases findAxisPosition frame p <;> rfl
    simp only [Except.map, bind, Except.bind, hL, hT]
    cases labelCalls root ax (.vec [w, e]) key i kind with
    | error er => rfl
    | ok ls =>
      cases tickCalls root ax key i frame kind with
      | error er => rfl
      | ok ts => simp

theorem pyMap_map_ok {α β : Type} {f g : α → Py β} {h : β → β} (xs : List α)
    (hfg : ∀ x, f x = (g x).map h) : pyMap f xs = (pyMap g xs).map (·.map h) := by
  induction xs with
  | nil => rfl
  | cons x xs ih =>
    simp only [pyMap, hfg, ih]
    cases g x with
    | error e => rfl
    | ok y => cases pyMap g xs <;> rfl

theorem updateAxes_shift {root : Prim Flt} (hr : Planar root) {o : List Flt}
    (ho : o.length = 0 ∨ o.length = 2) (w e : Flt) (kv : Str × Nat) :
    updateAxes (shiftPrim t root) (.vec (shiftL t o)) (.vec [w, e]) kv
      = (updateAxes root (.vec o) (.vec [w, e]) kv).map (·.map (moveLabel t w e)) := by
  simp only [updateAxes, getChild_shift]
  cases h0 : root.getChild (kv.1 ++ k!"/Frame") with
  | error er => rfl
  | ok q =>
    have hq := hr.getChild h0
    simp only [Except.map, bind, Except.bind, rectFromBox_shift hq ho, updateAxis_shift hr hq]
    cases rectFromBox q (.vec o) (.vec [w, e]) with
    | error er => rfl
    | ok r =>
      cases updateAxis root (.vec [w, e]) kv.1 kv.2 q .x with
      | error er => rfl
      | ok xs =>
        cases updateAxis root (.vec [w, e]) kv.1 kv.2 q .y with
        | error er => rfl
        | ok ys => simp [moveLabel]

/-- Drawing a translated tree: the same calls, except that labels move. -/
theorem updateSubplots_shift {root fq : Prim Flt} (hr : Planar root) {figKey : Str} {w e : Flt}
    (hfig : root.getChild figKey = .ok fq) (hw : widthAndHeight fq = .ok (w, e))
    (axs : List (Str × Nat)) :
    updateSubplots (shiftPrim t root) figKey axs
      = (updateSubplots root figKey axs).map (·.map (moveLabel t w e)) := by
  simp only [updateSubplots, getChild_shift, hfig]
  have hq := hr.getChild hfig
  simp only [Except.map, bind, Except.bind, getChild_shift, widthAndHeight_shift hq, hw]
  cases h0 : fq.getChild k!"Line0/Point0" with
  | error er => rfl
  | ok p =>
    simp only [Except.map, shiftPrim_arr]
    rw [pyMap_map_ok (h := fun l => l.map (moveLabel t w e)) axs
      (updateAxes_shift hr (hq.getChild h0).val w e)]
    cases pyMap (updateAxes root (.vec p.value.arr) (.vec [w, e])) axs with
    | error er => rfl
    | ok css => simp [Except.map, moveLabel, List.map_flatten]

end MplLayout
