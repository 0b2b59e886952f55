import Verif.Lemmas.ScaleSolve
import Verif.Lemmas.DrawShift

/-! Drawing a scaled tree. -/

namespace MplLayout

open Flt

variable {s : ℝ}

theorem div_same_flt (hs : s ≠ 0) (a b : Flt) : (fin s * a) / (fin s * b) = a / b := by
  rw [div_scale_flt s hs, div_self hs]
  cases a / b <;> simp

theorem lt_scale_flt (hs : 0 < s) (a b : Flt) : PyNum.lt (fin s * a) (fin s * b) = PyNum.lt a b := by
  cases a with
  | bad => rfl
  | fin a =>
    cases b with
    | bad => rfl
    | fin b =>
      show decide (s * a < s * b) = decide (a < b)
      simp only [decide_eq_decide]
      exact mul_lt_mul_iff_right₀ hs

theorem unpack2_map (g : Flt → Flt) (a : Arr Flt) :
    unpack2 (a.map g) = (unpack2 a).map fun p => (g p.1, g p.2) := by
  cases a with
  | scalar a => rfl
  | vec xs => rcases xs with _ | ⟨x, _ | ⟨y, _ | ⟨z, zs⟩⟩⟩ <;> rfl

theorem widthAndHeight_scale (q : Prim Flt) :
    widthAndHeight (scalePrim s q) = (widthAndHeight q).map fun p => (fin s * p.1, fin s * p.2) := by
  simp only [widthAndHeight, getChild_scale]
  cases q.getChild k!"Line0/Point0" with
  | error e => rfl
  | ok p =>
    simp only [Except.map, bind, Except.bind, scalePrim_vec, unpack2_map]
    cases unpack2 (.vec p.value.arr) with
    | error e => rfl
    | ok a =>
      simp only
      cases q.getChild k!"Line1/Point1" with
      | error e => rfl
      | ok p' =>
        simp only [scalePrim_vec, unpack2_map]
        cases unpack2 (.vec p'.value.arr) with
        | error e => rfl
        | ok b => simp only [Except.map, mul_sub_flt]

theorem div_size (hs : s ≠ 0) (a : Arr Flt) (w e : Flt) :
    Arr.div (a.map (fin s * ·)) (.vec [fin s * w, fin s * e]) = Arr.div a (.vec [w, e]) := by
  have := sc_binop (k := s) (j := s) (m := 1) (op := fun x y => x / y) (fun a b => by
    rw [div_same_flt hs]; cases a / b <;> simp) a (.vec [w, e])
  exact Sc.one.mp this

theorem rectFromBox_scale (hs : s ≠ 0) (q : Prim Flt) (o : Arr Flt) (w e : Flt) :
    rectFromBox (scalePrim s q) (o.map (fin s * ·)) (.vec [fin s * w, fin s * e]) = rectFromBox q o (.vec [w, e]) := by
  have key : ∀ p : Prim Flt, Arr.sub (.vec (scalePrim s p).value.arr) (o.map (fin s * ·))
      = (Arr.sub (.vec p.value.arr) o).map (Arr.map (fin s * ·)) := by
    intro p
    rw [scalePrim_vec]
    exact sc_binop (k := s) (j := s) (m := s) (op := fun x y => x - y) (fun a b => mul_sub_flt _ _ _) (.vec p.value.arr) o
  simp only [rectFromBox, getChild_scale]
  cases q.getChild k!"Line0/Point0" with
  | error er => rfl
  | ok p =>
    simp only [Except.map, bind, Except.bind, key]
    cases Arr.sub (.vec p.value.arr) o with
    | error er => rfl
    | ok d =>
      simp only [div_size hs]
      cases q.getChild k!"Line1/Point1" with
      | error er => rfl
      | ok p' =>
        simp only [key]
        cases Arr.sub (.vec p'.value.arr) o with
        | error er => rfl
        | ok d' => simp only [Except.map, div_size hs]

theorem norm1_scale (hs : 0 < s) (xs : List Flt) : norm1 (xs.map (fin s * ·)) = fin s * norm1 xs := by
  have h : ∀ x : Flt, (fin s * x) * (fin s * x) = fin (s * s) * (x * x) := fun x => by rw [mul_mul_flt, fin_mul]
  rw [norm1, norm1, ← sqrt_scale_flt hs, ← sumList_scale, List.map_map, List.map_map]
  congr 2
  exact List.map_congr_left fun x _ => h x

theorem argmin_scale {α : Type} (hs : 0 < s) (best : α × Flt) (l : List (α × Flt)) :
    argmin (best.1, fin s * best.2) (l.map fun x => (x.1, fin s * x.2))
      = ((argmin best l).1, fin s * (argmin best l).2) := by
  induction l generalizing best with
  | nil => rfl
  | cons x xs ih =>
    simp only [List.map_cons, argmin, lt_scale_flt hs]
    cases PyNum.lt x.2 best.2
    · exact ih best
    · exact ih x

/-- The side is the same; only the tolerance of the warning is absolute. -/
theorem findAxisPosition_scale (hs : 0 < s) (f q : Prim Flt) :
    (findAxisPosition (scalePrim s f) (scalePrim s q)).map (·.1) = (findAxisPosition f q).map (·.1) := by
  have key : ∀ i j : Str,
      (do let l0 ← (scalePrim s f).getChild i
          let l1 ← (scalePrim s q).getChild j
          let r ← ct.coincidentLines.call [l0, l1] [.bool true]
          (.ok (norm1 r) : Py Flt)) =
      (do let l0 ← f.getChild i
          let l1 ← q.getChild j
          let r ← ct.coincidentLines.call [l0, l1] [.bool true]
          (.ok (norm1 r) : Py Flt)).map (fin s * ·) := by
    intro i j
    simp only [getChild_scale]
    cases f.getChild i with
    | error e => rfl
    | ok l0 =>
      cases q.getChild j with
      | error e => rfl
      | ok l1 =>
        simp only [Except.map, bind, Except.bind]
        obtain ⟨r, h1, h2, h3⟩ := call_suits (suits_affine s) (sh := .coincidentLines) trivial trivial rfl
          (params := [.bool true]) trivial [l0, l1]
        have h2' : ct.coincidentLines.call [scalePrim s l0, scalePrim s l1] [.bool true] = r.map (List.map (· true)) := h2
        rw [h1, h2']
        cases r with
        | error e => rfl
        | ok gs =>
          simp only [Except.map]
          rw [← norm1_scale hs, List.map_map]
          congr 2
          exact List.map_congr_left fun g hg => h3 gs rfl g hg
  simp only [findAxisPosition]
  rw [key, key, key, key]
  generalize (do let l0 ← f.getChild k!"Line0"
                 let l1 ← q.getChild k!"Line2"
                 let r ← ct.coincidentLines.call [l0, l1] [.bool true]
                 (.ok (norm1 r) : Py Flt)) = A
  generalize (do let l0 ← f.getChild k!"Line2"
                 let l1 ← q.getChild k!"Line0"
                 let r ← ct.coincidentLines.call [l0, l1] [.bool true]
                 (.ok (norm1 r) : Py Flt)) = B
  generalize (do let l0 ← f.getChild k!"Line3"
                 let l1 ← q.getChild k!"Line1"
                 let r ← ct.coincidentLines.call [l0, l1] [.bool true]
                 (.ok (norm1 r) : Py Flt)) = C
  generalize (do let l0 ← f.getChild k!"Line1"
                 let l1 ← q.getChild k!"Line3"
                 let r ← ct.coincidentLines.call [l0, l1] [.bool true]
                 (.ok (norm1 r) : Py Flt)) = D
  cases A with
  | error e => rfl
  | ok a =>
    cases B with
    | error e => rfl
    | ok b =>
      cases C with
      | error e => rfl
      | ok c =>
        cases D with
        | error e => rfl
        | ok d =>
          have := argmin_scale hs (con.Side.bottom, a) [(con.Side.top, b), (.left, c), (.right, d)]
          simp only [List.map_cons, List.map_nil] at this
          simp only [Except.map, bind, Except.bind, this]

theorem contains_scale (p : Prim Flt) (kind : AxisKind) {u : Str} (hu : '/' ∉ u) :
    (scalePrim s p).contains (kind.pre ++ u) = p.contains (kind.pre ++ u) := by
  rw [Node.contains_noslash _ (pre_noslash kind u hu), Node.contains_noslash _ (pre_noslash kind u hu),
    scalePrim, Node.keys_mapV]

theorem updateAxis_scale (hs : 0 < s) (root frame : Prim Flt) (w e : Flt) (key : Str) (i : Nat) (kind : AxisKind) :
    updateAxis (scalePrim s root) (.vec [fin s * w, fin s * e]) key i (scalePrim s frame) kind
      = updateAxis root (.vec [w, e]) key i frame kind := by
  simp only [updateAxis, getChild_scale]
  cases root.getChild key with
  | error er => rfl
  | ok ax =>
    have hL : labelCalls (scalePrim s root) (scalePrim s ax) (.vec [fin s * w, fin s * e]) key i kind
        = labelCalls root ax (.vec [w, e]) key i kind := by
      simp only [labelCalls, contains_scale ax kind (u := k!"AxisLabel") (by decide), getChild_scale]
      cases ax.contains (kind.pre ++ k!"AxisLabel") with
      | error er => rfl
      | ok b =>
        cases b with
        | false => rfl
        | true =>
          simp only [bind, Except.bind, if_true]
          cases root.getChild (key ++ k!"/" ++ (kind.pre ++ k!"AxisLabel")) with
          | error er => rfl
          | ok p => simp only [Except.map, scalePrim_vec, div_size hs.ne']
    have hT : tickCalls (scalePrim s root) (scalePrim s ax) key i (scalePrim s frame) kind
        = tickCalls root ax key i frame kind := by
      simp only [tickCalls, contains_scale ax kind (u := k!"Axis") (by decide), getChild_scale]
      cases ax.contains (kind.pre ++ k!"Axis") with
      | error er => rfl
      | ok b =>
        cases b with
        | false => rfl
        | true =>
          simp only [bind, Except.bind, if_true]
          cases root.getChild (key ++ k!"/" ++ (kind.pre ++ k!"Axis")) with
          | error er => rfl
          | ok p =>
            have := findAxisPosition_scale hs frame p
            simp only [Except.map] at this ⊢
            generalize findAxisPosition (scalePrim s frame) (scalePrim s p) = A at this ⊢
            generalize findAxisPosition frame p = B at this ⊢
            cases A <;> cases B <;> simp_all
    simp only [Except.map, bind, Except.bind, hL, hT]

theorem updateAxes_scale (hs : 0 < s) (root : Prim Flt) (o : Arr Flt) (w e : Flt) (kv : Str × Nat) :
    updateAxes (scalePrim s root) (o.map (fin s * ·)) (.vec [fin s * w, fin s * e]) kv
      = updateAxes root o (.vec [w, e]) kv := by
  simp only [updateAxes, getChild_scale]
  cases root.getChild (kv.1 ++ k!"/Frame") with
  | error er => rfl
  | ok q => simp only [Except.map, bind, Except.bind, rectFromBox_scale hs.ne', updateAxis_scale hs]

theorem updateAxes_grow {root : Prim Flt} {o z : Arr Flt} {kv : Str × Nat} {cs : List (DrawCall Flt)}
    (h : updateAxes root o z kv = .ok cs) : cs.map (growFigure s) = cs := by
  have hx : ∀ {frame : Prim Flt} {kind : AxisKind} {xs : List (DrawCall Flt)},
      updateAxis root z kv.1 kv.2 frame kind = .ok xs → xs.map (growFigure s) = xs := by
    intro frame kind xs h
    simp only [updateAxis, py_bind_ok] at h
    obtain ⟨ax, _, ls, h1, ts, h2, h3⟩ := h
    cases h3
    rw [List.map_append]
    congr 1
    · simp only [labelCalls, py_bind_ok] at h1
      obtain ⟨b, _, h1⟩ := h1
      cases b with
      | false => cases h1; rfl
      | true =>
        simp only [if_true, py_bind_ok] at h1
        obtain ⟨_, _, _, _, _, _, h1⟩ := h1
        cases h1; rfl
    · simp only [tickCalls, py_bind_ok] at h2
      obtain ⟨b, _, h2⟩ := h2
      cases b with
      | false => cases h2; rfl
      | true =>
        simp only [if_true, py_bind_ok] at h2
        obtain ⟨_, _, _, _, h2⟩ := h2
        cases h2; rfl
  simp only [updateAxes, py_bind_ok] at h
  obtain ⟨q, _, r, _, xs, h1, ys, h2, h3⟩ := h
  cases h3
  rw [List.map_cons, List.map_append, hx h1, hx h2]
  rfl

/-- Drawing a scaled tree. -/
theorem updateSubplots_scale (hs : 0 < s) (root : Prim Flt) (figKey : Str) (axs : List (Str × Nat)) :
    updateSubplots (scalePrim s root) figKey axs = (updateSubplots root figKey axs).map (List.map (growFigure s)) := by
  simp only [updateSubplots, getChild_scale]
  cases root.getChild figKey with
  | error er => rfl
  | ok fq =>
    simp only [Except.map, bind, Except.bind, getChild_scale, widthAndHeight_scale]
    cases fq.getChild k!"Line0/Point0" with
    | error er => rfl
    | ok p =>
      simp only [Except.map, scalePrim_vec]
      cases widthAndHeight fq with
      | error er => rfl
      | ok we =>
        simp only [Except.map]
        have : updateAxes (scalePrim s root) ((Arr.vec p.value.arr).map (fin s * ·)) (.vec [fin s * we.1, fin s * we.2])
            = updateAxes root (.vec p.value.arr) (.vec [we.1, we.2]) := by
          funext kv; exact updateAxes_scale hs root _ _ _ kv
        rw [this]
        cases h : pyMap (updateAxes root (.vec p.value.arr) (.vec [we.1, we.2])) axs with
        | error er => rfl
        | ok css =>
          simp only [List.map_cons, growFigure, Except.ok.injEq, List.cons.injEq, true_and, List.map_flatten]
          congr 1
          conv_lhs => rw [← List.map_id css]
          refine List.map_congr_left fun cs hcs => ?_
          obtain ⟨kv, _, hkv⟩ := pyMap_ok_mem h hcs
          exact (updateAxes_grow hkv).symm

theorem subplots_scale (hs : 0 < s) (root : Prim Flt) (figKey : Str) (keys : Option (List Str)) :
    subplots (scalePrim s root) figKey keys
      = (subplots root figKey keys).map fun r => (r.1.map (growFigure s), r.2) := by
  have hk : axesKeysOf (scalePrim s root) keys = axesKeysOf root keys := by
    cases keys with
    | none => rw [axesKeysOf, axesKeysOf, scalePrim, Node.keys_mapV]
    | some ks => rfl
  simp only [subplots, hk, updateSubplots_scale hs, bind, Except.bind]
  cases updateSubplots root figKey (dictOfZip (axesKeysOf root keys) (List.range (axesKeysOf root keys).length)) with
  | error e => rfl
  | ok cs =>
    simp only [Except.map, List.map_cons, List.map_append, List.map_map]
    rfl

end MplLayout
