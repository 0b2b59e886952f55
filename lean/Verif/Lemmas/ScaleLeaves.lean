import Verif.Lemmas.SmoothLeaves
import Verif.Lemmas.FamilyShipped

/-!
# Scaled primitives: the outputs of the leaf constructions
-/

namespace MplLayout

open Flt Cons

theorem mul_comm_flt (a b : Flt) : a * b = b * a := by
  cases a <;> cases b <;> simp [mul_comm]

theorem mul_add_flt (k a b : Flt) : k * a + k * b = k * (a + b) := by
  cases k <;> cases a <;> cases b <;> simp [mul_add]

theorem mul_sub_flt (k a b : Flt) : k * a - k * b = k * (a - b) := by
  cases k <;> cases a <;> cases b <;> simp [mul_sub]

theorem mul_mul_flt (k j a b : Flt) : (k * a) * (j * b) = k * j * (a * b) := by
  cases k <;> cases j <;> cases a <;> cases b <;> simp [mul_mul_mul_comm]

theorem mul_left_flt (k a b : Flt) : k * (a * b) = a * (k * b) := by
  cases k <;> cases a <;> cases b <;> simp [mul_left_comm]

theorem mul_assoc_flt (k a b : Flt) : k * a * b = k * (a * b) := by
  cases k <;> cases a <;> cases b <;> simp [mul_assoc]

theorem div_scale_flt (k : ℝ) {j : ℝ} (hj : j ≠ 0) (a b : Flt) : (fin k * a) / (fin j * b) = fin (k / j) * (a / b) := by
  cases a with
  | bad => simp
  | fin a =>
    cases b with
    | bad => simp
    | fin b =>
      by_cases hb : b = 0
      · subst hb; simp [div_zero']
      · rw [fin_mul, fin_mul, fin_div (mul_ne_zero hj hb), fin_div hb, fin_mul, mul_div_mul_comm]

theorem sqrt_scale_flt {s : ℝ} (hs : 0 < s) (a : Flt) : PyNum.sqrt (fin (s * s) * a) = fin s * PyNum.sqrt a := by
  cases a with
  | bad => rfl
  | fin a =>
    by_cases ha : a < 0
    · have h : s * s * a < 0 := mul_neg_of_pos_of_neg (mul_pos hs hs) ha
      rw [fin_mul, show PyNum.sqrt (fin (s * s * a)) = bad from if_pos h,
        show PyNum.sqrt (fin a) = bad from if_pos ha, mul_bad]
    · have ha := not_lt.mp ha
      rw [fin_mul, fin_sqrt (by positivity), fin_sqrt ha, fin_mul, Real.sqrt_mul (by positivity),
        Real.sqrt_mul_self hs.le]

/-- The result is multiplied by `k`. -/
def Sc (k : ℝ) (r r' : Py (Arr Flt)) : Prop := r' = r.map (Arr.map (fin k * ·))

theorem Sc.error {k : ℝ} (e : Err) : Sc k (.error e) (.error e) := rfl

theorem Sc.bind {k j : ℝ} {r r' : Py (Arr Flt)} {F F' : Arr Flt → Py (Arr Flt)} (h : Sc k r r')
    (hF : ∀ a, r = .ok a → Sc j (F a) (F' (a.map (fin k * ·)))) : Sc j (r >>= F) (r' >>= F') := by
  cases r with
  | error e => rw [Sc] at h; rw [h]; rfl
  | ok a => rw [Sc] at h; rw [h]; exact hF a rfl

theorem sc_binop {k j m : ℝ} {op : Flt → Flt → Flt} (h : ∀ a b, op (fin k * a) (fin j * b) = fin m * op a b)
    (a b : Arr Flt) : Sc m (Arr.binop op a b) (Arr.binop op (a.map (fin k * ·)) (b.map (fin j * ·))) := by
  cases a with
  | scalar a =>
    cases b with
    | scalar b => simp only [Sc, Arr.binop, Arr.map, Except.map, h]
    | vec bs => simp [Sc, Arr.binop, Arr.map, Except.map, h]
  | vec as =>
    cases b with
    | scalar b => simp [Sc, Arr.binop, Arr.map, Except.map, h]
    | vec bs =>
      simp only [Sc, Arr.map, Arr.binop, List.length_map]
      by_cases hl : as.length = bs.length
      · simp only [hl, if_true, Except.map, Arr.map, List.zipWith_map, List.map_zipWith, h]
      · simp only [hl, if_false]
        rcases as with _ | ⟨a, _ | ⟨a', as⟩⟩ <;> rcases bs with _ | ⟨b, _ | ⟨b', bs⟩⟩ <;>
          simp_all [Except.map, Arr.map]

theorem sumList_scale (k : ℝ) (xs : List Flt) : Arr.sumList (xs.map (fin k * ·)) = fin k * Arr.sumList xs := by
  have : ∀ acc : Flt, (xs.map (fin k * ·)).foldl (· + ·) (fin k * acc) = fin k * xs.foldl (· + ·) acc := by
    induction xs with
    | nil => intro acc; rfl
    | cons x xs ih => intro acc; simp only [List.map_cons, List.foldl_cons, mul_add_flt, ih]
  have h0 := this 0
  have : fin k * (0 : Flt) = 0 := by rw [zero_eq, fin_mul, mul_zero]
  rw [this] at h0
  exact h0

theorem sc_dot {k j : ℝ} (a b : Arr Flt) :
    Sc (k * j) (Arr.dot a b) (Arr.dot (a.map (fin k * ·)) (b.map (fin j * ·))) := by
  have hm : ∀ a b : Flt, (fin k * a) * (fin j * b) = fin (k * j) * (a * b) := fun a b => by
    rw [mul_mul_flt, fin_mul]
  cases a with
  | scalar a =>
    cases b with
    | scalar b => exact sc_binop hm (.scalar a) (.scalar b)
    | vec bs => exact sc_binop hm (.scalar a) (.vec bs)
  | vec as =>
    cases b with
    | scalar b => exact sc_binop hm (.vec as) (.scalar b)
    | vec bs =>
      simp only [Sc, Arr.map, Arr.dot, List.length_map]
      by_cases hl : as.length = bs.length
      · simp only [hl, if_true, Except.map, Arr.map, List.zipWith_map, hm]
        rw [← List.map_zipWith (f := fun x => fin (k * j) * x) (g := fun a b : Flt => a * b), sumList_scale]
      · simp only [hl, if_false]; rfl

theorem fin_zero_mul (k : ℝ) : fin k * (0 : Flt) = 0 := by rw [zero_eq, fin_mul, mul_zero]

theorem sc_cross {k j : ℝ} (a b : Arr Flt) :
    Sc (k * j) (Arr.cross a b) (Arr.cross (a.map (fin k * ·)) (b.map (fin j * ·))) := by
  have hm : ∀ a b : Flt, (fin k * a) * (fin j * b) = fin (k * j) * (a * b) := fun a b => by
    rw [mul_mul_flt, fin_mul]
  have hz : ∀ b : Flt, 0 * (fin j * b) = fin (k * j) * (0 * b) := fun b => by
    rw [← hm, fin_zero_mul]
  have hz' : ∀ a : Flt, (fin k * a) * 0 = fin (k * j) * (a * 0) := fun a => by
    rw [← hm, fin_zero_mul]
  unfold Sc
  cases a with
  | scalar a => rfl
  | vec as =>
    cases b with
    | scalar b =>
      rcases as with _ | ⟨a, _ | ⟨b, _ | ⟨e, _ | ⟨_, as⟩⟩⟩⟩ <;> rfl
    | vec bs =>
      rcases as with _ | ⟨a, _ | ⟨b, _ | ⟨e, _ | ⟨_, as⟩⟩⟩⟩ <;>
      rcases bs with _ | ⟨c, _ | ⟨d, _ | ⟨f, _ | ⟨_, bs⟩⟩⟩⟩ <;>
      simp only [Arr.map, List.map_cons, List.map_nil, Arr.cross, Except.map, hm, hz, hz', mul_sub_flt]

theorem map_one (a : Arr Flt) : a.map (fin 1 * ·) = a := by
  have h : ∀ x : Flt, fin 1 * x = x := fun x => by cases x <;> simp
  cases a <;> simp [Arr.map, h]

theorem Sc.one {r r' : Py (Arr Flt)} : Sc 1 r r' ↔ r' = r := by
  unfold Sc
  cases r with
  | error e => rfl
  | ok a => simp only [Except.map, map_one]

/-! ## Leaves -/

section
variable {s : ℝ}

theorem scalePrim_arr (p : Prim Flt) : (scalePrim s p).value.arr = p.value.arr.map (fin s * ·) := by
  rw [scalePrim, Node.value_mapV]

theorem scalePrim_vec (p : Prim Flt) :
    Arr.vec (scalePrim s p).value.arr = (Arr.vec p.value.arr).map (fin s * ·) := by
  rw [scalePrim_arr]; rfl

theorem getChild_scale (p : Prim Flt) (k : Str) : (scalePrim s p).getChild k = (p.getChild k).map (scalePrim s) :=
  Node.getChild_mapV _ _ _

theorem getInt_scale (p : Prim Flt) (k : Int) : (scalePrim s p).getInt k = (p.getInt k).map (scalePrim s) :=
  Node.getInt_mapV _ _ _

theorem values_scale (p : Prim Flt) : (scalePrim s p).values = p.values.map (scalePrim s) :=
  Node.values_mapV _ _

theorem sc_diff (p q : Prim Flt) : Sc s (Arr.sub (.vec q.value.arr) (.vec p.value.arr))
    (Arr.sub (.vec (scalePrim s q).value.arr) (.vec (scalePrim s p).value.arr)) := by
  rw [scalePrim_vec, scalePrim_vec]
  exact sc_binop (fun a b => mul_sub_flt _ _ _) _ _

theorem sc_lineVector (l : Prim Flt) : Sc s (con.lineVectorA [l]) (con.lineVectorA [scalePrim s l]) := by
  simp only [con.lineVectorA, values_scale]
  rcases l.values with _ | ⟨p, _ | ⟨q, _ | ⟨r, ps⟩⟩⟩
  · rfl
  · rfl
  · exact sc_diff p q
  · rfl

variable (hs : 0 < s)
include hs

theorem sc_length (l : Prim Flt) : Sc s (con.lengthA [l]) (con.lengthA [scalePrim s l]) := by
  refine (sc_lineVector l).bind (F := fun v => Arr.mul v v >>= fun t => _)
    (F' := fun v => Arr.mul v v >>= fun t => _) fun v _ => ?_
  have h : Sc (s * s) (Arr.mul v v) (Arr.mul (v.map (fin s * ·)) (v.map (fin s * ·))) :=
    sc_binop (fun a b => by rw [mul_mul_flt, fin_mul]) _ _
  refine h.bind fun t _ => ?_
  have : (t.map (fin (s * s) * ·)).atleast1d = t.atleast1d.map (fin (s * s) * ·) := by cases t <;> rfl
  simp only [Sc, Except.map]
  rw [this, sumList_scale, sqrt_scale_flt hs]
  rfl

theorem norm_scale (v : Arr Flt) : (v.map (fin s * ·)).norm = v.norm.map (fin s * ·) := by
  have h : ∀ x : Flt, (fin s * x) * (fin s * x) = fin (s * s) * (x * x) := fun x => by
    rw [mul_mul_flt, fin_mul]
  cases v with
  | scalar x => simp only [Arr.map, Arr.norm, h, sqrt_scale_flt hs]
  | vec xs =>
    simp only [Arr.map, Arr.norm, List.map_map, Function.comp_def, h]
    rw [← sqrt_scale_flt hs, ← sumList_scale, List.map_map]
    rfl

theorem unit_scale (l : Prim Flt) : con.unitLineVectorA [scalePrim s l] = con.unitLineVectorA [l] := by
  refine Sc.one.mp ?_
  refine (sc_lineVector l).bind fun v _ => ?_
  rw [norm_scale hs]
  refine sc_binop (fun a b => ?_) _ _
  rw [div_scale_flt s hs.ne', div_self hs.ne']

theorem angle_scale (l m : Prim Flt) : con.angleA [scalePrim s l, scalePrim s m] = con.angleA [l, m] := by
  simp only [con.angleA, unit_scale hs]

theorem sc_pointOn (p l : Prim Flt) (r : Param Flt) : Sc s (con.pointOnLineDistanceA [p, l] r)
    (con.pointOnLineDistanceA [scalePrim s p, scalePrim s l] r) := by
  simp only [con.pointOnLineDistanceA, unit_scale hs, getChild_scale]
  cases r.truthy with
  | error e => rfl
  | ok b =>
  cases con.unitLineVectorA [l] with
  | error e => rfl
  | ok u =>
  simp only [bind, Except.bind]
  cases l.getChild (if b = true then k!"Point1" else k!"Point0") with
  | error e => rfl
  | ok o =>
    refine (sc_diff (s := s) o p).bind fun d _ => ?_
    have := sc_dot (k := s) (j := 1) d (if b = true then u.neg else u)
    rwa [mul_one, map_one] at this

theorem sc_pointTo (p l : Prim Flt) (r : Param Flt) : Sc s (con.pointToLineDistanceA [p, l] r)
    (con.pointToLineDistanceA [scalePrim s p, scalePrim s l] r) := by
  simp only [con.pointToLineDistanceA, unit_scale hs, getChild_scale]
  cases con.unitLineVectorA [l] with
  | error e => rfl
  | ok u =>
  cases r.truthy with
  | error e => rfl
  | ok b =>
  simp only [bind, Except.bind]
  cases u.cross (if b = true then .vec [0, 0, 1] else .vec [0, 0, -1]) with
  | error e => rfl
  | ok c =>
  simp only
  cases c.take2 with
  | error e => rfl
  | ok orth =>
  simp only
  cases l.getChild k!"Point0" with
  | error e => rfl
  | ok o =>
    refine (sc_diff (s := s) o p).bind fun d _ => ?_
    have := sc_dot (k := s) (j := 1) d orth
    rwa [mul_one, map_one] at this

theorem relPoint_scale (p l : Prim Flt) (r : Param Flt) :
    con.relativePointOnLineDistanceA [scalePrim s p, scalePrim s l] r = con.relativePointOnLineDistanceA [p, l] r := by
  refine Sc.one.mp ?_
  refine (sc_pointOn hs p l r).bind fun d _ => ?_
  refine (sc_length hs l).bind fun n _ => ?_
  have h : Sc 1 (Arr.div d n) (Arr.div (d.map (fin s * ·)) (n.map (fin s * ·))) :=
    sc_binop (fun a b => by rw [div_scale_flt s hs.ne', div_self hs.ne']) _ _
  rw [Sc.one] at h ⊢
  rw [h]

theorem aspect_scale (q : Prim Flt) : con.aspectRatioA [scalePrim s q] = con.aspectRatioA [q] := by
  refine Sc.one.mp ?_
  simp only [con.aspectRatioA, getChild_scale]
  cases q.getChild k!"Line0" with
  | error e => rfl
  | ok l0 =>
    refine (sc_length hs l0).bind fun w _ => ?_
    cases q.getChild k!"Line1" with
    | error e => rfl
    | ok l1 =>
      refine (sc_length hs l1).bind fun h _ => ?_
      exact sc_binop (fun a b => by rw [div_scale_flt s hs.ne', div_self hs.ne']) _ _

omit hs in
theorem sc_orthogonal (l m : Prim Flt) :
    Sc (s * s) (ct.orthogonalA [l, m]) (ct.orthogonalA [scalePrim s l, scalePrim s m]) :=
  (sc_lineVector l).bind fun _ _ => (sc_lineVector m).bind fun _ _ => sc_dot _ _

omit hs in
theorem sc_parallel (l m : Prim Flt) :
    Sc (s * s) (ct.parallelA [l, m]) (ct.parallelA [scalePrim s l, scalePrim s m]) :=
  (sc_lineVector l).bind fun _ _ => (sc_lineVector m).bind fun _ _ => sc_cross _ _

omit hs in
theorem sc_collinear (l m : Prim Flt) :
    Sc (s * s) (ct.collinearA [l, m]) (ct.collinearA [scalePrim s l, scalePrim s m]) := by
  simp only [ct.collinearA, getInt_scale]
  cases m.getInt 0 with
  | error e => rfl
  | ok a =>
  cases l.getInt 0 with
  | error e => rfl
  | ok b =>
    simp only [Except.map, bind, Except.bind]
    obtain ⟨u, hu⟩ := primNodeInit_check (K := Flt) PrimType.table .line 0 [a.ty, b.ty]
    have h1 : primInit .line (⟨0, []⟩ : PVal Flt) [k!"Point0", k!"Point1"] [a, b]
        = u.map fun _ => .mk .line ⟨0, []⟩ [(k!"Point0", a), (k!"Point1", b)] := by
      rw [primInit, hu _ _ rfl rfl]
      rfl
    have h2 : primInit .line (⟨0, []⟩ : PVal Flt) [k!"Point0", k!"Point1"] [scalePrim s a, scalePrim s b]
        = u.map fun _ => scalePrim s (.mk .line ⟨0, []⟩ [(k!"Point0", a), (k!"Point1", b)]) := by
      rw [primInit, hu _ _ rfl (by
        show [(scalePrim s a).ty, (scalePrim s b).ty] = _
        rw [scalePrim, scalePrim, Node.ty_mapV, Node.ty_mapV])]
      rfl
    rw [h1, h2]
    cases u with
    | error e => rfl
    | ok _ =>
      simp only [Except.map]
      refine (sc_parallel l m).bind fun x _ => ?_
      refine (sc_parallel l _).bind fun y _ => ?_
      have hx : ∀ t : Arr Flt, (t.map (fin (s * s) * ·)).atleast1d = t.atleast1d.map (fin (s * s) * ·) := by
        intro t; cases t <;> rfl
      simp only [Sc, Except.map]
      rw [hx, hx, ← List.map_append]
      rfl

end

end MplLayout
