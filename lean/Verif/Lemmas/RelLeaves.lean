import Verif.Lemmas.RelArr

/-!
# The same computation with two kinds of numbers: the leaf constructions
-/

namespace MplLayout

variable {K0 K : Type} [PyNum K0] [PyNum K] {R RC : K0 → K → Prop} {G : Prim K0 → Prop}

/-- Functions of primitives with related results. -/
def E0 (R : K0 → K → Prop) (G : Prim K0 → Prop) (f : List (Prim K0) → Py (Arr K0))
    (g : List (Prim K) → Py (Arr K)) : Prop :=
  ∀ ps ps', LRel (PrRel R) ps ps' → (∀ p ∈ ps, G p) → PyRel (ARel R) (f ps) (g ps')

/-- Functions of primitives and one parameter with related results. -/
def E1 (R RC : K0 → K → Prop) (G : Prim K0 → Prop) (f : List (Prim K0) → Param K0 → Py (Arr K0))
    (g : List (Prim K) → Param K → Py (Arr K)) : Prop :=
  ∀ ps ps' q q', LRel (PrRel R) ps ps' → (∀ p ∈ ps, G p) → PaRel RC q q' → PyRel (ARel R) (f ps q) (g ps' q')

/-- The square root in the length of a line respects the relation. -/
def ZeroOK (R : K0 → K → Prop) (G : Prim K0 → Prop) : Prop :=
  ∀ p p', PrRel R p p' → G p → ∀ v v', con.lineVectorA [p] = .ok (.vec v) → con.lineVectorA [p'] = .ok (.vec v') →
    R (PyNum.sqrt (Arr.sumList (v.map fun x => x * x))) (PyNum.sqrt (Arr.sumList (v'.map fun x => x * x)))

/-- The direction of a line respects the relation. -/
def AngOK (R : K0 → K → Prop) (G : Prim K0 → Prop) : Prop :=
  ∀ p p', PrRel R p p' → G p → ∀ d d', con.unitLineVectorA [p] = .ok d → con.unitLineVectorA [p'] = .ok d' →
    ∀ x y x' y', d.get 0 = .ok x → d.get 1 = .ok y → d'.get 0 = .ok x' → d'.get 1 = .ok y' →
    R (PyNum.atan2 y x) (PyNum.atan2 y' x')

/-- The condition on a primitive passes to its parts. -/
def ChildOK (G : Prim K0 → Prop) : Prop := ∀ p k q, G p → Node.getChild p k = .ok q → G q

omit [PyNum K0] [PyNum K] in
theorem assem0_rel {f : List (Prim K0) → Py (Arr K0)} {g : List (Prim K) → Py (Arr K)} (h : E0 R G f g) :
    EvRel R RC G (assem0 f) (assem0 g) := by
  intro ps ps' qs qs' hp hG hq
  cases hq with
  | nil => exact h ps ps' hp hG
  | cons _ _ => exact PyRel.err .typeError

omit [PyNum K0] [PyNum K] in
theorem assem1_rel {f : List (Prim K0) → Param K0 → Py (Arr K0)} {g : List (Prim K) → Param K → Py (Arr K)}
    (h : E1 R RC G f g) : EvRel R RC G (assem1 f) (assem1 g) := by
  intro ps ps' qs qs' hp hG hq
  rcases hq with _ | ⟨h1, _ | ⟨h2, h3⟩⟩
  · exact PyRel.err .typeError
  · exact h ps ps' _ _ hp hG h1
  · exact PyRel.err .typeError

omit [PyNum K0] [PyNum K] in
theorem compound_rel (n : Nat) : EvRel R RC G (compoundAssem n) (compoundAssem n) := by
  intro ps ps' qs qs' _ _ hq
  simp only [compoundAssem, hq.length]
  split
  · exact .nil
  · rfl

omit [PyNum K0] [PyNum K] in
theorem vecEmpty_rel : EvRel R RC G (fun _ _ => .ok (.vec [])) (fun _ _ => .ok (.vec [])) :=
  fun _ _ _ _ _ _ _ => .nil

omit [PyNum K0] [PyNum K] in
theorem vecArr_rel {p : Prim K0} {p' : Prim K} (h : PrRel R p p') :
    ARel R (.vec p.value.arr) (.vec p'.value.arr) := h.value.2

omit [PyNum K0] [PyNum K] in
theorem coordinate_rel : E0 R G con.coordinateA con.coordinateA := by
  intro ps ps' hp hG
  rcases hp with _ | ⟨a1, _ | ⟨a2, a3⟩⟩
  · exact PyRel.err .valueError
  · exact vecArr_rel a1
  · exact PyRel.err .valueError

theorem binop_vec_vec {op : K → K → K} {xs ys : List K} {a : Arr K}
    (h : Arr.binop op (.vec xs) (.vec ys) = .ok a) : ∃ v, a = .vec v := by
  simp only [Arr.binop] at h
  split at h
  · cases h; exact ⟨_, rfl⟩
  · split at h <;> first | (cases h; done) | (cases h; exact ⟨_, rfl⟩)

theorem lineVector_vec {p : Prim K} {a : Arr K} (h : con.lineVectorA [p] = .ok a) : ∃ v, a = .vec v := by
  simp only [con.lineVectorA] at h
  split at h
  · simp only [con.coordinateA, bind, Except.bind] at h
    exact binop_vec_vec h
  · cases h

section num
variable (N : NumRel R RC)
include N

theorem ex_rel : ARel R con.ex con.ex := .cons N.one (.cons N.zero .nil)
theorem ey_rel : ARel R con.ey con.ey := .cons N.zero (.cons N.one .nil)

theorem diff_rel {p q : Prim K0} {p' q' : Prim K} (h : PrRel R p p') (h' : PrRel R q q') :
    PyRel (ARel R) (Arr.sub (.vec p.value.arr) (.vec q.value.arr))
      (Arr.sub (.vec p'.value.arr) (.vec q'.value.arr)) := sub_rel N (vecArr_rel h) (vecArr_rel h')

theorem directedDistance_rel {d : Arr K0} {d' : Arr K} (hd : ARel R d d') :
    E0 R G (con.directedDistanceA d) (con.directedDistanceA d') := by
  intro ps ps' hp hG
  rcases hp with _ | ⟨a1, _ | ⟨a2, _ | ⟨a3, a4⟩⟩⟩
  · exact PyRel.err .valueError
  · exact PyRel.err .valueError
  · exact (diff_rel N a2 a1).bind' fun _ _ h => dot_rel N h hd
  · exact PyRel.err .valueError

theorem lineVec1_rel {p : Prim K0} {p' : Prim K} (h : PrRel R p p') :
    PyRel (ARel R) (con.lineVectorA [p]) (con.lineVectorA [p']) := by
  have := h.values
  simp only [con.lineVectorA]
  generalize Node.values p = vs at this ⊢
  generalize Node.values p' = vs' at this ⊢
  rcases this with _ | ⟨b1, _ | ⟨b2, _ | ⟨b3, b4⟩⟩⟩
  · exact PyRel.err .valueError
  · exact PyRel.err .valueError
  · exact diff_rel N b2 b1
  · exact PyRel.err .valueError

theorem lineVector_rel : E0 R G con.lineVectorA con.lineVectorA := by
  intro ps ps' hp hG
  rcases hp with _ | ⟨a1, _ | ⟨a2, a3⟩⟩
  · exact PyRel.err .valueError
  · exact lineVec1_rel N a1
  · exact PyRel.err .valueError

theorem unit1_rel (hz : ZeroOK R G) {p : Prim K0} {p' : Prim K} (h : PrRel R p p') (hG : G p) :
    PyRel (ARel R) (con.unitLineVectorA [p]) (con.unitLineVectorA [p']) := by
  refine (lineVec1_rel N h).bind fun a b ha hb hab => ?_
  obtain ⟨v, rfl⟩ := lineVector_vec ha
  obtain ⟨v', rfl⟩ := lineVector_vec hb
  exact div_rel N hab (hz p p' h hG v v' ha hb)

theorem unit_rel (hz : ZeroOK R G) : E0 R G con.unitLineVectorA con.unitLineVectorA := by
  intro ps ps' hp hG
  rcases hp with _ | ⟨a1, _ | ⟨a2, a3⟩⟩
  · exact PyRel.err .valueError
  · exact unit1_rel N hz a1 (hG _ (by simp))
  · exact PyRel.err .valueError

theorem length1_rel (hz : ZeroOK R G) {p : Prim K0} {p' : Prim K} (h : PrRel R p p') (hG : G p) :
    PyRel (ARel R) (con.lengthA [p]) (con.lengthA [p']) := by
  refine (lineVec1_rel N h).bind fun a b ha hb hab => ?_
  obtain ⟨v, rfl⟩ := lineVector_vec ha
  obtain ⟨v', rfl⟩ := lineVector_vec hb
  simpa [Arr.mul, Arr.binop, bind, Except.bind, Arr.atleast1d, List.zipWith_self, PyRel, ARel] using
    hz p p' h hG v v' ha hb

theorem length_rel (hz : ZeroOK R G) : E0 R G con.lengthA con.lengthA := by
  intro ps ps' hp hG
  rcases hp with _ | ⟨a1, _ | ⟨a2, a3⟩⟩
  · exact PyRel.err .valueError
  · exact length1_rel N hz a1 (hG _ (by simp))
  · exact PyRel.err .valueError

theorem directedLength_rel {d : Arr K0} {d' : Arr K} (hd : ARel R d d') :
    E0 R G (con.directedLengthA d) (con.directedLengthA d') := by
  intro ps ps' hp hG
  rcases hp with _ | ⟨a1, _ | ⟨a2, a3⟩⟩
  · exact PyRel.err .valueError
  · exact (lineVec1_rel N a1).bind' fun _ _ h => dot_rel N h hd
  · exact PyRel.err .valueError

theorem midpoint1_rel {p : Prim K0} {p' : Prim K} (h : PrRel R p p') :
    PyRel (ARel R) (con.midpointA [p]) (con.midpointA [p']) := by
  refine (h.getChild _).bind' fun a a' ha => (h.getChild _).bind' fun b b' hb => ?_
  refine (add_rel N (vecArr_rel ha) (vecArr_rel hb)).bind' fun s s' hs => ?_
  exact mul_rel N (show ARel R (.scalar _) (.scalar _) from N.div N.one (N.natCast 2)) hs

theorem midpointDistance_rel {d : Arr K0} {d' : Arr K} (hd : ARel R d d') :
    E0 R G (con.midpointDirectedDistanceA d) (con.midpointDirectedDistanceA d') := by
  intro ps ps' hp hG
  rcases hp with _ | ⟨a1, _ | ⟨a2, _ | ⟨a3, a4⟩⟩⟩
  · exact PyRel.err .valueError
  · exact PyRel.err .valueError
  · refine (midpoint1_rel N a2).bind' fun m m' hm => (midpoint1_rel N a1).bind' fun n n' hn => ?_
    exact (sub_rel N hm hn).bind' fun _ _ h => dot_rel N h hd
  · exact PyRel.err .valueError

theorem angle_rel (hz : ZeroOK R G) (ha : AngOK R G) : E0 R G con.angleA con.angleA := by
  intro ps ps' hp hG
  rcases hp with _ | ⟨a1, _ | ⟨a2, _ | ⟨a3, a4⟩⟩⟩
  · exact PyRel.err .valueError
  · exact PyRel.err .valueError
  · have g1 := hG _ (List.mem_cons_self ..)
    have g2 := hG _ (List.mem_cons_of_mem _ (List.mem_cons_self ..))
    refine (unit1_rel N hz a1 g1).bind fun d0 d0' e1 e1' h0 =>
      (unit1_rel N hz a2 g2).bind fun d1 d1' e2 e2' h1 => ?_
    refine (get_rel h0 1).bind fun y0 y0' i1 i1' _ => (get_rel h0 0).bind fun x0 x0' i2 i2' _ =>
      (get_rel h1 1).bind fun y1 y1' i3 i3' _ => (get_rel h1 0).bind fun x1 x1' i4 i4' _ => ?_
    exact N.sub (ha _ _ a2 g2 _ _ e2 e2' _ _ _ _ i4 i3 i4' i3') (ha _ _ a1 g1 _ _ e1 e1' _ _ _ _ i2 i1 i2' i1')
  · exact PyRel.err .valueError

theorem pointOn2_rel (hz : ZeroOK R G) {p l : Prim K0} {p' l' : Prim K} (hp : PrRel R p p') (hl : PrRel R l l')
    (hG : G l) {q : Param K0} {q' : Param K} (hq : PaRel RC q q') :
    PyRel (ARel R) (con.pointOnLineDistanceA [p, l] q) (con.pointOnLineDistanceA [p', l'] q') := by
  simp only [con.pointOnLineDistanceA, truthy_rel N hq]
  cases q'.truthy with
  | error e => rfl
  | ok r =>
    refine (unit1_rel N hz hl hG).bind' fun u u' hu => (hl.getChild _).bind' fun o o' ho => ?_
    refine (diff_rel N hp ho).bind' fun d d' hd => dot_rel N hd ?_
    cases r
    · exact hu
    · exact neg_rel N hu

theorem pointOn_rel (hz : ZeroOK R G) : E1 R RC G con.pointOnLineDistanceA con.pointOnLineDistanceA := by
  intro ps ps' q q' hp hG hq
  rcases hp with _ | ⟨a1, _ | ⟨a2, _ | ⟨a3, a4⟩⟩⟩
  · exact PyRel.err .valueError
  · exact PyRel.err .valueError
  · exact pointOn2_rel N hz a1 a2 (hG _ (by simp)) hq
  · exact PyRel.err .valueError

theorem pointTo_rel (hz : ZeroOK R G) : E1 R RC G con.pointToLineDistanceA con.pointToLineDistanceA := by
  intro ps ps' q q' hp hG hq
  rcases hp with _ | ⟨a1, _ | ⟨a2, _ | ⟨a3, a4⟩⟩⟩
  · exact PyRel.err .valueError
  · exact PyRel.err .valueError
  · simp only [con.pointToLineDistanceA, truthy_rel N hq]
    refine (unit1_rel N hz a2 (hG _ (by simp))).bind' fun u u' hu => ?_
    cases q'.truthy with
    | error e => rfl
    | ok r =>
      refine PyRel.bind' (x := Arr.cross u _) (y := Arr.cross u' _) (cross_rel N hu ?_) fun c c' hc => ?_
      · cases r
        · exact .cons N.zero (.cons N.zero (.cons (N.neg N.one) .nil))
        · exact .cons N.zero (.cons N.zero (.cons N.one .nil))
      · refine (take2_rel hc).bind' fun o o' ho => (a2.getChild _).bind' fun x x' hx => ?_
        exact (diff_rel N a1 hx).bind' fun d d' hd => dot_rel N hd ho
  · exact PyRel.err .valueError

theorem relPoint_rel (hz : ZeroOK R G) :
    E1 R RC G con.relativePointOnLineDistanceA con.relativePointOnLineDistanceA := by
  intro ps ps' q q' hp hG hq
  rcases hp with _ | ⟨a1, _ | ⟨a2, _ | ⟨a3, a4⟩⟩⟩
  · exact PyRel.err .valueError
  · exact PyRel.err .valueError
  · have g := hG _ (List.mem_cons_of_mem _ (List.mem_cons_self ..))
    refine (pointOn2_rel N hz a1 a2 g hq).bind' fun d d' hd => (length1_rel N hz a2 g).bind' fun n n' hn => ?_
    exact (div_rel N hd hn).bind' fun c c' hc => hc.atleast1d
  · exact PyRel.err .valueError

theorem aspect_rel (hz : ZeroOK R G) (hc : ChildOK G) : E0 R G con.aspectRatioA con.aspectRatioA := by
  intro ps ps' hp hG
  rcases hp with _ | ⟨a1, _ | ⟨a2, a3⟩⟩
  · exact PyRel.err .valueError
  · have g := hG _ (List.mem_cons_self ..)
    refine (a1.getChild _).bind fun l l' e _ hl => (length1_rel N hz hl (hc _ _ _ g e)).bind' fun w w' hw => ?_
    refine (a1.getChild _).bind fun m m' e _ hm => (length1_rel N hz hm (hc _ _ _ g e)).bind' fun h h' hh => ?_
    exact div_rel N hw hh
  · exact PyRel.err .valueError

theorem withDirection_rel {f : Arr K0 → List (Prim K0) → Py (Arr K0)} {g : Arr K → List (Prim K) → Py (Arr K)}
    (h : ∀ d d', ARel R d d' → E0 R G (f d) (g d')) : E1 R RC G (con.withDirection f) (con.withDirection g) :=
  fun ps ps' _ _ hp hG hq => (toArr_rel N hq).bind' fun d d' hd => h d d' hd ps ps' hp hG

theorem coincident_rel : E0 R G ct.coincidentA ct.coincidentA := by
  intro ps ps' hp hG
  rcases hp with _ | ⟨a1, _ | ⟨a2, _ | ⟨a3, a4⟩⟩⟩
  · exact PyRel.err .valueError
  · exact PyRel.err .valueError
  · exact diff_rel N a2 a1
  · exact PyRel.err .valueError

theorem coincident2_rel {p q : Prim K0} {p' q' : Prim K} (h : PrRel R p p') (h' : PrRel R q q') :
    PyRel (ARel R) (ct.coincidentA [p, q]) (ct.coincidentA [p', q']) := diff_rel N h' h

theorem vertical_rel : E0 R G ct.verticalA ct.verticalA := fun ps ps' hp hG =>
  (lineVector_rel N ps ps' hp hG).bind' fun _ _ h => dot_rel N h (ex_rel N)

theorem horizontal_rel : E0 R G ct.horizontalA ct.horizontalA := fun ps ps' hp hG =>
  (lineVector_rel N ps ps' hp hG).bind' fun _ _ h => dot_rel N h (ey_rel N)

theorem orthogonal_rel : E0 R G ct.orthogonalA ct.orthogonalA := by
  intro ps ps' hp hG
  rcases hp with _ | ⟨a1, _ | ⟨a2, _ | ⟨a3, a4⟩⟩⟩
  · exact PyRel.err .valueError
  · exact PyRel.err .valueError
  · exact (lineVec1_rel N a1).bind' fun _ _ h => (lineVec1_rel N a2).bind' fun _ _ h' => dot_rel N h h'
  · exact PyRel.err .valueError

theorem parallel2_rel {p q : Prim K0} {p' q' : Prim K} (h : PrRel R p p') (h' : PrRel R q q') :
    PyRel (ARel R) (ct.parallelA [p, q]) (ct.parallelA [p', q']) :=
  (lineVec1_rel N h).bind' fun _ _ h => (lineVec1_rel N h').bind' fun _ _ h' => cross_rel N h h'

theorem parallel_rel : E0 R G ct.parallelA ct.parallelA := by
  intro ps ps' hp hG
  rcases hp with _ | ⟨a1, _ | ⟨a2, _ | ⟨a3, a4⟩⟩⟩
  · exact PyRel.err .valueError
  · exact PyRel.err .valueError
  · exact parallel2_rel N a1 a2
  · exact PyRel.err .valueError

omit N [PyNum K0] [PyNum K] in
theorem primInit_rel (t : PrimType) {v : PVal K0} {v' : PVal K} (hv : PVRel R v v') (ks : List Str)
    {ps : List (Prim K0)} {ps' : List (Prim K)} (h : LRel (PrRel R) ps ps') :
    PyRel (PrRel R) (primInit t v ks ps) (primInit t v' ks ps') := by
  have hd := dictOfZip_rel ks h
  have ht : (dictOfZip ks ps).map (·.2.ty) = (dictOfZip ks ps').map (·.2.ty) :=
    hd.map_eq fun _ _ h => h.2.ty
  simp only [primInit, primNodeInit, hv.2.length, ht]
  split
  · rfl
  · have hok : PyRel (PrRel R) (.ok (.mk t v (dictOfZip ks ps))) (.ok (.mk t v' (dictOfZip ks ps'))) :=
      NRel_mk.mpr ⟨rfl, hv, hd⟩
    split
    · exact (PyRel.of_eq rfl).bind' fun _ _ _ => hok
    · exact (PyRel.of_eq rfl).bind' fun a b hab => by
        subst hab
        split
        · exact hok
        · exact PyRel.err _

theorem collinear_rel : E0 R G ct.collinearA ct.collinearA := by
  intro ps ps' hp hG
  rcases hp with _ | ⟨a1, _ | ⟨a2, _ | ⟨a3, a4⟩⟩⟩
  · exact PyRel.err .valueError
  · exact PyRel.err .valueError
  · refine (LRel.pyIndex a2.values 0).bind' fun q q' hq => (LRel.pyIndex a1.values 0).bind' fun p p' hp => ?_
    refine (primInit_rel .line (⟨rfl, .nil⟩ : PVRel R ⟨0, []⟩ ⟨0, []⟩) _ (.cons hq (.cons hp .nil))).bind'
      fun l l' hl => ?_
    refine (parallel2_rel N a1 a2).bind' fun x x' hx => (parallel2_rel N a1 hl).bind' fun y y' hy => ?_
    exact hx.atleast1d.append hy.atleast1d
  · exact PyRel.err .valueError

theorem coincidentLines_rel : E1 R RC G ct.coincidentLinesA ct.coincidentLinesA := by
  intro ps ps' q q' hp hG hq
  rcases hp with _ | ⟨a1, _ | ⟨a2, _ | ⟨a3, a4⟩⟩⟩
  · exact PyRel.err .valueError
  · exact PyRel.err .valueError
  · simp only [ct.coincidentLinesA, truthy_rel N hq]
    cases q'.truthy with
    | error e => rfl
    | ok r =>
      refine (a2.getChild _).bind' fun p10 p10' h10 => (a2.getChild _).bind' fun p11 p11' h11 =>
        (a1.getChild _).bind' fun p00 p00' h00 => (a1.getChild _).bind' fun p01 p01' h01 => ?_
      cases r
      · exact (coincident2_rel N h10 h00).bind' fun x x' hx => (coincident2_rel N h11 h01).bind' fun y y' hy =>
          hx.atleast1d.append hy.atleast1d
      · exact (coincident2_rel N h10 h01).bind' fun x x' hx => (coincident2_rel N h11 h00).bind' fun y y' hy =>
          hx.atleast1d.append hy.atleast1d
  · exact PyRel.err .valueError

end num

end MplLayout
