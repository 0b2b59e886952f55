import Verif.Lemmas.Shapes
import Verif.Spec.Round

/-! Floating point arithmetic. -/

namespace MplLayout

open Flt

variable {f : FloatFormat}

namespace Rnd

theorem round_val (x : Rnd f) : round f x.val = x := by
  obtain ⟨v, h⟩ := x
  cases v with
  | bad => rfl
  | fin x => exact ext' (f.rnd_of_mem x (h x rfl))

theorem round_eq {x : Rnd f} {y : Flt} (h : y = x.val) : round f y = x := by rw [h, round_val]

theorem add_def (x y : Rnd f) : x + y = round f (x.val + y.val) := rfl
theorem sub_def (x y : Rnd f) : x - y = round f (x.val - y.val) := rfl
theorem mul_def (x y : Rnd f) : x * y = round f (x.val * y.val) := rfl
theorem neg_def (x : Rnd f) : -x = round f (-x.val) := rfl
theorem div_def (x y : Rnd f) : x / y = round f (x.val / y.val) := rfl
@[simp] theorem zero_val : (0 : Rnd f).val = fin 0 := rfl
@[simp] theorem one_val : (1 : Rnd f).val = fin 1 := rfl
@[simp] theorem num_val (x : f.nums) : (num x).val = fin x.1 := rfl

@[simp] theorem neg_val (x : Rnd f) : (-x).val = -x.val := by
  obtain ⟨v, h⟩ := x
  cases v with
  | bad => rfl
  | fin x => exact f.rnd_of_mem (-x) (f.neg_mem x (h x rfl))

theorem mul_one' (x : Rnd f) : x * 1 = x := by
  rw [mul_def]
  refine round_eq ?_
  cases x.val <;> simp

theorem zero_add' (x : Rnd f) : 0 + x = x := by
  rw [add_def]
  refine round_eq ?_
  cases x.val <;> simp

theorem neg_one_mul' (x : Rnd f) : (-1 : Rnd f) * x = -x := by
  rw [mul_def]
  refine round_eq ?_
  rw [neg_val, neg_val]
  cases x.val <;> simp

instance : NumLaws (Rnd f) where
  add_neg_one_mul y x := by
    rw [neg_one_mul', add_def, sub_def, neg_val]
    congr 1
    cases y.val <;> cases x.val <;> simp [sub_eq_add_neg]
  mul_one' := mul_one'

/-- The scalar product with the first unit vector, as computed. -/
theorem dot_ex (s t : Rnd f) (v : ℝ) :
    (dot2 (s, t) (1, 0)).val = fin v ↔ s.val = fin v ∧ t.val ≠ bad := by
  unfold dot2
  simp only [mul_one', zero_add']
  cases ht : t.val with
  | bad => rw [add_def, mul_def, ht]; cases s.val <;> simp [round]
  | fin y =>
    have : t * 0 = 0 := by rw [mul_def, ht]; exact round_eq (by simp)
    rw [this, add_def, round_eq (x := s) (by cases s.val <;> simp)]
    simp

/-- The scalar product with the second unit vector, as computed. -/
theorem dot_ey (s t : Rnd f) (v : ℝ) :
    (dot2 (s, t) (0, 1)).val = fin v ↔ t.val = fin v ∧ s.val ≠ bad := by
  unfold dot2
  simp only [mul_one', zero_add']
  cases hs : s.val with
  | bad => rw [add_def, mul_def, hs]; cases t.val <;> simp [round]
  | fin y =>
    have : s * 0 = 0 := by rw [mul_def, hs]; exact round_eq (by simp)
    rw [this, zero_add']
    simp

theorem sub_val (x y : f.nums) : (num x - num y).val = f.rnd (x.1 - y.1) := by
  rw [sub_def, num_val, num_val, fin_sub]; rfl

end Rnd

namespace FloatFormat

/-- With gradual underflow, a difference of two numbers is zero only if they are equal. -/
theorem Gradual.sub_zero (h : f.Gradual) {x y : ℝ} (hx : x ∈ f.nums) (hy : y ∈ f.nums) :
    f.rnd (x - y) = fin 0 ↔ x = y := by
  constructor
  · intro h0
    obtain ⟨u, hu, hpos, hm⟩ := h
    obtain ⟨k, rfl⟩ := hm x hx
    obtain ⟨j, rfl⟩ := hm y hy
    by_contra hne
    have hkj : k ≠ j := fun e => hne (by rw [e])
    rcases lt_or_gt_of_ne hkj with hlt | hlt
    · have h1 : ((k : ℝ) * u - j * u) ≤ -u := by
        have : (k : ℝ) + 1 ≤ j := by exact_mod_cast hlt
        nlinarith
      have := f.mono _ _ _ _ h1 h0 (f.rnd_of_mem _ (f.neg_mem _ hu))
      linarith
    · have h1 : u ≤ ((k : ℝ) * u - j * u) := by
        have : (j : ℝ) + 1 ≤ k := by exact_mod_cast hlt
        nlinarith
      have := f.mono _ _ _ _ h1 (f.rnd_of_mem _ hu) h0
      linarith
  · rintro rfl
    rw [sub_self]
    exact f.rnd_of_mem 0 f.zero_mem

/-- For any two numbers of the program. -/
theorem Gradual.sub_val_zero (h : f.Gradual) (x y : Rnd f) :
    (x - y).val = fin 0 ↔ x.val = y.val ∧ x.val ≠ bad := by
  obtain ⟨vx, hx⟩ := x
  obtain ⟨vy, hy⟩ := y
  cases vx with
  | bad => simp [Rnd.sub_def, Rnd.round]
  | fin a =>
    cases vy with
    | bad => simp [Rnd.sub_def, Rnd.round]
    | fin b =>
      have := Rnd.sub_val (⟨a, hx a rfl⟩ : f.nums) ⟨b, hy b rfl⟩
      simp only [ne_eq, reduceCtorEq, not_false_eq_true, and_true, fin_inj]
      exact Iff.trans (by rw [← this]; rfl) (h.sub_zero (hx a rfl) (hy b rfl))

end FloatFormat

/-! ## Evaluations, for any kind of numbers -/

open Cons

section
variable {K : Type} [PyNum K]

/-- Bundle: an evaluation of the tree `c` at the arguments, with what is needed to nest it. -/
structure GEv (c : Cons K) (prims : List (Prim K)) (params : List (Param K)) (v : List K) : Prop where
  wf : c.WF
  acc : c.Accepts prims params
  al : c.Aligned params
  ev : c.eval prims params = .ok v

omit [PyNum K] in
theorem GEv.call {c : Cons K} {prims : List (Prim K)} {params : List (Param K)} {v : List K}
    (h : GEv c prims params v) : c.call prims params = .ok v :=
  (call_ok_iff _ h.wf _ _ h.al _).mpr ⟨h.acc, h.ev⟩

theorem GEv.cstr_num [NumLaws K] {c : Cons K} {prims : List (Prim K)} {params : List (Param K)}
    {v : List K} (h : GEv c prims params v) (hleaf : ∀ kc ∈ c.children, Node.children kc.2 = [])
    (hcon : c.Consistent params) (hsz : c.Sized prims params) (x : K) :
    GEv (cstr c) prims (params ++ [.num x]) (v.map (· - x)) := by
  obtain ⟨h1, h2, h3⟩ := MplLayout.cstr_num h.wf hleaf hcon hsz h.acc h.ev x
  exact ⟨sumTree_WF h.wf (negVec_shape _), h1, h3, h2⟩

omit [PyNum K] in
theorem GEv.leaf0 {name : Str} {types : List PrimType} {size : Nat}
    {f : List (Prim K) → Py (Arr K)} {prims : List (Prim K)}
    (hacc : List.Forall₂ (fun (p : Prim K) t => p.ty.IsA t) prims types) {a : Arr K}
    (hf : f prims = .ok a) : GEv (con.leaf0 name types size f) prims [] a.atleast1d :=
  ⟨leaf_WF _ _, ⟨hacc, rfl⟩, (leaf_consistent _ _ [] rfl).aligned, leaf0_eval hf⟩

omit [PyNum K] in
theorem GEv.leaf1 {name : Str} {types : List PrimType} {pt : ParamType} {size : Nat}
    {f : List (Prim K) → Param K → Py (Arr K)} {prims : List (Prim K)} {y : Param K}
    (hacc : List.Forall₂ (fun (p : Prim K) t => p.ty.IsA t) prims types) {a : Arr K}
    (hf : f prims y = .ok a) : GEv (con.leaf1 name types pt size f) prims [y] a.atleast1d :=
  ⟨leaf_WF _ _, ⟨hacc, rfl⟩, (leaf_consistent _ _ [y] rfl).aligned, leaf1_eval hf⟩

theorem GEv.ct_leaf0 [NumLaws K] {name : Str} {types : List PrimType} {size : Nat}
    {f : List (Prim K) → Py (Arr K)} {prims : List (Prim K)}
    (hacc : List.Forall₂ (fun (p : Prim K) t => p.ty.IsA t) prims types) {a : Arr K}
    (hf : f prims = .ok a) (hs : a.atleast1d.length = size) (x : K) :
    GEv (cstr (con.leaf0 name types size f)) prims [.num x] (a.atleast1d.map (· - x)) := by
  refine (GEv.leaf0 hacc hf).cstr_num (by simp [con.leaf0, leaf]) (leaf_consistent _ _ [] rfl)
    (leaf_sized _ _ _ _ fun b hb => ?_) x
  have : Except.ok a = Except.ok b := hf.symm.trans hb
  cases this
  exact hs

theorem GEv.ct_leaf0_arr [NumLaws K] {name : Str} {types : List PrimType} {size : Nat}
    {f : List (Prim K) → Py (Arr K)} {prims : List (Prim K)}
    (hacc : List.Forall₂ (fun (p : Prim K) t => p.ty.IsA t) prims types) {a : Arr K}
    (hf : f prims = .ok a) (hs : a.atleast1d.length = size) (xs : List K) (hx : xs.length = size) :
    GEv (cstr (con.leaf0 name types size f)) prims [.arr xs]
      (List.zipWith (· - ·) a.atleast1d xs) := by
  obtain ⟨h1, h2, h3⟩ := MplLayout.cstr_arr (c := con.leaf0 name types size f)
    (prims := prims) (params := []) (leaf_WF _ _) rfl
    (leaf_consistent _ _ [] rfl) (leaf_sized _ _ _ _ fun b hb => by
      have : Except.ok a = Except.ok b := hf.symm.trans hb
      cases this
      exact hs) ⟨hacc, rfl⟩ (leaf0_eval hf) (xs := xs) (by rw [hx, hs])
  exact ⟨sumTree_WF (leaf_WF _ _) (negVec_shape _), h1, h3, h2⟩

/-- Evaluations of the children, one after the other. -/
inductive GEvL (prims : List (Prim K)) : List (Str × Cons K) → List (List Str) →
    List (List (Param K)) → List (List K) → Prop
  | nil (pss) : GEvL prims [] [] pss []
  | cons {k c ks ps cps v cs kss pss vs} : pyMap (resolve prims) ks = .ok cps → GEv c cps ps v →
      GEvL prims cs kss pss vs → GEvL prims ((k, c) :: cs) (ks :: kss) (ps :: pss) (v :: vs)

omit [PyNum K] in
theorem GEvL.evalL {prims : List (Prim K)} {cs : List (Str × Cons K)} {kss : List (List Str)}
    {pss : List (List (Param K))} {vs : List (List K)} (h : GEvL prims cs kss pss vs) :
    Cons.evalL prims cs kss pss = .ok vs.flatten ∧ kss.length = cs.length ∧
    cs.length ≤ pss.length ∧ Cons.AlignedL cs pss ∧ ∀ k c, (k, c) ∈ cs → c.WF := by
  induction h with
  | nil => simp [Cons.evalL, Cons.AlignedL]
  | cons h1 h2 _ ih =>
    obtain ⟨i1, i2, i3, i4, i5⟩ := ih
    refine ⟨?_, by simp [i2], by simp [i3], ⟨h2.al, i4⟩, ?_⟩
    · simp only [Cons.evalL, h1, h2.ev, i1, bind, Except.bind]
      simp
    · intro k c hm
      rcases List.mem_cons.mp hm with e | hm
      · cases e; exact h2.wf
      · exact i5 k c hm

omit [PyNum K] in
theorem GEv.compound {cls : ConsClass K} {kss : List (List Str)}
    {cp : List (Param K) → Py (List (List (Param K)))} {sig : ConsSig}
    {cs : List (Str × Cons K)} {prims : List (Prim K)} {params : List (Param K)}
    {pss : List (List (Param K))} {vs : List (List K)}
    (hn : (cs.map (·.1)).Nodup) (hown : cls.assem prims params = .ok (.vec []))
    (hcp : cp params = .ok pss)
    (hacc : List.Forall₂ (fun (p : Prim K) t => p.ty.IsA t) prims sig.primTypes)
    (hpar : params.length = sig.paramTypes.length) (h : GEvL prims cs kss pss vs) :
    GEv (.mk cls ⟨kss, cp, sig⟩ cs) prims params vs.flatten := by
  obtain ⟨h1, h2, h3, h4, h5⟩ := h.evalL
  refine ⟨Node.WF_mk.mpr ⟨hn, h5⟩, ⟨hacc, hpar⟩, ⟨h2, ?_⟩, ?_⟩
  · intro pss' e
    simp only [hcp, Except.ok.injEq] at e
    subst e
    exact ⟨h3, h4⟩
  · simp only [Cons.eval, hown, hcp, h1, bind, Except.bind]
    simp [Arr.atleast1d]

/-- A compound with a single child without parameters. -/
def gOne (cls : ConsClass K) (key : Str) (child : Cons K) (ks : List Str)
    (ty : List PrimType) : Cons K :=
  .mk cls ⟨[ks], fun _ => .ok [[]], ⟨ty, [], 0⟩⟩ [(key, child)]

theorem gev_one [NumLaws K] {name : Str} {key : Str} {cn : Str} {ctypes : List PrimType}
    {f : List (Prim K) → Py (Arr K)} {ks : List Str} {ty : List PrimType}
    {prims cps : List (Prim K)} {x : K}
    (hacc : List.Forall₂ (fun (p : Prim K) t => p.ty.IsA t) prims ty)
    (hk : pyMap (resolve prims) ks = .ok cps) (hcl : ks.length = ctypes.length)
    (hc : GEv (con.leaf0 cn ctypes 1 f) cps [] [x]) (y : K) :
    GEv (cstr (gOne { name := name, assem := compoundAssem 0 } key (con.leaf0 cn ctypes 1 f) ks ty))
      prims [.num y] [x - y] := by
  have h1 : GEv (gOne { name := name, assem := compoundAssem 0 } key (con.leaf0 cn ctypes 1 f) ks ty)
      prims [] [x] :=
    GEv.compound (vs := [[x]]) (by simp) rfl rfl hacc rfl (.cons hk hc (.nil _))
  refine h1.cstr_num (v := [x]) ?_ ?_ ?_ y
  · intro kc hm
    simp only [gOne, Node.children_mk, List.mem_singleton] at hm
    subst hm
    rfl
  · refine ⟨rfl, rfl, ?_⟩
    intro pss e
    cases e
    exact ⟨le_rfl, hcl, leaf_consistent _ _ _ rfl, trivial⟩
  · refine ⟨fun own ho => ?_, fun pss e => ?_⟩
    · have : Except.ok (Arr.vec []) = Except.ok own := ho
      cases this
      rfl
    · cases e
      refine ⟨fun cps' hcps => leaf_sized _ _ _ _ fun b hb => ?_, trivial⟩
      rw [hk] at hcps
      cases hcps
      have := hc.ev
      have h2 : (con.leaf0 cn ctypes 1 f).eval cps [] = .ok b.atleast1d := leaf0_eval hb
      rw [h2] at this
      have := Except.ok.inj this
      rw [this]
      rfl

theorem gOne_transformConstraint {cls : ConsClass K} {key cn : Str} {ctypes : List PrimType}
    {f : List (Prim K) → Py (Arr K)} {ks : List Str} {ty : List PrimType} (hkey : key ≠ []) :
    transformConstraint (gOne cls key (con.leaf0 cn ctypes 1 f) ks ty)
      = .ok (cstr (gOne cls key (con.leaf0 cn ctypes 1 f) ks ty)) := by
  refine transformConstraint_eq ?_ ?_
  · exact Node.WF_mk.mpr ⟨by simp, by
      intro k c hm
      simp only [List.mem_singleton, Prod.mk.injEq] at hm
      rw [hm.2]; exact leaf_WF _ _⟩
  · refine Node.KeysNE_mk.mpr ⟨by simpa using hkey, ?_⟩
    intro k c hm
    simp only [List.mem_singleton, Prod.mk.injEq] at hm
    rw [hm.2]; exact KeysNE_leaf rfl

/-! ## Compounds -/

variable {q q' : Prim K} {a b c d a' b' c' d' : K × K}

omit [PyNum K] in
theorem gquad_resolve (h : QuadAt q a b c d) (rest : List (Prim K)) :
    ∃ l0 l1 l2 l3, LineAt l0 a b ∧ LineAt l1 b c ∧ LineAt l2 c d ∧ LineAt l3 d a ∧
      resolve (q :: rest) k!"arg0/Line0" = .ok l0 ∧ resolve (q :: rest) k!"arg0/Line1" = .ok l1 ∧
      resolve (q :: rest) k!"arg0/Line2" = .ok l2 ∧ resolve (q :: rest) k!"arg0/Line3" = .ok l3 := by
  obtain ⟨l0, l1, l2, l3, g0, g1, g2, g3, h0, h1, h2, h3⟩ := QuadAt.lines h
  exact ⟨l0, l1, l2, l3, h0, h1, h2, h3, (resolve_arg0 q rest _).trans g0,
    (resolve_arg0 q rest _).trans g1, (resolve_arg0 q rest _).trans g2,
    (resolve_arg0 q rest _).trans g3⟩

omit [PyNum K] in
theorem gquad_resolve1 {q0 : Prim K} (h : QuadAt q a b c d) (rest : List (Prim K)) :
    ∃ l0 l1 l2 l3, LineAt l0 a b ∧ LineAt l1 b c ∧ LineAt l2 c d ∧ LineAt l3 d a ∧
      resolve (q0 :: q :: rest) k!"arg1/Line0" = .ok l0 ∧
      resolve (q0 :: q :: rest) k!"arg1/Line1" = .ok l1 ∧
      resolve (q0 :: q :: rest) k!"arg1/Line2" = .ok l2 ∧
      resolve (q0 :: q :: rest) k!"arg1/Line3" = .ok l3 := by
  obtain ⟨l0, l1, l2, l3, g0, g1, g2, g3, h0, h1, h2, h3⟩ := QuadAt.lines h
  exact ⟨l0, l1, l2, l3, h0, h1, h2, h3, (resolve_arg1 q0 q rest _).trans g0,
    (resolve_arg1 q0 q rest _).trans g1, (resolve_arg1 q0 q rest _).trans g2,
    (resolve_arg1 q0 q rest _).trans g3⟩

theorem gev_horizontal {l : Prim K} (h : LineAt l a b) :
    GEv ct.horizontal [l] [] [dot2 (b.1 - a.1, b.2 - a.2) (0, 1)] :=
  GEv.leaf0 (a := .scalar _) (.cons h.1 .nil) (show ct.horizontalA [l] = _ by
    simp only [ct.horizontalA, h.vec, bind, Except.bind]; rfl)

theorem gev_vertical {l : Prim K} (h : LineAt l a b) :
    GEv ct.vertical [l] [] [dot2 (b.1 - a.1, b.2 - a.2) (1, 0)] :=
  GEv.leaf0 (a := .scalar _) (.cons h.1 .nil) (show ct.verticalA [l] = _ by
    simp only [ct.verticalA, h.vec, bind, Except.bind]; rfl)

/-- The tree of `Box()`. -/
def gBox : Cons K :=
  .mk { name := k!"Box", assem := compoundAssem 0 }
    ⟨[[k!"arg0/Line0"], [k!"arg0/Line2"], [k!"arg0/Line3"], [k!"arg0/Line1"]],
      fun _ => .ok [[], [], [], []], ⟨[.quadrilateral], [], 0⟩⟩
    [(k!"HorizontalBottom", ct.horizontal), (k!"HorizontalTop", ct.horizontal),
     (k!"VerticalLeft", ct.vertical), (k!"VerticalRight", ct.vertical)]

theorem gBox_eq : (ct.box : Py (Cons K)) = .ok gBox := rfl

theorem gev_box (h : QuadAt q a b c d) :
    GEv gBox [q] [] [dot2 (b.1 - a.1, b.2 - a.2) (0, 1), dot2 (d.1 - c.1, d.2 - c.2) (0, 1),
      dot2 (a.1 - d.1, a.2 - d.2) (1, 0), dot2 (c.1 - b.1, c.2 - b.2) (1, 0)] := by
  obtain ⟨l0, l1, l2, l3, h0, h1, h2, h3, g0, g1, g2, g3⟩ := gquad_resolve h []
  exact GEv.compound (vs := [[_], [_], [_], [_]])
    (by simp only [List.map_cons, List.map_nil]; decide) rfl rfl (.cons h.1 .nil) rfl
    (.cons (pyMap1 g0) (gev_horizontal h0) <| .cons (pyMap1 g2) (gev_horizontal h2) <|
      .cons (pyMap1 g3) (gev_vertical h3) <| .cons (pyMap1 g1) (gev_vertical h1) <| .nil _)

theorem gev_xLength {l : Prim K} (h : LineAt l a b) :
    GEv con.xLength [l] [] [dot2 (b.1 - a.1, b.2 - a.2) (1, 0)] :=
  GEv.leaf0 (.cons h.1 .nil) (h.directedLength (1, 0))

theorem gev_yLength {l : Prim K} (h : LineAt l a b) :
    GEv con.yLength [l] [] [dot2 (b.1 - a.1, b.2 - a.2) (0, 1)] :=
  GEv.leaf0 (.cons h.1 .nil) (h.directedLength (0, 1))

theorem gev_midX {l l' : Prim K} (h : LineAt l a b) (h' : LineAt l' c d) :
    GEv con.midpointXDistance [l, l'] []
      [dot2 ((mid c d).1 - (mid a b).1, (mid c d).2 - (mid a b).2) (1, 0)] :=
  GEv.leaf0 (.cons h.1 (.cons h'.1 .nil)) (h.midpointDistance h' (1, 0))

theorem gev_midY {l l' : Prim K} (h : LineAt l a b) (h' : LineAt l' c d) :
    GEv con.midpointYDistance [l, l'] []
      [dot2 ((mid c d).1 - (mid a b).1, (mid c d).2 - (mid a b).2) (0, 1)] :=
  GEv.leaf0 (.cons h.1 (.cons h'.1 .nil)) (h.midpointDistance h' (0, 1))

/-- The tree of `Width()`. -/
def gWidth : Cons K :=
  gOne { name := k!"Width", assem := compoundAssem 0 } k!"Width" con.xLength [k!"arg0/Line0"]
    [.quadrilateral]
/-- The tree of `Height()`. -/
def gHeight : Cons K :=
  gOne { name := k!"Height", assem := compoundAssem 0 } k!"Height" con.yLength [k!"arg0/Line1"]
    [.quadrilateral]

theorem gWidth_eq : (con.width : Py (Cons K)) = .ok gWidth := rfl
theorem gHeight_eq : (con.height : Py (Cons K)) = .ok gHeight := rfl
theorem gct_width_eq : (ct.width : Py (Cons K)) = .ok (cstr gWidth) := by
  simp only [ct.width, gWidth_eq, bind, Except.bind]
  exact gOne_transformConstraint (by decide)
theorem gct_height_eq : (ct.height : Py (Cons K)) = .ok (cstr gHeight) := by
  simp only [ct.height, gHeight_eq, bind, Except.bind]
  exact gOne_transformConstraint (by decide)

/-- The tree of `OuterMargin(side)` / `InnerMargin(side)`. -/
def gMargin (outer : Bool) (side : con.Side) : Cons K :=
  let cls : ConsClass K :=
    { name := if outer then k!"OuterMargin" else k!"InnerMargin", assem := compoundAssem 0 }
  match side with
  | .left => gOne cls k!"LeftMargin" con.midpointXDistance
      (if outer then [k!"arg1/Line1", k!"arg0/Line3"] else [k!"arg1/Line3", k!"arg0/Line3"])
      [.quadrilateral, .quadrilateral]
  | .right => gOne cls k!"RightMargin" con.midpointXDistance
      (if outer then [k!"arg0/Line1", k!"arg1/Line3"] else [k!"arg0/Line1", k!"arg1/Line1"])
      [.quadrilateral, .quadrilateral]
  | .bottom => gOne cls k!"BottomMargin" con.midpointYDistance
      (if outer then [k!"arg1/Line2", k!"arg0/Line0"] else [k!"arg1/Line0", k!"arg0/Line0"])
      [.quadrilateral, .quadrilateral]
  | .top => gOne cls k!"TopMargin" con.midpointYDistance
      (if outer then [k!"arg0/Line2", k!"arg1/Line0"] else [k!"arg0/Line2", k!"arg1/Line2"])
      [.quadrilateral, .quadrilateral]

theorem gMargin_eq (outer : Bool) (side : con.Side) :
    (con.margin outer side : Py (Cons K)) = .ok (gMargin outer side) := by
  cases outer <;> cases side <;> rfl

theorem gct_margin_eq (outer : Bool) (side : con.Side) :
    (ct.margin outer side : Py (Cons K)) = .ok (cstr (gMargin outer side)) := by
  simp only [ct.margin, gMargin_eq, bind, Except.bind]
  cases outer <;> cases side <;> exact gOne_transformConstraint (by decide)

variable [NumLaws K]

theorem gev_ct_width (h : QuadAt q a b c d) (y : K) :
    GEv (cstr gWidth) [q] [.num y] [dot2 (b.1 - a.1, b.2 - a.2) (1, 0) - y] := by
  obtain ⟨l0, l1, l2, l3, h0, h1, h2, h3, g0, g1, g2, g3⟩ := gquad_resolve h []
  exact gev_one (.cons h.1 .nil) (pyMap1 g0) rfl (gev_xLength h0) y

theorem gev_ct_height (h : QuadAt q a b c d) (y : K) :
    GEv (cstr gHeight) [q] [.num y] [dot2 (c.1 - b.1, c.2 - b.2) (0, 1) - y] := by
  obtain ⟨l0, l1, l2, l3, h0, h1, h2, h3, g0, g1, g2, g3⟩ := gquad_resolve h []
  exact gev_one (.cons h.1 .nil) (pyMap1 g1) rfl (gev_yLength h1) y

/-- The end points of the sides that a margin compares: first side, second side. -/
def marginSides (outer : Bool) (side : con.Side) {P : Type} (a b c d a' b' c' d' : P) :
    (P × P) × (P × P) :=
  match outer, side with
  | true, .left => ((b', c'), (d, a))
  | false, .left => ((d', a'), (d, a))
  | true, .right => ((b, c), (d', a'))
  | false, .right => ((b, c), (b', c'))
  | true, .bottom => ((c', d'), (a, b))
  | false, .bottom => ((a', b'), (a, b))
  | true, .top => ((c, d), (a', b'))
  | false, .top => ((c, d), (c', d'))

/-- The direction of a margin is horizontal. -/
def horizontalMargin : con.Side → Bool
  | .left | .right => true
  | .bottom | .top => false

theorem gev_ct_margin (h : QuadAt q a b c d) (h' : QuadAt q' a' b' c' d') (outer : Bool)
    (side : con.Side) (y : K) :
    GEv (cstr (gMargin outer side)) [q, q'] [.num y] [
        (let s := marginSides outer side a b c d a' b' c' d'
         let m := mid s.1.1 s.1.2
         let m' := mid s.2.1 s.2.2
         dot2 (m'.1 - m.1, m'.2 - m.2) (if horizontalMargin side then (1, 0) else (0, 1))) - y] := by
  obtain ⟨l0, l1, l2, l3, h0, h1, h2, h3, g0, g1, g2, g3⟩ := gquad_resolve h [q']
  obtain ⟨m0, m1, m2, m3, i0, i1, i2, i3, j0, j1, j2, j3⟩ := gquad_resolve1 (q0 := q) h' []
  have hacc : List.Forall₂ (fun (p : Prim K) t => p.ty.IsA t) [q, q']
    [.quadrilateral, .quadrilateral] := .cons h.1 (.cons h'.1 .nil)
  cases outer <;> cases side
  · exact gev_one hacc (pyMap2 j0 g0) rfl (gev_midY i0 h0) y
  · exact gev_one hacc (pyMap2 g2 j2) rfl (gev_midY h2 i2) y
  · exact gev_one hacc (pyMap2 j3 g3) rfl (gev_midX i3 h3) y
  · exact gev_one hacc (pyMap2 g1 j1) rfl (gev_midX h1 i1) y
  · exact gev_one hacc (pyMap2 j2 g0) rfl (gev_midY i2 h0) y
  · exact gev_one hacc (pyMap2 g2 j0) rfl (gev_midY h2 i0) y
  · exact gev_one hacc (pyMap2 j1 g3) rfl (gev_midX i1 h3) y
  · exact gev_one hacc (pyMap2 g1 j3) rfl (gev_midX h1 i3) y

end

end MplLayout
