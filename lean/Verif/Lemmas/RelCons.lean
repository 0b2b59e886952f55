import Verif.Lemmas.RelLeaves
import Verif.Spec.Jacfwd

/-!
# The same computation with two kinds of numbers: transforms and shipped constraints
-/

namespace MplLayout

variable {K0 K : Type} [PyNum K0] [PyNum K] {R RC : K0 → K → Prop} {G : Prim K0 → Prop}

theorem mem_of_split2 {α : Type} {m n : Nat} {xs : List α} {x : α}
    (h : x ∈ (split2 m n xs).1 ∨ x ∈ (split2 m n xs).2) : x ∈ xs := by
  have hc : ∀ c ∈ chunk xs [m, n], x ∈ c → x ∈ xs := by
    intro c hc hx
    simp only [chunk, unpack, List.mem_map] at hc
    obtain ⟨ab, _, rfl⟩ := hc
    exact List.mem_of_mem_drop (List.mem_of_mem_take hx)
  simp only [split2] at h
  split at h
  · rename_i a b e
    rcases h with h | h
    · exact hc a (by rw [e]; simp) h
    · exact hc b (by rw [e]; simp) h
  · simp at h

section basic
omit [PyNum K0] [PyNum K]

theorem ClsRel.of {n : Str} {s : Bool} {a : Option AxisKind}
    {f : List (Prim K0) → List (Param K0) → Py (Arr K0)} {g : List (Prim K) → List (Param K) → Py (Arr K)}
    (h : EvRel R RC G f g) : ClsRel R RC G ⟨n, s, a, f⟩ ⟨n, s, a, g⟩ := ⟨rfl, rfl, rfl, h⟩

theorem leaf_rel {c : ConsClass K0} {c' : ConsClass K} (h : ClsRel R RC G c c') (sig : ConsSig) :
    CRel R RC G (leaf c sig) (leaf c' sig) :=
  NRel_mk.mpr ⟨h, ⟨rfl, fun _ _ _ => .nil, rfl⟩, .nil⟩

theorem leaf0_rel (name : Str) (types : List PrimType) (size : Nat) {f : List (Prim K0) → Py (Arr K0)}
    {g : List (Prim K) → Py (Arr K)} (h : E0 R G f g) :
    CRel R RC G (con.leaf0 name types size f) (con.leaf0 name types size g) :=
  leaf_rel (ClsRel.of (assem0_rel h)) _

theorem leaf1_rel (name : Str) (types : List PrimType) (pt : ParamType) (size : Nat)
    {f : List (Prim K0) → Param K0 → Py (Arr K0)} {g : List (Prim K) → Param K → Py (Arr K)}
    (h : E1 R RC G f g) :
    CRel R RC G (con.leaf1 name types pt size f) (con.leaf1 name types pt size g) :=
  leaf_rel (ClsRel.of (assem1_rel h)) _

theorem consInit_rel {c : ConsClass K0} {c' : ConsClass K} (h : ClsRel R RC G c c') {v : ConsVal K0}
    {v' : ConsVal K} (hv : CVRel RC v v') {cs : List (Str × Cons K0)} {cs' : List (Str × Cons K)}
    (hc : LRel (KRel (CRel R RC G)) cs cs') : PyRel (CRel R RC G) (consInit c v cs) (consInit c' v' cs') := by
  have : (cs.any fun kc => kc.1.isEmpty) = cs'.any fun kc => kc.1.isEmpty := by
    clear hv h
    induction hc with
    | nil => rfl
    | cons h _ ih => simp only [List.any_cons, ih, h.1]
  simp only [consInit, hv.childPrimKeys, hc.length, this]
  split
  · rfl
  · split
    · rfl
    · exact NRel_mk.mpr ⟨h, hv, hc⟩

theorem construction_rel {c : ConsClass K0} {c' : ConsClass K} (h : ClsRel R RC G c c') (ks : List Str)
    {cs : List (Cons K0)} {cs' : List (Cons K)} (hc : LRel (CRel R RC G) cs cs') (kss : List (List Str))
    {f : List (Param K0) → Py (List (List (Param K0)))} {g : List (Param K) → Py (List (List (Param K)))}
    (hf : CPRel RC f g) (sig : ConsSig) :
    PyRel (CRel R RC G) (construction c ks cs kss f sig) (construction c' ks cs' kss g sig) :=
  consInit_rel h ⟨rfl, hf, rfl⟩ (dictOfZip_rel ks hc)

/-- Parameter functions that do not depend on the parameters. -/
theorem cp_const {xs : List (List (Param K0))} {ys : List (List (Param K))}
    (h : LRel (LRel (PaRel RC)) xs ys) : CPRel RC (fun _ => .ok xs) (fun _ => .ok ys) := fun _ _ _ => h

/-- Related parts of a node. -/
def PartRel (R RC : K0 → K → Prop) (G : Prim K0 → Prop) (n : ConsClass K0 × ConsVal K0 × List Str)
    (n' : ConsClass K × ConsVal K × List Str) : Prop :=
  ClsRel R RC G n.1 n'.1 ∧ CVRel RC n.2.1 n'.2.1 ∧ n.2.2 = n'.2.2

theorem transformPartial_rel {c : Cons K0} {c' : Cons K} (h : CRel R RC G c c') {ps : List (Param K0)}
    {ps' : List (Param K)} (hp : LRel (PaRel RC) ps ps') :
    PyRel (CRel R RC G) (transformPartial c ps) (transformPartial c' ps') := by
  have hcls : ClsRel R RC G (⟨k!"Partial", c.ty.isScalar, c.ty.axisKind, fun prims params => c.ty.assem prims (params ++ ps)⟩)
      (⟨k!"Partial", c'.ty.isScalar, c'.ty.axisKind, fun prims params => c'.ty.assem prims (params ++ ps')⟩) :=
    ⟨rfl, h.ty.isScalar, h.ty.axisKind, fun _ _ _ _ h1 h2 h3 => h.ty.assem _ _ _ _ h1 h2 (h3.append hp)⟩
  have hv : CVRel RC
      ({ c.value with
          childParams := fun params => c.value.childParams (params ++ ps)
          sig := { c.value.sig with
            paramTypes := pySlice c.value.sig.paramTypes none (some (-(ps.length : Int))) } } : ConsVal K0)
      ({ c'.value with
          childParams := fun params => c'.value.childParams (params ++ ps')
          sig := { c'.value.sig with
            paramTypes := pySlice c'.value.sig.paramTypes none (some (-(ps'.length : Int))) } } : ConsVal K) :=
    ⟨h.value.childPrimKeys, fun _ _ h1 => h.value.childParams _ _ (h1.append hp), by
      simp only [h.value.sig, hp.length]⟩
  exact consInit_rel hcls hv h.children

theorem transformNodes_rel {f : Cons K0 → ConsClass K0 × ConsVal K0 × List Str}
    {g : Cons K → ConsClass K × ConsVal K × List Str} (hf : ∀ a a', CRel R RC G a a' → PartRel R RC G (f a) (g a'))
    {c : Cons K0} {c' : Cons K} (h : CRel R RC G c c') :
    PyRel (CRel R RC G) (transformNodes f c) (transformNodes g c') := by
  refine (unflatten_rel (T := ClsRel R RC G) (V := CVRel RC) ?_).bind' fun a b hab => hab.1
  exact (h.iterFlat []).map fun a b hab => ⟨hab.1, hf _ _ hab.2⟩

theorem scalarNode_rel (name : Str) {f : Arr K0 → Arr K0 → Py (Arr K0)} {g : Arr K → Arr K → Py (Arr K)}
    (hf : ∀ x x' y y', ARel R x x' → ARel R y y' → PyRel (ARel R) (f x y) (g x' y'))
    {a b : Cons K0} {a' b' : Cons K} (ha : CRel R RC G a a') (hb : CRel R RC G b b') :
    PartRel R RC G (scalarNode name f a b) (scalarNode name g a' b') := by
  have e1 := ha.value.sig
  have e2 := hb.value.sig
  refine ⟨⟨rfl, ha.ty.isScalar, ha.ty.axisKind, fun ps ps' qs qs' h1 h2 h3 => ?_⟩,
    ⟨ha.value.childPrimKeys, fun qs qs' h1 => ?_, ?_⟩, ha.keys⟩
  · simp only [scalarNode, e1, e2]
    refine (hb.ty.assem _ _ _ _ (h1.split2 _ _).2 (fun p hp => h2 p (mem_of_split2 (.inr hp)))
      (h3.split2 _ _).2).bind' fun y y' hy => ?_
    exact (ha.ty.assem _ _ _ _ (h1.split2 _ _).1 (fun p hp => h2 p (mem_of_split2 (.inl hp)))
      (h3.split2 _ _).1).bind' fun x x' hx => hf _ _ _ _ hx hy
  · simp only [scalarNode, e1, e2]
    refine (ha.value.childParams _ _ (h1.split2 _ _).1).bind' fun c c' hc => ?_
    exact hc.map fun _ _ h => LRel.append h (h1.split2 _ _).2
  · simp only [scalarNode, e1, e2]

theorem transformMap_rel {c : Cons K0} {c' : Cons K} (h : CRel R RC G c c') (n : Nat) :
    PyRel (CRel R RC G) (transformMap c n) (transformMap c' n) := by
  simp only [transformMap, h.value.sig, h.ty.name]
  refine construction_rel (ClsRel.of vecEmpty_rel) _ (LRel.replicate h _) _ (fun qs qs' hq => ?_) _
  exact LRel.same _ fun i _ => hq.pySlice _ _

end basic

section num
variable (N : NumRel R RC)
include N

theorem sumNode_rel {a b : Cons K0} {a' b' : Cons K} (ha : CRel R RC G a a') (hb : CRel R RC G b b') :
    PyRel (PartRel R RC G) (sumNode a b) (sumNode a' b') := by
  have e1 := ha.value.sig
  have e2 := hb.value.sig
  simp only [sumNode, e1, e2, ha.keys, hb.keys]
  split
  · rfl
  · split
    · rfl
    · refine ⟨⟨rfl, rfl, rfl, fun ps ps' qs qs' h1 h2 h3 => ?_⟩, ⟨?_, fun qs qs' h1 => ?_, ?_⟩, rfl⟩
      · refine (ha.ty.assem _ _ _ _ (h1.split2 _ _).1 (fun p hp => h2 p (mem_of_split2 (.inl hp)))
          (h3.split2 _ _).1).bind' fun x x' hx => ?_
        exact (hb.ty.assem _ _ _ _ (h1.split2 _ _).2 (fun p hp => h2 p (mem_of_split2 (.inr hp)))
          (h3.split2 _ _).2).bind' fun y y' hy => add_rel N hx hy
      · simp only [ha.value.childPrimKeys, hb.value.childPrimKeys]
      · refine (ha.value.childParams _ _ (h1.split2 _ _).1).bind' fun c c' hc => ?_
        refine (hb.value.childParams _ _ (h1.split2 _ _).2).bind' fun d d' hd => ?_
        exact LRel.zipWith hc hd fun _ _ _ _ h h' => LRel.append h h'
      · rfl

theorem sumStructs_rel {as bs : List (Str × Cons K0)} {as' bs' : List (Str × Cons K)}
    (ha : LRel (KRel (CRel R RC G)) as as') (hb : LRel (KRel (CRel R RC G)) bs bs') :
    PyRel (LRel (FRel (ClsRel R RC G) (CVRel RC))) (sumStructs as bs) (sumStructs as' bs') := by
  induction ha generalizing bs bs' with
  | nil => cases hb <;> exact PyRel.ok .nil
  | @cons a a' _ _ h _ ih =>
    obtain ⟨k, a⟩ := a
    obtain ⟨k', a'⟩ := a'
    obtain ⟨rfl, h⟩ := h
    cases hb with
    | nil => exact .nil
    | cons h1 h2 =>
      exact (sumNode_rel N h h1.2).bind' fun n n' hn => (ih h2).bind' fun r r' hr =>
        .cons ⟨rfl, hn.1, hn.2.1, hn.2.2⟩ hr

theorem transformSum_rel {a b : Cons K0} {a' b' : Cons K} (ha : CRel R RC G a a') (hb : CRel R RC G b b') :
    PyRel (CRel R RC G) (transformSum a b) (transformSum a' b') :=
  (sumStructs_rel N (ha.iterFlat []) (hb.iterFlat [])).bind' fun _ _ h =>
    (unflatten_rel h).bind' fun _ _ h => h.1

theorem valueAssem_rel : EvRel R RC G valueAssem valueAssem := by
  intro ps ps' qs qs' hp hG hq
  rcases hq with _ | ⟨h1, _ | ⟨h2, h3⟩⟩
  · exact PyRel.err .typeError
  · exact toArr_rel N h1
  · exact PyRel.err .typeError

theorem scalarCons_rel : CRel R RC G (scalarCons (K := K0)) (scalarCons (K := K)) :=
  leaf_rel (ClsRel.of (valueAssem_rel N)) _

omit N [PyNum K0] [PyNum K] in
/-- Related operands. -/
def OpRel (R RC : K0 → K → Prop) (G : Prim K0 → Prop) : Operand K0 → Operand K → Prop
  | .num x, .num y => RC x y
  | .cons c, .cons c' => CRel R RC G c c'
  | _, _ => False

theorem toScalar_rel {s : Operand K0} {s' : Operand K} (h : OpRel R RC G s s') :
    PyRel (CRel R RC G) (toScalar s) (toScalar s') := by
  cases s <;> cases s' <;> simp only [OpRel] at h
  · exact transformPartial_rel (scalarCons_rel N) (.cons (by simpa only [PaRel] using h) .nil)
  · simp only [toScalar, h.ty.isScalar]
    split
    · exact h
    · rfl

theorem scalarMul_rel {c : Cons K0} {c' : Cons K} (h : CRel R RC G c c') {s : Operand K0} {s' : Operand K}
    (hs : OpRel R RC G s s') : PyRel (CRel R RC G) (transformScalarMul c s) (transformScalarMul c' s') :=
  (toScalar_rel N hs).bind' fun _ _ hb => transformNodes_rel (fun _ _ ha =>
    scalarNode_rel _ (fun _ _ _ _ hx hy => mul_rel N hy hx) ha hb) h

theorem vectorChildParams_rel (total : Nat) (cum own : List Nat) :
    CPRel RC (vectorChildParams total cum own) (vectorChildParams total cum own) := by
  intro qs qs' hq
  rcases hq with _ | ⟨h1, _ | ⟨h2, h3⟩⟩
  · exact PyRel.err .valueError
  · rename_i p p'
    simp only [vectorChildParams]
    split
    · exact PyRel.ok .nil
    · have harr : ∀ {xs : List K0} {ys : List K}, LRel RC xs ys → LRel (LRel (PaRel RC))
          (List.zipWith (fun c n => [.arr (c.take n)]) (chunk xs cum) own)
          (List.zipWith (fun c n => [.arr (c.take n)]) (chunk ys cum) own) := fun h =>
        LRel.zipWith (Q' := Eq) (h.chunk cum) (List.forall₂_same.mpr fun _ _ => rfl) fun a b n n' hab hn => by
          subst hn
          exact .cons (by simp only [PaRel]; exact LRel.take hab n) .nil
      cases p <;> cases p' <;> simp only [PaRel] at h1
      · exact harr (LRel.replicate (N.c_mul h1 N.c_one) _)
      · exact harr h1
      · subst h1
        rename_i b
        cases b
        · exact harr (LRel.replicate (N.c_mul N.c_zero N.c_one) _)
        · exact harr (LRel.replicate (N.c_mul N.c_one N.c_one) _)
      · exact PyRel.err .typeError
      · rw [PaRelL_iff] at h1
        exact LRel.zipWith (Q' := Eq) (h1.chunk cum) (List.forall₂_same.mpr fun _ _ => rfl) fun a b n n' hab hn => by
          subst hn
          exact .cons (by simp only [PaRel]; exact PaRelL_iff.mpr (LRel.take hab n)) .nil
      · exact PyRel.err .typeError
  · exact PyRel.err .valueError

theorem vector_rel (n : Node Unit Nat) : PyRel (CRel R RC G) (vector (K := K0) n) (vector (K := K) n) := by
  induction n using Node.induct with
  | _ t size cs ih =>
    have hl : PyRel (LRel (CRel R RC G)) (vectorL (K := K0) cs) (vectorL (K := K) cs) := by
      induction cs with
      | nil => exact .nil
      | cons kc cs ihc =>
        obtain ⟨k, c⟩ := kc
        exact (ih k c (by simp)).bind' fun _ _ h =>
          (ihc fun k c hc => ih k c (List.mem_cons_of_mem _ hc)).bind' fun _ _ h' => .cons h h'
    simp only [vector]
    exact hl.bind' fun _ _ h => construction_rel (ClsRel.of (valueAssem_rel N)) _ h _
      (vectorChildParams_rel N _ _ _) _

theorem transformConstraint_rel {c : Cons K0} {c' : Cons K} (h : CRel R RC G c c') :
    PyRel (CRel R RC G) (transformConstraint c) (transformConstraint c') := by
  simp only [transformConstraint]
  rw [mapNode_eq h () (f := fun v : ConsVal K0 => v.sig.valueSize) (g := fun v : ConsVal K => v.sig.valueSize)
    fun a a' ha => by rw [ha.sig]]
  refine (PyRel.of_eq rfl).bind' fun n n' hn => ?_
  subst hn
  refine (vector_rel (G := G) N n).bind' fun v v' hv => ?_
  refine (scalarMul_rel N hv (s := .num (-1)) (s' := .num (-1)) (N.c_neg N.c_one)).bind' fun m m' hm => ?_
  exact transformSum_rel N h hm

theorem cstr_rel {c : Py (Cons K0)} {c' : Py (Cons K)} (h : PyRel (CRel R RC G) c c') :
    PyRel (CRel R RC G) (do transformConstraint (← c)) (do transformConstraint (← c')) :=
  h.bind' fun _ _ h => transformConstraint_rel N h

theorem relativeLength_rel (hz : ZeroOK R G) :
    PyRel (CRel R RC G) (ct.relativeLength (K := K0)) (ct.relativeLength (K := K)) := by
  have hl := leaf0_rel (RC := RC) k!"Length" [.line] 1 (length_rel N hz)
  refine (scalarMul_rel N hl (s := .num (-1)) (s' := .num (-1)) (N.c_neg N.c_one)).bind' fun m m' hm => ?_
  refine (scalarMul_rel N hm (s := .cons scalarCons) (s' := .cons scalarCons) (scalarCons_rel N)).bind' fun s s' hs => ?_
  exact transformSum_rel N hl hs

theorem conMargin_rel (outer : Bool) (side : con.Side) :
    PyRel (CRel R RC G) (con.margin (K := K0) outer side) (con.margin (K := K) outer side) := by
  have hx := leaf0_rel (RC := RC) (G := G) k!"MidpointXDistance" [.line, .line] 1 (midpointDistance_rel N (ex_rel N))
  have hy := leaf0_rel (RC := RC) (G := G) k!"MidpointYDistance" [.line, .line] 1 (midpointDistance_rel N (ey_rel N))
  cases side
  · exact construction_rel (ClsRel.of (compound_rel 0)) _ (.cons hy .nil) _ (cp_const (.cons .nil .nil)) _
  · exact construction_rel (ClsRel.of (compound_rel 0)) _ (.cons hy .nil) _ (cp_const (.cons .nil .nil)) _
  · exact construction_rel (ClsRel.of (compound_rel 0)) _ (.cons hx .nil) _ (cp_const (.cons .nil .nil)) _
  · exact construction_rel (ClsRel.of (compound_rel 0)) _ (.cons hx .nil) _ (cp_const (.cons .nil .nil)) _

theorem margin_rel (outer : Bool) (side : con.Side) :
    PyRel (CRel R RC G) (ct.margin (K := K0) outer side) (ct.margin (K := K) outer side) :=
  cstr_rel N (conMargin_rel N outer side)

theorem marginArray_rel (n : Nat) (side : con.Side) :
    PyRel (CRel R RC G) (ct.outerMarginArray (K := K0) n side) (ct.outerMarginArray (K := K) n side) :=
  (margin_rel N true side).bind' fun _ _ h =>
    construction_rel (ClsRel.of vecEmpty_rel) _ (LRel.replicate h _) _
      (fun _ _ hq => PyRel.ok (LRel.map hq fun _ _ h => List.Forall₂.cons h .nil)) _

theorem align_rel (row : Bool) : PyRel (CRel R RC G) (ct.align (K := K0) row) (ct.align (K := K) row) := by
  have hc := leaf0_rel (RC := RC) (G := G) k!"Collinear" [.line, .line] 2 (collinear_rel N)
  simp only [ct.align]
  cases row
  · exact construction_rel (ClsRel.of (compound_rel 0)) _ (.cons hc (.cons hc .nil)) _
      (cp_const (.cons .nil (.cons .nil .nil))) _
  · exact construction_rel (ClsRel.of (compound_rel 0)) _ (.cons hc (.cons hc .nil)) _
      (cp_const (.cons .nil (.cons .nil .nil))) _

theorem faces_rel (side : con.Side) :
    PyRel (CRel R RC G) (ct.coincidentOutwardFaces (K := K0) side) (ct.coincidentOutwardFaces (K := K) side) :=
  construction_rel (ClsRel.of (compound_rel 0)) _
    (.cons (leaf1_rel k!"CoincidentLines" [.line, .line] .bool 2 (coincidentLines_rel N)) .nil) _
    (cp_const (.cons (.cons (by simp only [PaRel]) .nil) .nil)) _

theorem axisDim_rel {a : MplAxis K0} {a' : MplAxis K} (h : AxRel RC a a') :
    PyRel RC (ct.axisDim a) (ct.axisDim a') := by
  have hb := h.box a'.labelVisible
  simp only [ct.axisDim, h.vis, h.ticks]
  revert hb
  cases a.tightbbox a'.labelVisible with
  | none => cases a'.tightbbox a'.labelVisible with
    | none => exact fun _ => N.c_zero
    | some _ => exact fun h => h.elim
  | some b => cases a'.tightbbox a'.labelVisible with
    | none => exact fun h => h.elim
    | some b' =>
      intro hb
      obtain ⟨h1, h2, h3, h4⟩ : BRel RC b b' := hb
      obtain ⟨g1, g2, g3, g4⟩ := h.axes
      simp only
      split
      · exact N.c_mul h.height (N.c_sub g2 h2)
      · split
        · exact N.c_mul h.height (N.c_sub h4 g4)
        · split
          · exact N.c_mul h.width (N.c_sub g1 h1)
          · split
            · exact N.c_mul h.width (N.c_sub h3 g3)
            · rfl

theorem thickness_rel {a : MplAxis K0} {a' : MplAxis K} (h : AxRel RC a a') :
    PyRel RC (ct.getAxisThickness a).1 (ct.getAxisThickness a').1 := by
  have : AxRel RC (ct.setLabelVisible a false) (ct.setLabelVisible a' false) :=
    ⟨rfl, h.box, h.ticks, h.width, h.height, h.axes⟩
  have := axisDim_rel N this
  simp only [ct.getAxisThickness]
  revert this
  cases ct.axisDim (ct.setLabelVisible a false) <;> cases ct.axisDim (ct.setLabelVisible a' false) <;> exact id

theorem thicknessParams_rel : CPRel RC (ct.axisThicknessParams (K := K0)) (ct.axisThicknessParams (K := K)) := by
  intro qs qs' hq
  cases hq with
  | nil => exact PyRel.err .indexError
  | @cons p p' _ _ h _ =>
    cases p <;> cases p' <;> simp only [PaRel] at h
    · exact PyRel.err .attributeError
    · exact PyRel.err .attributeError
    · exact PyRel.err .attributeError
    · exact PyRel.ok (.cons (.cons (by simp only [PaRel]; exact N.c_zero) .nil) .nil)
    · exact PyRel.err .attributeError
    · exact (thickness_rel N h).bind' fun _ _ h => .cons (.cons (by simp only [PaRel]; exact h) .nil) .nil

theorem axisThickness_rel (axis : AxisKind) :
    PyRel (CRel R RC G) (ct.axisThickness (K := K0) axis) (ct.axisThickness (K := K) axis) := by
  have hx := transformConstraint_rel N
    (leaf0_rel (RC := RC) (G := G) k!"XLength" [.line] 1 (directedLength_rel N (ex_rel N)))
  have hy := transformConstraint_rel N
    (leaf0_rel (RC := RC) (G := G) k!"YLength" [.line] 1 (directedLength_rel N (ey_rel N)))
  cases axis
  · exact hy.bind' fun _ _ h => construction_rel (ClsRel.of (compound_rel 1)) _ (.cons h .nil) _
      (thicknessParams_rel N) _
  · exact hx.bind' fun _ _ h => construction_rel (ClsRel.of (compound_rel 1)) _ (.cons h .nil) _
      (thicknessParams_rel N) _

theorem rectilinear_rel (rows cols : Nat) :
    PyRel (CRel R RC G) (ct.rectilinearGrid (K := K0) rows cols) (ct.rectilinearGrid (K := K) rows cols) := by
  refine (align_rel (G := G) N true).bind' fun a a' ha => (transformMap_rel ha cols).bind' fun r r' hr => ?_
  refine (align_rel (G := G) N false).bind' fun b b' hb => (transformMap_rel hb rows).bind' fun c c' hc => ?_
  exact construction_rel (ClsRel.of (compound_rel 0)) _ ((LRel.replicate hr _).append (LRel.replicate hc _)) _
    (cp_const (LRel.replicate .nil _)) _

omit N [PyNum K0] [PyNum K] in
theorem gridParams_rel : CPRel RC (ct.gridParams (K := K0)) (ct.gridParams (K := K)) := by
  intro qs qs' hq
  rcases hq with _ | ⟨h1, _ | ⟨h2, _ | ⟨h3, _ | ⟨h4, _ | ⟨h5, h6⟩⟩⟩⟩⟩
  · exact PyRel.err .valueError
  · exact PyRel.err .valueError
  · exact PyRel.err .valueError
  · exact PyRel.err .valueError
  · exact (iter_rel h1).bind' fun _ _ a => (iter_rel h2).bind' fun _ _ b => (iter_rel h3).bind' fun _ _ c =>
      (iter_rel h4).bind' fun _ _ d => .cons .nil (.cons a (.cons b (.cons c (.cons d .nil))))
  · exact PyRel.err .valueError

set_option maxHeartbeats 2000000 in
theorem grid_rel (hz : ZeroOK R G) (rows cols : Nat) :
    PyRel (CRel R RC G) (ct.grid (K := K0) rows cols) (ct.grid (K := K) rows cols) := by
  unfold ct.grid
  refine PyRel.bind' (rectilinear_rel (G := G) N rows cols) fun a a' ha => ?_
  refine PyRel.bind' (relativeLength_rel (G := G) N hz) fun b b' hb => ?_
  refine PyRel.bind' (transformMap_rel hb cols) fun c c' hc => ?_
  refine PyRel.bind' (relativeLength_rel (G := G) N hz) fun d d' hd => ?_
  refine PyRel.bind' (transformMap_rel hd rows) fun e e' he => ?_
  refine PyRel.bind' (marginArray_rel (G := G) N cols .right) fun f f' hf => ?_
  refine PyRel.bind' (marginArray_rel (G := G) N rows .bottom) fun g g' hg => ?_
  exact construction_rel (ClsRel.of (compound_rel 4)) _
    (List.Forall₂.cons ha (.cons hc (.cons he (.cons hf (.cons hg .nil))))) _ gridParams_rel _

theorem position_rel (axis : AxisKind) (side : con.Side) (twin : Bool) :
    PyRel (CRel R RC G) (ct.positionAxis (K := K0) axis side twin) (ct.positionAxis (K := K) axis side twin) := by
  refine (faces_rel (G := G) N side).bind' fun a a' ha => ?_
  cases twin
  · exact construction_rel (ClsRel.of (compound_rel 0)) _ (.cons ha .nil) _ (cp_const (.cons .nil .nil)) _
  · exact (faces_rel (G := G) N side.opposite).bind' fun b b' hb => construction_rel (ClsRel.of (compound_rel 0)) _
      (.cons ha (.cons hb .nil)) _ (cp_const (.cons .nil (.cons .nil .nil))) _

omit N [PyNum K0] [PyNum K] in
theorem labelParams_rel : CPRel RC (ct.labelParams (K := K0)) (ct.labelParams (K := K)) := by
  intro qs qs' hq
  rcases hq with _ | ⟨h1, _ | ⟨h2, h3⟩⟩
  · exact PyRel.err .valueError
  · exact PyRel.ok (.cons (.cons (by simp only [PaRel]) (.cons h1 .nil)) .nil)
  · exact PyRel.err .valueError

theorem label_rel (hz : ZeroOK R G) (axis : AxisKind) (twin : Bool) :
    PyRel (CRel R RC G) (ct.positionAxisLabel (K := K0) axis twin) (ct.positionAxisLabel (K := K) axis twin) :=
  (transformConstraint_rel N (leaf1_rel k!"RelativePointOnLineDistance" [.point, .line] .bool 1
    (relPoint_rel N hz))).bind' fun _ _ h => construction_rel (ClsRel.of (compound_rel 1)) _ (.cons h .nil) _
      labelParams_rel _

theorem box_rel : PyRel (CRel R RC G) (ct.box (K := K0)) (ct.box (K := K)) := by
  have hv := leaf0_rel (RC := RC) (G := G) k!"Vertical" [.line] 1 (vertical_rel N)
  have hh := leaf0_rel (RC := RC) (G := G) k!"Horizontal" [.line] 1 (horizontal_rel N)
  unfold ct.box
  refine construction_rel (ClsRel.of (compound_rel 0)) _ ?_ _ ?_ _
  · exact .cons hh (.cons hh (.cons hv (.cons hv .nil)))
  · exact cp_const (.cons .nil (.cons .nil (.cons .nil (.cons .nil .nil))))

theorem width_rel : PyRel (CRel R RC G) (con.width (K := K0)) (con.width (K := K)) := by
  unfold con.width
  refine construction_rel (ClsRel.of (compound_rel 0)) _ ?_ _ ?_ _
  · exact .cons (leaf0_rel _ _ _ (directedLength_rel N (ex_rel N))) .nil
  · exact cp_const (.cons .nil .nil)

theorem height_rel : PyRel (CRel R RC G) (con.height (K := K0)) (con.height (K := K)) := by
  unfold con.height
  refine construction_rel (ClsRel.of (compound_rel 0)) _ ?_ _ ?_ _
  · exact .cons (leaf0_rel _ _ _ (directedLength_rel N (ey_rel N))) .nil
  · exact cp_const (.cons .nil .nil)

theorem ctWidth_rel : PyRel (CRel R RC G) (ct.width (K := K0)) (ct.width (K := K)) := by
  unfold ct.width
  exact PyRel.bind' (width_rel N) fun _ _ h => transformConstraint_rel N h

theorem ctHeight_rel : PyRel (CRel R RC G) (ct.height (K := K0)) (ct.height (K := K)) := by
  unfold ct.height
  exact PyRel.bind' (height_rel N) fun _ _ h => transformConstraint_rel N h

set_option maxHeartbeats 4000000 in
/-- Each shipped constraint is the same computation for all kinds of numbers. -/
theorem shipped_rel (s : Shipped) (hz : s.MeasuresLength → ZeroOK R G) (ha : s = .angle → AngOK R G)
    (hc : s = .aspectRatio → ChildOK G) : PyRel (CRel R RC G) (s.make K0) (s.make K) := by
  have hv := leaf0_rel (RC := RC) (G := G) k!"Vertical" [.line] 1 (vertical_rel N)
  have hh := leaf0_rel (RC := RC) (G := G) k!"Horizontal" [.line] 1 (horizontal_rel N)
  cases s <;> simp only [Shipped.MeasuresLength, true_imp_iff, reduceCtorEq] at hz ha hc
  case fix => exact transformConstraint_rel N (leaf0_rel _ _ _ coordinate_rel)
  case directedDistance =>
    exact transformConstraint_rel N (leaf1_rel _ _ _ _ (withDirection_rel N fun _ _ h => directedDistance_rel N h))
  case xDistance => exact transformConstraint_rel N (leaf0_rel _ _ _ (directedDistance_rel N (ex_rel N)))
  case yDistance => exact transformConstraint_rel N (leaf0_rel _ _ _ (directedDistance_rel N (ey_rel N)))
  case coincident => exact leaf0_rel _ _ _ (coincident_rel N)
  case length => exact transformConstraint_rel N (leaf0_rel _ _ _ (length_rel N hz))
  case directedLength =>
    exact transformConstraint_rel N (leaf1_rel _ _ _ _ (withDirection_rel N fun _ _ h => directedLength_rel N h))
  case xLength => exact transformConstraint_rel N (leaf0_rel _ _ _ (directedLength_rel N (ex_rel N)))
  case yLength => exact transformConstraint_rel N (leaf0_rel _ _ _ (directedLength_rel N (ey_rel N)))
  case vertical => exact hv
  case horizontal => exact hh
  case relativeLength => exact relativeLength_rel N hz
  case midpointXDistance => exact transformConstraint_rel N (leaf0_rel _ _ _ (midpointDistance_rel N (ex_rel N)))
  case midpointYDistance => exact transformConstraint_rel N (leaf0_rel _ _ _ (midpointDistance_rel N (ey_rel N)))
  case orthogonal => exact leaf0_rel _ _ _ (orthogonal_rel N)
  case parallel => exact leaf0_rel _ _ _ (parallel_rel N)
  case angle => exact transformConstraint_rel N (leaf0_rel _ _ _ (angle_rel N hz ha))
  case collinear => exact leaf0_rel _ _ _ (collinear_rel N)
  case coincidentLines => exact leaf1_rel _ _ _ _ (coincidentLines_rel N)
  case pointOnLineDistance => exact transformConstraint_rel N (leaf1_rel _ _ _ _ (pointOn_rel N hz))
  case pointToLineDistance => exact transformConstraint_rel N (leaf1_rel _ _ _ _ (pointTo_rel N hz))
  case relativePointOnLineDistance => exact transformConstraint_rel N (leaf1_rel _ _ _ _ (relPoint_rel N hz))
  case box => exact box_rel N
  case width => exact ctWidth_rel N
  case height => exact ctHeight_rel N
  case aspectRatio => exact transformConstraint_rel N (leaf0_rel _ _ _ (aspect_rel N hz hc))
  case axisThickness axis => exact axisThickness_rel N axis
  case margin outer side => exact margin_rel N outer side
  case outerMarginArray n side => exact marginArray_rel N n side
  case align row => exact align_rel N row
  case coincidentOutwardFaces side => exact faces_rel N side
  case rectilinearGrid rows cols => exact rectilinear_rel N rows cols
  case grid rows cols => exact grid_rel N hz rows cols
  case positionAxis axis side twin => exact position_rel N axis side twin
  case positionAxisLabel axis twin => exact label_rel N hz axis twin

end num

end MplLayout
