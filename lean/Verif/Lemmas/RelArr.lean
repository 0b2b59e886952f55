import Verif.Lemmas.Rel
import Verif.Model.Shipped

/-!
# The same computation with two kinds of numbers: arrays, parameters, constructions
-/

namespace MplLayout

variable {K0 K : Type} [PyNum K0] [PyNum K]

/-- `R` relates the numbers and `RC` the constant ones; the arithmetic operations respect both. -/
structure NumRel (R RC : K0 → K → Prop) : Prop where
  ofC : ∀ {a b}, RC a b → R a b
  truthy : ∀ {a b}, RC a b → PyNum.truthy a = PyNum.truthy b
  c_zero : RC 0 0
  c_one : RC 1 1
  c_mul : ∀ {a b c d}, RC a b → RC c d → RC (a * c) (b * d)
  c_sub : ∀ {a b c d}, RC a b → RC c d → RC (a - c) (b - d)
  c_neg : ∀ {a b}, RC a b → RC (-a) (-b)
  add : ∀ {a b c d}, R a b → R c d → R (a + c) (b + d)
  sub : ∀ {a b c d}, R a b → R c d → R (a - c) (b - d)
  mul : ∀ {a b c d}, R a b → R c d → R (a * c) (b * d)
  div : ∀ {a b c d}, R a b → R c d → R (a / c) (b / d)
  neg : ∀ {a b}, R a b → R (-a) (-b)
  natCast : ∀ n : Nat, R (n : K0) (n : K)

section defs
omit [PyNum K0] [PyNum K]

/-- Related arrays. -/
def ARel (R : K0 → K → Prop) : Arr K0 → Arr K → Prop
  | .scalar x, .scalar y => R x y
  | .vec xs, .vec ys => LRel R xs ys
  | _, _ => False

/-- The same array object with related entries. -/
def PVRel (R : K0 → K → Prop) (v : PVal K0) (v' : PVal K) : Prop := v.id = v'.id ∧ LRel R v.arr v'.arr

/-- Related primitives. -/
abbrev PrRel (R : K0 → K → Prop) : Prim K0 → Prim K → Prop := NRel Eq (PVRel R)

/-- Related boxes. -/
def BRel (RC : K0 → K → Prop) (b : Bbox K0) (b' : Bbox K) : Prop :=
  RC b.xmin b'.xmin ∧ RC b.ymin b'.ymin ∧ RC b.xmax b'.xmax ∧ RC b.ymax b'.ymax

/-- Related axes. -/
structure AxRel (RC : K0 → K → Prop) (a : MplAxis K0) (a' : MplAxis K) : Prop where
  vis : a.labelVisible = a'.labelVisible
  box : ∀ b, ORel (BRel RC) (a.tightbbox b) (a'.tightbbox b)
  ticks : a.ticksPosition = a'.ticksPosition
  width : RC a.figWidth a'.figWidth
  height : RC a.figHeight a'.figHeight
  axes : BRel RC a.axesBbox a'.axesBbox

mutual
/-- Related parameters. -/
def PaRel (RC : K0 → K → Prop) : Param K0 → Param K → Prop
  | .num x, .num y => RC x y
  | .arr xs, .arr ys => LRel RC xs ys
  | .bool b, .bool b' => b = b'
  | .none, .none => True
  | .seq ps, .seq qs => PaRelL RC ps qs
  | .axis a, .axis a' => AxRel RC a a'
  | _, _ => False
/-- The same for lists. -/
def PaRelL (RC : K0 → K → Prop) : List (Param K0) → List (Param K) → Prop
  | [], [] => True
  | p :: ps, q :: qs => PaRel RC p q ∧ PaRelL RC ps qs
  | _, _ => False
end

theorem PaRelL_iff {RC : K0 → K → Prop} {ps : List (Param K0)} : ∀ {qs : List (Param K)},
    PaRelL RC ps qs ↔ LRel (PaRel RC) ps qs := by
  induction ps with
  | nil => intro qs; cases qs <;> simp [PaRelL, LRel]
  | cons p ps ih => intro qs; cases qs <;> simp [PaRelL, LRel, ih]

/-- Functions of primitives and parameters with related results. -/
def EvRel (R RC : K0 → K → Prop) (G : Prim K0 → Prop)
    (f : List (Prim K0) → List (Param K0) → Py (Arr K0)) (g : List (Prim K) → List (Param K) → Py (Arr K)) :
    Prop := ∀ ps ps' qs qs', LRel (PrRel R) ps ps' → (∀ p ∈ ps, G p) → LRel (PaRel RC) qs qs' →
      PyRel (ARel R) (f ps qs) (g ps' qs')

/-- Related classes. -/
structure ClsRel (R RC : K0 → K → Prop) (G : Prim K0 → Prop) (c : ConsClass K0) (c' : ConsClass K) : Prop where
  name : c.name = c'.name
  isScalar : c.isScalar = c'.isScalar
  axisKind : c.axisKind = c'.axisKind
  assem : EvRel R RC G c.assem c'.assem

/-- Related functions for the parameters of the children. -/
def CPRel (RC : K0 → K → Prop) (f : List (Param K0) → Py (List (List (Param K0))))
    (g : List (Param K) → Py (List (List (Param K)))) : Prop :=
  ∀ qs qs', LRel (PaRel RC) qs qs' → PyRel (LRel (LRel (PaRel RC))) (f qs) (g qs')

/-- Related construction values. -/
structure CVRel (RC : K0 → K → Prop) (v : ConsVal K0) (v' : ConsVal K) : Prop where
  childPrimKeys : v.childPrimKeys = v'.childPrimKeys
  childParams : CPRel RC v.childParams v'.childParams
  sig : v.sig = v'.sig

/-- Related constructions. -/
abbrev CRel (R RC : K0 → K → Prop) (G : Prim K0 → Prop) : Cons K0 → Cons K → Prop :=
  NRel (ClsRel R RC G) (CVRel RC)

end defs

section arr
variable {R RC : K0 → K → Prop}

omit [PyNum K0] [PyNum K] in
theorem ARel.atleast1d {a : Arr K0} {b : Arr K} (h : ARel R a b) : LRel R a.atleast1d b.atleast1d := by
  cases a <;> cases b
  · exact .cons h .nil
  · exact h.elim
  · exact h.elim
  · exact h

omit [PyNum K0] [PyNum K] in
theorem ARel.map {f : K0 → K0} {g : K → K} (hf : ∀ a b, R a b → R (f a) (g b)) {a : Arr K0} {b : Arr K}
    (h : ARel R a b) : ARel R (a.map f) (b.map g) := by
  cases a <;> cases b
  · exact hf _ _ h
  · exact h.elim
  · exact h.elim
  · exact LRel.map h hf

omit [PyNum K0] [PyNum K] in
theorem binop_rel {f : K0 → K0 → K0} {g : K → K → K}
    (hf : ∀ {a b c d}, R a b → R c d → R (f a c) (g b d)) {a c : Arr K0} {b d : Arr K}
    (h : ARel R a b) (h' : ARel R c d) : PyRel (ARel R) (Arr.binop f a c) (Arr.binop g b d) := by
  cases a with
  | scalar a => cases b with
    | vec b => exact h.elim
    | scalar b => cases c with
      | scalar c => cases d with
        | vec d => exact h'.elim
        | scalar d => exact hf h h'
      | vec c => cases d with
        | scalar d => exact h'.elim
        | vec d => exact LRel.map h' fun _ _ hc => hf h hc
  | vec a => cases b with
    | scalar b => exact h.elim
    | vec b => cases c with
      | scalar c => cases d with
        | vec d => exact h'.elim
        | scalar d => exact LRel.map h fun _ _ hc => hf hc h'
      | vec c => cases d with
        | scalar d => exact h'.elim
        | vec d =>
          have h : LRel R a b := h
          have h' : LRel R c d := h'
          simp only [Arr.binop, h.length, h'.length]
          split
          · exact LRel.zipWith h h' fun _ _ _ _ => hf
          · rcases h with _ | ⟨h1, _ | ⟨h2, h3⟩⟩
            · rcases h' with _ | ⟨k1, _ | ⟨k2, k3⟩⟩
              · rfl
              · exact LRel.map (Q := R) .nil fun _ _ hc => hf hc k1
              · rfl
            · exact LRel.map h' fun _ _ hc => hf h1 hc
            · rcases h' with _ | ⟨k1, _ | ⟨k2, k3⟩⟩
              · rfl
              · exact LRel.map (.cons h1 (.cons h2 h3)) fun _ _ hc => hf hc k1
              · rfl

variable (N : NumRel R RC)
include N

theorem NumRel.zero : R 0 0 := N.ofC N.c_zero
theorem NumRel.one : R 1 1 := N.ofC N.c_one

theorem add_rel {a c : Arr K0} {b d : Arr K} (h : ARel R a b) (h' : ARel R c d) :
    PyRel (ARel R) (Arr.add a c) (Arr.add b d) := binop_rel N.add h h'
theorem sub_rel {a c : Arr K0} {b d : Arr K} (h : ARel R a b) (h' : ARel R c d) :
    PyRel (ARel R) (Arr.sub a c) (Arr.sub b d) := binop_rel N.sub h h'
theorem mul_rel {a c : Arr K0} {b d : Arr K} (h : ARel R a b) (h' : ARel R c d) :
    PyRel (ARel R) (Arr.mul a c) (Arr.mul b d) := binop_rel N.mul h h'
theorem div_rel {a c : Arr K0} {b d : Arr K} (h : ARel R a b) (h' : ARel R c d) :
    PyRel (ARel R) (Arr.div a c) (Arr.div b d) := binop_rel N.div h h'
theorem neg_rel {a : Arr K0} {b : Arr K} (h : ARel R a b) : ARel R a.neg b.neg := h.map fun _ _ => N.neg

theorem sumList_rel {xs : List K0} {ys : List K} (h : LRel R xs ys) :
    R (Arr.sumList xs) (Arr.sumList ys) := by
  suffices ∀ a b, R a b → R (xs.foldl (· + ·) a) (ys.foldl (· + ·) b) from this 0 0 N.zero
  induction h with
  | nil => exact fun a b h => h
  | cons h _ ih => exact fun a b hab => ih _ _ (N.add hab h)

theorem dot_rel {a c : Arr K0} {b d : Arr K} (h : ARel R a b) (h' : ARel R c d) :
    PyRel (ARel R) (Arr.dot a c) (Arr.dot b d) := by
  cases a with
  | scalar a => cases b with
    | vec b => exact h.elim
    | scalar b => cases c <;> cases d <;> first | exact h'.elim | exact binop_rel N.mul h h'
  | vec a => cases b with
    | scalar b => exact h.elim
    | vec b => cases c with
      | scalar c => cases d with
        | vec d => exact h'.elim
        | scalar d => exact binop_rel N.mul h h'
      | vec c => cases d with
        | scalar d => exact h'.elim
        | vec d =>
          have h : LRel R a b := h
          have h' : LRel R c d := h'
          simp only [Arr.dot, h.length, h'.length]
          split
          · exact sumList_rel N (LRel.zipWith h h' fun _ _ _ _ => N.mul)
          · rfl

theorem cross_rel {a c : Arr K0} {b d : Arr K} (h : ARel R a b) (h' : ARel R c d) :
    PyRel (ARel R) (Arr.cross a c) (Arr.cross b d) := by
  have hz := N.zero
  cases a with
  | scalar a => cases b with
    | vec b => exact h.elim
    | scalar b => exact PyRel.err .valueError
  | vec a => cases b with
    | scalar b => exact h.elim
    | vec b =>
      have h : LRel R a b := h
      cases c with
      | scalar c => cases d with
        | vec d => exact h'.elim
        | scalar d =>
          have e1 : Arr.cross (.vec a) (.scalar c) = .error .valueError := by
            unfold Arr.cross; split <;> first | rfl | simp_all
          have e2 : Arr.cross (.vec b) (.scalar d) = .error .valueError := by
            unfold Arr.cross; split <;> first | rfl | simp_all
          rw [e1, e2]; rfl
      | vec c => cases d with
        | scalar d => exact h'.elim
        | vec d =>
          have h' : LRel R c d := h'
          rcases h with _ | ⟨h1, _ | ⟨h2, _ | ⟨h3, _ | ⟨h4, h5⟩⟩⟩⟩
          · exact PyRel.err .valueError
          · exact PyRel.err .valueError
          · rcases h' with _ | ⟨k1, _ | ⟨k2, _ | ⟨k3, _ | ⟨k4, k5⟩⟩⟩⟩
            · exact PyRel.err .valueError
            · exact PyRel.err .valueError
            · exact N.sub (N.mul h1 k2) (N.mul h2 k1)
            · exact .cons (N.sub (N.mul h2 k3) (N.mul hz k2)) (.cons (N.sub (N.mul hz k1) (N.mul h1 k3))
                (.cons (N.sub (N.mul h1 k2) (N.mul h2 k1)) .nil))
            · exact PyRel.err .valueError
          · rcases h' with _ | ⟨k1, _ | ⟨k2, _ | ⟨k3, _ | ⟨k4, k5⟩⟩⟩⟩
            · exact PyRel.err .valueError
            · exact PyRel.err .valueError
            · exact .cons (N.sub (N.mul h2 hz) (N.mul h3 k2)) (.cons (N.sub (N.mul h3 k1) (N.mul h1 hz))
                (.cons (N.sub (N.mul h1 k2) (N.mul h2 k1)) .nil))
            · exact .cons (N.sub (N.mul h2 k3) (N.mul h3 k2)) (.cons (N.sub (N.mul h3 k1) (N.mul h1 k3))
                (.cons (N.sub (N.mul h1 k2) (N.mul h2 k1)) .nil))
            · exact PyRel.err .valueError
          · exact PyRel.err .valueError

omit N [PyNum K0] [PyNum K] in
theorem get_rel {a : Arr K0} {b : Arr K} (h : ARel R a b) (i : Nat) : PyRel R (a.get i) (b.get i) := by
  cases a <;> cases b
  · rfl
  · exact h.elim
  · exact h.elim
  · simp only [Arr.get]; exact LRel.pyIndex h _

omit N [PyNum K0] [PyNum K] in
theorem take2_rel {a : Arr K0} {b : Arr K} (h : ARel R a b) : PyRel (ARel R) a.take2 b.take2 := by
  cases a <;> cases b
  · rfl
  · exact h.elim
  · exact h.elim
  · exact LRel.take h 2

theorem toArr_rel {p : Param K0} {q : Param K} (h : PaRel RC p q) : PyRel (ARel R) p.toArr q.toArr := by
  cases p <;> cases q <;> simp only [PaRel] at h
  · exact N.ofC h
  · exact LRel.map (f := id) (g := id) h (fun _ _ h => N.ofC h) |> fun h => by simpa [Param.toArr, PyRel, ARel] using h
  · subst h
    rename_i b
    cases b
    · exact N.zero
    · exact N.one
  all_goals rfl

theorem truthy_rel {p : Param K0} {q : Param K} (h : PaRel RC p q) : p.truthy = q.truthy := by
  cases p <;> cases q <;> simp only [PaRel] at h
  · simp only [Param.truthy, N.truthy h]
  · rcases h with _ | ⟨h1, _ | ⟨h2, h3⟩⟩
    · rfl
    · simp only [Param.truthy, N.truthy h1]
    · rfl
  · subst h; rfl
  · rfl
  · rename_i ps qs
    rw [PaRelL_iff] at h
    cases h <;> rfl
  · rfl

omit N [PyNum K0] [PyNum K] in
theorem iter_rel {p : Param K0} {q : Param K} (h : PaRel RC p q) :
    PyRel (LRel (PaRel RC)) p.iter q.iter := by
  cases p <;> cases q <;> simp only [PaRel] at h <;> try exact PyRel.err .typeError
  · exact LRel.map h fun _ _ h => by simpa only [PaRel] using h
  · exact PaRelL_iff.mp h

end arr

end MplLayout
