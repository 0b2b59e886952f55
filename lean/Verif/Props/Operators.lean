import Verif.Props.Constructions

/-!
# C72: arithmetic expressions of constructions (`constructions.py:433-460`)

A user combines constructions with `-`, `+`, `*`, `/` and `**`.  The value of an expression is
defined here from the values of its operands alone (`Means`), and compared with what the object
built by Python's operators returns when it is called.
-/

namespace MplLayout.Props

open Cons

variable {K : Type}

/-- Python expressions over constructions.  `s` is a Python number; the forms ending in `Sc` have a
fresh `Scalar()` as the other operand. -/
inductive Expr (K : Type) where
  | atom (c : Cons K)
  | neg (e : Expr K)
  | pos (e : Expr K)
  | add (e f : Expr K)
  | mul (e : Expr K) (s : K)
  | rmul (s : K) (e : Expr K)
  | div (e : Expr K) (s : K)
  | pow (e : Expr K) (s : K)
  | mulSc (e : Expr K)
  | scMul (e : Expr K)
  | divSc (e : Expr K)
  | powSc (e : Expr K)

namespace Expr

variable [PyNum K]

/-- The object that Python builds for an expression, by the operators of `ConstructionNode`. -/
def build : Expr K → Py (Cons K)
  | atom c => .ok c
  | neg e => do pyNeg (← e.build)
  | pos e => do pyPos (← e.build)
  | add e f => do
    let a ← e.build
    let b ← f.build
    pyAdd a (.cons b)
  | mul e s => do pyMul (← e.build) (.num s)
  | rmul s e => do pyRmul (← e.build) s
  | div e s => do pyTruediv (← e.build) (.num s)
  | pow e s => do pyPow (← e.build) (.num s)
  | mulSc e => do pyMul (← e.build) (.cons scalarCons)
  | scMul e => do pyMul scalarCons (.cons (← e.build))
  | divSc e => do pyTruediv (← e.build) (.cons scalarCons)
  | powSc e => do pyPow (← e.build) (.cons scalarCons)

/-- The value of an expression on lists of primitives and parameters: the operands of `+` take
their arguments one after the other, a `Scalar()` takes one number after those of the other
operand, and the operation is applied entry by entry. -/
inductive Means : Expr K → List (Prim K) → List (Param K) → List K → Prop
  | atom {c ps qs v} : c.call ps qs = .ok v → Means (.atom c) ps qs v
  | neg {e ps qs v} : Means e ps qs v → Means (.neg e) ps qs (v.map ((-1 : K) * ·))
  | pos {e ps qs v} : Means e ps qs v → Means (.pos e) ps qs v
  | add {e f pa pb qa qb va vb} : Means e pa qa va → Means f pb qb vb →
      Means (.add e f) (pa ++ pb) (qa ++ qb) (List.zipWith (· + ·) va vb)
  | mul {e ps qs v s} : Means e ps qs v → Means (.mul e s) ps qs (v.map (s * ·))
  | rmul {e ps qs v s} : Means e ps qs v → Means (.rmul s e) ps qs (v.map (s * ·))
  | div {e ps qs v s} : Means e ps qs v → Means (.div e s) ps qs (v.map (PyNum.pow s (-1) * ·))
  | pow {e ps qs v s} : Means e ps qs v → Means (.pow e s) ps qs (v.map (PyNum.pow · s))
  | mulSc {e ps qs v s} : Means e ps qs v →
      Means (.mulSc e) ps (qs ++ [.num s]) (v.map (s * ·))
  | scMul {e ps qs v s} : Means e ps qs v →
      Means (.scMul e) ps (qs ++ [.num s]) (v.map (s * ·))
  | divSc {e ps qs v s} : Means e ps qs v →
      Means (.divSc e) ps (qs ++ [.num s]) (v.map (PyNum.pow s (-1) * ·))
  | powSc {e ps qs v s} : Means e ps qs v →
      Means (.powSc e) ps (qs ++ [.num s]) (v.map (PyNum.pow · s))

/-- The constructions in an expression. -/
def atoms : Expr K → List (Cons K)
  | atom c => [c]
  | neg e | pos e | mul e _ | rmul _ e | div e _ | pow e _ | mulSc e | scMul e | divSc e | powSc e =>
    e.atoms
  | add e f => e.atoms ++ f.atoms

end Expr

/-- A leaf construction, other than `Scalar()`, that returns `n` entries, as it declares, on
primitives that are `P` (for instance, points with two coordinates). -/
def LeafOf (P : Prim K → Prop) (n : Nat) (c : Cons K) : Prop :=
  ∃ cls sig, c = leaf cls sig ∧ cls.isScalar = false ∧ sig.valueSize = n ∧
    ∀ ps qs v, (∀ p ∈ ps, P p) → c.call ps qs = .ok v → v.length = n

/-- What the operators make of leaf constructions: no children, `n` entries. -/
structure Simple [PyNum K] (n : Nat) (c : Cons K) : Prop where
  wf : c.WF
  children : c.children = []
  keys : c.value.childPrimKeys = []
  params : ∀ qs, ∃ pss, c.value.childParams qs = .ok pss
  scalar : c.ty.isScalar = false
  size : c.value.sig.valueSize = n

section
variable [PyNum K] {n : Nat} {P : Prim K → Prop}

theorem LeafOf.simple {c : Cons K} (h : LeafOf P n c) : Simple n c := by
  obtain ⟨cls, sig, rfl, h1, h2, _⟩ := h
  exact ⟨leaf_WF _ _, rfl, rfl, fun _ => ⟨[], rfl⟩, h1, h2⟩

theorem Simple.consistent {c : Cons K} (h : Simple n c) (qs : List (Param K))
    (hq : qs.length = c.value.sig.paramTypes.length) : c.Consistent qs := by
  cases c with
  | mk t v cs =>
    have h1 : cs = [] := h.children
    have h2 : v.childPrimKeys = [] := h.keys
    subst h1
    simp only [Cons.Consistent, h2]
    exact ⟨hq, rfl, fun pss _ => ⟨Nat.zero_le _, by simp [ConsistentL]⟩⟩

theorem Simple.call_iff {c : Cons K} (h : Simple n c) (ps : List (Prim K)) (qs : List (Param K))
    (v : List K) : c.call ps qs = .ok v ↔
      c.Accepts ps qs ∧ ∃ a, c.ty.assem ps qs = .ok a ∧ v = a.atleast1d := by
  have hev : c.eval ps qs = .ok v ↔ ∃ a, c.ty.assem ps qs = .ok a ∧ v = a.atleast1d := by
    obtain ⟨pss, hp⟩ := h.params qs
    cases c with
    | mk t w cs =>
      have h1 : cs = [] := h.children
      subst h1
      have hp' : w.childParams qs = .ok pss := hp
      simp only [Cons.eval, py_bind_ok, hp', Cons.evalL]
      constructor
      · rintro ⟨a, ha, _, _, _, e', e⟩
        cases e'
        exact ⟨a, ha, by simpa using (Except.ok.inj e).symm⟩
      · rintro ⟨a, ha, rfl⟩
        exact ⟨a, ha, _, rfl, _, rfl, by simp⟩
  by_cases hq : qs.length = c.value.sig.paramTypes.length
  · rw [call_ok_iff c h.wf ps qs (h.consistent qs hq).aligned, hev]
  · constructor
    · intro hc; exact absurd (call_accepts hc).2 hq
    · rintro ⟨hc, _⟩; exact absurd hc.2 hq

theorem Simple.scaled {c : Cons K} (h : Simple n c) (b : Cons K) (name : Str)
    (combine : Arr K → Arr K → Py (Arr K)) :
    Simple n (mapTree (fun a => scalarNode name combine a b) c) := by
  refine ⟨mapTree_WF h.wf, ?_, ?_, ?_, ?_, ?_⟩ <;> cases c with
  | mk t v cs => ?_
  · have h1 : cs = [] := h.children
    subst h1; rfl
  · exact h.keys
  · intro qs
    obtain ⟨pss, e⟩ := h.params
      (split2 v.sig.paramTypes.length b.value.sig.paramTypes.length qs).1
    have e' : v.childParams (split2 v.sig.paramTypes.length b.value.sig.paramTypes.length qs).1
      = .ok pss := e
    refine ⟨pss.map (· ++ (split2 v.sig.paramTypes.length b.value.sig.paramTypes.length qs).2), ?_⟩
    simp only [mapTree, scalarNode, Node.value_mk, py_bind_ok]
    exact ⟨_, e', rfl⟩
  · exact h.scalar
  · exact h.size

theorem Simple.shape {a b : Cons K} (ha : Simple n a) (hb : Simple n b) : Shape a b := by
  cases a with
  | mk t v cs =>
    cases b with
    | mk t' v' cs' =>
      have h1 : cs = [] := ha.children
      have h2 : cs' = [] := hb.children
      subst h1 h2
      have h3 : v.sig.valueSize = n := ha.size
      have h4 : v'.sig.valueSize = n := hb.size
      simp [Shape, ShapeL, Node.keys, h3, h4]

theorem Simple.sum {a b : Cons K} (ha : Simple n a) (hb : Simple n b) :
    transformSum a b = .ok (sumTree a b) ∧ Simple n (sumTree a b) := by
  have hs := ha.shape hb
  refine ⟨?_, sumTree_WF ha.wf hs, ?_, ?_, ?_, ?_, ?_⟩
  · rcases transformSum_cases a b ha.wf with ⟨_, h⟩ | ⟨h, _⟩
    · exact h
    · exact absurd hs h
  all_goals cases a with
  | mk t v cs => ?_
  · have h1 : cs = [] := ha.children
    subst h1; simp [sumTree, sumTreeL]
  · have h1 : v.childPrimKeys = [] := ha.keys
    simp [sumTree, sumVal, h1]
  · intro qs
    obtain ⟨pss, e⟩ := ha.params
      (split2 v.sig.paramTypes.length b.value.sig.paramTypes.length qs).1
    obtain ⟨pss', e'⟩ := hb.params
      (split2 v.sig.paramTypes.length b.value.sig.paramTypes.length qs).2
    have e1 : v.childParams (split2 v.sig.paramTypes.length b.value.sig.paramTypes.length qs).1
      = .ok pss := e
    refine ⟨List.zipWith (· ++ ·) pss pss', ?_⟩
    simp only [sumTree, sumVal, Node.value_mk, py_bind_ok]
    exact ⟨_, e1, _, e', rfl⟩
  · rfl
  · exact ha.size

/-- What a sum of childless constructions returns. -/
theorem Simple.sum_call {a b : Cons K} (ha : Simple n a) (hb : Simple n b) (ps : List (Prim K))
    (qs : List (Param K)) (v : List K) : (sumTree a b).call ps qs = .ok v ↔
      ∃ pa pb qa qb x y z, ps = pa ++ pb ∧ qs = qa ++ qb ∧ a.Accepts pa qa ∧ b.Accepts pb qb ∧
        a.ty.assem pa qa = .ok x ∧ b.ty.assem pb qb = .ok y ∧ Arr.add x y = .ok z ∧
        v = z.atleast1d := by
  rw [(ha.sum hb).2.call_iff]
  have hty : (sumTree a b).ty = sumClass a b := by cases a; rfl
  have hsig : (sumTree a b).value.sig = a.value.sig.concat b.value.sig a.value.sig.valueSize := by
    cases a; rfl
  simp only [Accepts, hty, hsig, ConsSig.concat]
  constructor
  · rintro ⟨⟨h1, h2⟩, z, hz, rfl⟩
    obtain ⟨pa, pb, f1, f2, rfl⟩ : ∃ pa pb, List.Forall₂ (fun (p : Prim K) t => p.ty.IsA t) pa
        a.value.sig.primTypes ∧ List.Forall₂ (fun (p : Prim K) t => p.ty.IsA t) pb
        b.value.sig.primTypes ∧ ps = pa ++ pb :=
      ⟨_, _, List.forall₂_take_append _ _ _ h1, List.forall₂_drop_append _ _ _ h1,
        (List.take_append_drop _ _).symm⟩
    rw [List.length_append] at h2
    have l1 : (qs.take a.value.sig.paramTypes.length).length = a.value.sig.paramTypes.length := by
      simp; omega
    have l2 : (qs.drop a.value.sig.paramTypes.length).length = b.value.sig.paramTypes.length := by
      simp; omega
    obtain ⟨qa, qb, rfl, l1, l2⟩ : ∃ qa qb, qs = qa ++ qb ∧
        qa.length = a.value.sig.paramTypes.length ∧ qb.length = b.value.sig.paramTypes.length :=
      ⟨_, _, (List.take_append_drop _ _).symm, l1, l2⟩
    simp only [sumClass, split2_append f1.length_eq f2.length_eq, split2_append l1 l2,
      py_bind_ok] at hz
    obtain ⟨x, hx, y, hy, hz⟩ := hz
    exact ⟨pa, pb, qa, qb, x, y, z, rfl, rfl, ⟨f1, l1⟩, ⟨f2, l2⟩, hx, hy, hz, rfl⟩
  · rintro ⟨pa, pb, qa, qb, x, y, z, rfl, rfl, ⟨f1, l1⟩, ⟨f2, l2⟩, hx, hy, hz, rfl⟩
    refine ⟨⟨List.rel_append f1 f2, by simp [l1, l2]⟩, z, ?_, rfl⟩
    simp only [sumClass, split2_append f1.length_eq f2.length_eq, split2_append l1 l2, py_bind_ok]
    exact ⟨x, hx, y, hy, hz⟩

namespace Expr

/-- The expression has no `Scalar()`: all factors and exponents are numbers. -/
def Numbers : Expr K → Prop
  | atom _ => True
  | neg e | pos e | mul e _ | rmul _ e | div e _ | pow e _ => e.Numbers
  | add e f => e.Numbers ∧ f.Numbers
  | mulSc _ | scMul _ | divSc _ | powSc _ => False

theorem Means.length {e : Expr K} {ps : List (Prim K)} {qs : List (Param K)} {v : List K}
    (h : Means e ps qs v) (ha : ∀ c ∈ e.atoms, LeafOf P n c) (hp : ∀ p ∈ ps, P p) :
    v.length = n := by
  induction h with
  | @atom c _ _ _ hc =>
    obtain ⟨_, _, _, _, _, h3⟩ := ha c (by simp [atoms])
    exact h3 _ _ _ hp hc
  | add _ _ ih1 ih2 =>
    have h1 := ih1 (fun c hc => ha c (by simp [atoms, hc])) fun p h => hp p (by simp [h])
    have h2 := ih2 (fun c hc => ha c (by simp [atoms, hc])) fun p h => hp p (by simp [h])
    simp [h1, h2]
  | pos _ ih => exact ih ha hp
  | _ _ ih => simpa using ih ha hp

/-- Every expression of leaf constructions of one size can be built; the result returns the value
of the expression, and only that. -/
theorem build_call (e : Expr K) (ha : ∀ c ∈ e.atoms, LeafOf P n c) :
    ∃ c, e.build = .ok c ∧ Simple n c ∧ ∀ ps qs v,
      (∀ p ∈ ps, P p) →
      (Means e ps qs v → c.call ps qs = .ok v) ∧
      (e.Numbers → c.call ps qs = .ok v → Means e ps qs v) := by
  induction e with
  | atom c =>
    exact ⟨c, rfl, (ha c (by simp [atoms])).simple, fun ps qs v _ =>
      ⟨fun h => by cases h; assumption, fun _ h => .atom h⟩⟩
  | pos e ih =>
    obtain ⟨c, h1, h2, h3⟩ := ih ha
    refine ⟨c, by simp [build, h1, pyPos, bind, Except.bind], h2, fun ps qs v hp => ⟨fun h => ?_, fun hn h => ?_⟩⟩
    · cases h with | pos h => exact (h3 _ _ _ hp).1 h
    · exact .pos ((h3 _ _ _ hp).2 hn h)
  | neg e ih =>
    obtain ⟨c, h1, h2, h3⟩ := ih ha
    refine ⟨mulTree (numScalar (-1)) c, ?_, h2.scaled _ _ _, ?_⟩
    · simp only [build, h1, pyNeg, bind, Except.bind]
      exact transformScalarMul_eq h2.wf (toScalar_num _)
    · intro ps qs v hp
      have := scaled_call (numScalar_acts (-1 : K)) (name := k!"ScalarMultipleConstruction")
        (combine := fun x y => y.mul x) (fun x => scalar_mul_map x _) c h2.wf ps qs
        (h2.consistent qs) v
      rw [List.append_nil] at this
      refine ⟨fun h => ?_, fun hn h => ?_⟩
      · cases h with | neg h => exact this.mpr ⟨_, (h3 _ _ _ hp).1 h, rfl⟩
      · obtain ⟨w, hw, rfl⟩ := this.mp h
        exact .neg ((h3 _ _ _ hp).2 hn hw)
  | mul e s ih =>
    obtain ⟨c, h1, h2, h3⟩ := ih ha
    refine ⟨mulTree (numScalar s) c, ?_, h2.scaled _ _ _, ?_⟩
    · simp only [build, h1, pyMul, h2.scalar, bind, Except.bind, Bool.false_eq_true, if_false]
      exact transformScalarMul_eq h2.wf (toScalar_num _)
    · intro ps qs v hp
      have := scaled_call (numScalar_acts s) (name := k!"ScalarMultipleConstruction")
        (combine := fun x y => y.mul x) (fun x => scalar_mul_map x _) c h2.wf ps qs
        (h2.consistent qs) v
      rw [List.append_nil] at this
      refine ⟨fun h => ?_, fun hn h => ?_⟩
      · cases h with | mul h => exact this.mpr ⟨_, (h3 _ _ _ hp).1 h, rfl⟩
      · obtain ⟨w, hw, rfl⟩ := this.mp h
        exact .mul ((h3 _ _ _ hp).2 hn hw)
  | rmul s e ih =>
    obtain ⟨c, h1, h2, h3⟩ := ih ha
    refine ⟨mulTree (numScalar s) c, ?_, h2.scaled _ _ _, ?_⟩
    · simp only [build, h1, pyRmul, bind, Except.bind]
      exact transformScalarMul_eq h2.wf (toScalar_num _)
    · intro ps qs v hp
      have := scaled_call (numScalar_acts s) (name := k!"ScalarMultipleConstruction")
        (combine := fun x y => y.mul x) (fun x => scalar_mul_map x _) c h2.wf ps qs
        (h2.consistent qs) v
      rw [List.append_nil] at this
      refine ⟨fun h => ?_, fun hn h => ?_⟩
      · cases h with | rmul h => exact this.mpr ⟨_, (h3 _ _ _ hp).1 h, rfl⟩
      · obtain ⟨w, hw, rfl⟩ := this.mp h
        exact .rmul ((h3 _ _ _ hp).2 hn hw)
  | pow e s ih =>
    obtain ⟨c, h1, h2, h3⟩ := ih ha
    refine ⟨powTree (numScalar s) c, ?_, h2.scaled _ _ _, ?_⟩
    · simp only [build, h1, pyPow, bind, Except.bind]
      exact transformScalarPow_eq h2.wf (toScalar_num _)
    · intro ps qs v hp
      have := scaled_call (numScalar_acts s) (name := k!"ScalarPowerConstruction")
        (combine := fun x y => x.pow y) (fun x => scalar_pow_map x _) c h2.wf ps qs
        (h2.consistent qs) v
      rw [List.append_nil] at this
      refine ⟨fun h => ?_, fun hn h => ?_⟩
      · cases h with | pow h => exact this.mpr ⟨_, (h3 _ _ _ hp).1 h, rfl⟩
      · obtain ⟨w, hw, rfl⟩ := this.mp h
        exact .pow ((h3 _ _ _ hp).2 hn hw)
  | div e s ih =>
    obtain ⟨c, h1, h2, h3⟩ := ih ha
    refine ⟨mulTree (powTree (numScalar (-1)) (numScalar s)) c, ?_, h2.scaled _ _ _, ?_⟩
    · simp only [build, h1, pyTruediv, bind, Except.bind]
      exact transformScalarDiv_eq h2.wf (.num s) (.inr ⟨s, rfl, rfl⟩) rfl
        (by rw [numScalar, Node.WF_mk]; simp)
    · intro ps qs v hp
      have := scaled_call (recip_acts rfl (numScalar_acts s))
        (name := k!"ScalarMultipleConstruction")
        (combine := fun x y => y.mul x) (fun x => scalar_mul_map x _) c h2.wf ps qs
        (h2.consistent qs) v
      rw [List.append_nil] at this
      refine ⟨fun h => ?_, fun hn h => ?_⟩
      · cases h with | div h => exact this.mpr ⟨_, (h3 _ _ _ hp).1 h, rfl⟩
      · obtain ⟨w, hw, rfl⟩ := this.mp h
        exact .div ((h3 _ _ _ hp).2 hn hw)
  | mulSc e ih =>
    obtain ⟨c, h1, h2, h3⟩ := ih ha
    refine ⟨mulTree scalarCons c, ?_, h2.scaled _ _ _, ?_⟩
    · simp only [build, h1, pyMul, h2.scalar, bind, Except.bind, Bool.false_eq_true, if_false]
      exact transformScalarMul_eq (s := .cons (scalarCons (K := K))) h2.wf (b := scalarCons) rfl
    · intro ps qs v hp
      refine ⟨fun h => ?_, fun hn => hn.elim⟩
      cases h with
      | @mulSc _ _ qs v s h =>
        exact (scaled_call (scalarCons_acts (p := .num s) rfl)
          (name := k!"ScalarMultipleConstruction")
          (combine := fun x y => y.mul x) (fun x => scalar_mul_map x _) c h2.wf ps qs
          (h2.consistent qs) _).mpr ⟨_, (h3 _ _ _ hp).1 h, rfl⟩
  | scMul e ih =>
    obtain ⟨c, h1, h2, h3⟩ := ih ha
    refine ⟨mulTree scalarCons c, ?_, h2.scaled _ _ _, ?_⟩
    · simp only [build, h1, pyMul, bind, Except.bind]
      exact transformScalarMul_eq (s := .cons (scalarCons (K := K))) h2.wf (b := scalarCons) rfl
    · intro ps qs v hp
      refine ⟨fun h => ?_, fun hn => hn.elim⟩
      cases h with
      | @scMul _ _ qs v s h =>
        exact (scaled_call (scalarCons_acts (p := .num s) rfl)
          (name := k!"ScalarMultipleConstruction")
          (combine := fun x y => y.mul x) (fun x => scalar_mul_map x _) c h2.wf ps qs
          (h2.consistent qs) _).mpr ⟨_, (h3 _ _ _ hp).1 h, rfl⟩
  | powSc e ih =>
    obtain ⟨c, h1, h2, h3⟩ := ih ha
    refine ⟨powTree scalarCons c, ?_, h2.scaled _ _ _, ?_⟩
    · simp only [build, h1, pyPow, bind, Except.bind]
      exact transformScalarPow_eq (s := .cons (scalarCons (K := K))) h2.wf (b := scalarCons) rfl
    · intro ps qs v hp
      refine ⟨fun h => ?_, fun hn => hn.elim⟩
      cases h with
      | @powSc _ _ qs v s h =>
        exact (scaled_call (scalarCons_acts (p := .num s) rfl)
          (name := k!"ScalarPowerConstruction")
          (combine := fun x y => x.pow y) (fun x => scalar_pow_map x _) c h2.wf ps qs
          (h2.consistent qs) _).mpr ⟨_, (h3 _ _ _ hp).1 h, rfl⟩
  | divSc e ih =>
    obtain ⟨c, h1, h2, h3⟩ := ih ha
    refine ⟨mulTree (powTree (numScalar (-1)) scalarCons) c, ?_, h2.scaled _ _ _, ?_⟩
    · simp only [build, h1, pyTruediv, bind, Except.bind]
      exact transformScalarDiv_eq h2.wf (.cons scalarCons) (.inl rfl) rfl (leaf_WF _ _)
    · intro ps qs v hp
      refine ⟨fun h => ?_, fun hn => hn.elim⟩
      cases h with
      | @divSc _ _ qs v s h =>
        exact (scaled_call (recip_acts rfl (scalarCons_acts (p := .num s) rfl))
          (name := k!"ScalarMultipleConstruction")
          (combine := fun x y => y.mul x) (fun x => scalar_mul_map x _) c h2.wf ps qs
          (h2.consistent qs) _).mpr ⟨_, (h3 _ _ _ hp).1 h, rfl⟩
  | add e f ihe ihf =>
    have hae : ∀ c ∈ e.atoms, LeafOf P n c := fun c hc => ha c (by simp [atoms, hc])
    have haf : ∀ c ∈ f.atoms, LeafOf P n c := fun c hc => ha c (by simp [atoms, hc])
    obtain ⟨a, a1, a2, a3⟩ := ihe hae
    obtain ⟨b, b1, b2, b3⟩ := ihf haf
    refine ⟨sumTree a b, ?_, (a2.sum b2).2, fun ps qs v hp => ⟨fun h => ?_, fun hn h => ?_⟩⟩
    · simp only [build, a1, b1, bind, Except.bind, pyAdd]
      exact (a2.sum b2).1
    · cases h with
      | @add _ _ pa pb qa qb va vb he hf =>
        have ha' : ∀ p ∈ pa, P p := fun p h => hp p (by simp [h])
        have hb' : ∀ p ∈ pb, P p := fun p h => hp p (by simp [h])
        have lv : va.length = vb.length := (he.length hae ha').trans (hf.length haf hb').symm
        obtain ⟨acca, x, hx, rfl⟩ := (a2.call_iff _ _ _).mp ((a3 _ _ _ ha').1 he)
        obtain ⟨accb, y, hy, rfl⟩ := (b2.call_iff _ _ _).mp ((b3 _ _ _ hb').1 hf)
        obtain ⟨z, hz, e⟩ := Arr.add_sized lv
        exact (a2.sum_call b2 _ _ _).mpr
          ⟨pa, pb, qa, qb, x, y, z, rfl, rfl, acca, accb, hx, hy, hz, e.symm⟩
    · obtain ⟨pa, pb, qa, qb, x, y, z, rfl, rfl, acca, accb, hx, hy, hz, rfl⟩ :=
        (a2.sum_call b2 _ _ _).mp h
      have ha' : ∀ p ∈ pa, P p := fun p h => hp p (by simp [h])
      have hb' : ∀ p ∈ pb, P p := fun p h => hp p (by simp [h])
      have me := (a3 _ _ _ ha').2 hn.1 ((a2.call_iff _ _ _).mpr ⟨acca, x, hx, rfl⟩)
      have mf := (b3 _ _ _ hb').2 hn.2 ((b2.call_iff _ _ _).mpr ⟨accb, y, hy, rfl⟩)
      obtain ⟨z', hz', e⟩ := Arr.add_sized ((me.length hae ha').trans (mf.length haf hb').symm)
      rw [hz] at hz'
      cases hz'
      rw [e]
      exact .add me mf

end Expr

/-- C72: every expression over leaf constructions with the same number `n` of entries is accepted
by Python's operators, and calling the object it builds on the arguments of the operands, one after
the other, returns the value of the expression.  Without `Scalar()` parameters it returns nothing
else: the call raises if the expression has no value on the arguments. -/
theorem C72_expression (e : Expr K) (ha : ∀ c ∈ e.atoms, LeafOf P n c) :
    ∃ c, e.build = .ok c ∧
      (∀ ps qs v, (∀ p ∈ ps, P p) → e.Means ps qs v → c.call ps qs = .ok v) ∧
      (e.Numbers → ∀ ps qs v, (∀ p ∈ ps, P p) → (c.call ps qs = .ok v ↔ e.Means ps qs v)) := by
  obtain ⟨c, h1, _, h3⟩ := e.build_call ha
  exact ⟨c, h1, fun ps qs v hp => (h3 ps qs v hp).1,
    fun hn ps qs v hp => ⟨(h3 ps qs v hp).2 hn, (h3 ps qs v hp).1⟩⟩

/-- C72: there is no way to add a number to a construction, although the annotations of `+` say so:
`c + 1.0` and `1.0 + c` raise `AttributeError`. -/
theorem C72_number_counterexample (c : Cons K) (s : K) :
    pyAdd c (.num s) = .error .attributeError ∧ pyRadd c s = .error .attributeError := ⟨rfl, rfl⟩

end

/-- C72: over the reals, `a + -b` is the entrywise difference. -/
theorem C72_difference {P : Prim Flt → Prop} {n : Nat} (a b : Cons Flt) (ha : LeafOf P n a)
    (hb : LeafOf P n b) : ∃ c, (Expr.add (.atom a) (.neg (.atom b))).build = .ok c ∧
      ∀ pa pb qa qb va vb, (∀ p ∈ pa ++ pb, P p) → a.call pa qa = .ok va → b.call pb qb = .ok vb →
        c.call (pa ++ pb) (qa ++ qb) = .ok (List.zipWith (· - ·) va vb) := by
  obtain ⟨c, h1, h2, _⟩ := C72_expression (P := P) (n := n) (Expr.add (.atom a) (.neg (.atom b)))
    (by simp [Expr.atoms, ha, hb])
  refine ⟨c, h1, fun pa pb qa qb va vb hp h3 h4 => ?_⟩
  have := h2 _ _ _ hp (.add (.atom h3) (.neg (.atom h4)))
  rw [this]
  congr 1
  rw [List.zipWith_map_right]
  congr 1
  funext x y
  rw [C26_neg_one_mul]
  cases x <;> cases y <;> simp [sub_eq_add_neg]

/-- C72: over the reals, an expression that only uses numbers can be rearranged: scaling twice is
scaling once, and a scaled sum is the sum of the scaled operands. -/
theorem C72_linear {P : Prim Flt → Prop} {n : Nat} (a b : Cons Flt) (ha : LeafOf P n a)
    (hb : LeafOf P n b) (s t : ℝ) :
    ∃ c₁ c₂ c₃ c₄, (Expr.mul (.mul (.atom a) (.fin s)) (.fin t)).build = .ok c₁ ∧
      (Expr.mul (.atom a) (.fin (s * t))).build = .ok c₂ ∧
      (Expr.mul (.add (.atom a) (.atom b)) (.fin s)).build = .ok c₃ ∧
      (Expr.add (.mul (.atom a) (.fin s)) (.mul (.atom b) (.fin s))).build = .ok c₄ ∧
      ∀ ps qs v, (∀ p ∈ ps, P p) → (c₁.call ps qs = .ok v ↔ c₂.call ps qs = .ok v) ∧
        (c₃.call ps qs = .ok v ↔ c₄.call ps qs = .ok v) := by
  obtain ⟨c₁, b₁, _, h₁⟩ := C72_expression (P := P) (n := n)
    (Expr.mul (.mul (.atom a) (.fin s)) (.fin t)) (by simp [Expr.atoms, ha])
  obtain ⟨c₂, b₂, _, h₂⟩ := C72_expression (P := P) (n := n)
    (Expr.mul (.atom a) (.fin (s * t))) (by simp [Expr.atoms, ha])
  obtain ⟨c₃, b₃, _, h₃⟩ := C72_expression (P := P) (n := n)
    (Expr.mul (.add (.atom a) (.atom b)) (.fin s)) (by simp [Expr.atoms, ha, hb])
  obtain ⟨c₄, b₄, _, h₄⟩ := C72_expression (P := P) (n := n)
    (Expr.add (.mul (.atom a) (.fin s)) (.mul (.atom b) (.fin s))) (by simp [Expr.atoms, ha, hb])
  refine ⟨c₁, c₂, c₃, c₄, b₁, b₂, b₃, b₄, fun ps qs v hp => ⟨?_, ?_⟩⟩
  · rw [h₁ trivial ps qs v hp, h₂ trivial ps qs v hp]
    have hst : ∀ x : Flt, Flt.fin t * (Flt.fin s * x) = Flt.fin (s * t) * x := by
      intro x
      cases x with
      | fin x => simp only [Flt.fin_mul]; congr 1; ring
      | bad => simp
    constructor
    · intro h
      cases h with
      | mul h => cases h with
        | mul h => 
          rw [List.map_map]
          have := Expr.Means.mul (s := Flt.fin (s * t)) h
          simpa only [Function.comp_def, hst] using this
    · intro h
      cases h with
      | mul h =>
        have := Expr.Means.mul (s := Flt.fin t) (Expr.Means.mul (s := Flt.fin s) h)
        rw [List.map_map] at this
        simpa only [Function.comp_def, hst] using this
  · rw [h₃ ⟨trivial, trivial⟩ ps qs v hp, h₄ ⟨trivial, trivial⟩ ps qs v hp]
    have hd : ∀ x y : Flt, Flt.fin s * (x + y) = Flt.fin s * x + Flt.fin s * y := by
      intro x y
      cases x with
      | fin x => cases y with
        | fin y => simp only [Flt.fin_mul, Flt.fin_add]; congr 1; ring
        | bad => simp
      | bad => simp
    constructor
    · intro h
      cases h with
      | mul h => cases h with
        | add h k =>
          have := Expr.Means.add (Expr.Means.mul (s := Flt.fin s) h)
            (Expr.Means.mul (s := Flt.fin s) k)
          rw [List.map_zipWith]
          rw [List.zipWith_map] at this
          simpa only [hd] using this
    · intro h
      cases h with
      | add h k => cases h with
        | mul h => cases k with
          | mul k =>
            have := Expr.Means.mul (s := Flt.fin s) (Expr.Means.add h k)
            rw [List.map_zipWith] at this
            rw [List.zipWith_map]
            simpa only [hd] using this

/-! ### Examples -/

/-- A parameterless leaf construction whose `assem` returns `n` entries. -/
theorem leafOf_leaf0 [PyNum K] {P : Prim K → Prop} {n : Nat} {name : Str} {types : List PrimType}
    {f : List (Prim K) → Py (Arr K)}
    (h : ∀ ps a, (∀ p ∈ ps, P p) → f ps = .ok a → a.atleast1d.length = n) :
    LeafOf P n (con.leaf0 name types n f) := by
  refine ⟨_, _, rfl, rfl, rfl, fun ps qs v hp hc => ?_⟩
  obtain ⟨_, a, ha, rfl⟩ := (leaf_call _ _ ps qs v).mp hc
  cases qs with
  | nil => exact h ps a hp ha
  | cons => cases ha

theorem dot_scalar [PyNum K] {xs ys : List K} {a : Arr K}
    (h : Arr.dot (.vec xs) (.vec ys) = .ok a) : a.atleast1d.length = 1 := by
  simp only [Arr.dot] at h
  split at h
  · cases h; rfl
  · cases h

/-- The signed distances of two points and the length of a line: expressions may combine them. -/
example : LeafOf (fun _ => True) 1 (con.xDistance : Cons Flt) ∧
    LeafOf (fun _ => True) 1 (con.length : Cons Flt) ∧
    LeafOf (fun p => p.value.arr.length = 2) 2 (con.coordinate : Cons Flt) := by
  refine ⟨leafOf_leaf0 ?_, leafOf_leaf0 ?_, leafOf_leaf0 ?_⟩
  · intro ps a _ h
    simp only [con.directedDistanceA] at h
    split at h
    · obtain ⟨d, hd, hdot⟩ := py_bind_ok.mp h
      obtain ⟨ys, rfl⟩ : ∃ ys, d = .vec ys := by
        simp only [Arr.sub, Arr.binop] at hd
        repeat' split at hd
        all_goals first | (cases hd; exact ⟨_, rfl⟩) | cases hd
      exact dot_scalar hdot
    · cases h
  · intro ps a _ h
    simp only [con.lengthA] at h
    split at h
    · obtain ⟨_, _, h⟩ := py_bind_ok.mp h
      obtain ⟨_, _, h⟩ := py_bind_ok.mp h
      cases h; rfl
    · cases h
  · intro ps a hp h
    simp only [con.coordinateA] at h
    split at h
    · cases h; simpa [Arr.atleast1d] using hp
    · cases h

/-- Rationals, to compute an example. -/
local instance exampleNum' : PyNum Rat where
  natCast n := n
  sqrt x := x
  pow x y := if 0 ≤ y then x ^ y.num.toNat else (x ^ (-y).num.toNat)⁻¹
  atan2 _ _ := 0
  cos _ := 0
  sin _ := 0
  acos _ := 0
  pi := 3
  truthy x := x != 0
  lt x y := x < y
  le x y := x ≤ y

/-- `(XDistance() + -(YDistance() ** 2)) / 2 * Scalar()` with the factor 10: from the points
`(1, 2)`, `(4, 9)` and `(0, 0)`, `(0, 3)` it is `(3 - 9) / 2 * 10`. -/
example : callPy (Expr.mulSc (.div (.add (.atom con.xDistance)
      (.neg (.pow (.atom con.yDistance) 2))) 2)).build
    [.mk .point ⟨1, [1, 2]⟩ [], .mk .point ⟨1, [4, 9]⟩ [], .mk .point ⟨1, [0, 0]⟩ [],
     .mk .point ⟨1, [0, 3]⟩ []] [.num 10] = .ok [(-30 : Rat)] := by decide +kernel

end MplLayout.Props
