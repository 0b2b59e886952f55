import Verif.Props.Round
import Verif.Props.Layout
import Verif.Spec.RoundSolve
import Verif.Lemmas.AffineSolve
import Verif.Lemmas.SolveKeeps

/-!
# C100: layouts that are satisfied in floating point

What C50 and C56 say for exact numbers, for the numbers of a floating point format.
-/

namespace MplLayout.Props

open Flt Solver

variable {f : FloatFormat}

theorem rnd_add_zero (x : Rnd f) : x + 0 = x := by
  apply Rnd.ext'
  show (Rnd.round f (x.val + fin 0)).val = _
  cases h : x.val with
  | bad => rfl
  | fin y =>
    show f.rnd (y + 0) = _
    rw [add_zero, f.rnd_of_mem _ (x.mem y h)]

theorem rnd_neg_zero : -(0 : Rnd f) = 0 := by
  apply Rnd.ext'
  show f.rnd (-0) = fin 0
  rw [neg_zero, f.rnd_of_mem _ f.zero_mem]

theorem rnd_eq_zero {x : Rnd f} (h : x.val = fin 0) : x = 0 := Rnd.ext' h

theorem zeros_replicate {v : List (Rnd f)} (hz : ∀ x ∈ v, x.val = fin 0) : v = List.replicate v.length 0 :=
  List.eq_replicate_iff.mpr ⟨rfl, fun x hx => rnd_eq_zero (hz x hx)⟩

theorem vecAdd_zeros (g : List (Rnd f)) : vecAdd g (List.replicate g.length 0) = .ok g := by
  simp only [vecAdd, List.length_replicate, if_true]
  congr 1
  induction g with
  | nil => rfl
  | cons x g ih => rw [List.length_cons, List.replicate_succ, List.zipWith_cons_cons, ih, rnd_add_zero]

/-- A step does not move. -/
theorem zero_step {num : Numerics (Rnd f)} {res : List (Rnd f) → Py (List (Rnd f))} {g v : List (Rnd f)}
    (hres : res g = .ok v) (hz : ∀ x ∈ v, x.val = fin 0) {J : List (List (Rnd f))} (hJ : num.jacobian res g = .ok J)
    (hl : num.lstsq g.length J (List.replicate v.length 0) = .ok (List.replicate g.length 0))
    (s : NewtonState (Rnd f)) (hs : s.param = g) :
    ∃ s', newtonStep num res s = .ok s' ∧ s'.param = g ∧ s'.n = s.n + 1 := by
  have hneg : (v.map fun x => -x) = List.replicate v.length 0 := by
    rw [List.eq_replicate_iff]
    refine ⟨by simp, fun x hx => ?_⟩
    obtain ⟨y, hy, rfl⟩ := List.mem_map.mp hx
    rw [rnd_eq_zero (hz y hy), rnd_neg_zero]
  subst hs
  refine ⟨⟨s.param, s.n + 1, some (npNorm v), some (npNorm v / (s.absErrs ++ [npNorm v]).headD (npNorm v)),
    s.absErrs ++ [npNorm v], s.relErrs ++ [npNorm v / (s.absErrs ++ [npNorm v]).headD (npNorm v)]⟩, ?_, rfl, rfl⟩
  simp only [newtonStep, hres, hJ, hneg, hl, vecAdd_zeros, bind, Except.bind]

/-- The loop does not move. -/
theorem zero_loop {num : Numerics (Rnd f)} {res : List (Rnd f) → Py (List (Rnd f))} {g v : List (Rnd f)}
    (hres : res g = .ok v) (hz : ∀ x ∈ v, x.val = fin 0) {J : List (List (Rnd f))} (hJ : num.jacobian res g = .ok J)
    (hl : num.lstsq g.length J (List.replicate v.length 0) = .ok (List.replicate g.length 0))
    (absTol relTol : Rnd f) (maxIter : Int) (fuel : Nat) :
    ∀ s : NewtonState (Rnd f), s.param = g → maxIter.toNat - s.n < fuel →
      ∃ s', newtonLoop num res absTol relTol maxIter fuel s = some (.ok s') ∧ s'.param = g := by
  induction fuel with
  | zero => intro s _ h; omega
  | succ fuel ih =>
    intro s hs hfuel
    by_cases hc : continues absTol relTol maxIter s = true
    · obtain ⟨s1, e1, p1, p2⟩ := zero_step hres hz hJ hl s hs
      have hlt : (s.n : Int) < maxIter := by
        simp only [continues, Bool.and_eq_true, decide_eq_true_eq] at hc
        exact hc.2
      obtain ⟨s2, f1, f2⟩ := ih s1 p1 (by omega)
      refine ⟨s2, ?_, f2⟩
      simp only [newtonLoop, hc, if_true, e1]
      exact f1
    · refine ⟨s, ?_, hs⟩
      simp only [newtonLoop, hc, if_false, Bool.false_eq_true]

theorem ships_nip {K : Type} [PyNum K] {ops : List (LayoutOp K)} (h : ∀ op ∈ ops, op.Ships) (id : Nat) :
    AllN NIP ((Layout.empty id).run ops).cons :=
  run_all (P := NIP) (fun _ _ => rfl) (fun op ho => (h op ho).1)
    (fun c ks ps k hm => by obtain ⟨s, e⟩ := (h _ hm).2 c ks ps k rfl; exact make_nip e) id

/-- C100: let a layout be made by any calls that add trees and shipped constraints, and let all entries of its
residual be *computed* as zero, in any floating point format.  If the derivatives are computed as finite
numbers, the Newton method returns exactly the coordinates of the layout (no number changes, in no digit), for
all tolerances and numbers of iterations. -/
theorem C100_left_alone (id : Nat) (ops : List (LayoutOp (Rnd f))) (hops : ∀ op ∈ ops, op.Ships)
    (l : Layout (Rnd f)) (hl : l = (Layout.empty id).run ops) (hok : PrimOK l.prim)
    (v : List (Rnd f)) (hv : l.residual l.prim = .ok v) (hz : ∀ x ∈ v, x.val = fin 0)
    (base : Nat) (num : Numerics (Rnd f)) (hnum : num.ZeroForZero)
    (hjac : ∀ g, globalParam l = .ok g →
      ∃ J, num.jacobian (globalRes l base) g = .ok J ∧ FiniteArray v.length g.length J)
    (absTol relTol : Rnd f) (maxIter : Int) :
    ∃ r info, solveNewton num l base absTol relTol maxIter = .ok (r, info) ∧ SameGeometry l.prim r := by
  have hg := globalParam_eq l hok
  obtain ⟨r, e1, e2⟩ := rebuild_self l hok base hg
  have hr : r.WF := (rebuild_primOK l hok base _ (globalParam_length hg) e1).wf
  have hres : globalRes l base (primValues l).flatten = .ok v := by
    simp only [globalRes, e1, bind, Except.bind]
    rw [← residual_geometry (by rw [hl]; exact ships_nip hops id) hok.wf hr e2, hv]
  obtain ⟨J, hJ, hf⟩ := hjac _ hg
  obtain ⟨s, h1, h2⟩ := zero_loop hres hz hJ (hnum _ _ _ hf) absTol relTol maxIter (maxIter.toNat + 1)
    { param := (primValues l).flatten } rfl (by simp)
  exact ⟨r, _, solveNewton_eq hg h1 (by rw [h2, e1]), e2⟩

/-- C100: all entries of the residual of a layout are computed as zero exactly if all its constraints, called with
the primitives under their keys and their parameters, are computed as zero. -/
theorem C100_all_constraints (id : Nat) (ops : List (LayoutOp (Rnd f))) (hr : ∀ op ∈ ops, op.Regular)
    (ht : ∀ op ∈ ops, op.TopLevel) (l : Layout (Rnd f)) (hl : l = (Layout.empty id).run ops)
    (hne : (Layout.empty id).added ops ≠ []) :
    (∃ v, l.residual l.prim = .ok v ∧ ∀ x ∈ v, x.val = fin 0) ↔
      ∀ a ∈ (Layout.empty id).added ops, ∃ prims,
        List.Forall₂ (fun k p => l.prim.getChild k = .ok p) a.primKeys prims ∧ Vanishes (.ok a.c) prims a.param := by
  subst hl
  constructor
  · rintro ⟨v, hv, hz⟩ a ha
    obtain ⟨_, vs, h1, rfl⟩ := (C50_residual_partial id ops hr ht _ (fun _ p h => ⟨p, h, rfl⟩) v).mp hv
    obtain ⟨w, hw, prims, h2, h3⟩ : ∃ w ∈ vs, a.Value ((Layout.empty id).run ops).prim w := by
      clear hv hz hne
      generalize (Layout.empty id).added ops = as at h1 ha
      induction h1 with
      | nil => cases ha
      | cons h _ ih =>
        rcases List.mem_cons.mp ha with rfl | ha
        · exact ⟨_, by simp, h⟩
        · obtain ⟨w, hw, h⟩ := ih ha
          exact ⟨w, List.mem_cons_of_mem _ hw, h⟩
    exact ⟨prims, h2, _, w, rfl, h3, fun x hx => hz x (List.mem_flatten.mpr ⟨w, hw, hx⟩)⟩
  · intro h
    have : ∃ vs : List (List (Rnd f)), List.Forall₂ (fun a w => a.Value ((Layout.empty id).run ops).prim w ∧
        ∀ x ∈ w, x.val = fin 0) ((Layout.empty id).added ops) vs := by
      clear hne
      generalize (Layout.empty id).added ops = as at h
      induction as with
      | nil => exact ⟨[], .nil⟩
      | cons a as ih =>
        obtain ⟨vs, hvs⟩ := ih fun b hb => h b (List.mem_cons_of_mem _ hb)
        obtain ⟨prims, h2, c, w, hc, h3, h4⟩ := h a (by simp)
        cases hc
        exact ⟨w :: vs, .cons ⟨⟨prims, h2, h3⟩, h4⟩ hvs⟩
    obtain ⟨vs, hvs⟩ := this
    refine ⟨vs.flatten, (C50_residual_partial id ops hr ht _ (fun _ p h => ⟨p, h, rfl⟩) _).mpr
      ⟨hne, vs, hvs.imp fun _ _ h => h.1, rfl⟩, fun x hx => ?_⟩
    obtain ⟨w, hw, hxw⟩ := List.mem_flatten.mp hx
    clear hne h hx
    generalize (Layout.empty id).added ops = as at hvs
    induction hvs with
    | nil => cases hw
    | cons h _ ih =>
      rcases List.mem_cons.mp hw with rfl | hw
      · exact h.2 x hxw
      · exact ih hw

/-- A point at given coordinates, in the array `i`. -/
def rndPoint (i : Nat) (a : Rnd f × Rnd f) : Prim (Rnd f) := .mk .point ⟨i, [a.1, a.2]⟩ []

/-- Two points and a constraint that they coincide. -/
noncomputable def rndOps (a b : Rnd f × Rnd f) : List (LayoutOp (Rnd f)) :=
  [.addPrim (rndPoint 1 a) k!"A", .addPrim (rndPoint 2 b) k!"B",
   .addConstraint ct.coincident [k!"A", k!"B"] [] k!"c"]

theorem rndOps_prim (a b : Rnd f × Rnd f) : ((Layout.empty 0).run (rndOps a b)).prim =
    .mk .primitiveNode ⟨0, []⟩ [(k!"A", rndPoint 1 a), (k!"B", rndPoint 2 b)] := rfl

theorem rndOps_ok (a b : Rnd f × Rnd f) : PrimOK ((Layout.empty 0).run (rndOps a b)).prim := by
  rw [rndOps_prim]
  obtain ⟨h1, h2⟩ := (Node.goodB_iff (Node.mk .primitiveNode ⟨0, []⟩ [(k!"A", rndPoint 1 a), (k!"B", rndPoint 2 b)])).mp rfl
  refine ⟨h1, h2, ?_⟩
  have key : ∀ p (m : Prim (Rnd f)), Node.At (.mk .primitiveNode ⟨0, []⟩ [(k!"A", rndPoint 1 a), (k!"B", rndPoint 2 b)]) p m →
      m.value = ⟨0, []⟩ ∨ m.value = ⟨1, [a.1, a.2]⟩ ∨ m.value = ⟨2, [b.1, b.2]⟩ := by
    intro p m h
    cases h with
    | here => exact .inl rfl
    | down hc h =>
      simp only [List.mem_cons, Prod.mk.injEq, List.not_mem_nil, or_false, Node.children_mk] at hc
      rcases hc with ⟨_, rfl⟩ | ⟨_, rfl⟩
      · cases h with
        | here => exact .inr (.inl rfl)
        | down hc _ => cases hc
      · cases h with
        | here => exact .inr (.inr rfl)
        | down hc _ => cases hc
  intro p1 p2 m1 m2 hm1 hm2 hid
  rcases key _ _ hm1 with e | e | e <;> rcases key _ _ hm2 with e' | e' | e' <;> rw [e, e'] at hid ⊢ <;> cases hid

theorem rndOps_ships (a b : Rnd f × Rnd f) : ∀ op ∈ rndOps a b, op.Ships ∧ op.TopLevel ∧ op.Regular := by
  have hw : ∀ i a, (rndPoint i a : Prim (Rnd f)).WF := fun i a => ((Node.goodB_iff _).mp rfl).1
  intro op ho
  simp only [rndOps, List.mem_cons, List.not_mem_nil, or_false] at ho
  have hn : '/' ∉ (ct.coincident (K := Rnd f)).ty.name := by
    show '/' ∉ k!"Coincident"
    decide
  rcases ho with rfl | rfl | rfl
  · exact ⟨⟨hw 1 a, by simp⟩, trivial, hw 1 a⟩
  · exact ⟨⟨hw 2 b, by simp⟩, trivial, hw 2 b⟩
  · refine ⟨⟨⟨((Node.goodB_iff _).mp rfl).1, hn⟩, ?_⟩, by show '/' ∉ k!"c"; decide, hn, ?_⟩
    · rintro c ks ps key ⟨⟩
      exact ⟨.coincident, rfl⟩
    · intro _ _
      refine ⟨?_, ?_, ?_, ?_⟩
      · exact ((Node.goodB_iff _).mp rfl).1
      · simp only [ct.coincident, con.leaf0, leaf, Cons.Aligned]
        refine ⟨rfl, fun pss _ => ⟨Nat.zero_le _, ?_⟩⟩
        simp [Cons.AlignedL]
      · exact ⟨_, rfl⟩
      · exact ⟨_, rfl⟩

/-- The hypotheses can be met: two points at the same place. -/
example (hf : f.Gradual) (a : f.nums × f.nums) :
    (∀ op ∈ rndOps (Rnd.pt a) (Rnd.pt a), op.Ships ∧ op.TopLevel ∧ op.Regular) ∧
    PrimOK ((Layout.empty 0).run (rndOps (Rnd.pt a) (Rnd.pt a))).prim ∧
    (Layout.empty 0).added (rndOps (Rnd.pt a) (Rnd.pt a)) ≠ [] ∧
    ∃ v, ((Layout.empty 0).run (rndOps (Rnd.pt a) (Rnd.pt a))).residual
      ((Layout.empty 0).run (rndOps (Rnd.pt a) (Rnd.pt a))).prim = .ok v ∧ ∀ x ∈ v, x.val = fin 0 := by
  have ha : (Layout.empty 0).added (rndOps (Rnd.pt a) (Rnd.pt a)) = [⟨ct.coincident, [k!"A", k!"B"], []⟩] := rfl
  refine ⟨rndOps_ships _ _, rndOps_ok _ _, by simp [ha], ?_⟩
  refine (C100_all_constraints 0 _ (fun op h => (rndOps_ships _ _ op h).2.2)
    (fun op h => (rndOps_ships _ _ op h).2.1) _ rfl (by simp [ha])).mpr ?_
  rw [ha, List.forall_mem_singleton]
  exact ⟨[rndPoint 1 (Rnd.pt a), rndPoint 2 (Rnd.pt a)], .cons rfl (.cons rfl .nil),
    (C99_coincident hf ⟨.refl _, rfl⟩ ⟨.refl _, rfl⟩).mpr rfl⟩

end MplLayout.Props
