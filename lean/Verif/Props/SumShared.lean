import Verif.Lemmas.SumShared
import Verif.Props.Constructions

/-!
# C24: sums of compound constructions on the same primitives
-/

namespace MplLayout.Props

open Cons

variable {K : Type}

section
variable [PyNum K]

/-- C24 for compound constructions whose second operand refers to its arguments as the first does: if the
second operand's primitives are the first ones of the first operand's (the same ones, say), `a + b`
evaluated on both argument lists is the entrywise sum. -/
theorem C24_shared_partial (a b : Cons K) (ha : a.WF) (hb : b.WF) (hshape : a.SameShape b)
    (pa pb : List (Prim K)) (hp : pb <+: pa) (href : a.RefersAlike b) (qa qb : List (Param K)) (va vb : List K)
    (hca : a.Consistent qa) (hcb : b.Consistent qb) (hza : a.Sized pa qa) (hzb : b.Sized pb qb)
    (hea : a.call pa qa = .ok va) (heb : b.call pb qb = .ok vb) :
    ∃ s, transformSum a b = .ok s ∧ va.length = vb.length ∧
      s.call (pa ++ pb) (qa ++ qb) = .ok (List.zipWith (· + ·) va vb) := by
  have hsh : Shape a b := (Shape_iff ha hb).mpr hshape
  rcases transformSum_cases a b ha with ⟨_, h⟩ | ⟨h, _⟩
  · refine ⟨_, h, ?_, sum_call_shared ha hsh (.inr ⟨hp, href⟩) hca hcb hza hzb hb hea heb⟩
    have ea := (call_ok_iff a ha pa qa hca.aligned va).mp hea
    have eb := (call_ok_iff b hb pb qb hcb.aligned vb).mp heb
    exact (sum_eval_shared a b hsh pa pb qa qb va vb (.inr ⟨hp, href⟩) ea.1.1.length_eq
      eb.1.1.length_eq hca hcb hza hzb ea.2 eb.2).1
  · exact absurd hsh h

/-- The case that covers all shipped compound constructions: no grandchild of the second operand
takes a primitive. -/
theorem C24_same_primitives_partial (a b : Cons K) (ha : a.WF) (hb : b.WF) (hshape : a.SameShape b)
    (hkids : ∀ kc ∈ b.children, NoPrimRefs kc.2)
    (ps : List (Prim K)) (qa qb : List (Param K)) (va vb : List K)
    (hca : a.Consistent qa) (hcb : b.Consistent qb) (hza : a.Sized ps qa) (hzb : b.Sized ps qb)
    (hea : a.call ps qa = .ok va) (heb : b.call ps qb = .ok vb) :
    ∃ s, transformSum a b = .ok s ∧ va.length = vb.length ∧
      s.call (ps ++ ps) (qa ++ qb) = .ok (List.zipWith (· + ·) va vb) := by
  refine C24_shared_partial a b ha hb hshape ps ps (List.prefix_refl _) ?_ qa qb va vb hca hcb hza hzb hea heb
  cases a with
  | mk t v cs =>
  cases b with
  | mk t' v' ds =>
  simp only [RefersAlike, Node.children_mk] at hkids ⊢
  generalize v.childPrimKeys = kss
  generalize v'.childPrimKeys = kss'
  clear hea heb hza hzb hca hcb hshape ha hb
  induction cs generalizing ds kss kss' with
  | nil => cases ds <;> trivial
  | cons c cs ih =>
    obtain ⟨k, c⟩ := c
    cases ds with
    | nil => trivial
    | cons d ds =>
      obtain ⟨k', d⟩ := d
      cases kss with
      | nil => trivial
      | cons ks kss =>
        cases kss' with
        | nil => trivial
        | cons ks' kss' =>
          exact ⟨.inl (hkids (k', d) (by simp)), ih ds (fun kc h => hkids kc (List.mem_cons_of_mem _ h)) kss kss'⟩

end

/-- Rationals, with dummy roots and angles: enough to run examples by computation. -/
local instance sumExampleNum : PyNum Rat where
  natCast n := n
  sqrt x := x
  pow x y := if 0 ≤ y then x ^ y.num.toNat else (x ^ (-y).num.toNat)⁻¹
  atan2 _ _ := 0
  cos _ := 0
  sin _ := 0
  acos _ := 0
  pi := 3
  truthy x := x != 0
  lt x y := x < y
  le x y := x ≤ y

/-- Margins between the same two boxes: the sum of the outer and the inner left margin is right, and so
is twice the width. -/
example :
    callPy (con.margin true .left) [exRect 5 0 6 1, exRect 0 0 2 1] [] = .ok [(3 : Rat)] ∧
    callPy (con.margin false .left) [exRect 5 0 6 1, exRect 0 0 2 1] [] = .ok [(5 : Rat)] ∧
    callPy (do transformSum (← con.margin true .left) (← con.margin false .left))
      [exRect 5 0 6 1, exRect 0 0 2 1, exRect 5 0 6 1, exRect 0 0 2 1] [] = .ok [(8 : Rat)] := by
  refine ⟨?_, ?_, ?_⟩ <;> decide +kernel

/-- The two boxes of the example. -/
def sumBoxes : List (Prim Rat) := [exRect 5 0 6 1, exRect 0 0 2 1]

/-- A margin with one leaf child meets the hypotheses. -/
theorem oneLeaf_ok {cls : ConsClass Rat} {k : Str} {ks : List Str} {f : List (Prim Rat) → Py (Arr Rat)}
    {sig : ConsSig} {name : Str} (hk : ks.length = 2) (hs : sig.valueSize = 0) (hp : sig.paramTypes = [])
    (hc : cls.assem = compoundAssem 0) (cps : List (Prim Rat)) (hr : pyMap (resolve sumBoxes) ks = .ok cps)
    (x : Rat) (hx : f cps = .ok (.scalar x)) :
    let c : Cons Rat := .mk cls ⟨[ks], fun _ => .ok [[]], sig⟩ [(k, con.leaf0 name [.line, .line] 1 f)]
    c.WF ∧ (∀ kc ∈ c.children, NoPrimRefs kc.2) ∧ c.Consistent [] ∧ c.Sized sumBoxes [] := by
  refine ⟨?_, ?_, ?_, ?_⟩
  · rw [Node.WF_mk]
    refine ⟨by simp, ?_⟩
    intro k c h
    simp only [List.mem_singleton, Prod.mk.injEq] at h
    rw [h.2]; exact leaf_WF _ _
  · intro kc h
    simp only [Node.children_mk, List.mem_singleton] at h
    rw [h]; exact leaf_noPrimRefs _ _
  · refine ⟨by simp [hp], rfl, ?_⟩
    rintro _ ⟨⟩
    exact ⟨le_rfl, hk, leaf_consistent _ _ _ rfl, trivial⟩
  · refine ⟨?_, ?_⟩
    · intro own h
      rw [hc] at h
      cases h
      exact hs.symm
    · rintro _ ⟨⟩
      refine ⟨?_, trivial⟩
      intro cps' h
      rw [hr] at h
      cases h
      refine leaf_sized _ _ _ _ fun a ha => ?_
      have ha : f cps = .ok a := ha
      rw [hx] at ha
      cases ha
      rfl

/-- The margins meet the hypotheses of `C24_same_primitives_partial`. -/
example : ∃ a b : Cons Rat, con.margin true .left = .ok a ∧ con.margin false .left = .ok b ∧ a.WF ∧ b.WF ∧
    a.SameShape b ∧ (∀ kc ∈ b.children, NoPrimRefs kc.2) ∧ a.Consistent [] ∧ b.Consistent [] ∧
    a.Sized sumBoxes [] ∧ b.Sized sumBoxes [] := by
  have ha := oneLeaf_ok (cls := { name := k!"OuterMargin", assem := compoundAssem 0 }) (k := k!"LeftMargin")
    (ks := [k!"arg1/Line1", k!"arg0/Line3"]) (f := con.midpointDirectedDistanceA con.ex)
    (sig := ⟨[.quadrilateral, .quadrilateral], [], 0⟩) (name := k!"MidpointXDistance") rfl rfl rfl rfl _ rfl 3
    (by decide +kernel)
  have hb := oneLeaf_ok (cls := { name := k!"InnerMargin", assem := compoundAssem 0 }) (k := k!"LeftMargin")
    (ks := [k!"arg1/Line3", k!"arg0/Line3"]) (f := con.midpointDirectedDistanceA con.ex)
    (sig := ⟨[.quadrilateral, .quadrilateral], [], 0⟩) (name := k!"MidpointXDistance") rfl rfl rfl rfl _ rfl 5
    (by decide +kernel)
  refine ⟨_, _, rfl, rfl, ha.1, hb.1, ?_, hb.2.1, ha.2.2.1, hb.2.2.1, ha.2.2.2, hb.2.2.2⟩
  refine (Shape_iff ha.1 hb.1).mp ?_
  exact ⟨rfl, rfl, ⟨rfl, rfl, trivial⟩, trivial⟩

end MplLayout.Props
