import Verif.Props.Geometry2

/-!
# The `reverse` argument may be any Python value
-/

namespace MplLayout.Props

open Flt

variable {p l l' : Prim Flt} {a b c d : ℝ × ℝ} {r : Param Flt} {t : Bool}

theorem truthy_of (h : HasTruth r t) : r.truthy = .ok t := by
  have hn : ∀ {x : Flt} {t}, HasTruth (.num x) t → PyNum.truthy x = t := by
    intro x t h
    cases h with
    | zero => simp [PyNum.truthy]
    | num h =>
      cases x with
      | fin x => simpa [PyNum.truthy] using h
      | bad => rfl
  cases h with
  | one h => exact congrArg _ (hn h)
  | zero => exact congrArg _ (hn .zero)
  | num h => exact congrArg _ (hn (.num h))
  | _ => rfl

/-- C39: `reverse` may be given as any Python value that has a truth value (`1`, `None`, ...); only its
truth value matters. -/
theorem C39_truth (hp : IsPoint p c) (h : IsLine l a b) (hne : a ≠ b) (hr : HasTruth r t) :
    Returns con.pointOnLineDistance [p, l] [r] [if t then along b a c else along a b c] ∧
    Returns con.pointToLineDistance [p, l] [r] [if t then - leftOf a b c else leftOf a b c] := by
  have hr := truthy_of hr
  refine ⟨leaf1_returns (.cons hp.1 (.cons h.1 .nil)) (a := .scalar (fin (if t then along b a c else along a b c))) ?_ rfl,
    leaf1_returns (.cons hp.1 (.cons h.1 .nil)) (a := .scalar (fin (if t then - leftOf a b c else leftOf a b c))) ?_ rfl⟩
  · rw [pointOnLine hr hp h, ← pointOnLine (r := .bool t) rfl hp h]
    exact pointOnA hp h hne t
  · rw [pointToLine hr hp h, ← pointToLine (r := .bool t) rfl hp h]
    exact pointToA hp h hne t

/-- C32, `CoincidentLines`: the same for its `reverse` argument. -/
theorem C32_coincidentLines_truth (h : IsLine l a b) (h' : IsLine l' c d) (hr : HasTruth r t) :
    Satisfied ct.coincidentLines [l, l'] [r] ↔ if t then a = d ∧ b = c else a = c ∧ b = d := by
  rw [satisfied_iff (ev_coincidentLines h h' (truthy_of hr)).returns]
  cases t <;>
  simp only [Bool.false_eq_true, if_false, if_true, List.mem_cons, List.not_mem_nil, or_false,
    forall_eq_or_imp, forall_eq, sub_eq_zero, Prod.ext_iff] <;> tauto

/-- C39: an array with no entry or with several entries has no truth value: the call raises an exception,
whatever the primitives are. -/
theorem C39_no_truth (prims : List (Prim Flt)) (v : List Flt) (hv : v.length ≠ 1) (w : List Flt) :
    (con.pointOnLineDistance : Cons Flt).call prims [.arr v] ≠ .ok w ∧
    (con.pointToLineDistance : Cons Flt).call prims [.arr v] ≠ .ok w := by
  have ht : (Param.arr v).truthy = .error .valueError := by
    match v, hv with
    | [], _ => rfl
    | _ :: _ :: _, _ => rfl
    | [_], hv => exact absurd rfl hv
  constructor <;> intro h <;> obtain ⟨-, x, hx, -⟩ := (Cons.leaf_call _ _ _ _ _).mp h
  · have hx : con.pointOnLineDistanceA prims (.arr v) = .ok x := hx
    match prims with
    | [] | [_] | _ :: _ :: _ :: _ => cases hx
    | [p, l] =>
      simp only [con.pointOnLineDistanceA, ht, bind, Except.bind] at hx
      cases hx
  · have hx : con.pointToLineDistanceA prims (.arr v) = .ok x := hx
    match prims with
    | [] | [_] | _ :: _ :: _ :: _ => cases hx
    | [p, l] =>
      simp only [con.pointToLineDistanceA, ht, bind, Except.bind] at hx
      split at hx <;> cases hx

/-- `None` and `0` mean `reverse=False`, `1` means `reverse=True`. -/
example : HasTruth .none false ∧ HasTruth (.num (fin 0)) false ∧ HasTruth (.num (fin 1)) true :=
  ⟨.none, .zero, .num (by simp)⟩

end MplLayout.Props
