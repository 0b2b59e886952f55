import Verif.Spec.Scale
import Verif.Spec.Solver

/-!
# Mixtures: histories that differ only in numbers, the third being a mixture of the first two
-/

namespace MplLayout

open Flt

/-- Two numbers and their mixture `(1 - t) a + t b`. -/
noncomputable def mix (t : ℝ) : Fin 3 → ℝ × ℝ → ℝ
  | 0, ab => ab.1
  | 1, ab => ab.2
  | 2, ab => (1 - t) * ab.1 + t * ab.2

/-- The value of a node of the first, the second and the mixed tree. -/
noncomputable def mixF (t : ℝ) (i : Fin 3) (v : Nat × List (ℝ × ℝ)) : PVal Flt := ⟨v.1, v.2.map fun ab => fin (mix t i ab)⟩

/-- Two parameters and their mixture. -/
inductive Param.Mixed (t : ℝ) : (Fin 3 → Param Flt) → Prop
  | num (ab : ℝ × ℝ) : Param.Mixed t fun i => .num (fin (mix t i ab))
  | arr (abs : List (ℝ × ℝ)) : Param.Mixed t fun i => .arr (abs.map fun ab => fin (mix t i ab))
  | seq (qs : List (Fin 3 → Param Flt)) (h : ∀ q ∈ qs, Param.Mixed t q) : Param.Mixed t fun i => .seq (qs.map (· i))
  | axis (a : MplAxis Flt) (w h : ℝ × ℝ) : Param.Mixed t fun i =>
      .axis { a with figWidth := fin (mix t i w), figHeight := fin (mix t i h) }
  | same (p : Param Flt) : Param.Mixed t fun _ => p

/-- The same call in the first, the second and the mixed history: its coordinates and its lengths are
mixed; directions and flags are equal. -/
inductive LayoutOp.Mixed (t : ℝ) : (Fin 3 → LayoutOp Flt) → Prop
  | addPrim (P : Node PrimType (Nat × List (ℝ × ℝ))) (h : P.WF) (key : Str) :
      LayoutOp.Mixed t fun i => .addPrim (P.mapV (mixF t i)) key
  | addPrims (Ps : List (Str × Node PrimType (Nat × List (ℝ × ℝ)))) (h : ∀ kp ∈ Ps, kp.2.WF) :
      LayoutOp.Mixed t fun i => .addPrims (Ps.map fun kp => (kp.1, kp.2.mapV (mixF t i)))
  | addConstraint (sh : Shipped) (ha : sh.IsAffine) (hsz : sh.SizeOK) (c : Cons Flt) (hc : sh.build = .ok c)
      (ks : List Str) (qs : List (Fin 3 → Param Flt)) (hp : sh.ParamsOK (qs.map (· 0)))
      (hq : ∀ i q, qs[i]? = some q → if sh.lengths i then Param.Mixed t q else ∃ p, q = fun _ => p) (key : Str) :
      LayoutOp.Mixed t fun i => .addConstraint c ks (qs.map (· i)) key

/-- `c` is the mixture of the trees `a` and `b`. -/
def Prim.Mixed (t : ℝ) (a b c : Prim Flt) : Prop :=
  SameStructure a b ∧ SameStructure a c ∧ ∀ p ma mb mc, a.At p ma → b.At p mb → c.At p mc →
    ∃ abs : List (ℝ × ℝ), ma.value.arr = abs.map (fun ab => fin ab.1) ∧ mb.value.arr = abs.map (fun ab => fin ab.2) ∧
      mc.value.arr = abs.map fun ab => fin ((1 - t) * ab.1 + t * ab.2)

end MplLayout
