import Verif.Model.ConsHeap
import Verif.Spec.NodeHeap

/-!
# Vocabulary for constraint objects that are added more than once
-/

namespace MplLayout

variable {τ α K : Type}

/-- The object at address `a`, with everything reachable from it, is the tree `t`. -/
def Heap.Denotes (h : Heap τ α) (a : Nat) (t : Node τ α) : Prop :=
  ∃ p : Picture τ α, Pictured h p ∧ p.addr = a ∧ p.seen = t

/-- What a constructor call can create: at least one object, children before their parents, and
class names without `/`. -/
def CStmt.Formed : CStmt K → Prop
  | .make objs => objs ≠ [] ∧
      ∀ (i : Nat) o, objs[i]? = some o → '/' ∉ o.ty.name ∧ ∀ kc ∈ o.children, kc.2 < i
  | _ => True

/-- Constraints are added at the top level (or under an automatic key). -/
def CStmt.Flat : CStmt K → Prop
  | .addConstraint _ _ _ key => '/' ∉ key
  | _ => True

/-- The outcomes of the statements of a program. -/
def CSession.outcomes (s : CSession K) : List (CStmt K) → List (Py Unit)
  | [] => []
  | st :: prog => (s.step st).2 :: (s.step st).1.outcomes prog

/-- The state of the same program if every variable held a value, so that every use of a variable
were a use of a copy of its own. -/
structure CopySession (K : Type) where
  vars : List (Cons K)
  layout : Layout K

/-- Execute a statement on values. -/
def CopySession.step (s : CopySession K) : CStmt K → CopySession K × Py Unit
  | .make objs => match Heap.tree objs (objs.length - 1) with
    | .ok c => ({ s with vars := s.vars ++ [c] }, .ok ())
    | .error e => (s, .error e)
  | .addPrim prim key =>
    ({ s with layout := (s.layout.addPrim prim key).1 }, (s.layout.addPrim prim key).2)
  | .addConstraint i primKeys param key => match Session.var s.vars i with
    | .ok c => ({ s with layout := (s.layout.addConstraint c primKeys param key).1 },
        (s.layout.addConstraint c primKeys param key).2)
    | .error e => (s, .error e)

/-- Execute a program on values. -/
def CopySession.run (s : CopySession K) (prog : List (CStmt K)) : CopySession K :=
  prog.foldl (fun s st => (s.step st).1) s

/-- The outcomes of the statements of a program on values. -/
def CopySession.outcomes (s : CopySession K) : List (CStmt K) → List (Py Unit)
  | [] => []
  | st :: prog => (s.step st).2 :: (s.step st).1.outcomes prog

/-- After `layout = Layout()`. -/
def CopySession.start : CopySession K := ⟨[], Layout.empty 0⟩

end MplLayout
