import Verif.Lemmas.ConsHeap
import Verif.Model.Shipped

/-!
# C94: a constraint object may be added under several keys

A program makes constraint objects, keeps them in variables and passes them to `add_constraint`, the
same object as often as it likes.
-/

namespace MplLayout.Props

open MplLayout

variable {K : Type}

/-- C94: as long as all constraints are added at the top level (or under automatic keys), it does
not matter that `add_constraint` stores a reference to the caller's object: after every program, the
layout is the one that results if every use of a variable were a use of a fresh copy; every call
has the same outcome; and every variable still holds the constraint that was made. -/
theorem C94_reuse_partial (prog : List (CStmt K)) (hp : ∀ st ∈ prog, st.Formed ∧ st.Flat) :
    (CSession.start.run prog).layout = .ok (CopySession.start.run prog).layout ∧
    CSession.start.outcomes prog = CopySession.start.outcomes prog ∧
    List.Forall₂ (CSession.start.run prog).heap.Denotes (CSession.start.run prog).vars
      (CopySession.start.run prog).vars := by
  obtain ⟨h1, h2⟩ := (CShows.start (K := K)).run hp
  refine ⟨?_, h2, h1.vars.imp fun a c h => Heap.read_denotes _ _ _ h.1.2.2⟩
  have ht := h1.tree
  obtain ⟨cs, ds, _, _, hl⟩ := h1.obj
  simp only [CSession.layout, bind, Except.bind, ht]
  rw [hl]

/-- Making an object `objs` and reading it gives the tree that the objects denote. -/
theorem C94_made (objs : Heap (ConsClass K) (ConsVal K)) (hf : (CStmt.make objs).Formed) :
    ∃ c, Heap.tree objs (objs.length - 1) = .ok c ∧ objs.Denotes (objs.length - 1) c ∧
      CopySession.start.step (.make objs) = (⟨[c], Layout.empty 0⟩, .ok ()) := by
  obtain ⟨hne, hf⟩ := hf
  have hlen : 0 < objs.length := List.length_pos_iff.2 hne
  obtain ⟨t, h1, _⟩ := Heap.read_shift (h := []) (fun i o ho => (hf i o ho).2)
    (objs.length - 1) (objs.length + 1) (objs.length + 1) (by omega) (by omega) (by simp)
  have h1' : Heap.tree objs (objs.length - 1) = .ok t := h1
  refine ⟨t, h1, Heap.read_denotes _ _ _ h1, ?_⟩
  simp only [CopySession.step, h1']
  rfl

/-! ## Keys below a shared object -/

/-- Exact rational numbers, to run examples. -/
local instance consHeapNum : PyNum Rat where
  natCast n := n
  sqrt x := x
  pow x _ := x
  atan2 _ _ := 0
  cos _ := 0
  sin _ := 0
  acos _ := 0
  pi := 3
  truthy x := x != 0
  lt x y := x < y
  le x y := x ≤ y

/-- The line from `(0, 0)` to `(1, 0)`. -/
def flatLine : Prim Rat :=
  .mk .line ⟨1, []⟩ [(k!"Point0", .mk .point ⟨2, [0, 0]⟩ []), (k!"Point1", .mk .point ⟨3, [1, 0]⟩ [])]

/-- The one object of a constraint without children. -/
def leafObj (c : Cons Rat) : List (Obj (ConsClass Rat) (ConsVal Rat)) := [⟨c.ty, c.value, []⟩]

/-- `layout.add_prim(line, 'L')`, `h = Horizontal()`, `g = Horizontal()`, `v = Vertical()`;
`layout.add_constraint(h, ('L',), key='A')`. -/
def reuseStart : List (CStmt Rat) :=
  [.addPrim flatLine k!"L", .make (leafObj ct.horizontal), .make (leafObj ct.horizontal),
    .make (leafObj ct.vertical), .addConstraint 0 [k!"L"] [] k!"A"]

/-- `layout.add_constraint(h, ('L',), key='B')` (the object that is already under `'A'`),
`layout.add_constraint(v, ('L',), key='C')`. -/
def reuseEnd : List (CStmt Rat) :=
  [.addConstraint 0 [k!"L"] [] k!"B", .addConstraint 2 [k!"L"] [] k!"C"]

/-- The residual of the layout that a program leaves, at the primitives it was given. -/
def leftResidual (s : CSession Rat) : Py (List Rat) := do
  let l ← s.layout
  l.residual l.prim

/-- The hypotheses of `C94_reuse_partial` are met by a program that adds one object twice; all calls
succeed, and the residual has one entry for each of the three constraints. -/
example : (∀ st ∈ reuseStart ++ reuseEnd, st.Formed ∧ st.Flat) ∧
    CSession.start.outcomes (reuseStart ++ reuseEnd) = List.replicate 7 (.ok ()) ∧
    leftResidual (CSession.start.run (reuseStart ++ reuseEnd)) = .ok [0, 0, 1] := by
  refine ⟨?_, by decide +kernel, by decide +kernel⟩
  intro st hst
  have hleaf : ∀ c : Cons Rat, '/' ∉ c.ty.name → (CStmt.make (leafObj c)).Formed := by
    intro c hc
    refine ⟨by simp [leafObj], fun i o ho => ?_⟩
    cases i with
    | zero =>
      simp only [leafObj, List.getElem?_cons_zero, Option.some.injEq] at ho
      subst ho
      exact ⟨hc, by simp⟩
    | succ i => simp [leafObj] at ho
  simp only [reuseStart, reuseEnd, List.cons_append, List.nil_append, List.mem_cons,
    List.not_mem_nil, or_false] at hst
  rcases hst with rfl | rfl | rfl | rfl | rfl | rfl | rfl
  · exact ⟨trivial, trivial⟩
  · exact ⟨hleaf _ (by decide), trivial⟩
  · exact ⟨hleaf _ (by decide), trivial⟩
  · exact ⟨hleaf _ (by decide), trivial⟩
  all_goals exact ⟨trivial, by simp [CStmt.Flat]⟩

/-- C94 fails for keys with `/`: the same program with one more call,
`layout.add_constraint(g, ('L',), key='A/x')`, before `h` is added again.  Every call succeeds.  The
call also puts `g` below `'B'` in the tree of constraints, where the other two trees have nothing, so
that from there on constraints are paired with the wrong primitives; the last constraint, `v`, which
`L` violates, is not assembled at all, and the residual vanishes.  With a fresh copy of `h` for each
use it would not. -/
theorem C94_deep_counterexample :
    let prog := reuseStart ++ [.addConstraint 1 [k!"L"] [] k!"A/x"] ++ reuseEnd
    CSession.start.outcomes prog = List.replicate 8 (.ok ()) ∧
    leftResidual (CSession.start.run prog) = .ok [0, 0, 0, 0] ∧
    (CopySession.start.run prog).layout.residual (CopySession.start.run prog).layout.prim =
      .ok [0, 0, 0, 1] ∧
    (∀ l, (CSession.start.run prog).layout = .ok l →
      l.flatConstraints.1.length = 5 ∧ l.flatConstraints.2.1.length = 4 ∧
        l.flatConstraints.2.2.length = 4) := by
  refine ⟨by decide +kernel, by decide +kernel, by decide +kernel, ?_⟩
  intro l hl
  have h : (do
      let l ← (CSession.start.run
        (reuseStart ++ [.addConstraint 1 [k!"L"] [] k!"A/x"] ++ reuseEnd)).layout
      .ok (l.flatConstraints.1.length, l.flatConstraints.2.1.length,
        l.flatConstraints.2.2.length) : Py (Nat × Nat × Nat)) = .ok (5, 4, 4) := by decide +kernel
  rw [hl] at h
  simpa [bind, Except.bind] using h

end MplLayout.Props
