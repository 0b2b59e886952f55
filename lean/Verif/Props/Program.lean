import Verif.Lemmas.Program
import Verif.Lemmas.SolveKeeps

/-!
# C67: what a program shares stays shared when the layout is solved
-/

namespace MplLayout.Props

open Solver Flt

variable {K : Type} [PyNum K]

theorem all_true (st : Stmt K) : st.All fun _ => True := by
  cases st with
  | array xs => intro _ _; trivial
  | make e => cases e <;> (rename ValueArg K => v; cases v <;> simp [Stmt.All, PrimExpr.All, ValueArg.All])
  | _ => trivial

theorem prog_ok {prog : List (Stmt K)} (ht : ∀ st ∈ prog, st.TopLevel) :
    ProgOK (fun _ => True) ((Session.start : Session K).run prog) :=
  ProgOK.run ⟨trivial, trivial, fun _ _ _ => ⟨trivial, trivial⟩⟩ ProgOK.start ht fun st _ => all_true st

/-- C67, the trees that the theorems about the solver ask for: whatever arrays, points, lines,
polygons and axes a program makes, shares, and adds to the layout, the layout's tree has no key twice
at a node, no `/` in a key, and one array per object identity. -/
theorem C67_well_formed (prog : List (Stmt K)) (ht : ∀ st ∈ prog, st.TopLevel) :
    PrimOK ((Session.start : Session K).run prog).layout.prim := (prog_ok ht).primOK

/-- C67, sharing: two primitives of the layout hold the same array object before solving exactly if
they do so after solving, and then they have the same coordinates — whatever the constraints and
tolerances are, and whatever the numerical routines return. -/
theorem C67_shared (prog : List (Stmt K)) (ht : ∀ st ∈ prog, st.TopLevel) (l : Layout K)
    (hl : l = ((Session.start : Session K).run prog).layout) (num : Numerics K) (base : Nat)
    (absTol relTol : K) (maxIter : Int) (method : Str) (hm : method = k!"newton" ∨ Optimizes num)
    (r : Prim K) (info : SolverInfo K)
    (h : solve num l base absTol relTol maxIter method = .ok (r, info))
    (key key' : Str) (p q : Prim K) (hp : l.prim.getChild key = .ok p)
    (hq : l.prim.getChild key' = .ok q) :
    ∃ p' q', r.getChild key = .ok p' ∧ r.getChild key' = .ok q' ∧
      (p.value.id = q.value.id ↔ p'.value.id = q'.value.id) ∧
      (p.value.id = q.value.id → p'.value.arr = q'.value.arr) := by
  have hok : PrimOK l.prim := by rw [hl]; exact C67_well_formed prog ht
  obtain ⟨hr, hs⟩ := solve_keeps num l hok base absTol relTol maxIter method hm r info h
  rw [Node.getChild_ok_iff, Node.find_iff_At hok.wf] at hp hq
  obtain ⟨p', hp'⟩ := (hs.paths _).mp ⟨p, hp⟩
  obtain ⟨q', hq'⟩ := (hs.paths _).mp ⟨q, hq⟩
  have hid := hs.sharing _ _ p q p' q' hp hq hp' hq'
  refine ⟨p', q', ?_, ?_, hid, fun e => ?_⟩
  · rw [Node.getChild_ok_iff, Node.find_iff_At hr.wf]; exact hp'
  · rw [Node.getChild_ok_iff, Node.find_iff_At hr.wf]; exact hq'
  · rw [hr.ident _ _ p' q' hp' hq' (hid.mp e)]

/-- C67, polygons: every polygon (and quadrilateral) of the layout, also inside axes, is still closed
after solving: the end of each edge is the start of the next. -/
theorem C67_closed (prog : List (Stmt K)) (ht : ∀ st ∈ prog, st.TopLevel) (l : Layout K)
    (hl : l = ((Session.start : Session K).run prog).layout) (num : Numerics K) (base : Nat)
    (absTol relTol : K) (maxIter : Int) (method : Str) (hm : method = k!"newton" ∨ Optimizes num)
    (r : Prim K) (info : SolverInfo K)
    (h : solve num l base absTol relTol maxIter method = .ok (r, info))
    (key : Str) (p : Prim K) (hp : l.prim.getChild key = .ok p) (hty : p.ty.IsA .polygon)
    (i : Nat) (hi : i < p.children.length) :
    ∃ a b, r.getChild (key ++ k!"/" ++ lineKey i ++ k!"/Point1") = .ok a ∧
      r.getChild (key ++ k!"/" ++ lineKey ((i + 1) % p.children.length) ++ k!"/Point0") = .ok b ∧
      a.value = b.value := by
  have hprog := prog_ok (K := K) ht
  obtain ⟨heap, hheap⟩ := hprog.heap
  have hsane := hheap.layout
  rw [← hl] at hsane
  have hok : PrimOK l.prim := hsane.ident
  obtain ⟨hr, hs⟩ := solve_keeps num l hok base absTol relTol maxIter method hm r info h
  rw [Node.getChild_ok_iff, Node.find_iff_At hok.wf] at hp
  obtain ⟨pts, hk, hlines⟩ := hsane.loops _ p hp hty
  have hlen : p.children.length = pts.length := by
    have := congrArg List.length hk
    simpa [Node.keys] using this
  rw [hlen] at hi ⊢
  have hpos : 0 < pts.length := by omega
  have hj : (i + 1) % pts.length < pts.length := Nat.mod_lt _ hpos
  obtain ⟨u, hu, _, _, huc⟩ := hlines i hi
  obtain ⟨w, hw, _, _, hwc⟩ := hlines _ hj
  have hsplit : ∀ j s, '/' ∉ s → splitAll (key ++ k!"/" ++ lineKey j ++ ('/' :: s))
      = splitAll key ++ [lineKey j, s] := by
    intro j s hs
    rw [show key ++ k!"/" ++ lineKey j ++ ('/' :: s) = key ++ '/' :: (lineKey j ++ '/' :: s) by simp,
      splitAll_append_slash, splitAll_append_slash, splitAll_noslash (lineKey_noslash j),
      splitAll_noslash hs]
    simp
  have hat : ∀ {j : Nat} {s : Str} {c d : Prim K}, (lineKey j, c) ∈ p.children →
      (s, d) ∈ c.children → l.prim.At (splitAll key ++ [lineKey j, s]) d := by
    intro j s c d h1 h2
    exact Node.At.trans hp (.down h1 (.down h2 (.here _)))
  have h1 := hat (s := k!"Point1") (d := pts[(i + 1) % pts.length]) hu (by rw [huc]; simp)
  have h2 := hat (s := k!"Point0") (d := pts[(i + 1) % pts.length]) hw (by rw [hwc]; simp)
  obtain ⟨a, ha⟩ := (hs.paths _).mp ⟨_, h1⟩
  obtain ⟨b, hb⟩ := (hs.paths _).mp ⟨_, h2⟩
  refine ⟨a, b, ?_, ?_, ?_⟩
  · rw [Node.getChild_ok_iff, show k!"/Point1" = '/' :: k!"Point1" from rfl, hsplit _ _ (by decide),
      Node.find_iff_At hr.wf]
    exact ha
  · rw [Node.getChild_ok_iff, show k!"/Point0" = '/' :: k!"Point0" from rfl, hsplit _ _ (by decide),
      Node.find_iff_At hr.wf]
    exact hb
  · exact hr.ident _ _ a b ha hb ((hs.sharing _ _ _ _ _ _ h1 h2 ha hb).mp rfl)

/-- A program: a triangle and a line that starts at one of its corners, and a point of its own with
the same coordinates; the triangle's first edge should have width 2. -/
noncomputable def flagProg : List (Stmt Flt) :=
  [.make (.point (.literal [fin 0, fin 0])), .make (.point (.literal [fin 1, fin 0])),
   .make (.point (.literal [fin 0, fin 1])), .make (.polygon .default (some [0, 1, 2]) 3),
   .make (.point (.literal [fin 0, fin 0])), .make (.line .default (some [0, 4])),
   .addPrims [(k!"T", 3), (k!"L", 5)],
   .addConstraint ((Shipped.xLength.build).toOption.getD ct.coincident) [k!"T/Line0"] [.num (fin 2)] []]

/-- The hypotheses are met: every call succeeds, the polygon has three edges; the line and the
triangle share an array, and the line's ends do not although their coordinates are equal. -/
example : (∀ st ∈ flagProg, st.TopLevel) ∧
    (∃ p, ((Session.start).run flagProg).layout.prim.getChild k!"T" = .ok p ∧ p.ty = .polygon ∧
      p.children.length = 3) ∧
    (∃ a b c, ((Session.start).run flagProg).layout.prim.getChild k!"T/Line2/Point1" = .ok a ∧
      ((Session.start).run flagProg).layout.prim.getChild k!"L/Point0" = .ok b ∧
      ((Session.start).run flagProg).layout.prim.getChild k!"L/Point1" = .ok c ∧
      a.value.id = b.value.id ∧ b.value.id ≠ c.value.id ∧ b.value.arr = c.value.arr) ∧
    ((Session.start).run flagProg).layout.cons.children.length = 1 := by
  refine ⟨?_, ⟨_, rfl, rfl, rfl⟩, ⟨_, _, _, rfl, rfl, rfl, rfl, by decide, rfl⟩, rfl⟩
  intro st hst
  simp only [flagProg, List.mem_cons, List.not_mem_nil, or_false] at hst
  rcases hst with rfl | rfl | rfl | rfl | rfl | rfl | rfl | rfl <;> simp [Stmt.TopLevel]

end MplLayout.Props
