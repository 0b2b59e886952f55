import Verif.Props.Solver

/-! What the solver returns is a well-formed tree of the same structure. -/

namespace MplLayout.Solver

variable {K : Type} [PyNum K]

omit [PyNum K] in
theorem rebuild_primOK (l : Layout K) (hok : PrimOK l.prim) (base : Nat) (g : List K)
    (hg : g.length = dim l) {r : Prim K} (hr : rebuild l base g = .ok r) : PrimOK r := by
  obtain ⟨r', e1, e2, e3, e4⟩ := rebuild_at l hok base g hg
  rw [hr] at e1; cases e1
  refine ⟨e2, ?_, ?_⟩
  · intro p m' hm' k hk
    obtain ⟨m, hm⟩ := e3 p m' hm'
    obtain ⟨m1, i, v, a1, _, a3, _⟩ := e4 p m hm
    obtain rfl := At_unique e2 a1 hm'
    rw [a3] at hk
    exact hok.slashFree p m hm k hk
  · intro p q a b ha hb e
    obtain ⟨m, hm⟩ := e3 p a ha
    obtain ⟨n, hn⟩ := e3 q b hb
    obtain ⟨m1, i, v, a1, _, _, _, _, a6, a7, _⟩ := e4 p m hm
    obtain rfl := At_unique e2 a1 ha
    obtain ⟨n1, j, w, b1, _, _, _, _, b6, b7, _⟩ := e4 q n hn
    obtain rfl := At_unique e2 b1 hb
    rw [a7, b7] at e ⊢
    have hij : i = j := Nat.add_left_cancel e
    subst hij
    rw [a6] at b6
    cases b6
    rfl

theorem newton_primOK (num : Numerics K) (l : Layout K) (hok : PrimOK l.prim) (base : Nat)
    (absTol relTol : K) (maxIter : Int) (r : Prim K) (info : SolverInfo K)
    (h : solveNewton num l base absTol relTol maxIter = .ok (r, info)) : PrimOK r := by
  obtain ⟨x0, xs, x, h1, h2, h3⟩ := Props.C55_history num l base absTol relTol maxIter r info h
  have hl := chain_length h2.steps (n := dim l) (fun y hy => by
    rw [h2.start] at hy
    rw [← Option.some.inj hy]
    exact globalParam_length h1)
  exact rebuild_primOK l hok base x (hl x (by simp)) h3

theorem minimize_primOK (num : Numerics K) (hnum : Optimizes num) (l : Layout K) (hok : PrimOK l.prim)
    (base : Nat) (absTol relTol : K) (maxIter : Int) (r : Prim K) (info : SolverInfo K)
    (h : solveMinimize num l base absTol relTol maxIter = .ok (r, info)) : PrimOK r := by
  simp only [solveMinimize, py_bind_ok] at h
  obtain ⟨g0, h1, its, h2, root, h3, h4⟩ := h
  cases h4
  obtain ⟨k, hk⟩ := runMinimize_run absTol relTol g0 its
  have hlen : (runMinimize absTol relTol its g0 ⟨[], []⟩).1.length = dim l := by
    rw [hk.last]
    cases e : ((its.take k).map (·.1)).getLast? with
    | none => simpa using globalParam_length h1
    | some y =>
      obtain ⟨it, hit, rfl⟩ := List.mem_map.mp (List.mem_of_getLast? e)
      rw [Option.getD_some, hnum.size _ _ _ _ h2 it (List.mem_of_mem_take hit)]
      exact globalParam_length h1
  exact rebuild_primOK l hok base _ hlen h3

/-- Either method returns a well-formed tree of the same structure. -/
theorem solve_keeps (num : Numerics K) (l : Layout K) (hok : PrimOK l.prim) (base : Nat)
    (absTol relTol : K) (maxIter : Int) (method : Str) (hm : method = k!"newton" ∨ Optimizes num)
    (r : Prim K) (info : SolverInfo K)
    (h : solve num l base absTol relTol maxIter method = .ok (r, info)) :
    PrimOK r ∧ SameStructure l.prim r := by
  by_cases h1 : method = k!"newton"
  · subst h1
    rw [(Props.C59_dispatch num l base absTol relTol maxIter).1] at h
    exact ⟨newton_primOK num l hok base absTol relTol maxIter r info h,
      Props.C58_newton num l hok base absTol relTol maxIter r info h⟩
  · have hn := hm.resolve_left h1
    by_cases h2 : method = k!"minimize"
    · subst h2
      rw [(Props.C59_dispatch num l base absTol relTol maxIter).2.1] at h
      exact ⟨minimize_primOK num hn l hok base absTol relTol maxIter r info h,
        Props.C58_minimize num hn l hok base absTol relTol maxIter r info h⟩
    · rw [(Props.C59_dispatch num l base absTol relTol maxIter).2.2 method h1 h2] at h
      cases h

end MplLayout.Solver
