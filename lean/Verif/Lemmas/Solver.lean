import Verif.Spec.Solver
import Verif.Lemmas.Shift

namespace MplLayout.Solver

variable {K : Type} [PyNum K]

/-- What is known after the iterates `xs`. -/
structure RunInv (num : Numerics K) (res : List K → Py (List K)) (absTol relTol : K)
    (maxIter : Int) (x0 : List K) (xs : List (List K)) (s : NewtonState K) : Prop where
  n : s.n = xs.length
  start : (xs ++ [s.param]).head? = some x0
  steps : List.IsChain (IsStep num res) (xs ++ [s.param])
  abs : List.Forall₂ (fun y e => ∃ r, res y = .ok r ∧ e = npNorm r) xs s.absErrs
  rel : s.relErrs = s.absErrs.map fun e => e / s.absErrs.headD e
  bound : xs.length ≤ maxIter.toNat
  goesOn : ∀ i e q, i + 1 < xs.length → s.absErrs[i]? = some e → s.relErrs[i]? = some q →
    PyNum.lt absTol e = true ∧ PyNum.lt relTol q = true
  absErr : s.absErr = s.absErrs.getLast?
  relErr : s.relErr = s.relErrs.getLast?

theorem chain_snoc {β : Type} {R : β → β → Prop} : ∀ {xs : List β} {a b : β},
    List.IsChain R (xs ++ [a]) → R a b → List.IsChain R (xs ++ [a] ++ [b])
  | [], a, b, _, h => by simp [h]
  | [x], a, b, h', h => by simp at h' ⊢; exact ⟨h', h⟩
  | x :: y :: xs, a, b, h', h => by
    simp only [List.cons_append, List.isChain_cons_cons] at h' ⊢
    refine ⟨h'.1, ?_⟩
    have := chain_snoc (xs := y :: xs) (by simpa using h'.2) h
    simpa using this

theorem RunInv.step {num : Numerics K} {res : List K → Py (List K)} {absTol relTol : K}
    {maxIter : Int} {x0 : List K} {xs : List (List K)} {s s' : NewtonState K}
    (h : RunInv num res absTol relTol maxIter x0 xs s)
    (hc : continues absTol relTol maxIter s = true) (hs : newtonStep num res s = .ok s') :
    RunInv num res absTol relTol maxIter x0 (xs ++ [s.param]) s' := by
  simp only [newtonStep, py_bind_ok] at hs
  obtain ⟨r, h1, J, h2, d, h3, p, h4, e⟩ := hs
  have hp : d.length = s.param.length ∧ p = List.zipWith (· + ·) s.param d := by
    simp only [vecAdd] at h4
    split at h4
    · rename_i hl
      cases h4; exact ⟨hl.symm, rfl⟩
    · cases h4
  have hlen := h.abs.length_eq
  simp only [continues, Bool.and_eq_true, decide_eq_true_eq] at hc
  obtain ⟨⟨c1, c2⟩, c3⟩ := hc
  have hrl : s.relErrs.length = s.absErrs.length := by rw [h.rel]; simp
  cases e
  refine ⟨by simp [h.n], ?_, chain_snoc h.steps ⟨r, J, d, h1, h2, h3, hp.1, hp.2⟩, ?_, ?_, ?_, ?_,
    by simp, by simp⟩
  · have := h.start
    cases xs <;> simpa using this
  · exact List.rel_append h.abs (List.Forall₂.cons ⟨r, h1, rfl⟩ .nil)
  · show s.relErrs ++ _ = _
    rw [List.map_append, h.rel]
    cases s.absErrs <;> simp
  · rw [h.n] at c3
    simp only [List.length_append, List.length_singleton]
    omega
  · intro i e q hi he hq
    simp only [List.length_append, List.length_singleton] at hi
    by_cases hlt : i + 1 < xs.length
    · refine h.goesOn i e q hlt ?_ ?_
      · rwa [List.getElem?_append_left (by omega)] at he
      · rwa [List.getElem?_append_left (by omega)] at hq
    · have hi' : i = s.absErrs.length - 1 := by omega
      rw [List.getElem?_append_left (by omega)] at he
      rw [List.getElem?_append_left (by omega)] at hq
      have e1 : s.absErr = some e := by rw [h.absErr, List.getLast?_eq_getElem?, ← hi', he]
      have e2 : s.relErr = some q := by
        rw [h.relErr, List.getLast?_eq_getElem?, hrl, ← hi', hq]
      rw [e1] at c1
      rw [e2] at c2
      exact ⟨c1, c2⟩

theorem RunInv.done {num : Numerics K} {res : List K → Py (List K)} {absTol relTol : K}
    {maxIter : Int} {x0 : List K} {xs : List (List K)} {s : NewtonState K}
    (h : RunInv num res absTol relTol maxIter x0 xs s)
    (hc : continues absTol relTol maxIter s = false) :
    NewtonRun num res absTol relTol maxIter x0 xs s.param ⟨s.absErrs, s.relErrs⟩ := by
  refine ⟨h.start, h.steps, h.abs, h.rel, h.bound, h.goesOn, ?_⟩
  have hlen := h.abs.length_eq
  have hrl : s.relErrs.length = s.absErrs.length := by rw [h.rel]; simp
  simp only [continues, Bool.and_eq_false_iff, decide_eq_false_iff_not] at hc
  by_cases hn : maxIter ≤ s.n
  · left
    have := h.bound
    have := h.n
    omega
  · right
    have hc : gtTol s.absErr absTol = false ∨ gtTol s.relErr relTol = false := by
      rcases hc with (h | h) | h
      · exact .inl h
      · exact .inr h
      · omega
    cases xs with
    | nil =>
      right
      refine ⟨rfl, ?_⟩
      have e1 : s.absErrs = [] := List.eq_nil_of_length_eq_zero (by simpa using hlen.symm)
      have e2 : s.relErrs = [] := List.eq_nil_of_length_eq_zero (by rw [hrl, e1]; rfl)
      rw [h.absErr, h.relErr, e1, e2] at hc
      exact hc
    | cons x xs =>
      left
      have p1 : s.absErrs ≠ [] := by rintro e; rw [e] at hlen; simp at hlen
      have p2 : s.relErrs ≠ [] := by
        intro e; rw [e] at hrl; exact p1 (List.eq_nil_of_length_eq_zero hrl.symm)
      refine ⟨_, _, List.getLast?_eq_some_getLast p1, List.getLast?_eq_some_getLast p2, ?_⟩
      rw [h.absErr, h.relErr, List.getLast?_eq_some_getLast p1,
        List.getLast?_eq_some_getLast p2] at hc
      exact hc

theorem newtonLoop_run {num : Numerics K} {res : List K → Py (List K)} {absTol relTol : K}
    {maxIter : Int} {x0 : List K} {fuel : Nat} {xs : List (List K)} {s s' : NewtonState K}
    (h : RunInv num res absTol relTol maxIter x0 xs s)
    (hl : newtonLoop num res absTol relTol maxIter fuel s = some (.ok s')) :
    ∃ ys, NewtonRun num res absTol relTol maxIter x0 ys s'.param ⟨s'.absErrs, s'.relErrs⟩ := by
  induction fuel generalizing xs s with
  | zero => cases hl
  | succ fuel ih =>
    simp only [newtonLoop] at hl
    split at hl
    · rename_i hc
      split at hl
      · rename_i s1 hs
        exact ih (h.step hc hs) hl
      · cases hl
    · rename_i hc
      cases hl
      exact ⟨xs, h.done (by simpa using hc)⟩

theorem RunInv.init (num : Numerics K) (res : List K → Py (List K)) (absTol relTol : K)
    (maxIter : Int) (x0 : List K) :
    RunInv num res absTol relTol maxIter x0 [] { param := x0 } :=
  ⟨rfl, rfl, by simp, .nil, rfl, Nat.zero_le _, by simp, rfl, rfl⟩

/-- The loop ends within `max_iter - n + 1` rounds, and more rounds make no difference. -/
theorem newtonLoop_total (num : Numerics K) (res : List K → Py (List K)) (absTol relTol : K)
    (maxIter : Int) (fuel : Nat) (s : NewtonState K) (h : maxIter.toNat - s.n < fuel) :
    ∃ r, ∀ fuel', fuel ≤ fuel' → newtonLoop num res absTol relTol maxIter fuel' s = some r := by
  induction fuel generalizing s with
  | zero => omega
  | succ fuel ih =>
    by_cases hc : continues absTol relTol maxIter s
    · have hn : (s.n : Int) < maxIter := by
        simp only [continues, Bool.and_eq_true, decide_eq_true_eq] at hc
        exact hc.2
      cases hs : newtonStep num res s with
      | error e =>
        refine ⟨.error e, fun fuel' hf => ?_⟩
        obtain ⟨f, rfl⟩ : ∃ f, fuel' = f + 1 := ⟨fuel' - 1, by omega⟩
        simp only [newtonLoop, hc, if_true, hs]
      | ok s1 =>
        have hn1 : s1.n = s.n + 1 := by
          simp only [newtonStep, py_bind_ok] at hs
          obtain ⟨r, _, J, _, d, _, p, _, e⟩ := hs
          cases e; rfl
        obtain ⟨r, hr⟩ := ih s1 (by omega)
        refine ⟨r, fun fuel' hf => ?_⟩
        obtain ⟨f, rfl⟩ : ∃ f, fuel' = f + 1 := ⟨fuel' - 1, by omega⟩
        simp only [newtonLoop, hc, if_true, hs]
        exact hr f (by omega)
    · refine ⟨.ok s, fun fuel' hf => ?_⟩
      obtain ⟨f, rfl⟩ : ∃ f, fuel' = f + 1 := ⟨fuel' - 1, by omega⟩
      simp only [newtonLoop, hc, if_false, Bool.false_eq_true]

end MplLayout.Solver
