import Verif.Lemmas.SolverRuns
import Verif.Props.Layout
import Mathlib.Analysis.Calculus.FDeriv.Pi
import Mathlib.Analysis.Calculus.FDeriv.Add
import Mathlib.Analysis.Calculus.FDeriv.Mul

/-!
# C55–C61: the solver
-/

namespace MplLayout.Props

open Solver Flt

variable {K : Type} [PyNum K]

/-! ## Example layouts -/

/-- A point. -/
noncomputable def sPt (id : Nat) (x y : ℝ) : Prim Flt := .mk .point ⟨id, [fin x, fin y]⟩ []

/-- A line. -/
noncomputable def sLn (id : Nat) (p q : Prim Flt) : Prim Flt :=
  .mk .line ⟨id, []⟩ [(k!"Point0", p), (k!"Point1", q)]

/-- The tree of two lines from one point, with array identities `r u v p q s`. -/
noncomputable def forkTree (r u v p q s : Nat) (a b c d e f : ℝ) : Prim Flt :=
  .mk .primitiveNode ⟨r, []⟩
    [(k!"U", sLn u (sPt p a b) (sPt q c d)), (k!"V", sLn v (sPt p a b) (sPt s e f))]

theorem At_mk {τ α : Type} {t : τ} {v : α} {cs : List (Str × Node τ α)} {p : List Str}
    {m : Node τ α} (h : Node.At (.mk t v cs) p m) :
    (p = [] ∧ m = .mk t v cs) ∨ ∃ k c p', (k, c) ∈ cs ∧ p = k :: p' ∧ c.At p' m := by
  cases h with
  | here => exact .inl ⟨rfl, rfl⟩
  | down hc hm => exact .inr ⟨_, _, _, hc, rfl, hm⟩

theorem sPt_at {id : Nat} {x y : ℝ} {p : List Str} {m : Prim Flt} (h : Node.At (sPt id x y) p m) :
    p = [] ∧ m = sPt id x y := by
  rcases At_mk h with h | ⟨k, c, p', h, _⟩
  · exact h
  · cases h

theorem sLn_at {id : Nat} {a b : Prim Flt} {p : List Str} {m : Prim Flt}
    (h : Node.At (sLn id a b) p m) :
    (p = [] ∧ m = sLn id a b) ∨ (∃ p', p = k!"Point0" :: p' ∧ a.At p' m) ∨
      ∃ p', p = k!"Point1" :: p' ∧ b.At p' m := by
  rcases At_mk h with h | ⟨k, c, p', h, e, hm⟩
  · exact .inl h
  · simp only [List.mem_cons, List.not_mem_nil, or_false, Prod.mk.injEq] at h
    rcases h with ⟨rfl, rfl⟩ | ⟨rfl, rfl⟩
    · exact .inr (.inl ⟨p', e, hm⟩)
    · exact .inr (.inr ⟨p', e, hm⟩)

theorem forkTree_at {r u v p q s : Nat} {a b c d e f : ℝ} {path : List Str} {m : Prim Flt}
    (h : Node.At (forkTree r u v p q s a b c d e f) path m) :
    (path = [] ∧ m = forkTree r u v p q s a b c d e f) ∨
    (path = [k!"U"] ∧ m = sLn u (sPt p a b) (sPt q c d)) ∨
    (path = [k!"U", k!"Point0"] ∧ m = sPt p a b) ∨
    (path = [k!"U", k!"Point1"] ∧ m = sPt q c d) ∨
    (path = [k!"V"] ∧ m = sLn v (sPt p a b) (sPt s e f)) ∨
    (path = [k!"V", k!"Point0"] ∧ m = sPt p a b) ∨
    (path = [k!"V", k!"Point1"] ∧ m = sPt s e f) := by
  rcases At_mk h with h | ⟨k, c, p', h, e, hm⟩
  · exact .inl h
  · simp only [List.mem_cons, List.not_mem_nil, or_false, Prod.mk.injEq] at h
    rcases h with ⟨rfl, rfl⟩ | ⟨rfl, rfl⟩
    · rcases sLn_at hm with ⟨rfl, rfl⟩ | ⟨p', rfl, hm2⟩ | ⟨p', rfl, hm2⟩
      · exact .inr (.inl ⟨e, rfl⟩)
      · obtain ⟨rfl, rfl⟩ := sPt_at hm2
        exact .inr (.inr (.inl ⟨e, rfl⟩))
      · obtain ⟨rfl, rfl⟩ := sPt_at hm2
        exact .inr (.inr (.inr (.inl ⟨e, rfl⟩)))
    · rcases sLn_at hm with ⟨rfl, rfl⟩ | ⟨p', rfl, hm2⟩ | ⟨p', rfl, hm2⟩
      · exact .inr (.inr (.inr (.inr (.inl ⟨e, rfl⟩))))
      · obtain ⟨rfl, rfl⟩ := sPt_at hm2
        exact .inr (.inr (.inr (.inr (.inr (.inl ⟨e, rfl⟩)))))
      · obtain ⟨rfl, rfl⟩ := sPt_at hm2
        exact .inr (.inr (.inr (.inr (.inr (.inr ⟨e, rfl⟩)))))

theorem forkTree_ok {r u v p q s : Nat} (hn : [r, u, v, p, q, s].Nodup) (a b c d e f : ℝ) :
    PrimOK (forkTree r u v p q s a b c d e f) := by
  have hg : Node.goodB (forkTree r u v p q s a b c d e f) = true := rfl
  obtain ⟨h1, h2⟩ := (Node.goodB_iff _).mp hg
  refine ⟨h1, h2, ?_⟩
  intro p1 p2 m1 m2 hm1 hm2 hid
  simp only [List.nodup_cons, List.mem_cons, List.not_mem_nil, or_false, not_or] at hn
  rcases forkTree_at hm1 with ⟨_, rfl⟩ | ⟨_, rfl⟩ | ⟨_, rfl⟩ | ⟨_, rfl⟩ | ⟨_, rfl⟩ | ⟨_, rfl⟩ | ⟨_, rfl⟩ <;>
    rcases forkTree_at hm2 with ⟨_, rfl⟩ | ⟨_, rfl⟩ | ⟨_, rfl⟩ | ⟨_, rfl⟩ | ⟨_, rfl⟩ | ⟨_, rfl⟩ | ⟨_, rfl⟩ <;>
    simp only [forkTree, sLn, sPt, Node.value_mk] at hid ⊢ <;> (try omega)

theorem forkTree_finite (r u v p q s : Nat) (a b c d e f : ℝ) :
    (forkTree r u v p q s a b c d e f).Finite := by
  intro path m hm x hx
  rcases forkTree_at hm with ⟨_, rfl⟩ | ⟨_, rfl⟩ | ⟨_, rfl⟩ | ⟨_, rfl⟩ | ⟨_, rfl⟩ | ⟨_, rfl⟩ | ⟨_, rfl⟩ <;>
    simp only [forkTree, sLn, sPt, Node.value_mk, List.mem_cons, List.not_mem_nil, or_false] at hx <;>
    rcases hx with rfl | rfl <;> exact ⟨_, rfl⟩

theorem forkTree_same (a b c d e f a' b' c' d' e' f' : ℝ) :
    SameStructure (forkTree 0 4 5 1 2 3 a b c d e f) (forkTree 10 14 15 11 12 13 a' b' c' d' e' f') := by
  have pair : ∀ {path m m'}, Node.At (forkTree 0 4 5 1 2 3 a b c d e f) path m →
      Node.At (forkTree 10 14 15 11 12 13 a' b' c' d' e' f') path m' →
      (m = forkTree 0 4 5 1 2 3 a b c d e f ∧ m' = forkTree 10 14 15 11 12 13 a' b' c' d' e' f') ∨
      (m = sLn 4 (sPt 1 a b) (sPt 2 c d) ∧ m' = sLn 14 (sPt 11 a' b') (sPt 12 c' d')) ∨
      (m = sPt 1 a b ∧ m' = sPt 11 a' b') ∨ (m = sPt 2 c d ∧ m' = sPt 12 c' d') ∨
      (m = sLn 5 (sPt 1 a b) (sPt 3 e f) ∧ m' = sLn 15 (sPt 11 a' b') (sPt 13 e' f')) ∨
      (m = sPt 3 e f ∧ m' = sPt 13 e' f') := by
    intro path m m' h1 h2
    rcases forkTree_at h1 with ⟨rfl, rfl⟩ | ⟨rfl, rfl⟩ | ⟨rfl, rfl⟩ | ⟨rfl, rfl⟩ | ⟨rfl, rfl⟩ | ⟨rfl, rfl⟩ | ⟨rfl, rfl⟩ <;>
    rcases forkTree_at h2 with ⟨h, rfl⟩ | ⟨h, rfl⟩ | ⟨h, rfl⟩ | ⟨h, rfl⟩ | ⟨h, rfl⟩ | ⟨h, rfl⟩ | ⟨h, rfl⟩ <;>
    first
    | (exfalso; revert h; decide)
    | simp
  have ex : ∀ (r u v p q s : Nat) (a b c d e f : ℝ) (path : List Str),
      path ∈ [[], [k!"U"], [k!"U", k!"Point0"], [k!"U", k!"Point1"], [k!"V"], [k!"V", k!"Point0"],
        [k!"V", k!"Point1"]] → ∃ m, Node.At (forkTree r u v p q s a b c d e f) path m := by
    intro r u v p q s a b c d e f path hp
    simp only [List.mem_cons, List.not_mem_nil, or_false] at hp
    have key : ∃ m, (forkTree r u v p q s a b c d e f).find path = some m := by
      rcases hp with rfl | rfl | rfl | rfl | rfl | rfl | rfl <;> exact ⟨_, rfl⟩
    obtain ⟨m, hm⟩ := key
    exact ⟨m, Node.At_of_find hm⟩
  have mem : ∀ {r u v p q s : Nat} {a b c d e f : ℝ} {path : List Str} {m : Prim Flt},
      Node.At (forkTree r u v p q s a b c d e f) path m →
      path ∈ [[], [k!"U"], [k!"U", k!"Point0"], [k!"U", k!"Point1"], [k!"V"], [k!"V", k!"Point0"],
        [k!"V", k!"Point1"]] := by
    intro r u v p q s a b c d e f path m h
    rcases forkTree_at h with ⟨rfl, rfl⟩ | ⟨rfl, rfl⟩ | ⟨rfl, rfl⟩ | ⟨rfl, rfl⟩ | ⟨rfl, rfl⟩ | ⟨rfl, rfl⟩ | ⟨rfl, rfl⟩ <;> simp
  refine ⟨fun path => ⟨fun ⟨m, h⟩ => ex 10 14 15 11 12 13 a' b' c' d' e' f' path (mem h),
    fun ⟨m, h⟩ => ex 0 4 5 1 2 3 a b c d e f path (mem h)⟩, ?_, ?_⟩
  · intro path m m' h h'
    rcases pair h h' with ⟨rfl, rfl⟩ | ⟨rfl, rfl⟩ | ⟨rfl, rfl⟩ | ⟨rfl, rfl⟩ | ⟨rfl, rfl⟩ | ⟨rfl, rfl⟩ <;>
      exact ⟨rfl, rfl, rfl⟩
  · intro path path' m n m' n' h1 h2 h3 h4
    rcases pair h1 h3 with ⟨rfl, rfl⟩ | ⟨rfl, rfl⟩ | ⟨rfl, rfl⟩ | ⟨rfl, rfl⟩ | ⟨rfl, rfl⟩ | ⟨rfl, rfl⟩ <;>
      rcases pair h2 h4 with ⟨rfl, rfl⟩ | ⟨rfl, rfl⟩ | ⟨rfl, rfl⟩ | ⟨rfl, rfl⟩ | ⟨rfl, rfl⟩ | ⟨rfl, rfl⟩ <;>
      simp [forkTree, sLn, sPt, Node.value_mk]

/-- Two lines from one point, to points at distance `x` and height `y`; their widths should be 1. -/
noncomputable def forkOps : List (LayoutOp Flt) :=
  [.addPrim (sLn 4 (sPt 1 0 0) (sPt 2 3 0)) k!"U",
   .addPrim (sLn 5 (sPt 1 0 0) (sPt 3 3 0)) k!"V",
   .addConstraint ((Shipped.xLength.build).toOption.getD ct.coincident) [k!"U"] [.num (fin 1)] k!"a",
   .addConstraint ((Shipped.xLength.build).toOption.getD ct.coincident) [k!"V"] [.num (fin 1)] k!"b"]

/-- The same lines, which should also be orthogonal. -/
noncomputable def rightOps : List (LayoutOp Flt) :=
  [.addPrim (sLn 4 (sPt 1 0 0) (sPt 2 1 (1 / 4))) k!"U",
   .addPrim (sLn 5 (sPt 1 0 0) (sPt 3 1 (1 / 4))) k!"V",
   .addConstraint ((Shipped.xLength.build).toOption.getD ct.coincident) [k!"U"] [.num (fin 1)] k!"a",
   .addConstraint ((Shipped.xLength.build).toOption.getD ct.coincident) [k!"V"] [.num (fin 1)] k!"b",
   .addConstraint ct.orthogonal [k!"U", k!"V"] [] k!"c"]

theorem rightOps_uses : ∀ op ∈ rightOps, op.Uses fun _ => True := by
  have h1 : (Shipped.xLength.build) = .ok ((Shipped.xLength.build).toOption.getD ct.coincident) := rfl
  have hw : ∀ (i j k : Nat) (a b c d : ℝ), (sLn i (sPt j a b) (sPt k c d)).WF := fun i j k a b c d =>
    ((Node.goodB_iff _).mp (show Node.goodB (sLn i (sPt j a b) (sPt k c d)) = true from rfl)).1
  intro op h
  simp only [rightOps, List.mem_cons, List.not_mem_nil, or_false] at h
  rcases h with rfl | rfl | rfl | rfl | rfl
  · exact hw _ _ _ _ _ _ _
  · exact hw _ _ _ _ _ _ _
  · exact ⟨.xLength, h1, trivial, trivial⟩
  · exact ⟨.xLength, h1, trivial, trivial⟩
  · exact ⟨.orthogonal, rfl, trivial, trivial⟩

theorem forkOps_affine : ∀ op ∈ forkOps, op.Uses Shipped.IsAffine := by
  have h1 : (Shipped.xLength.build) = .ok ((Shipped.xLength.build).toOption.getD ct.coincident) := rfl
  intro op h
  have hw : ∀ (i j k : Nat) (a b c d : ℝ), (sLn i (sPt j a b) (sPt k c d)).WF := fun i j k a b c d =>
    ((Node.goodB_iff _).mp (show Node.goodB (sLn i (sPt j a b) (sPt k c d)) = true from rfl)).1
  simp only [forkOps, List.mem_cons, List.not_mem_nil, or_false] at h
  rcases h with rfl | rfl | rfl | rfl
  · exact hw _ _ _ _ _ _ _
  · exact hw _ _ _ _ _ _ _
  · exact ⟨.xLength, h1, trivial, trivial⟩
  · exact ⟨.xLength, h1, trivial, trivial⟩

/-- The layout of `forkOps`. -/
noncomputable def forkL : Layout Flt := (Layout.empty 0).run forkOps

/-- The layout of `rightOps`. -/
noncomputable def rightL : Layout Flt := (Layout.empty 0).run rightOps

theorem forkL_prim : forkL.prim = forkTree 0 4 5 1 2 3 0 0 3 0 3 0 := by rfl

theorem rightL_prim : rightL.prim = forkTree 0 4 5 1 2 3 0 0 1 (1 / 4) 1 (1 / 4) := by rfl

theorem forkL_residual (r u v p q s : Nat) (a b c d e f : ℝ) :
    forkL.residual (forkTree r u v p q s a b c d e f)
      = .ok [fin (0 + (c - a) * 1 + (d - b) * 0 + -1 * 1), fin (0 + (e - a) * 1 + (f - b) * 0 + -1 * 1)] := by
  rfl

theorem rightL_residual (r u v p q s : Nat) (a b c d e f : ℝ) :
    rightL.residual (forkTree r u v p q s a b c d e f)
      = .ok [fin (0 + (c - a) * 1 + (d - b) * 0 + -1 * 1), fin (0 + (e - a) * 1 + (f - b) * 0 + -1 * 1),
          fin (0 + (c - a) * (e - a) + (d - b) * (f - b))] := by
  rfl

/-! ## C55: the Newton iteration is bounded and its history is faithful -/

/-- C55: the loop of the Newton method ends after at most `max_iter` rounds, whatever the residual
function, the numerical routines, the tolerances and the starting point are. -/
theorem C55_terminates (num : Numerics K) (res : List K → Py (List K)) (absTol relTol : K)
    (maxIter : Int) (x0 : List K) :
    ∃ r, ∀ rounds, maxIter.toNat + 1 ≤ rounds →
      newtonLoop num res absTol relTol maxIter rounds { param := x0 } = some r :=
  newtonLoop_total num res absTol relTol maxIter _ _ (by simp)

/-- C55: if the solver returns then its report describes a run of Newton iterates: one absolute and
one relative error per iterate, and it stopped for one of the allowed reasons; the primitives it
returns are those of the final iterate. -/
theorem C55_history (num : Numerics K) (l : Layout K) (base : Nat) (absTol relTol : K)
    (maxIter : Int) (r : Prim K) (info : SolverInfo K)
    (h : solveNewton num l base absTol relTol maxIter = .ok (r, info)) :
    ∃ x0 xs x, globalParam l = .ok x0 ∧
      NewtonRun num (globalRes l base) absTol relTol maxIter x0 xs x info ∧ rebuild l base x = .ok r := by
  obtain ⟨g0, s, h1, h2, h3, rfl⟩ := solveNewton_ok h
  obtain ⟨ys, hy⟩ := newtonLoop_run (RunInv.init num (globalRes l base) absTol relTol maxIter g0) h2
  exact ⟨g0, ys, s.param, h1, hy, h3⟩

/-- C55: the number that is reported for a residual vector of real numbers is its Euclidean norm. -/
theorem C55_norm (v : List ℝ) : npNorm (v.map fin) = fin (norm2 v) := npNorm_fin v

/-! ## C58: solving preserves structure -/

/-- C58, Newton: whatever the numerical routines return, the resulting tree has the same paths,
classes, keys and vector sizes, and the same vectors are shared. -/
theorem C58_newton (num : Numerics K) (l : Layout K) (hok : PrimOK l.prim) (base : Nat)
    (absTol relTol : K) (maxIter : Int) (r : Prim K) (info : SolverInfo K)
    (h : solveNewton num l base absTol relTol maxIter = .ok (r, info)) : SameStructure l.prim r := by
  obtain ⟨x0, xs, x, h1, h2, h3⟩ := C55_history num l base absTol relTol maxIter r info h
  have hl := chain_length h2.steps (n := dim l) (fun y hy => by
    rw [h2.start] at hy
    rw [← Option.some.inj hy]
    exact globalParam_length h1)
  obtain ⟨r', e1, e2⟩ := rebuild_structure l hok base x (hl x (by simp))
  rw [h3] at e1
  cases e1
  exact e2

/-- C58, minimize: for an optimizer that keeps the number of coordinates. -/
theorem C58_minimize (num : Numerics K) (hnum : Optimizes num) (l : Layout K) (hok : PrimOK l.prim)
    (base : Nat) (absTol relTol : K) (maxIter : Int) (r : Prim K) (info : SolverInfo K)
    (h : solveMinimize num l base absTol relTol maxIter = .ok (r, info)) : SameStructure l.prim r := by
  simp only [solveMinimize, py_bind_ok] at h
  obtain ⟨g0, h1, its, h2, root, h3, h4⟩ := h
  cases h4
  obtain ⟨k, hk⟩ := runMinimize_run absTol relTol g0 its
  have hlen : (runMinimize absTol relTol its g0 ⟨[], []⟩).1.length = dim l := by
    rw [hk.last]
    cases e : ((its.take k).map (·.1)).getLast? with
    | none => simpa using globalParam_length h1
    | some y =>
      obtain ⟨it, hit, rfl⟩ := List.mem_map.mp (List.mem_of_getLast? e)
      rw [Option.getD_some, hnum.size _ _ _ _ h2 it (List.mem_of_mem_take hit)]
      exact globalParam_length h1
  obtain ⟨r', e1, e2⟩ := rebuild_structure l hok base _ hlen
  rw [h3] at e1
  cases e1
  exact e2

/-! ## C60: the history of a minimization -/

/-- C60, the proved part: the report describes a prefix of the optimizer's iterates, one pair of
errors each; the run stops at the first entry below a tolerance; the primitives are those of the
last iterate; each entry is the sum of the squares of the residual at its iterate.  (Missing: the
claim says that an entry is the norm of the residual; see `C60_counterexample`.) -/
theorem C60_history_partial (num : Numerics Flt) (hnum : Optimizes num) (l : Layout Flt) (base : Nat)
    (absTol relTol : Flt) (maxIter : Int) (r : Prim Flt) (info : SolverInfo Flt)
    (h : solveMinimize num l base absTol relTol maxIter = .ok (r, info)) :
    ∃ x0 its k x, globalParam l = .ok x0 ∧
      num.iterates (objective l base) x0 maxIter = .ok its ∧
      MinimizeRun absTol relTol x0 its k x info ∧ rebuild l base x = .ok r ∧
      ∀ it ∈ its, ∃ v, globalRes l base it.1 = .ok v ∧
        ∀ w, v = w.map fin → it.2 = fin (norm2 w ^ 2) := by
  simp only [solveMinimize, py_bind_ok] at h
  obtain ⟨g0, h1, its, h2, root, h3, h4⟩ := h
  cases h4
  obtain ⟨k, hk⟩ := runMinimize_run absTol relTol g0 its
  refine ⟨g0, its, k, _, h1, h2, hk, h3, fun it hit => ?_⟩
  have := hnum.reports _ _ _ _ h2 it hit
  simp only [objective, py_bind_ok] at this
  obtain ⟨v, e1, e2⟩ := this
  refine ⟨v, e1, ?_⟩
  rintro w rfl
  rw [sumSq_fin] at e2
  rw [norm2_sq]
  exact (Except.ok.inj e2).symm

/-- An optimizer that visits only its starting point. -/
def stayPut : Numerics Flt where
  jacobian _ _ := .error .typeError
  lstsq _ _ _ := .error .typeError
  iterates f x _ := do let v ← f x; .ok [(x, v)]

theorem stayPut_optimizes : Optimizes stayPut where
  reports f x m its h it hit := by
    simp only [stayPut, py_bind_ok] at h
    obtain ⟨v, h1, h2⟩ := h
    cases h2
    simp only [List.mem_singleton] at hit
    subst hit
    exact h1
  size f x m its h it hit := by
    simp only [stayPut, py_bind_ok] at h
    obtain ⟨v, h1, h2⟩ := h
    cases h2
    simp only [List.mem_singleton] at hit
    subst hit
    rfl
  raises f x m e h := by simp only [stayPut, h]; rfl

theorem forkL_rebuild (base : Nat) (a b c d e f : ℝ) :
    rebuild forkL base [fin a, fin b, fin c, fin d, fin e, fin f]
      = .ok (forkTree (base + 0) (base + 1) (base + 4) (base + 2) (base + 3) (base + 5) a b c d e f) := by
  rfl

/-- C60 as stated fails: two lines of width 3 that should have width 1, so that the residual is
`(2, 2)` with norm `√8`; the reported error is `8`. -/
theorem C60_counterexample :
    ∃ r info, solveMinimize stayPut forkL 10 (fin 0) (fin 0) 10 = .ok (r, info) ∧
      info.absErrs = [fin 8] ∧
      ∃ v : List ℝ, forkL.residual r = .ok (v.map fin) ∧ norm2 v ≠ 8 := by
  have h1 : globalParam forkL = .ok [fin 0, fin 0, fin 3, fin 0, fin 3, fin 0] := by rfl
  have h2 : globalRes forkL 10 [fin 0, fin 0, fin 3, fin 0, fin 3, fin 0] = .ok [fin 2, fin 2] := by
    simp only [globalRes, forkL_rebuild, bind, Except.bind, forkL_residual]
    norm_num
  have h3 : objective forkL 10 [fin 0, fin 0, fin 3, fin 0, fin 3, fin 0] = .ok (fin 8) := by
    simp only [objective, h2, bind, Except.bind]
    rw [show ([fin 2, fin 2] : List Flt) = [2, 2].map fin from rfl, sumSq_fin]
    norm_num
  have h4 : PyNum.lt (fin 8 / fin 8) (fin 0) = false ∧ PyNum.lt (fin 8) (fin 0) = false := by
    rw [fin_div (by norm_num)]
    constructor <;> simp only [PyNum.lt, decide_eq_false_iff_not] <;> norm_num
  refine ⟨forkTree (10 + 0) (10 + 1) (10 + 4) (10 + 2) (10 + 3) (10 + 5) 0 0 3 0 3 0,
    ⟨[fin 8], [fin 8 / fin 8]⟩, ?_, rfl, [2, 2], ?_, ?_⟩
  · simp only [solveMinimize, h1, bind, Except.bind, stayPut, h3, runMinimize, callback,
      List.nil_append, List.headD_cons, h4, Bool.or_self, forkL_rebuild]
  · rw [forkL_residual]; norm_num
  · intro h
    have := norm2_sq [2, 2]
    rw [h] at this
    norm_num at this

/-! ## C56: a satisfied layout is left alone -/

/-- C56, the proved part: with exact numerics, for all tolerances and numbers of iterations, a layout
whose primitives satisfy all its constraints is solved successfully, and the result is the same
geometry.  (Assumed: the residual is differentiable at the layout's geometry.  Without it — a line of
length zero with a `Length` constraint of zero — `jax` returns `nan` entries.) -/
theorem C56_satisfied_partial (num : Numerics Flt) (hnum : Exact num) (id : Nat)
    (ops : List (LayoutOp Flt)) (hops : ∀ op ∈ ops, op.Uses fun _ => True) (l : Layout Flt)
    (hl : l = (Layout.empty id).run ops) (hok : PrimOK l.prim) (hfin : l.prim.Finite)
    (v : List Flt) (hv : l.residual l.prim = .ok v) (hz : Zeros v) (base : Nat)
    (hdiff : ∀ (x : Fin (dim l) → ℝ), globalParam l = .ok (vec x) →
      ∃ (m : Nat) (M : Matrix (Fin m) (Fin (dim l)) ℝ), IsJacobian (globalRes l base) x M)
    (absTol relTol : Flt) (maxIter : Int) :
    ∃ r info, solveNewton num l base absTol relTol maxIter = .ok (r, info) ∧
      SameGeometry l.prim r := by
  obtain ⟨x, hx⟩ := finite_param hok hfin
  obtain ⟨m, M, hM⟩ := hdiff x hx
  obtain ⟨r, e1, e2⟩ := rebuild_self l hok base hx
  have hr : r.WF := by
    obtain ⟨r', f1, f2, _⟩ := rebuild_at l hok base (vec x) (vec_length x)
    rw [e1] at f1; cases f1; exact f2
  have hg : globalRes l base (vec x) = .ok v := by
    simp only [globalRes, e1, bind, Except.bind]
    rw [← residual_geometry (by rw [hl]; exact run_nip hops id) hok.wf hr e2, hv]
  have hv0 : v = vec (0 : Fin m → ℝ) := by
    obtain ⟨F, hF, _⟩ := hM
    have := hF.self_of_nhds
    rw [hg] at this
    have hv' := Except.ok.inj this
    rw [hv'] at hz ⊢
    rw [zeros_vec hz]
  rw [hv0] at hg
  obtain ⟨s, h1, h2⟩ := fixed_loop hnum hg hM absTol relTol maxIter (maxIter.toNat + 1)
    { param := vec x } rfl (by simp)
  exact ⟨r, _, solveNewton_eq hx h1 (by rw [h2, e1]), e2⟩

theorem SameStructure.refl {p : Prim K} (h : p.WF) : SameStructure p p := by
  have uniq : ∀ {q m m'}, p.At q m → p.At q m' → m = m' := fun h1 h2 => by
    have e1 := (Node.find_iff_At h).mpr h1
    have e2 := (Node.find_iff_At h).mpr h2
    rw [e1] at e2; exact Option.some.inj e2
  refine ⟨fun _ => Iff.rfl, fun q m m' h1 h2 => ?_, fun q q' m n m' n' h1 h2 h3 h4 => ?_⟩
  · cases uniq h1 h2; exact ⟨rfl, rfl, rfl⟩
  · cases uniq h1 h3; cases uniq h2 h4; exact Iff.rfl

/-- C56 for layouts of shipped affine constraints, where nothing is assumed about differentiability.
(Missing: other constraints; see `C56_satisfied_partial`.) -/
theorem C56_affine_partial (num : Numerics Flt) (hnum : Exact num) (id : Nat)
    (ops : List (LayoutOp Flt)) (hops : ∀ op ∈ ops, op.Uses Shipped.IsAffine) (l : Layout Flt)
    (hl : l = (Layout.empty id).run ops) (hok : PrimOK l.prim) (hfin : l.prim.Finite)
    (v : List Flt) (hv : l.residual l.prim = .ok v) (hz : Zeros v) (base : Nat)
    (absTol relTol : Flt) (maxIter : Int) :
    ∃ r info, solveNewton num l base absTol relTol maxIter = .ok (r, info) ∧
      SameGeometry l.prim r := by
  have huses : ∀ op ∈ ops, op.Uses fun _ => True := by
    intro op ho
    have := hops op ho
    cases op with
    | addPrim => exact this
    | addPrims => exact this
    | addConstraint =>
      obtain ⟨s, h1, h2, _⟩ := this
      exact ⟨s, h1, h2, trivial⟩
  refine C56_satisfied_partial num hnum id ops huses l hl hok hfin v hv hz base ?_ absTol relTol maxIter
  intro x _
  obtain ⟨m, M, c, _, h1, _⟩ :=
    affine_residual hops id base (congrArg Layout.cons hl) hok hok (SameStructure.refl hok.wf) hfin hv hz
  exact ⟨m, M, affine_jacobian h1 x⟩

/-! ## C57: linear layouts are solved exactly -/

/-- C57: with exact numerics, a layout made by any calls that add shipped affine constraints, whose
constraints can all be satisfied by some geometry of the same structure, is solved successfully by at
least one iteration, and all constraints are satisfied exactly by the result, whose coordinates are
real numbers. -/
theorem C57_affine (num : Numerics Flt) (hnum : Exact num) (id : Nat) (ops : List (LayoutOp Flt))
    (hops : ∀ op ∈ ops, op.Uses Shipped.IsAffine) (l : Layout Flt)
    (hl : l = (Layout.empty id).run ops) (hok : PrimOK l.prim) (hfin : l.prim.Finite)
    (r' : Prim Flt) (hr' : PrimOK r') (hs' : SameStructure l.prim r') (hf' : r'.Finite)
    (v : List Flt) (hv : l.residual r' = .ok v) (hz : Zeros v)
    (base : Nat) (a b : ℝ) (maxIter : Int) (hmax : 1 ≤ maxIter) :
    ∃ r info v, solveNewton num l base (fin a) (fin b) maxIter = .ok (r, info) ∧
      l.residual r = .ok v ∧ Zeros v ∧ r.Finite := by
  obtain ⟨x, hx⟩ := finite_param hok hfin
  obtain ⟨m, M, c, y, h1, h2⟩ := affine_residual hops id base (congrArg Layout.cons hl) hok hr' hs' hf' hv hz
  obtain ⟨s, x', e1, e2, e3⟩ := affine_loop hnum h1 h2 (fin a) (fin b) maxIter (maxIter.toNat + 1)
    { param := vec x } x rfl (.inr (by
      simp only [continues, gtTol, Bool.and_eq_true, decide_eq_true_eq]
      refine ⟨⟨?_, ?_⟩, by simp; omega⟩ <;> simp [PyNum.le])) (by simp)
  obtain ⟨r, f1, _⟩ := rebuild_at l hok base (vec x') (vec_length x')
  refine ⟨r, _, vec (0 : Fin m → ℝ), solveNewton_eq hx e1 (by rw [e2, f1]), ?_, vec_zeros,
    rebuild_finite l hok base x' f1⟩
  have := h1 x'
  simp only [globalRes, f1, bind, Except.bind, e3] at this
  exact this

/-- C57 in terms of the added constraints: each of them, called with the primitives of the result
found under its keys, returns zeros; the coordinates of the result are real numbers. -/
theorem C57_constraints (num : Numerics Flt) (hnum : Exact num) (id : Nat) (ops : List (LayoutOp Flt))
    (hops : ∀ op ∈ ops, op.Uses Shipped.IsAffine) (hsens : ∀ op ∈ ops, op.Sensible)
    (htop : ∀ op ∈ ops, op.TopLevel) (l : Layout Flt)
    (hl : l = (Layout.empty id).run ops) (hok : PrimOK l.prim) (hfin : l.prim.Finite)
    (r' : Prim Flt) (hr' : PrimOK r') (hs' : SameStructure l.prim r') (hf' : r'.Finite)
    (hsat : ∀ c ∈ (Layout.empty id).added ops, ∃ v, c.Value r' v ∧ Zeros v)
    (hne : (Layout.empty id).added ops ≠ [])
    (base : Nat) (a b : ℝ) (maxIter : Int) (hmax : 1 ≤ maxIter) :
    ∃ r info, solveNewton num l base (fin a) (fin b) maxIter = .ok (r, info) ∧ r.Finite ∧
      ∀ c ∈ (Layout.empty id).added ops, ∃ v, c.Value r v ∧ Zeros v := by
  have hres : ∀ t : Prim Flt, t.WF → SameStructure l.prim t → ∀ v, l.residual t = .ok v ↔
      (Layout.empty id).added ops ≠ [] ∧
      ∃ vs, List.Forall₂ (fun a w => a.Value t w) ((Layout.empty id).added ops) vs ∧ v = vs.flatten := by
    intro t ht hst v
    rw [hl]
    refine C50_residual_partial id ops (fun op h => Sensible.regular (hsens op h)) htop t ?_ v
    intro k p hp
    rw [← hl] at hp
    rw [Node.getChild_ok_iff, Node.find_iff_At hok.wf] at hp
    obtain ⟨p', hp'⟩ := (hst.paths _).mp ⟨p, hp⟩
    refine ⟨p', ?_, (hst.nodes _ _ _ hp hp').1.symm⟩
    rw [Node.getChild_ok_iff, Node.find_iff_At ht]
    exact hp'
  obtain ⟨vs, hvs, hvz⟩ : ∃ vs, List.Forall₂ (fun a w => a.Value r' w) ((Layout.empty id).added ops) vs ∧
      ∀ v ∈ vs, Zeros v := by
    clear hne hres
    generalize (Layout.empty id).added ops = as at hsat
    induction as with
    | nil => exact ⟨[], .nil, by simp⟩
    | cons a as ih =>
      obtain ⟨v, h1, h2⟩ := hsat a (by simp)
      obtain ⟨vs, h3, h4⟩ := ih fun c hc => hsat c (by simp [hc])
      refine ⟨v :: vs, .cons h1 h3, fun w hw => ?_⟩
      rcases List.mem_cons.mp hw with rfl | hw
      · exact h2
      · exact h4 w hw
  obtain ⟨r, info, v, e1, e2, e3, e4⟩ := C57_affine num hnum id ops hops l hl hok hfin r' hr' hs' hf'
    vs.flatten ((hres r' hr'.wf hs' _).mpr ⟨hne, vs, hvs, rfl⟩) (by
      intro x hx
      obtain ⟨v, h1, h2⟩ := List.mem_flatten.mp hx
      exact hvz v h1 x h2) base a b maxIter hmax
  refine ⟨r, info, e1, e4, ?_⟩
  have hst := C58_newton num l hok base (fin a) (fin b) maxIter r info e1
  have hwf : r.WF := by
    obtain ⟨_, s, g1, g2, g3, _⟩ := solveNewton_ok e1
    obtain ⟨ys, hy⟩ := newtonLoop_run (RunInv.init num (globalRes l base) (fin a) (fin b) maxIter _) g2
    have hlen := chain_length hy.steps (n := dim l) (fun y hy' => by
      rw [hy.start] at hy'
      rw [← Option.some.inj hy']
      exact globalParam_length g1) s.param (by simp)
    obtain ⟨r2, f1, f2, _⟩ := rebuild_at l hok base s.param hlen
    rw [g3] at f1; cases f1; exact f2
  obtain ⟨_, ws, hws, rfl⟩ := (hres r hwf hst v).mp e2
  intro c hc
  clear hres hne e1 e2 hsat
  generalize (Layout.empty id).added ops = as at hws hc
  induction hws with
  | nil => cases hc
  | @cons a w as ws h1 h2 ih =>
    rcases List.mem_cons.mp hc with rfl | hc
    · exact ⟨w, h1, fun x hx => e3 x (by simp [hx])⟩
    · exact ih (fun x hx => e3 x (by
        obtain ⟨u, hu⟩ := List.mem_flatten.mp hx
        exact List.mem_flatten.mpr ⟨u, by simp [hu.1], hu.2⟩)) hc

/-- A layout that meets the hypotheses of C57: two lines of width 3, which share a point, should have
width 1, which lines of width 1 have. -/
example : ∃ num, Exact num ∧ ∃ r info v, solveNewton num forkL 10 (fin 0) (fin 0) 1 = .ok (r, info) ∧
    forkL.residual r = .ok v ∧ Zeros v ∧ r.Finite :=
  ⟨exactNum, exactNum_exact, C57_affine exactNum exactNum_exact 0 forkOps forkOps_affine forkL rfl
    (by rw [forkL_prim]; exact forkTree_ok (by decide) _ _ _ _ _ _)
    (by rw [forkL_prim]; exact forkTree_finite _ _ _ _ _ _ _ _ _ _ _ _)
    (forkTree 10 14 15 11 12 13 0 0 1 0 1 0) (forkTree_ok (by decide) _ _ _ _ _ _)
    (by rw [forkL_prim]; exact forkTree_same _ _ _ _ _ _ _ _ _ _ _ _)
    (forkTree_finite _ _ _ _ _ _ _ _ _ _ _ _) _ (forkL_residual _ _ _ _ _ _ _ _ _ _ _ _)
    (by intro x hx; simp only [List.mem_cons, List.not_mem_nil, or_false] at hx
        rcases hx with rfl | rfl <;> norm_num) 10 0 0 1 (by norm_num)⟩

/-! ## C59: dispatch -/

/-- C59, dispatch: `'newton'` and `'minimize'` choose the method; any other name is refused. -/
theorem C59_dispatch (num : Numerics K) (l : Layout K) (base : Nat) (absTol relTol : K)
    (maxIter : Int) :
    solve num l base absTol relTol maxIter k!"newton" = solveNewton num l base absTol relTol maxIter ∧
    solve num l base absTol relTol maxIter k!"minimize"
      = solveMinimize num l base absTol relTol maxIter ∧
    ∀ method, method ≠ k!"newton" → method ≠ k!"minimize" →
      solve num l base absTol relTol maxIter method = .error .valueError := by
  refine ⟨rfl, rfl, fun method h1 h2 => ?_⟩
  simp only [solve, if_neg h1, if_neg h2]

theorem residual_empty {l : Layout K} (h : l.cons.children = []) (root : Prim K) :
    l.residual root = .error .valueError := by
  have hc : l.flatConstraints.1 = [] := by
    simp only [Layout.flatConstraints]
    cases hl : l.cons with
    | mk t v cs =>
      rw [hl] at h
      simp only [Node.children_mk] at h
      subst h
      rfl
  have : l.flatConstraints = ([], l.flatConstraints.2) := by rw [← hc]
  simp only [Layout.residual, Layout.residualList]
  rw [this]
  simp [pyMap, Cons.residuals, npConcat, bind, Except.bind]

/-- C59 as stated fails: a layout without constraints is not returned unchanged; `solve` raises
`ValueError`, with either method. -/
theorem C59_no_constraints_counterexample (num : Numerics Flt) (hnum : Optimizes num) (l : Layout Flt)
    (hok : PrimOK l.prim) (hc : l.cons.children = []) (base : Nat) (a b : ℝ) (maxIter : Int)
    (hmax : 1 ≤ maxIter) (method : Str) :
    solve num l base (fin a) (fin b) maxIter method = .error .valueError := by
  have hg := globalParam_eq l hok
  have hres : globalRes l base (primValues l).flatten = .error .valueError := by
    obtain ⟨r, e, _⟩ := rebuild_at l hok base _ (globalParam_length hg)
    simp only [globalRes, e, bind, Except.bind, residual_empty hc]
  simp only [solve]
  split
  · have hcont : continues (fin a) (fin b) maxIter { param := (primValues l).flatten } = true := by
      simp only [continues, gtTol, Bool.and_eq_true, decide_eq_true_eq]
      refine ⟨⟨?_, ?_⟩, by simp; omega⟩ <;> simp [PyNum.le]
    simp only [solveNewton, hg, bind, Except.bind, newtonLoop, hcont, if_true, newtonStep, hres]
  · split
    · have ho : objective l base (primValues l).flatten = .error .valueError := by
        simp only [objective, hres, bind, Except.bind]
      simp only [solveMinimize, hg, bind, Except.bind, hnum.raises _ _ _ _ ho]
    · rfl

/-- C59, the proved part for layouts without constraints: with `max_iter <= 0` the Newton method does
return the same geometry (of any layout).  (Missing: the same with iterations; it raises.) -/
theorem C59_no_iterations_partial (num : Numerics K) (l : Layout K) (hok : PrimOK l.prim) (base : Nat)
    (absTol relTol : K) (maxIter : Int) (hmax : maxIter ≤ 0) :
    ∃ r, solve num l base absTol relTol maxIter k!"newton" = .ok (r, ⟨[], []⟩) ∧
      SameGeometry l.prim r := by
  have hg := globalParam_eq l hok
  obtain ⟨r, e1, e2⟩ := rebuild_self l hok base hg
  refine ⟨r, ?_, e2⟩
  have : continues absTol relTol maxIter { param := (primValues l).flatten } = false := by
    simp only [continues]
    rw [show decide (((0 : Nat) : Int) < maxIter) = false from by simp; omega]
    simp
  rw [(C59_dispatch num l base absTol relTol maxIter).1]
  exact solveNewton_eq hg (s := { param := (primValues l).flatten })
    (by simp only [newtonLoop, this]; rfl) e1

/-! ## C61: reported convergence and the returned primitives -/

theorem forall2_last {α β : Type} {R : α → β → Prop} {y : α} {e : β} : ∀ {ys : List α} {es : List β},
    List.Forall₂ R (ys ++ [y]) es → es.getLast? = some e → R y e
  | [], _, .cons h .nil, he => by
    simp only [List.getLast?_singleton, Option.some.injEq] at he
    exact he ▸ h
  | _ :: ys, _, .cons (l₂ := es) h h', he => by
    have hne : es ≠ [] := by
      rintro rfl
      have := h'.length_eq
      simp at this
    obtain ⟨b, bs, rfl⟩ := List.exists_cons_of_ne_nil hne
    rw [List.getLast?_cons_cons] at he
    exact forall2_last h' he

/-- C61, the proved part: the last reported absolute error is the residual norm at an iterate whose
Newton step gives the returned primitives.  (Missing: the residual norm at the returned primitives
themselves; see `C61_counterexample`.) -/
theorem C61_lag_partial (num : Numerics K) (l : Layout K) (base : Nat) (absTol relTol : K)
    (maxIter : Int) (r : Prim K) (info : SolverInfo K) (e : K)
    (h : solveNewton num l base absTol relTol maxIter = .ok (r, info))
    (he : info.absErrs.getLast? = some e) :
    ∃ y x v, IsStep num (globalRes l base) y x ∧ globalRes l base y = .ok v ∧ e = npNorm v ∧
      rebuild l base x = .ok r := by
  obtain ⟨x0, xs, x, h1, h2, h3⟩ := C55_history num l base absTol relTol maxIter r info h
  rcases List.eq_nil_or_concat xs with rfl | ⟨ys, y, rfl⟩
  · have := h2.abs.length_eq
    have : info.absErrs = [] := List.eq_nil_of_length_eq_zero (by simpa using this.symm)
    rw [this] at he
    cases he
  · have hst : IsStep num (globalRes l base) y x := by
      have := h2.steps
      rw [List.concat_eq_append, List.append_assoc] at this
      have h' := (List.isChain_append.mp this).2.1
      simpa using h'
    have hab := h2.abs
    rw [List.concat_eq_append] at hab
    obtain ⟨v, hv, hev⟩ := forall2_last hab he
    exact ⟨y, x, v, hst, hv, hev, h3⟩

/-- The residual of `rightL` as a function of the coordinates. -/
def rightF (y : Fin 6 → ℝ) : Fin 3 → ℝ :=
  ![(y 2 - y 0) - 1, (y 4 - y 0) - 1, (y 2 - y 0) * (y 4 - y 0) + (y 3 - y 1) * (y 5 - y 1)]

/-- The starting point of `rightL`. -/
noncomputable def rightX : Fin 6 → ℝ := ![0, 0, 1, 1 / 4, 1, 1 / 4]

/-- The Jacobian matrix there. -/
noncomputable def rightM : Matrix (Fin 3) (Fin 6) ℝ :=
  !![-1, 0, 1, 0, 0, 0; -1, 0, 0, 0, 1, 0; -2, -1 / 2, 1, 1 / 4, 1, 1 / 4]

theorem rightL_rebuild (base : Nat) (y : Fin 6 → ℝ) :
    rebuild rightL base (vec y) = .ok (forkTree (base + 0) (base + 1) (base + 4) (base + 2) (base + 3)
      (base + 5) (y 0) (y 1) (y 2) (y 3) (y 4) (y 5)) := by
  rfl

theorem rightL_globalRes (base : Nat) (y : Fin 6 → ℝ) :
    globalRes rightL base (vec y) = .ok (vec (rightF y)) := by
  simp only [globalRes, rightL_rebuild, bind, Except.bind, rightL_residual]
  simp [vec, rightF, List.ofFn_succ]
  ring_nf
  simp

theorem rightL_jacobian (base : Nat) : IsJacobian (globalRes rightL base) rightX rightM := by
  refine ⟨rightF, Filter.Eventually.of_forall (rightL_globalRes base), ?_⟩
  rw [hasFDerivAt_pi']
  have h : ∀ i : Fin 6, HasFDerivAt (fun y : Fin 6 → ℝ => y i)
      (ContinuousLinearMap.proj (R := ℝ) (φ := fun _ : Fin 6 => ℝ) i) rightX :=
    fun i => hasFDerivAt_apply i rightX
  intro i
  fin_cases i
  · refine HasFDerivAt.congr_fderiv (((h 2).sub (h 0)).sub_const 1) ?_
    ext y
    show _ = ∑ j, rightM 0 j * y j
    simp [rightM, Fin.sum_univ_succ]
    ring
  · refine HasFDerivAt.congr_fderiv (((h 4).sub (h 0)).sub_const 1) ?_
    ext y
    show _ = ∑ j, rightM 1 j * y j
    simp [rightM, Fin.sum_univ_succ]
    ring
  · refine HasFDerivAt.congr_fderiv ((((h 2).sub (h 0)).mul ((h 4).sub (h 0))).add
      (((h 3).sub (h 1)).mul ((h 5).sub (h 1)))) ?_
    ext y
    show _ = ∑ j, rightM 2 j * y j
    simp [rightM, rightX, Fin.sum_univ_succ]
    ring

/-- C61 as stated fails: two lines from one point that should have width 1 and be orthogonal (and can
be), from `(0, 0)` to `(1, 1/4)` each.  The residual norm there, `17/16`, meets `abs_tol = 2`, and it
is the only error reported; but the returned primitives are those after one more Newton step, and
their residual norm is `289/64`. -/
theorem C61_counterexample (num : Numerics Flt) (hnum : Exact num) :
    ∃ r info, solveNewton num rightL 10 (fin 2) (fin 0) 10 = .ok (r, info) ∧
      info.absErrs = [fin (17 / 16)] ∧
      ∃ v : List ℝ, rightL.residual r = .ok (v.map fin) ∧ norm2 v = 289 / 64 := by
  have h1 : globalParam rightL = .ok (vec rightX) := by
    have : globalParam rightL = .ok [fin 0, fin 0, fin 1, fin (1 / 4), fin 1, fin (1 / 4)] := by rfl
    rw [this]; rfl
  have hF : rightF rightX = ![0, 0, 17 / 16] := by
    funext i; fin_cases i <;> simp [rightF, rightX]; norm_num
  have hr := rightL_globalRes 10 rightX
  have hJ := hnum.jacobian _ _ _ (rightL_jacobian 10)
  obtain ⟨d, hd, hl⟩ := hnum.lstsq rightM (-rightF rightX)
  have hde : d = ![0, 17 / 12, 0, -17 / 24, 0, -17 / 24] := by
    refine lstsq_unique hd (w := ![17 / 6, 17 / 6, -17 / 6]) ?_ ?_
    · rw [hF]
      funext i
      show ∑ j, rightM i j * _ = _
      fin_cases i <;> simp [rightM, Fin.sum_univ_succ] <;> norm_num
    · funext i
      show _ = ∑ j, _ * rightM j i
      fin_cases i <;> simp [rightM, Fin.sum_univ_succ] <;> norm_num
  have hn : npNorm (vec (rightF rightX)) = fin (17 / 16) := by
    rw [vec_eq, npNorm_fin, hF]
    congr 1
    rw [norm2, Real.sqrt_eq_iff_mul_self_eq_of_pos (by norm_num)]
    norm_num [List.ofFn_succ]
  have hF2 : rightF (rightX + d) = ![0, 0, 289 / 64] := by
    rw [hde]
    funext i; fin_cases i <;> simp [rightF, rightX]; norm_num
  have hst := newtonStep_vec hr hJ hl { param := vec rightX } rfl
  rw [hn] at hst
  refine ⟨_, _, solveNewton_eq h1 (s := ⟨vec (rightX + d), 1, some (fin (17 / 16)), some (fin 1),
    [fin (17 / 16)], [fin 1]⟩) ?_ (rightL_rebuild 10 _), rfl, List.ofFn (rightF (rightX + d)), ?_, ?_⟩
  · have hq : fin (17 / 16) / fin (17 / 16) = fin 1 := by
      rw [fin_div (by norm_num)]; norm_num
    have hc : continues (fin 2) (fin 0) 10 { param := vec rightX } = true := by
      simp [continues, gtTol, PyNum.le]
    have hc2 : continues (fin 2) (fin 0) 10 ⟨vec (rightX + d), 1, some (fin (17 / 16)), some (fin 1),
        [fin (17 / 16)], [fin 1]⟩ = false := by
      have : PyNum.lt (fin 2) (fin (17 / 16)) = false := by
        simp only [PyNum.lt, decide_eq_false_iff_not]; norm_num
      simp [continues, gtTol, this]
    simp only [List.nil_append, List.headD_cons, hq] at hst
    show newtonLoop num _ _ _ _ 11 _ = _
    rw [newtonLoop, if_pos hc, hst]
    show newtonLoop num _ _ _ _ 10 _ = _
    rw [newtonLoop, hc2]
    rfl
  · have := rightL_globalRes 10 (rightX + d)
    simp only [globalRes, rightL_rebuild, bind, Except.bind] at this
    rw [this, vec_eq]
  · rw [hF2, norm2, Real.sqrt_eq_iff_mul_self_eq_of_pos (by norm_num)]
    norm_num [List.ofFn_succ]

/-- `exactNum` is exact: the counterexample is not vacuous. -/
example : ∃ num, Exact num := ⟨exactNum, exactNum_exact⟩

/-- C61 for layouts of shipped affine constraints that can be satisfied: after at least one iteration
the residual norm at the returned primitives is zero, hence below every reported error.  (Missing:
other layouts, for which it is false.) -/
theorem C61_affine_partial (num : Numerics Flt) (hnum : Exact num) (id : Nat) (ops : List (LayoutOp Flt))
    (hops : ∀ op ∈ ops, op.Uses Shipped.IsAffine) (l : Layout Flt)
    (hl : l = (Layout.empty id).run ops) (hok : PrimOK l.prim) (hfin : l.prim.Finite)
    (r' : Prim Flt) (hr' : PrimOK r') (hs' : SameStructure l.prim r') (hf' : r'.Finite)
    (v : List Flt) (hv : l.residual r' = .ok v) (hz : Zeros v)
    (base : Nat) (a b : ℝ) (maxIter : Int) (hmax : 1 ≤ maxIter) (r : Prim Flt) (info : SolverInfo Flt)
    (h : solveNewton num l base (fin a) (fin b) maxIter = .ok (r, info)) :
    ∃ w, l.residual r = .ok w ∧ npNorm w = fin 0 := by
  obtain ⟨r2, info2, w, h1, h2, h3, _⟩ := C57_affine num hnum id ops hops l hl hok hfin r' hr' hs' hf' v
    hv hz base a b maxIter hmax
  rw [h] at h1
  cases h1
  refine ⟨w, h2, ?_⟩
  have : w = (w.map fun _ => (0 : ℝ)).map fin := by
    rw [List.map_map]
    conv_lhs => rw [← List.map_id w]
    exact List.map_congr_left fun x hx => h3 x hx
  rw [this, npNorm_fin, norm2]
  congr 1
  rw [show ((w.map fun _ => (0 : ℝ)).map fun x => x ^ 2) = List.replicate w.length 0 by
    simp [List.map_const']]
  simp

end MplLayout.Props
