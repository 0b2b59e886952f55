import Verif.Lemmas.Jacfwd
import Verif.Props.Convergence

/-!
# C96: the matrix that `jax.jacfwd` returns is the Jacobian matrix
-/

namespace MplLayout.Props

open Solver Flt

/-! ## The theorems -/

/-- C96, soundness: let a layout be made by any calls that add trees and shipped constraints.  If at `x`
the residual vector is finite and the matrix that `jax.jacfwd` returns is finite, then the residual
vector is differentiable at `x` and the matrix is its Jacobian matrix.  (If the layout has an angle
constraint, no line points to the left at `x`: see `C96_jump`.) -/
theorem C96_finite_is_jacobian (id : Nat) (prog : List BuildCall) (base : Nat) {m n : Nat} (x : Fin n → ℝ)
    (hleft : ∀ root, rebuild (builtLayout id prog) base (vec x) = .ok root →
      Uses prog fun s => s = .angle → ∀ k q, root.getChild k = .ok q → Prim.NoLeftLines q)
    (b : Fin m → ℝ) (hb : globalRes (builtLayout id prog) base (vec x) = .ok (vec b))
    (M : Matrix (Fin m) (Fin n) ℝ)
    (hM : jacfwd (globalRes (tracedLayout id prog) base) (vec x) = .ok (mat M)) :
    IsJacobian (globalRes (builtLayout id prog) base) x M :=
  jacfwd_sound id prog (builtLayout id prog).prim base
    (∀ root, rebuild (builtLayout id prog) base (vec x) = .ok root → ∀ k q, root.getChild k = .ok q →
      Prim.NoLeftLines q)
    (fun s ks ps key h hs root e => hleft root e s ks ps key h hs)
    (fun root e k q hq h => h root e k q hq) hb (by rw [tracedFrom_self]; exact hM)

/-- C96, completeness: wherever the residual vector is finite and every constraint of the layout is
differentiable (no line is a single point if lengths are measured, none points to the left if angles
are measured), `jax.jacfwd` returns a finite matrix, and it is the Jacobian matrix of the residual. -/
theorem C96_smooth (id : Nat) (prog : List BuildCall) (base : Nat) {m n : Nat} (x : Fin n → ℝ)
    (hsm : ∀ root, rebuild (builtLayout id prog) base (vec x) = .ok root → Uses prog (Shipped.SmoothAt root))
    (b : Fin m → ℝ) (hb : globalRes (builtLayout id prog) base (vec x) = .ok (vec b)) :
    ∃ M : Matrix (Fin m) (Fin n) ℝ, jacfwd (globalRes (tracedLayout id prog) base) (vec x) = .ok (mat M) ∧
      IsJacobian (globalRes (builtLayout id prog) base) x M := by
  obtain ⟨M, hM⟩ := jacfwd_finite id prog (builtLayout id prog).prim base
    (∀ root, rebuild (builtLayout id prog) base (vec x) = .ok root → ∀ k q, root.getChild k = .ok q →
      Prim.NoZeroLines q)
    (∀ root, rebuild (builtLayout id prog) base (vec x) = .ok root → ∀ k q, root.getChild k = .ok q →
      Prim.NoLeftLines q)
    (fun s ks ps key h => ⟨fun hs root e => (hsm root e s ks ps key h).1 hs,
      fun hs root e => (hsm root e s ks ps key h).2 hs⟩)
    (fun root e k q hq => ⟨fun h => h root e k q hq, fun h => h root e k q hq⟩) hb
  rw [tracedFrom_self] at hM
  exact ⟨M, hM, C96_finite_is_jacobian id prog base x (fun root e s ks ps key h => (hsm root e s ks ps key h).2)
    b hb M hM⟩

/-- C96: what the theorems about the Newton method assume of `jax.jacfwd` (`Exact.jacobian`) is true of
it at every such geometry. -/
theorem C96_exact (id : Nat) (prog : List BuildCall) (base : Nat) {m n : Nat} (x : Fin n → ℝ)
    (hsm : ∀ root, rebuild (builtLayout id prog) base (vec x) = .ok root → Uses prog (Shipped.SmoothAt root))
    (M : Matrix (Fin m) (Fin n) ℝ) (hM : IsJacobian (globalRes (builtLayout id prog) base) x M) :
    jacfwd (globalRes (tracedLayout id prog) base) (vec x) = .ok (mat M) := by
  have hM0 := hM
  obtain ⟨F, h1, h2⟩ := hM0
  obtain ⟨M', h3, h4⟩ := C96_smooth id prog base x hsm (F x) h1.self_of_nhds
  rw [h3, h4.unique hM]

/-- C96, values: for every program and every array (finite or not), whatever the tangents of the traced
numbers are, the traced function has the values of the residual function, or raises its exception. -/
theorem C96_values (id : Nat) (prog : List BuildCall) (base : Nat) (d : List Dual) :
    (globalRes (tracedLayout id prog) base d).map (List.map Dual.val)
      = globalRes (builtLayout id prog) base (d.map Dual.val) := by
  have h := val_res id prog base (valR_of (d := d) rfl)
  revert h
  cases globalRes (builtLayout id prog) base (d.map Dual.val) <;>
    cases globalRes (tracedLayout id prog) base d <;> intro h
  · exact congrArg _ (show _ = _ from h).symm
  · exact h.elim
  · exact h.elim
  · exact congrArg _ (valR_map h)

/-- C96, shape: for every program and every array `x` (finite or not), `jax.jacfwd` raises the exception
that the residual function raises, or it returns a matrix with one row for each residual and one column
for each coordinate. -/
theorem C96_shape (id : Nat) (prog : List BuildCall) (base : Nat) (x : List Flt) :
    (∀ e, globalRes (builtLayout id prog) base x = .error e →
      jacfwd (globalRes (tracedLayout id prog) base) x = .error e) ∧
    (∀ v, globalRes (builtLayout id prog) base x = .ok v →
      ∃ J, jacfwd (globalRes (tracedLayout id prog) base) x = .ok J ∧ J.length = v.length ∧
        ∀ row ∈ J, row.length = x.length) := by
  have h0 := val_res id prog base (valR_of (d := x.map Dual.const) (x := x)
    (by rw [List.map_map]; exact List.map_id' x))
  have hj := fun j => val_res id prog base (valR_of (seed_val x j))
  constructor
  · intro e he
    rw [he] at h0
    revert h0
    cases h : globalRes (tracedLayout id prog) base (x.map Dual.const) <;> intro h0
    · have h0 : e = _ := h0
      subst h0
      simp only [jacfwd, h, bind, Except.bind]
    · exact h0.elim
  · intro v hv
    obtain ⟨y, hy, hyl⟩ := h0.ok_left hv
    choose c hc hcl using fun j => (hj j).ok_left hv
    refine ⟨_, by simp only [jacfwd, hy, pyMap_all_ok fun j _ => hc j, bind, Except.bind]; rfl, ?_, ?_⟩
    · simpa using (LRel.length hyl).symm
    · intro row hr
      obtain ⟨i, -, rfl⟩ := List.mem_map.mp hr
      simp

/-! ## Where the matrix is wrong or not finite -/

/-- A line to the right and a line to the left, and a constraint on the angle between them. -/
noncomputable def jumpProg : List BuildCall :=
  [.addPrim (sLn 4 (sPt 1 0 0) (sPt 2 1 0)) k!"U",
   .addPrim (sLn 5 (sPt 1 0 0) (sPt 3 (-1) 0)) k!"V",
   .addConstraint .angle [k!"U", k!"V"] [.num (fin 0)] k!"c"]

/-- The coordinates. -/
def jumpX : Fin 6 → ℝ := ![0, 0, 1, 0, -1, 0]

theorem jump_res (y : Fin 6 → ℝ) : globalRes (builtLayout 0 jumpProg) 10 (vec y) = .ok
    [(PyNum.atan2 (fin (y 5 - y 1) / PyNum.sqrt (fin (0 + (y 4 - y 0) * (y 4 - y 0) + (y 5 - y 1) * (y 5 - y 1))))
        (fin (y 4 - y 0) / PyNum.sqrt (fin (0 + (y 4 - y 0) * (y 4 - y 0) + (y 5 - y 1) * (y 5 - y 1)))) -
      PyNum.atan2 (fin (y 3 - y 1) / PyNum.sqrt (fin (0 + (y 2 - y 0) * (y 2 - y 0) + (y 3 - y 1) * (y 3 - y 1))))
        (fin (y 2 - y 0) / PyNum.sqrt (fin (0 + (y 2 - y 0) * (y 2 - y 0) + (y 3 - y 1) * (y 3 - y 1))))) +
      fin (-1 * 0)] := by
  rfl

theorem jump_traced (a b c d e f : Dual) :
    globalRes (tracedLayout 0 jumpProg) 10 [a, b, c, d, e, f] = .ok
    [(PyNum.atan2 ((f - b) / PyNum.sqrt (0 + (e - a) * (e - a) + (f - b) * (f - b)))
        ((e - a) / PyNum.sqrt (0 + (e - a) * (e - a) + (f - b) * (f - b))) -
      PyNum.atan2 ((d - b) / PyNum.sqrt (0 + (c - a) * (c - a) + (d - b) * (d - b)))
        ((c - a) / PyNum.sqrt (0 + (c - a) * (c - a) + (d - b) * (d - b)))) +
      Dual.const (fin (-1 * 0))] := by
  rfl

/-- A finite number with a finite tangent. -/
def fd (a s : ℝ) : Dual := ⟨fin a, some (fin s)⟩

theorem fd_sub (a s b t : ℝ) : fd a s - fd b t = fd (a - b) (s - t) := by
  show Dual.mk _ _ = _
  simp only [fd, Dual.addTan, Option.map_some, fin_sub, fin_neg, fin_add, sub_eq_add_neg]

theorem fd_add (a s b t : ℝ) : fd a s + fd b t = fd (a + b) (s + t) := by
  show Dual.mk _ _ = _
  simp only [fd, Dual.addTan, fin_add]

theorem fd_mul (a s b t : ℝ) : fd a s * fd b t = fd (a * b) (s * b + a * t) := by
  show Dual.mk _ _ = _
  simp only [fd, Dual.addTan, Option.map_some, fin_mul, fin_add]

theorem fd_zero_add (a s : ℝ) : 0 + fd a s = fd a s := by
  show Dual.mk _ _ = _
  simp only [fd, Dual.addTan]
  show Dual.mk (fin 0 + fin a) _ = _
  rw [fin_add, zero_add]
  rfl

theorem fd_add_const (a s c : ℝ) : fd a s + Dual.const (fin c) = fd (a + c) s := by
  show Dual.mk _ _ = _
  simp only [fd, Dual.addTan, Dual.const, fin_add]

theorem fd_div {a s b t : ℝ} (hb : b ≠ 0) : fd a s / fd b t = fd (a / b) (s / b + -t * a * (1 / (b * b))) := by
  show Dual.mk _ _ = _
  simp only [fd, Dual.addTan, Option.map_some, fin_div hb, fin_mul, fin_neg, fin_div (mul_ne_zero hb hb), fin_add]

theorem fd_sqrt {a s : ℝ} (ha : 0 < a) : PyNum.sqrt (fd a s) = fd (Real.sqrt a) (s * (1 / 2 / Real.sqrt a)) := by
  show Dual.mk _ _ = _
  simp only [fd, Option.map_some, fin_sqrt ha.le, fin_div (Real.sqrt_ne_zero'.mpr ha), fin_mul]

theorem fd_atan2 {a s b t : ℝ} (h : a * a + b * b ≠ 0) : PyNum.atan2 (fd a s) (fd b t) =
    fd (Complex.arg ⟨b, a⟩) (s * (b / (a * a + b * b)) + t * (-a / (a * a + b * b))) := by
  show Dual.mk _ _ = _
  simp only [fd, Dual.addTan, Option.map_some, fin_mul, fin_add, fin_neg, fin_div h, fin_atan2]

theorem jump_col (a b c d e f : ℝ) : ∃ s, globalRes (tracedLayout 0 jumpProg) 10
    [fd 0 a, fd 0 b, fd 1 c, fd 0 d, fd (-1) e, fd 0 f] = .ok [fd Real.pi s] := by
  rw [jump_traced]
  simp only [fd_sub, fd_mul, fd_zero_add, fd_add]
  norm_num only [sub_zero, mul_zero, add_zero]
  rw [fd_sqrt (by norm_num), fd_sqrt (by norm_num), Real.sqrt_one]
  simp only [fd_div one_ne_zero]
  rw [fd_atan2 (by norm_num), fd_atan2 (by norm_num), fd_sub, fd_add_const]
  have e1 : Complex.arg ⟨-1 / 1, 0 / 1⟩ = Real.pi := by
    rw [show (⟨-1 / 1, 0 / 1⟩ : ℂ) = -1 by apply Complex.ext <;> simp]
    exact Complex.arg_neg_one
  have e2 : Complex.arg ⟨1 / 1, 0 / 1⟩ = 0 := by
    rw [show (⟨1 / 1, 0 / 1⟩ : ℂ) = 1 by apply Complex.ext <;> simp]
    exact Complex.arg_one
  rw [e1, e2, sub_zero, add_zero]
  exact ⟨_, rfl⟩

theorem jump_seed (j : Fin 6) : Dual.seed (vec jumpX) j = [fd 0 (if j = 0 then 1 else 0), fd 0 (if j = 1 then 1 else 0),
    fd 1 (if j = 2 then 1 else 0), fd 0 (if j = 3 then 1 else 0), fd (-1) (if j = 4 then 1 else 0),
    fd 0 (if j = 5 then 1 else 0)] := by
  rw [seed_eq]
  simp only [List.ofFn_succ, List.ofFn_zero, jumpX, fd]
  fin_cases j <;> simp

/-- C96, the exception: where a line points to the left, `jax.jacfwd` of an angle constraint returns a
finite matrix although the residual is not even continuous there (the measured angle jumps by a full
turn), so no Jacobian matrix exists. -/
theorem C96_jump : ∃ (prog : List BuildCall) (x : Fin 6 → ℝ) (b : Fin 1 → ℝ) (M : Matrix (Fin 1) (Fin 6) ℝ),
    globalRes (builtLayout 0 prog) 10 (vec x) = .ok (vec b) ∧
    jacfwd (globalRes (tracedLayout 0 prog) 10) (vec x) = .ok (mat M) ∧
    ∀ M' : Matrix (Fin 1) (Fin 6) ℝ, ¬ IsJacobian (globalRes (builtLayout 0 prog) 10) x M' := by
  choose s hs using fun j : Fin 6 => jump_col (if j = 0 then 1 else 0) (if j = 1 then 1 else 0)
    (if j = 2 then 1 else 0) (if j = 3 then 1 else 0) (if j = 4 then 1 else 0) (if j = 5 then 1 else 0)
  have hval : ∀ t : ℝ, globalRes (builtLayout 0 jumpProg) 10 (vec ![0, 0, 1, 0, -1, t])
      = .ok [fin (Complex.arg ⟨-1, t⟩)] := by
    intro t
    rw [jump_res]
    have h1 : (0 : ℝ) < 1 + t * t := by nlinarith [sq_nonneg t]
    have h2 := Real.sqrt_pos.mpr h1
    have h3 : Complex.arg ⟨-1 / √(1 + t * t), t / √(1 + t * t)⟩ = Complex.arg ⟨-1, t⟩ := by
      rw [← Complex.arg_real_mul ⟨-1, t⟩ (inv_pos.mpr h2)]
      congr 1
      apply Complex.ext
      · simp [Complex.mul_re]; ring
      · simp [Complex.mul_im]; ring
    have h4 : Complex.arg ⟨1 / 1, 0 / 1⟩ = 0 := by
      rw [show (⟨1 / 1, 0 / 1⟩ : ℂ) = 1 by apply Complex.ext <;> simp]
      exact Complex.arg_one
    simp only [Matrix.cons_val]
    rw [fin_sqrt (x := 0 + (-1 - 0) * (-1 - 0) + (t - 0) * (t - 0)) (by nlinarith [sq_nonneg t]),
      fin_sqrt (by norm_num)]
    norm_num only [sub_zero]
    rw [Real.sqrt_one, fin_div h2.ne', fin_div h2.ne', fin_div one_ne_zero, fin_div one_ne_zero]
    simp only [fin_atan2, fin_sub, fin_add, h3, h4, sub_zero, add_zero]
  refine ⟨jumpProg, jumpX, fun _ => Complex.arg ⟨-1, 0⟩, fun _ j => s j, ?_, ?_, ?_⟩
  · rw [show jumpX = ![0, 0, 1, 0, -1, 0] from rfl, hval]
    rfl
  · rw [jacfwd_ok (y := _) (m := 1) (jump_traced ..) (c := fun j => [fd Real.pi (s j)])
      (fun j => by rw [jump_seed]; exact hs j) rfl]
    rfl
  · rintro M' ⟨F, h1, h2⟩
    have hc : Filter.Tendsto (fun t : ℝ => (![0, 0, 1, 0, -1, t] : Fin 6 → ℝ)) (nhds 0) (nhds jumpX) := by
      have : Continuous fun t : ℝ => (![0, 0, 1, 0, -1, t] : Fin 6 → ℝ) := by
        refine continuous_pi fun i => ?_
        fin_cases i <;> simp <;> fun_prop
      exact this.tendsto 0
    have hF := (continuous_apply (0 : Fin 1)).continuousAt.comp h2.continuousAt
    have hT : Filter.Tendsto (fun t : ℝ => F ![0, 0, 1, 0, -1, t] 0) (nhds 0) (nhds (F jumpX 0)) :=
      Filter.Tendsto.comp hF hc
    have hE : ∀ᶠ t in nhds (0 : ℝ), F ![0, 0, 1, 0, -1, t] 0 = Complex.arg ⟨-1, t⟩ := by
      filter_upwards [hc.eventually h1] with t ht
      rw [hval] at ht
      exact (fin_inj.mp (List.head_eq_of_cons_eq (Except.ok.inj ht))).symm
    have h0 : F jumpX 0 = Real.pi := by
      have := hE.self_of_nhds
      rw [show (⟨-1, 0⟩ : ℂ) = -1 by apply Complex.ext <;> simp, Complex.arg_neg_one] at this
      exact this
    rw [h0] at hT
    have hpos := hT.eventually (lt_mem_nhds Real.pi_pos)
    obtain ⟨t, ht, ⟨ht1, ht2⟩⟩ := ((eventually_mem_nhdsWithin (a := (0 : ℝ)) (s := Set.Iio 0)).and
      ((hpos.and hE).filter_mono nhdsWithin_le_nhds)).exists
    rw [ht2] at ht1
    have : Complex.arg ⟨-1, t⟩ < 0 := Complex.arg_neg_iff.mpr ht
    linarith

/-- A line of length zero and a constraint on its length. -/
noncomputable def dotProg : List BuildCall :=
  [.addPrim (sLn 4 (sPt 1 0 0) (sPt 2 0 0)) k!"U",
   .addPrim (sLn 5 (sPt 1 0 0) (sPt 3 0 1)) k!"V",
   .addConstraint .length [k!"U"] [.num (fin 0)] k!"c"]

theorem dot_traced (a b c d e f : Dual) :
    globalRes (tracedLayout 0 dotProg) 10 [a, b, c, d, e, f] = .ok
    [PyNum.sqrt (0 + (c - a) * (c - a) + (d - b) * (d - b)) + Dual.const (fin (-1 * 0))] := by
  rfl

theorem dot_values : globalRes (builtLayout 0 dotProg) 10 (vec ![0, 0, 0, 0, 0, 1]) = .ok [fin 0] ∧
    jacfwd (globalRes (tracedLayout 0 dotProg) 10) (vec ![0, 0, 0, 0, 0, 1])
      = .ok [[bad, bad, bad, bad, bad, bad]] := by
  have hcol : ∀ a b c d e f : ℝ, globalRes (tracedLayout 0 dotProg) 10
      [fd 0 a, fd 0 b, fd 0 c, fd 0 d, fd 0 e, fd 1 f] = .ok [⟨fin 0, some bad⟩] := by
    intro a b c d e f
    rw [dot_traced]
    simp only [fd_sub, fd_mul, fd_zero_add, fd_add, sub_zero, mul_zero, zero_mul, add_zero]
    have : PyNum.sqrt (fd 0 0) = ⟨fin 0, some bad⟩ := by
      show Dual.mk _ _ = _
      simp only [fd, Option.map_some, fin_sqrt le_rfl, Real.sqrt_zero, div_zero', mul_bad]
    rw [this]
    show Except.ok [Dual.mk (fin 0 + fin 0) (some bad)] = _
    rw [fin_add, add_zero]
  refine ⟨?_, ?_⟩
  · have := C96_values 0 dotProg 10 [fd 0 0, fd 0 0, fd 0 0, fd 0 0, fd 0 0, fd 1 0]
    rw [hcol] at this
    exact this.symm
  · rw [jacfwd_ok (y := _) (m := 1) (dot_traced ..) (c := fun _ => [⟨fin 0, some bad⟩]) (fun j => ?_) rfl]
    · rfl
    · have : Dual.seed (vec ![0, 0, 0, 0, 0, 1]) j = [fd 0 (if j = 0 then 1 else 0),
          fd 0 (if j = 1 then 1 else 0), fd 0 (if j = 2 then 1 else 0), fd 0 (if j = 3 then 1 else 0),
          fd 0 (if j = 4 then 1 else 0), fd 1 (if j = 5 then 1 else 0)] := by
        rw [seed_eq]
        simp only [List.ofFn_succ, List.ofFn_zero, fd]
        fin_cases j <;> simp
      rw [this]
      exact hcol ..

/-- C96, the other exception: where a line is a single point, all entries of the row of a constraint on
its length are infinite or `nan`, in the columns of all primitives (even of those that do not occur in
the constraint), although the residual is finite (here even `0`: the constraint is satisfied). -/
theorem C96_dot : ∃ (prog : List BuildCall) (x : Fin 6 → ℝ),
    globalRes (builtLayout 0 prog) 10 (vec x) = .ok [fin 0] ∧
    jacfwd (globalRes (tracedLayout 0 prog) 10) (vec x) = .ok [[bad, bad, bad, bad, bad, bad]] :=
  ⟨dotProg, _, dot_values⟩

/-! ## Example -/

/-- Two lines from one point; the first one has length 1, they are orthogonal and the angle between
them is a quarter turn. -/
noncomputable def hingeProg : List BuildCall :=
  [.addPrim (sLn 4 (sPt 1 0 0) (sPt 2 1 0)) k!"U",
   .addPrim (sLn 5 (sPt 1 0 0) (sPt 3 0 1)) k!"V",
   .addConstraint .length [k!"U"] [.num (fin 1)] k!"a",
   .addConstraint .orthogonal [k!"U", k!"V"] [] k!"b",
   .addConstraint .angle [k!"U", k!"V"] [.num (fin (Real.pi / 2))] k!"c"]

theorem hingeProg_layout : builtLayout 0 hingeProg = hingeL := by
  rfl

/-- C96 holds of a layout with a length, an angle and an orthogonality constraint. -/
example : ∃ M : Matrix (Fin 3) (Fin 6) ℝ,
    jacfwd (globalRes (tracedLayout 0 hingeProg) 10) (vec ![0, 0, 1, 0, 0, 1]) = .ok (mat M) ∧
      IsJacobian (globalRes (builtLayout 0 hingeProg) 10) ![0, 0, 1, 0, 0, 1] M := by
  have hreb : rebuild (builtLayout 0 hingeProg) 10 (vec ![0, 0, 1, 0, 0, 1])
      = .ok (forkTree 10 11 14 12 13 15 0 0 1 0 0 1) := by rfl
  have hsm : ∀ s, Shipped.SmoothAt (forkTree 10 11 14 12 13 15 0 0 1 0 0 1) s := by
    intro s
    refine ⟨fun _ k t ht path n x y hn hv w e => ?_, fun _ k t ht path n x y hn hv w rest e => ?_⟩
    · refine forkTree_lines (Q := fun w => w = [] ∨ ∃ x ∈ w, x ≠ fin 0) (.inl rfl) ?_ ?_ ht hn hv e
      · exact .inr ⟨fin (1 - 0), by simp, by simp⟩
      · exact .inr ⟨fin (1 - 0), by simp, by simp⟩
    · refine forkTree_lines (Q := fun v => ∀ x rest, v = fin x :: fin 0 :: rest → 0 < x) (by simp) ?_ ?_
        ht hn hv e w rest rfl
      · intro x rest h
        simp only [List.cons.injEq, fin_inj] at h
        linarith
      · intro x rest h
        simp only [List.cons.injEq, fin_inj] at h
        linarith
  have hres : ∃ b : Fin 3 → ℝ, globalRes (builtLayout 0 hingeProg) 10 (vec ![0, 0, 1, 0, 0, 1]) = .ok (vec b) := by
    have : globalRes (builtLayout 0 hingeProg) 10 (vec ![0, 0, 1, 0, 0, 1])
        = hingeL.residual (forkTree 10 11 14 12 13 15 0 0 1 0 0 1) := by
      rw [hingeProg_layout] at hreb ⊢
      simp only [globalRes, hreb, bind, Except.bind]
    rw [this, hingeL_residual, fin_sqrt (by norm_num), fin_sqrt (by norm_num)]
    norm_num only [Real.sqrt_one]
    simp only [fin_div one_ne_zero, fin_atan2, fin_sub, fin_add]
    exact ⟨![_, _, _], rfl⟩
  obtain ⟨b, hb⟩ := hres
  refine C96_smooth 0 hingeProg 10 _ (fun root e => ?_) b hb
  obtain rfl := Except.ok.inj (hreb.symm.trans e)
  exact fun s _ _ _ _ => hsm s

end MplLayout.Props
