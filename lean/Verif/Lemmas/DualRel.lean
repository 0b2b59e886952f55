import Verif.Lemmas.RelLayout
import Verif.Lemmas.SmoothLeaves

/-!
# Numbers that depend on parameters, and `jax`'s numbers with tangents
-/

namespace MplLayout

open Flt

/-- A number that depends on `n` real parameters. -/
def Fn (n : Nat) := (Fin n → ℝ) → Flt

namespace Fn
variable {n : Nat}

noncomputable instance : PyNum (Fn n) where
  zero := fun _ => 0
  one := fun _ => 1
  natCast k := fun _ => (k : Flt)
  add f g := fun y => f y + g y
  sub f g := fun y => f y - g y
  neg f := fun y => - f y
  mul f g := fun y => f y * g y
  div f g := fun y => f y / g y
  sqrt f := fun y => PyNum.sqrt (f y)
  pow f g := fun y => PyNum.pow (f y) (g y)
  atan2 f g := fun y => PyNum.atan2 (f y) (g y)
  cos f := fun y => PyNum.cos (f y)
  sin f := fun y => PyNum.sin (f y)
  acos f := fun y => PyNum.acos (f y)
  pi := fun _ => PyNum.pi
  truthy f := PyNum.truthy (f 0)
  lt f g := PyNum.lt (f 0) (g 0)
  le f g := PyNum.le (f 0) (g 0)

/-- A constant. -/
def const (c : Flt) : Fn n := fun _ => c

/-- The value at `y`. -/
def At (y : Fin n → ℝ) (f : Fn n) (a : Flt) : Prop := f y = a

/-- Constants. -/
def AtC (f : Fn n) (a : Flt) : Prop := f = const a

theorem at_num (y : Fin n → ℝ) : NumRel (At y) (AtC (n := n)) where
  ofC := by rintro _ b rfl; rfl
  truthy := by rintro _ b rfl; rfl
  c_zero := rfl
  c_one := rfl
  c_mul := by rintro _ b _ d rfl rfl; rfl
  c_sub := by rintro _ b _ d rfl rfl; rfl
  c_neg := by rintro _ b rfl; rfl
  add := by rintro a _ c _ rfl rfl; rfl
  sub := by rintro a _ c _ rfl rfl; rfl
  mul := by rintro a _ c _ rfl rfl; rfl
  div := by rintro a _ c _ rfl rfl; rfl
  neg := by rintro a _ rfl; rfl
  natCast _ := rfl

end Fn

open Fn

section at_
variable {n : Nat} {y : Fin n → ℝ} {G : Prim (Fn n) → Prop}

theorem at_sumSq {v : List (Fn n)} {v' : List Flt} (h : LRel (At y) v v') :
    At y (Arr.sumList (v.map fun x => x * x)) (Arr.sumList (v'.map fun x => x * x)) :=
  sumList_rel (at_num y) (LRel.map h fun _ _ h => (at_num y).mul h h)

theorem at_zero : ZeroOK (At y) G := by
  intro p p' h _ v v' e e'
  have := lineVec1_rel (at_num y) h
  rw [e, e'] at this
  have hv : LRel (At y) v v' := this
  have := at_sumSq hv
  simp only [At] at this ⊢
  rw [← this]
  rfl

theorem at_ang : AngOK (At y) G := by
  intro p p' h hG d d' e e' a b a' b' e1 e2 e3 e4
  have := unit1_rel (at_num y) at_zero h hG
  rw [e, e'] at this
  have hx := get_rel (R := At y) this 0
  have hy := get_rel (R := At y) this 1
  rw [e1, e3] at hx
  rw [e2, e4] at hy
  have hx : a y = a' := hx
  have hy : b y = b' := hy
  subst hx hy
  rfl

end at_

/-! ## Tangents -/

section dual
variable {n : Nat} (x0 v : Fin n → ℝ)

/-- `f` is finite near `x0`, and its derivative in the direction `v` is `s`. -/
def HasD (f : Fn n) (s : ℝ) : Prop :=
  ∃ (F : (Fin n → ℝ) → ℝ) (L : (Fin n → ℝ) →L[ℝ] ℝ), (∀ᶠ y in nhds x0, f y = fin (F y)) ∧
    HasFDerivAt F L x0 ∧ L v = s

/-- The value is right, and the tangent too if it is finite; with `all`, it is finite if the value is. -/
structure DRel (all : Prop) (f : Fn n) (d : Dual) : Prop where
  val : f x0 = d.val
  none : d.tan = .none → ∃ c, f = const c
  some : ∀ a s, d.val = fin a → d.tan = .some (fin s) → HasD x0 v f s
  all : all → ∀ a t, d.val = fin a → d.tan = .some t → ∃ s, t = fin s

/-- Constants. -/
def DRelC (f : Fn n) (d : Dual) : Prop := ∃ c, f = const c ∧ d = Dual.const c

variable {x0 v} {all : Prop}

theorem HasD.const (c : ℝ) : HasD x0 v (const (fin c)) 0 :=
  ⟨fun _ => c, 0, .of_forall fun _ => rfl, hasFDerivAt_const c x0, rfl⟩

theorem DRel.const {f : Fn n} {d : Dual} (h : DRelC f d) : DRel x0 v all f d := by
  obtain ⟨c, rfl, rfl⟩ := h
  exact ⟨rfl, fun _ => ⟨c, rfl⟩, (fun _ _ _ h => nomatch h), (fun _ _ _ _ h => nomatch h)⟩

/-- With an operation that is differentiable where the result is finite. -/
theorem DRel.op2 {op : Flt → Flt → Flt} {P Q : Flt → Flt → Flt → Flt} {f g : Fn n} {d e : Dual}
    (hf : DRel x0 v all f d) (hg : DRel x0 v all g e)
    (hop : ∀ a b c, op a b = fin c → ∃ x y, a = fin x ∧ b = fin y)
    (hP : ∀ x y, P (fin x) (fin y) bad = bad) (hQ : ∀ x y, Q (fin x) (fin y) bad = bad)
    (hd : ∀ x y c, d.val = fin x → e.val = fin y → op (fin x) (fin y) = fin c →
      ∃ (p q : ℝ) (Φ : ℝ × ℝ → ℝ), (∀ s, P (fin x) (fin y) (fin s) = fin (p * s)) ∧
        (∀ s, Q (fin x) (fin y) (fin s) = fin (q * s)) ∧
        (∀ᶠ z in nhds (x, y), op (fin z.1) (fin z.2) = fin (Φ z)) ∧
        HasFDerivAt Φ (p • ContinuousLinearMap.fst ℝ ℝ ℝ + q • ContinuousLinearMap.snd ℝ ℝ ℝ) (x, y)) :
    DRel x0 v all (fun y => op (f y) (g y))
      ⟨op d.val e.val, Dual.addTan (d.tan.map (P d.val e.val)) (e.tan.map (Q d.val e.val))⟩ := by
  have key : ∀ a, op d.val e.val = fin a → ∃ x y, d.val = fin x ∧ e.val = fin y := fun a h => hop _ _ _ h
  have comp : ∀ x y c s t, d.val = fin x → e.val = fin y → op (fin x) (fin y) = fin c → HasD x0 v f s →
      HasD x0 v g t → ∃ r, HasD x0 v (fun y => op (f y) (g y)) r ∧
        P (fin x) (fin y) (fin s) + Q (fin x) (fin y) (fin t) = fin r := by
    rintro x y c s t ex ey ec ⟨F, L, h1, h2, h3⟩ ⟨F', L', h4, h5, h6⟩
    obtain ⟨p, q, Φ, hp, hq, h7, h8⟩ := hd x y c ex ey ec
    have fx : F x0 = x := by
      have := h1.self_of_nhds
      rw [hf.val, ex, fin_inj] at this
      exact this.symm
    have gy : F' x0 = y := by
      have := h4.self_of_nhds
      rw [hg.val, ey, fin_inj] at this
      exact this.symm
    have hpair : HasFDerivAt (fun z => (F z, F' z)) (L.prod L') x0 := h2.prodMk h5
    rw [← fx, ← gy] at h8
    have hc := HasFDerivAt.comp x0 h8 hpair
    refine ⟨p * s + q * t, ⟨fun z => Φ (F z, F' z), _, ?_, hc, ?_⟩, by rw [hp, hq, fin_add]⟩
    · have hct : Filter.Tendsto (fun z => (F z, F' z)) (nhds x0) (nhds (x, y)) := by
        have := hpair.continuousAt.tendsto
        simpa only [fx, gy] using this
      filter_upwards [h1, h4, hct.eventually h7] with z e1 e2 e3
      simp only [e1, e2, e3]
    · simp [h3, h6]
  have zeroP : ∀ x y c, d.val = fin x → e.val = fin y → op (fin x) (fin y) = fin c →
      P (fin x) (fin y) (fin 0) = fin 0 ∧ Q (fin x) (fin y) (fin 0) = fin 0 := by
    intro x y c ex ey ec
    obtain ⟨p, q, Φ, hp, hq, -⟩ := hd x y c ex ey ec
    rw [hp, hq]
    simp
  have fz : ∀ x, d.val = fin x → d.tan = .none → HasD x0 v f 0 := by
    intro x ex e0
    obtain ⟨c, rfl⟩ := hf.none e0
    have := hf.val
    rw [ex] at this
    rw [show c = fin x from this]
    exact .const x
  have gz : ∀ y, e.val = fin y → e.tan = .none → HasD x0 v g 0 := by
    intro x ex e0
    obtain ⟨c, rfl⟩ := hg.none e0
    have := hg.val
    rw [ex] at this
    rw [show c = fin x from this]
    exact .const x
  refine ⟨by simp only [hf.val, hg.val], ?_, ?_, ?_⟩
  · intro h
    cases e1 : d.tan <;> cases e2 : e.tan <;> simp [e1, e2, Dual.addTan] at h
    obtain ⟨c, rfl⟩ := hf.none e1
    obtain ⟨c', rfl⟩ := hg.none e2
    exact ⟨op c c', rfl⟩
  · intro a r ha h
    obtain ⟨x, y, ex, ey⟩ := key a ha
    simp only [ex, ey] at ha h
    obtain ⟨hp0, hq0⟩ := zeroP x y a ex ey ha
    cases e1 : d.tan with
    | none => cases e2 : e.tan with
      | none => simp [e1, e2, Dual.addTan] at h
      | some t => cases t with
        | bad => simp [e1, e2, Dual.addTan, hQ] at h
        | fin t =>
          obtain ⟨r', h1, h2⟩ := comp x y a 0 t ex ey ha (fz x ex e1) (hg.some y t ey e2)
          obtain ⟨p, q, Φ, hp, hq, -⟩ := hd x y a ex ey ha
          simp [e1, e2, Dual.addTan] at h
          rw [hp0, h, fin_add, fin_inj, zero_add] at h2
          rwa [h2]
    | some s => cases s with
      | bad => cases e2 : e.tan <;> simp [e1, e2, Dual.addTan, hP] at h
      | fin s => cases e2 : e.tan with
        | none =>
          obtain ⟨r', h1, h2⟩ := comp x y a s 0 ex ey ha (hf.some x s ex e1) (gz y ey e2)
          simp [e1, e2, Dual.addTan] at h
          rw [hq0, h, fin_add, fin_inj, add_zero] at h2
          rwa [h2]
        | some t => cases t with
          | bad => simp [e1, e2, Dual.addTan, hQ] at h
          | fin t =>
            obtain ⟨r', h1, h2⟩ := comp x y a s t ex ey ha (hf.some x s ex e1) (hg.some y t ey e2)
            simp only [e1, e2, Dual.addTan, Option.map_some, Option.some.injEq] at h
            rw [h, fin_inj] at h2
            rwa [h2]
  · intro hall a t ha h
    obtain ⟨x, y, ex, ey⟩ := key a ha
    simp only [ex, ey] at ha h
    obtain ⟨p, q, Φ, hp, hq, -⟩ := hd x y a ex ey ha
    cases e1 : d.tan with
    | none => cases e2 : e.tan with
      | none => simp [e1, e2, Dual.addTan] at h
      | some t =>
        obtain ⟨t, rfl⟩ := hg.all hall y t ey e2
        simp only [e1, e2, Dual.addTan, Option.map_none, Option.map_some, Option.some.injEq, hq] at h
        exact ⟨_, h.symm⟩
    | some s =>
      obtain ⟨s, rfl⟩ := hf.all hall x s ex e1
      cases e2 : e.tan with
      | none =>
        simp only [e1, e2, Dual.addTan, Option.map_none, Option.map_some, Option.some.injEq, hp] at h
        exact ⟨_, h.symm⟩
      | some t =>
        obtain ⟨t, rfl⟩ := hg.all hall y t ey e2
        simp only [e1, e2, Dual.addTan, Option.map_some, Option.some.injEq, hp, hq, fin_add] at h
        exact ⟨_, h.symm⟩

/-- The same for an operation with one operand. -/
theorem DRel.op1 {op : Flt → Flt} {P : Flt → Flt → Flt} {f : Fn n} {d : Dual} (hf : DRel x0 v all f d)
    (hop : ∀ a c, op a = fin c → ∃ x, a = fin x) (hP : ∀ x, P (fin x) bad = bad)
    (hd : ∀ x c, d.val = fin x → op (fin x) = fin c →
      (¬ all ∧ ∀ s, P (fin x) s = bad) ∨
      ∃ (p : ℝ) (Φ : ℝ → ℝ), (∀ s, P (fin x) (fin s) = fin (p * s)) ∧
        (∀ᶠ z in nhds x, op (fin z) = fin (Φ z)) ∧ HasDerivAt Φ p x) :
    DRel x0 v all (fun y => op (f y)) ⟨op d.val, d.tan.map (P d.val)⟩ := by
  refine ⟨by simp only [hf.val], ?_, ?_, ?_⟩
  · intro h
    obtain ⟨c, rfl⟩ := hf.none (by simpa using h)
    exact ⟨op c, rfl⟩
  · intro a r ha h
    obtain ⟨x, ex⟩ := hop _ _ ha
    simp only [ex] at ha h
    cases e1 : d.tan with
    | none => simp [e1] at h
    | some s => cases s with
      | bad => simp [e1, hP] at h
      | fin s =>
        simp only [e1, Option.map_some, Option.some.injEq] at h
        rcases hd x a ex ha with ⟨-, hb⟩ | ⟨p, Φ, hp, h1, h2⟩
        · rw [hb] at h; cases h
        obtain ⟨F, L, h3, h4, h5⟩ := hf.some x s ex e1
        have fx : F x0 = x := by
          have := h3.self_of_nhds
          rw [hf.val, ex, fin_inj] at this
          exact this.symm
        rw [← fx] at h2
        refine ⟨fun z => Φ (F z), p • L, ?_, h2.comp_hasFDerivAt x0 h4, ?_⟩
        · have hct : Filter.Tendsto F (nhds x0) (nhds x) := by
            have := h4.continuousAt.tendsto
            rwa [fx] at this
          filter_upwards [h3, hct.eventually h1] with z e1 e2
          simp only [e1, e2]
        · rw [hp, fin_inj] at h
          simp [h5, h]
  · intro hall a t ha h
    obtain ⟨x, ex⟩ := hop _ _ ha
    simp only [ex] at ha h
    cases e1 : d.tan with
    | none => simp [e1] at h
    | some s =>
      obtain ⟨s, rfl⟩ := hf.all hall x s ex e1
      simp only [e1, Option.map_some, Option.some.injEq] at h
      rcases hd x a ex ha with ⟨hn, -⟩ | ⟨p, Φ, hp, -⟩
      · exact absurd hall hn
      · exact ⟨_, h.symm.trans (hp s)⟩

theorem map2_fin {g : ℝ → ℝ → ℝ} {a b : Flt} {c : ℝ} (h : Flt.map2 g a b = fin c) :
    ∃ x y, a = fin x ∧ b = fin y := by
  cases a <;> cases b <;> first | exact ⟨_, _, rfl, rfl⟩ | cases h

theorem map1_fin {g : ℝ → ℝ} {a : Flt} {c : ℝ} (h : Flt.map1 g a = fin c) : ∃ x, a = fin x := by
  cases a <;> first | exact ⟨_, rfl⟩ | cases h

theorem fstL (x y : ℝ) : HasFDerivAt (fun z : ℝ × ℝ => z.1) (ContinuousLinearMap.fst ℝ ℝ ℝ) (x, y) :=
  hasFDerivAt_fst
theorem sndL (x y : ℝ) : HasFDerivAt (fun z : ℝ × ℝ => z.2) (ContinuousLinearMap.snd ℝ ℝ ℝ) (x, y) :=
  hasFDerivAt_snd

theorem DRel.add {f g : Fn n} {d e : Dual} (hf : DRel x0 v all f d) (hg : DRel x0 v all g e) :
    DRel x0 v all (f + g) (d + e) := by
  have h : d + e = ⟨d.val + e.val, Dual.addTan (d.tan.map fun t => t) (e.tan.map fun t => t)⟩ := by
    simp only [Option.map_id']; rfl
  rw [h]
  exact DRel.op2 (op := (· + ·)) (P := fun _ _ t => t) (Q := fun _ _ t => t) hf hg
    (fun a b c h => map2_fin h) (fun _ _ => rfl) (fun _ _ => rfl) fun x y c _ _ _ =>
      ⟨1, 1, fun z => z.1 + z.2, fun s => by rw [one_mul], fun s => by rw [one_mul],
        .of_forall fun _ => rfl, ((fstL x y).add (sndL x y)).congr_fderiv (by simp)⟩

theorem DRel.sub {f g : Fn n} {d e : Dual} (hf : DRel x0 v all f d) (hg : DRel x0 v all g e) :
    DRel x0 v all (f - g) (d - e) := by
  have h : d - e = ⟨d.val - e.val, Dual.addTan (d.tan.map fun t => t) (e.tan.map fun t => -t)⟩ := by
    simp only [Option.map_id']; rfl
  rw [h]
  exact DRel.op2 (op := (· - ·)) (P := fun _ _ t => t) (Q := fun _ _ t => -t) hf hg
    (fun a b c h => map2_fin h) (fun _ _ => rfl) (fun _ _ => rfl) fun x y c _ _ _ =>
      ⟨1, -1, fun z => z.1 - z.2, fun s => by rw [one_mul], fun s => by rw [fin_neg, neg_one_mul],
        .of_forall fun _ => rfl, ((fstL x y).sub (sndL x y)).congr_fderiv (by ext z <;> simp)⟩

theorem DRel.mul {f g : Fn n} {d e : Dual} (hf : DRel x0 v all f d) (hg : DRel x0 v all g e) :
    DRel x0 v all (f * g) (d * e) :=
  DRel.op2 (op := (· * ·)) (P := fun _ b t => t * b) (Q := fun a _ t => a * t) hf hg
    (fun a b c h => map2_fin h) (fun _ _ => rfl) (fun _ _ => rfl) fun x y c _ _ _ =>
      ⟨y, x, fun z => z.1 * z.2, fun s => by rw [fin_mul, mul_comm], fun s => by rw [fin_mul],
        .of_forall fun _ => rfl, ((fstL x y).mul (sndL x y)).congr_fderiv (by ext z <;> simp)⟩

theorem DRel.neg {f : Fn n} {d : Dual} (hf : DRel x0 v all f d) : DRel x0 v all (-f) (-d) :=
  DRel.op1 (op := fun a => -a) (P := fun _ t => -t) hf (fun a c h => map1_fin h) (fun _ => rfl)
    fun x c _ _ => .inr ⟨-1, fun z => -z, fun s => by rw [fin_neg, neg_one_mul], .of_forall fun _ => rfl,
      hasDerivAt_neg x⟩

theorem div_eq_fin {a b : Flt} {c : ℝ} (h : a / b = fin c) : ∃ x y, a = fin x ∧ b = fin y ∧ y ≠ 0 := by
  cases a with
  | bad => rw [bad_div] at h; cases h
  | fin x => cases b with
    | bad => rw [div_bad] at h; cases h
    | fin y =>
      by_cases hy : y = 0
      · rw [hy, div_zero'] at h; cases h
      · exact ⟨x, y, rfl, rfl, hy⟩

theorem DRel.div {f g : Fn n} {d e : Dual} (hf : DRel x0 v all f d) (hg : DRel x0 v all g e) :
    DRel x0 v all (f / g) (d / e) := by
  refine DRel.op2 (op := (· / ·)) (P := fun _ b t => t / b) (Q := fun a b t => (-t * a) * (fin 1 / (b * b))) hf hg
    (fun a b c h => ?_) (fun _ _ => bad_div _) (fun _ _ => by rw [neg_bad, bad_mul, bad_mul]) fun x y c _ _ h => ?_
  · obtain ⟨x, y, h1, h2, -⟩ := div_eq_fin h
    exact ⟨x, y, h1, h2⟩
  · obtain ⟨_, y', _, h2, hy⟩ := div_eq_fin h
    obtain rfl := fin_inj.mp h2
    refine ⟨1 / y, -x / (y * y), fun z => z.1 / z.2, fun s => ?_, fun s => ?_, ?_, ?_⟩
    · rw [fin_div hy, one_div_mul_eq_div]
    · rw [fin_mul, fin_div (mul_ne_zero hy hy), fin_neg, fin_mul, fin_mul]
      congr 1
      ring
    · have : ∀ᶠ z : ℝ × ℝ in nhds (x, y), z.2 ≠ 0 := continuous_snd.continuousAt.eventually_ne hy
      filter_upwards [this] with z hz
      exact fin_div hz
    · have := (fstL x y).mul ((hasDerivAt_inv hy).comp_hasFDerivAt (x, y) (sndL x y))
      refine (this.congr_fderiv ?_ : HasFDerivAt (fun z : ℝ × ℝ => z.1 / z.2) _ _)
      ext z <;> simp <;> field_simp

theorem DRel.sqrt {f : Fn n} {d : Dual} (hf : DRel x0 v all f d) (h0 : all → d.tan ≠ .none → d.val ≠ fin 0) :
    DRel x0 v all (PyNum.sqrt f) (PyNum.sqrt d) := by
  cases e1 : d.tan with
  | none =>
    obtain ⟨c, rfl⟩ := hf.none e1
    have hv : c = d.val := hf.val
    exact DRel.const ⟨PyNum.sqrt c, rfl, by
      show (⟨PyNum.sqrt d.val, d.tan.map _⟩ : Dual) = _
      rw [e1, ← hv]; rfl⟩
  | some t =>
  refine DRel.op1 (op := PyNum.sqrt) (P := fun a t => t * (fin (1 / 2) / PyNum.sqrt a)) hf (fun a c h => ?_)
    (fun _ => bad_mul _) fun x c ex h => ?_
  · cases a with
    | bad => cases h
    | fin x => exact ⟨x, rfl⟩
  · have hx : 0 ≤ x := by
      by_contra hx
      have : PyNum.sqrt (fin x) = bad := if_pos (not_le.mp hx)
      rw [this] at h; cases h
    rw [fin_sqrt hx] at *
    rcases hx.eq_or_lt with rfl | hp
    · refine .inl ⟨fun ha => h0 ha (by rw [e1]; nofun) ex, fun s => ?_⟩
      rw [Real.sqrt_zero, div_zero', mul_bad]
    · refine .inr ⟨1 / (2 * Real.sqrt x), Real.sqrt, fun s => ?_, ?_, Real.hasDerivAt_sqrt hp.ne'⟩
      · have : Real.sqrt x ≠ 0 := (Real.sqrt_pos.mpr hp).ne'
        rw [fin_div this, fin_mul]
        congr 1
        field_simp
      · filter_upwards [eventually_gt_nhds hp] with z hz
        exact fin_sqrt hz.le

theorem DRel.atan2 {f g : Fn n} {d e : Dual} (hf : DRel x0 v all f d) (hg : DRel x0 v all g e)
    (h0 : ∀ a, d.val = fin 0 → e.val = fin a → 0 < a) :
    DRel x0 v all (PyNum.atan2 f g) (PyNum.atan2 d e) := by
  refine DRel.op2 (op := PyNum.atan2) (P := fun a b t => t * (b / (a * a + b * b)))
    (Q := fun a b t => t * (-a / (a * a + b * b))) hf hg
    (fun a b c h => map2_fin h) (fun _ _ => bad_mul _) (fun _ _ => bad_mul _) fun y x c ey ex _ => ?_
  have hs : (⟨x, y⟩ : ℂ) ∈ Complex.slitPlane := by
    by_cases h : y = 0
    · exact .inl (h0 _ (by rw [ey, h]) ex)
    · exact .inr h
  have hne : y * y + x * x ≠ 0 := by
    intro h
    have hy : y = 0 := by nlinarith [mul_self_nonneg x, mul_self_nonneg y]
    have hx : x = 0 := by nlinarith [mul_self_nonneg x, mul_self_nonneg y]
    have := h0 x (by rw [ey, hy]) ex
    rw [hx] at this
    exact lt_irrefl _ this
  refine ⟨x / (y * y + x * x), -y / (y * y + x * x), fun z => Complex.arg ⟨z.2, z.1⟩, fun s => ?_, fun s => ?_,
    .of_forall fun _ => rfl, ?_⟩
  · rw [fin_mul, fin_mul, fin_add, fin_div hne, fin_mul, mul_comm]
  · rw [fin_mul, fin_mul, fin_add, fin_neg, fin_div hne, fin_mul, mul_comm]
  · have h1 : HasFDerivAt (fun z : ℝ × ℝ => (z.2 : ℂ) + (z.1 : ℂ) * Complex.I)
        (Complex.ofRealCLM.comp (ContinuousLinearMap.snd ℝ ℝ ℝ) +
          (Complex.ofRealCLM.comp (ContinuousLinearMap.fst ℝ ℝ ℝ)).smulRight Complex.I) (y, x) :=
      (Complex.ofRealCLM.hasFDerivAt.comp (y, x) (sndL y x)).add
        ((Complex.ofRealCLM.hasFDerivAt.comp (y, x) (fstL y x)).mul_const' Complex.I)
    have h2 : HasFDerivAt (fun z : ℝ × ℝ => (⟨z.2, z.1⟩ : ℂ)) _ (y, x) := h1.congr_of_eventuallyEq
      (.of_forall fun z => Complex.mk_eq_add_mul_I _ _)
    have h3 : HasFDerivAt Complex.log _ (⟨x, y⟩ : ℂ) :=
      ((Complex.hasStrictDerivAt_log hs).hasDerivAt.hasFDerivAt).restrictScalars ℝ
    have h4 := Complex.imCLM.hasFDerivAt.comp (y, x) (HasFDerivAt.comp (y, x) h3 h2)
    have h5 : HasFDerivAt (fun z : ℝ × ℝ => Complex.arg ⟨z.2, z.1⟩) _ (y, x) := h4.congr_of_eventuallyEq
      (.of_forall fun z => by simp [Complex.log_im])
    refine h5.congr_fderiv ?_
    have hn : x * x + y * y ≠ 0 := by rwa [add_comm]
    ext z <;> simp [Complex.inv_im, Complex.inv_re, Complex.normSq_mk, add_comm]

theorem dual_num : NumRel (DRel x0 v all) (DRelC (n := n)) where
  ofC := .const
  truthy := by rintro _ _ ⟨c, rfl, rfl⟩; rfl
  c_zero := ⟨_, rfl, rfl⟩
  c_one := ⟨_, rfl, rfl⟩
  c_mul := by rintro _ _ _ _ ⟨c, rfl, rfl⟩ ⟨d, rfl, rfl⟩; exact ⟨_, rfl, rfl⟩
  c_sub := by rintro _ _ _ _ ⟨c, rfl, rfl⟩ ⟨d, rfl, rfl⟩; exact ⟨_, rfl, rfl⟩
  c_neg := by rintro _ _ ⟨c, rfl, rfl⟩; exact ⟨_, rfl, rfl⟩
  add := .add
  sub := .sub
  mul := .mul
  div := .div
  neg := .neg
  natCast k := .const ⟨_, rfl, rfl⟩

/-- Only the constants count. -/
theorem triv_num : NumRel (fun _ _ => True) (DRelC (n := n)) where
  ofC _ := trivial
  truthy := by rintro _ _ ⟨c, rfl, rfl⟩; rfl
  c_zero := ⟨_, rfl, rfl⟩
  c_one := ⟨_, rfl, rfl⟩
  c_mul := by rintro _ _ _ _ ⟨c, rfl, rfl⟩ ⟨d, rfl, rfl⟩; exact ⟨_, rfl, rfl⟩
  c_sub := by rintro _ _ _ _ ⟨c, rfl, rfl⟩ ⟨d, rfl, rfl⟩; exact ⟨_, rfl, rfl⟩
  c_neg := by rintro _ _ ⟨c, rfl, rfl⟩; exact ⟨_, rfl, rfl⟩
  add _ _ := trivial
  sub _ _ := trivial
  mul _ _ := trivial
  div _ _ := trivial
  neg _ := trivial
  natCast _ := trivial

variable (x0) in
/-- Primitives that have, at `x0`, no lines of length zero (and no lines to the left). -/
def GoodFn (zero left : Prop) (p : Prim (Fn n)) : Prop :=
  ∃ q : Prim Flt, PrRel (At x0) p q ∧ (zero → Prim.NoZeroLines q) ∧ (left → Prim.NoLeftLines q)

theorem Prim.NoLeftLines.child {p : Prim Flt} (h : Prim.NoLeftLines p) {k : Str} {q : Prim Flt}
    (hq : p.getChild k = .ok q) : Prim.NoLeftLines q := by
  intro path m a b hm
  rw [Node.getChild_ok_iff] at hq
  exact h _ m a b (Node.At.trans (Node.At_of_find hq) hm)

variable {zero left : Prop}

theorem good_child : ChildOK (GoodFn x0 zero left) := by
  rintro p k c ⟨q, h1, h2, h3⟩ e
  obtain ⟨q', e', h⟩ := (h1.getChild k).ok_left e
  exact ⟨q', h, fun hz => (h2 hz).child e', fun hl => (h3 hl).child e'⟩

theorem lineVector_flt {q : Prim Flt} {w : List Flt} (h : con.lineVectorA [q] = .ok (.vec w)) :
    ∃ a b, q.values = [a, b] ∧ Arr.sub (.vec b.value.arr) (.vec a.value.arr) = .ok (.vec w) := by
  simp only [con.lineVectorA] at h
  split at h
  · rename_i u v e
    exact ⟨u, v, e, h⟩
  · cases h

theorem dual_zero (hz : all → zero) : ZeroOK (DRel x0 v all) (GoodFn x0 zero left) := by
  rintro p p' h ⟨q, h1, h2, -⟩ w w' e e'
  have hw := lineVec1_rel dual_num h
  rw [e, e'] at hw
  have hw : LRel (DRel x0 v all) w w' := hw
  have hs := sumList_rel dual_num (LRel.map hw fun _ _ h => DRel.mul h h)
  refine DRel.sqrt hs fun ha hn h0 => ?_
  obtain ⟨u, eu, hu⟩ := (lineVec1_rel (at_num x0) h1).ok_left e
  obtain ⟨u, rfl⟩ := lineVector_vec eu
  have hu : LRel (At x0) w u := hu
  obtain ⟨a, b, ev, es⟩ := lineVector_flt eu
  rcases h2 (hz ha) [] _ a b (.here _) ev u es with rfl | hnz
  · cases hu
    cases hw
    exact hn rfl
  · have h3 := at_sumSq hu
    have h4 := hs.val
    rw [show _ = Arr.sumList (u.map fun x => x * x) from h3, h0] at h4
    exact sumSq_ne hnz h4

theorem unit_left {q : Prim Flt} (h : Prim.NoLeftLines q) {d : Arr Flt} (e : con.unitLineVectorA [q] = .ok d)
    {a : ℝ} (h1 : d.get 1 = .ok (fin 0)) (h0 : d.get 0 = .ok (fin a)) : 0 < a := by
  simp only [con.unitLineVectorA, py_bind_ok] at e
  obtain ⟨w, e1, e2⟩ := e
  obtain ⟨w, rfl⟩ := lineVector_vec e1
  obtain ⟨p, q, ev, es⟩ := lineVector_flt e1
  have hd : d = .vec (w.map fun x => x / PyNum.sqrt (Arr.sumList (w.map fun x => x * x))) := by
    simp only [Arr.div, Arr.norm, Arr.binop, Except.ok.injEq] at e2
    exact e2.symm
  subst hd
  rcases w with _ | ⟨x, _ | ⟨y, w⟩⟩
  · cases h1
  · cases h1
  · have i1 : y / _ = fin 0 := Except.ok.inj h1
    have i0 : x / _ = fin a := Except.ok.inj h0
    obtain ⟨y, m, rfl, e4, hm, e5⟩ := div_fin i1
    obtain ⟨x, m', rfl, e7, -, e8⟩ := div_fin i0
    rw [e4, fin_inj] at e7
    subst e7
    have hy : y = 0 := by
      rcases div_eq_zero_iff.mp e5.symm with h | h
      · exact h
      · exact absurd h hm
    subst hy
    rw [e8]
    exact div_pos (h [] _ p q (.here _) ev x w es) (lt_of_le_of_ne (sqrt_nonneg' e4) (Ne.symm hm))

theorem dual_ang (hz : all → zero) (hl : left) : AngOK (DRel x0 v all) (GoodFn x0 zero left) := by
  rintro p p' h ⟨q, h1, h2, h3⟩ d d' e e' a b a' b' e1 e2 e3 e4
  have hu := unit1_rel dual_num (dual_zero hz) h ⟨q, h1, h2, h3⟩
  rw [e, e'] at hu
  have ha := get_rel (R := DRel x0 v all) hu 0
  have hb := get_rel (R := DRel x0 v all) hu 1
  rw [e1, e3] at ha
  rw [e2, e4] at hb
  have ha : DRel x0 v all a a' := ha
  have hb : DRel x0 v all b b' := hb
  refine DRel.atan2 hb ha fun c f1 f2 => ?_
  obtain ⟨t, et, ht⟩ := (unit1_rel (at_num x0) (at_zero (G := fun _ => True)) h1 trivial).ok_left e
  obtain ⟨c0, ec0, hc0⟩ := (get_rel (R := At x0) ht 0).ok_left e1
  obtain ⟨c1, ec1, hc1⟩ := (get_rel (R := At x0) ht 1).ok_left e2
  have hc0 : a x0 = c0 := hc0
  have hc1 : b x0 = c1 := hc1
  rw [ha.val, f2] at hc0
  rw [hb.val, f1] at hc1
  subst hc0 hc1
  exact unit_left (h3 hl) et ec1 ec0

end dual

end MplLayout
