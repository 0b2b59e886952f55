import Verif.Lemmas.Jacfwd

/-!
# Reverse mode computes the same as forward mode
-/

namespace MplLayout

open Flt Solver

namespace Lin

/-- The tangent, for given tangents of the input. -/
noncomputable def run (t : Nat → Flt) : Lin → Flt
  | .input i => t i
  | .add a b => a.run t + b.run t
  | .neg a => -a.run t
  | .scale c a => a.run t * c
  | .over c a => a.run t / c

/-- Only the first `n` coordinates are used. -/
def Below (n : Nat) : Lin → Prop
  | .input i => i < n
  | .add a b => a.Below n ∧ b.Below n
  | .neg a => a.Below n
  | .scale _ a => a.Below n
  | .over _ a => a.Below n

/-- All factors are finite. -/
def Good : Lin → Prop
  | .input _ => True
  | .add a b => a.Good ∧ b.Good
  | .neg a => a.Good
  | .scale c a => (∃ x, c = fin x) ∧ a.Good
  | .over c a => (∃ x, c = fin x ∧ x ≠ 0) ∧ a.Good

/-- The direction of coordinate `j`. -/
def unit (j : Nat) : Nat → Flt := fun i => if i = j then fin 1 else fin 0

theorem good_iff (j : Nat) (l : Lin) : l.Good ↔ ∃ s, l.run (unit j) = fin s := by
  induction l with
  | input i =>
    simp only [Good, run, unit, true_iff]
    split
    · exact ⟨_, rfl⟩
    · exact ⟨_, rfl⟩
  | add a b iha ihb =>
    simp only [Good, run, iha, ihb]
    cases a.run (unit j) <;> cases b.run (unit j) <;> simp
  | neg a ih =>
    simp only [Good, run, ih]
    cases a.run (unit j) <;> simp
  | scale c a ih =>
    simp only [Good, run, ih]
    cases a.run (unit j) <;> cases c <;> simp
  | over c a ih =>
    simp only [Good, run, ih]
    cases a.run (unit j) with
    | bad => simp
    | fin y =>
      cases c with
      | bad => simp
      | fin x =>
        by_cases hx : x = 0
        · subst hx; simp [div_zero']
        · simp [fin_div hx, hx]

theorem modify_vec {n : Nat} (i : Nat) (c : ℝ) (A : Fin n → ℝ) :
    (vec A).modify i (· + fin c) = vec fun j => A j + c * (if i = j.1 then 1 else 0) := by
  apply List.ext_getElem
  · simp [vec]
  · intro k h1 h2
    simp only [List.getElem_modify, vec, List.getElem_ofFn]
    by_cases h : i = k <;> simp [h]

theorem pull_vec {n : Nat} (l : Lin) : ∀ (s : Fin n → ℝ), l.Good → (∀ j : Fin n, l.run (unit j) = fin (s j)) →
    ∀ (c : ℝ) (A : Fin n → ℝ), l.pull (fin c) (vec A) = vec fun j => A j + c * s j := by
  induction l with
  | input i =>
    intro s _ h c A
    rw [pull, modify_vec]
    congr 1
    funext j
    have := h j
    simp only [run, unit] at this
    split at this
    · rename_i e; rw [if_pos e, fin_inj.mp this]
    · rename_i e; rw [if_neg e, fin_inj.mp this]
  | add a b iha ihb =>
    intro s g h c A
    choose sa ha using fun j : Fin n => (good_iff j a).mp g.1
    choose sb hb using fun j : Fin n => (good_iff j b).mp g.2
    rw [pull, iha sa g.1 ha, ihb sb g.2 hb]
    congr 1
    funext j
    have := h j
    rw [run, ha, hb, fin_add, fin_inj] at this
    rw [← this]
    ring
  | neg a ih =>
    intro s g h c A
    choose sa ha using fun j : Fin n => (good_iff j a).mp g
    rw [pull, fin_neg, ih sa g ha]
    congr 1
    funext j
    have := h j
    rw [run, ha, fin_neg, fin_inj] at this
    rw [← this]
    ring
  | scale k a ih =>
    intro s g h c A
    obtain ⟨⟨x, rfl⟩, g⟩ := g
    choose sa ha using fun j : Fin n => (good_iff j a).mp g
    rw [pull, fin_mul, ih sa g ha]
    congr 1
    funext j
    have := h j
    rw [run, ha, fin_mul, fin_inj] at this
    rw [← this]
    ring
  | over k a ih =>
    intro s g h c A
    obtain ⟨⟨x, rfl, hx⟩, g⟩ := g
    choose sa ha using fun j : Fin n => (good_iff j a).mp g
    rw [pull, fin_div hx, ih sa g ha]
    congr 1
    funext j
    have := h j
    rw [run, ha, fin_div hx, fin_inj] at this
    rw [← this]
    ring

@[simp] theorem pull_length (l : Lin) : ∀ (ct : Flt) (g : List Flt), (l.pull ct g).length = g.length := by
  induction l with
  | input i => intro ct g; simp [pull]
  | add a b iha ihb => intro ct g; rw [pull, ihb, iha]
  | neg a ih => intro ct g; exact ih _ _
  | scale c a ih => intro ct g; exact ih _ _
  | over c a ih => intro ct g; exact ih _ _

theorem bad_stays (l : Lin) : ∀ (ct : Flt) (g : List Flt) (i : Nat), g[i]? = some bad → (l.pull ct g)[i]? = some bad := by
  induction l with
  | input k =>
    intro ct g i h
    rw [pull, List.getElem?_modify, h]
    by_cases e : k = i <;> simp [e]
  | add a b iha ihb => intro ct g i h; exact ihb _ _ _ (iha _ _ _ h)
  | neg a ih => intro ct g i h; exact ih _ _ _ h
  | scale c a ih => intro ct g i h; exact ih _ _ _ h
  | over c a ih => intro ct g i h; exact ih _ _ _ h

theorem pull_bad {n : Nat} (l : Lin) (hl : l.Below n) : ∀ (g : List Flt), g.length = n → ∃ i : Nat, (l.pull bad g)[i]? = some bad := by
  induction l with
  | input k =>
    intro g hg
    have hk : k < g.length := hg ▸ hl
    exact ⟨k, by simp [pull, List.getElem?_modify, List.getElem?_eq_getElem hk]⟩
  | add a b iha ihb =>
    intro g hg
    exact ihb hl.2 _ (by rw [pull_length, hg])
  | neg a ih => intro g hg; exact ih hl g hg
  | scale c a ih => intro g hg; rw [pull, bad_mul]; exact ih hl g hg
  | over c a ih => intro g hg; rw [pull, bad_div]; exact ih hl g hg

theorem pull_notGood {n : Nat} (l : Lin) (hl : l.Below n) (hg : ¬ l.Good) : ∀ (ct : Flt) (g : List Flt), g.length = n →
    ∃ i : Nat, (l.pull ct g)[i]? = some bad := by
  induction l with
  | input k => exact absurd trivial hg
  | add a b iha ihb =>
    intro ct g h
    by_cases ha : a.Good
    · exact ihb hl.2 (fun hb => hg ⟨ha, hb⟩) _ _ (by rw [pull_length, h])
    · obtain ⟨i, hi⟩ := iha hl.1 ha ct g h
      exact ⟨i, bad_stays b _ _ _ hi⟩
  | neg a ih => intro ct g h; exact ih hl hg _ g h
  | scale c a ih =>
    intro ct g h
    cases c with
    | bad => rw [pull, mul_bad]; exact pull_bad a hl g h
    | fin x => exact ih hl (fun h' => hg ⟨⟨x, rfl⟩, h'⟩) _ g h
  | over c a ih =>
    intro ct g h
    cases c with
    | bad => rw [pull, div_bad]; exact pull_bad a hl g h
    | fin x =>
      by_cases hx : x = 0
      · subst hx
        have : ct / fin 0 = bad := by cases ct; exacts [div_zero' _, bad_div _]
        rw [pull, this]; exact pull_bad a hl g h
      · exact ih hl (fun h' => hg ⟨⟨x, rfl, hx⟩, h'⟩) _ g h

end Lin

/-! ## Recorded numbers and numbers with tangents -/

/-- The value is the same and the record gives the tangent. -/
structure TapeR (n : Nat) (t : Nat → Flt) (d : Dual) (p : Tape) : Prop where
  val : d.val = p.val
  tan : d.tan = p.lin.map (Lin.run t)
  below : ∀ l, p.lin = some l → l.Below n

/-- Constants. -/
def TapeC (d : Dual) (p : Tape) : Prop := ∃ c, d = Dual.const c ∧ p = Tape.const c

variable {n : Nat} {t : Nat → Flt}

theorem TapeR.const (c : Flt) : TapeR n t (Dual.const c) (Tape.const c) := ⟨rfl, rfl, fun _ h => nomatch h⟩

theorem flt_mul_comm (a b : Flt) : a * b = b * a := by
  cases a <;> cases b <;> simp [mul_comm]

/-- One linear operation. -/
theorem tape_map {o : Option Flt} {p : Option Lin} (h : o = p.map (Lin.run t)) (hb : ∀ l, p = some l → l.Below n)
    {f : Flt → Flt} {g : Lin → Lin} (hfg : ∀ l, f (l.run t) = (g l).run t) (hg : ∀ l : Lin, l.Below n → (g l).Below n) :
    o.map f = (p.map g).map (Lin.run t) ∧ ∀ l, p.map g = some l → l.Below n := by
  subst h
  cases p with
  | none => exact ⟨rfl, fun _ h => nomatch h⟩
  | some l =>
    refine ⟨congrArg some (hfg l), ?_⟩
    rintro _ ⟨⟩
    exact hg l (hb l rfl)

theorem tape_add {o o' : Option Flt} {p p' : Option Lin} (h : o = p.map (Lin.run t) ∧ ∀ l, p = some l → l.Below n)
    (h' : o' = p'.map (Lin.run t) ∧ ∀ l, p' = some l → l.Below n) :
    Dual.addTan o o' = (Tape.addLin p p').map (Lin.run t) ∧ ∀ l, Tape.addLin p p' = some l → l.Below n := by
  obtain ⟨rfl, h⟩ := h
  obtain ⟨rfl, h'⟩ := h'
  cases p with
  | none => cases p' with
    | none => exact ⟨rfl, fun _ h => nomatch h⟩
    | some l => exact ⟨rfl, h'⟩
  | some k => cases p' with
    | none => exact ⟨rfl, h⟩
    | some l =>
      refine ⟨rfl, ?_⟩
      rintro _ ⟨⟩
      exact ⟨h k rfl, h' l rfl⟩

theorem TapeR.of {d : Dual} {p : Tape} (h : d.val = p.val) (h' : d.tan = p.lin.map (Lin.run t) ∧ ∀ l, p.lin = some l → l.Below n) :
    TapeR n t d p := ⟨h, h'.1, h'.2⟩

theorem tape_num : NumRel (TapeR n t) TapeC where
  ofC := by rintro _ _ ⟨c, rfl, rfl⟩; exact .const c
  truthy := by rintro _ _ ⟨c, rfl, rfl⟩; rfl
  c_zero := ⟨0, rfl, rfl⟩
  c_one := ⟨1, rfl, rfl⟩
  c_mul := by rintro _ _ _ _ ⟨c, rfl, rfl⟩ ⟨c', rfl, rfl⟩; exact ⟨c * c', rfl, rfl⟩
  c_sub := by rintro _ _ _ _ ⟨c, rfl, rfl⟩ ⟨c', rfl, rfl⟩; exact ⟨c - c', rfl, rfl⟩
  c_neg := by rintro _ _ ⟨c, rfl, rfl⟩; exact ⟨-c, rfl, rfl⟩
  add := by
    rintro ⟨a, s⟩ ⟨b, l⟩ ⟨c, s'⟩ ⟨d, l'⟩ ⟨rfl, h1, h2⟩ ⟨rfl, h3, h4⟩
    exact .of rfl (tape_add ⟨h1, h2⟩ ⟨h3, h4⟩)
  sub := by
    rintro ⟨a, s⟩ ⟨b, l⟩ ⟨c, s'⟩ ⟨d, l'⟩ ⟨rfl, h1, h2⟩ ⟨rfl, h3, h4⟩
    exact .of rfl (tape_add ⟨h1, h2⟩ (tape_map h3 h4 (fun _ => rfl) fun _ h => h))
  mul := by
    rintro ⟨a, s⟩ ⟨b, l⟩ ⟨c, s'⟩ ⟨d, l'⟩ ⟨rfl, h1, h2⟩ ⟨rfl, h3, h4⟩
    exact .of rfl (tape_add (tape_map h1 h2 (fun _ => rfl) fun _ h => h)
      (tape_map h3 h4 (fun l => flt_mul_comm _ _) fun _ h => h))
  div := by
    rintro ⟨a, s⟩ ⟨b, l⟩ ⟨c, s'⟩ ⟨d, l'⟩ ⟨rfl, h1, h2⟩ ⟨rfl, h3, h4⟩
    exact .of rfl (tape_add (tape_map h1 h2 (fun _ => rfl) fun _ h => h)
      (tape_map h3 h4 (fun l => rfl) fun _ h => h))
  neg := by
    rintro ⟨a, s⟩ ⟨b, l⟩ ⟨rfl, h1, h2⟩
    exact .of rfl (tape_map h1 h2 (fun _ => rfl) fun _ h => h)
  natCast k := .const k

theorem tape_sqrt {d : Dual} {p : Tape} (h : TapeR n t d p) : TapeR n t (PyNum.sqrt d) (PyNum.sqrt p) := by
  obtain ⟨a, s⟩ := d
  obtain ⟨b, l⟩ := p
  obtain ⟨rfl, h1, h2⟩ := h
  exact .of rfl (tape_map h1 h2 (fun _ => rfl) fun _ h => h)

theorem tape_atan2 {d d' : Dual} {p p' : Tape} (h : TapeR n t d p) (h' : TapeR n t d' p') :
    TapeR n t (PyNum.atan2 d d') (PyNum.atan2 p p') := by
  obtain ⟨a, s⟩ := d
  obtain ⟨b, l⟩ := p
  obtain ⟨a', s'⟩ := d'
  obtain ⟨b', l'⟩ := p'
  obtain ⟨rfl, h1, h2⟩ := h
  obtain ⟨rfl, h3, h4⟩ := h'
  exact .of rfl (tape_add (tape_map h1 h2 (fun _ => rfl) fun _ h => h) (tape_map h3 h4 (fun l => rfl) fun _ h => h))

theorem tape_zero : ZeroOK (TapeR n t) fun _ => True := by
  intro p p' h _ v v' e e'
  have := lineVec1_rel tape_num h
  rw [e, e'] at this
  have hv : LRel (TapeR n t) v v' := this
  exact tape_sqrt (sumList_rel tape_num (LRel.map hv fun _ _ h => tape_num.mul h h))

theorem tape_ang : AngOK (TapeR n t) fun _ => True := by
  intro p p' h hG d d' e e' a b a' b' e1 e2 e3 e4
  have := unit1_rel tape_num tape_zero h hG
  rw [e, e'] at this
  have hx := get_rel (R := TapeR n t) this 0
  have hy := get_rel (R := TapeR n t) this 1
  rw [e1, e3] at hx
  rw [e2, e4] at hy
  exact tape_atan2 hy hx

/-- The recorded residuals are the residuals with tangents. -/
theorem tape_res (id : Nat) (prog : List BuildCall) (base : Nat) {x : List Dual} {p : List Tape}
    (h : LRel (TapeR n t) x p) : PyRel (LRel (TapeR n t)) (globalRes (tracedLayout id prog) base x)
      (globalRes (tapedLayout id prog) base p) := by
  have hl : LyRel (TapeR n t) TapeC (fun _ => True) (tracedLayout id prog) (tapedLayout id prog) :=
    layout_rel tape_num (fun c => ⟨c, rfl, rfl⟩) id prog fun _ _ _ _ _ =>
      ⟨fun _ => tape_zero, fun _ => tape_ang, fun _ _ _ _ _ _ => trivial⟩
  exact globalRes_rel hl base h fun _ _ _ _ _ => trivial

end MplLayout
