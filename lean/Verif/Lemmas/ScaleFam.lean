import Verif.Lemmas.ScaleLeaves

/-!
# Scaling as a family with two members
-/

namespace MplLayout

open Flt Cons

/-- The value of a primitive, scaled for `true`. -/
noncomputable def scaleF (s : ℝ) : Bool → PVal Flt → PVal Flt
  | true, v => ⟨v.id, v.arr.map (fin s * ·)⟩
  | false, v => v

theorem Node.mapV_id {τ β : Type} (n : Node τ β) : n.mapV (fun v => v) = n := by
  induction n using Node.induct with
  | _ t v cs ih =>
    rw [Node.mapV_mk]
    congr 1
    conv_rhs => rw [← List.map_id cs]
    refine List.map_congr_left fun kc hk => ?_
    rw [ih kc.1 kc.2 hk]; rfl

theorem mapV_true (s : ℝ) (p : Prim Flt) : p.mapV (scaleF s true) = scalePrim s p := rfl

theorem mapV_false (s : ℝ) (p : Prim Flt) : p.mapV (scaleF s false) = p := by
  have : scaleF s false = fun v => v := rfl
  rw [this]
  exact Node.mapV_id _

/-- The number is multiplied by `k`. -/
def SK (k : ℝ) (g : Bool → Flt) : Prop := g true = fin k * g false

theorem sk_lin (k : ℝ) : LinSpace (SK k) where
  zero := (fin_zero_mul k).symm
  add h1 h2 := by simp only [SK] at *; rw [h1, h2, mul_add_flt]
  sub h1 h2 := by simp only [SK] at *; rw [h1, h2, mul_sub_flt]
  smul c _ h := by simp only [SK] at *; rw [h, mul_left_flt]
  muls c _ h := by simp only [SK] at *; rw [h, mul_assoc_flt]

theorem sk_one : LinClass (SK 1) where
  toLinSpace := sk_lin 1
  const c := by simp only [SK]; cases c <;> simp

theorem sk_val (s : ℝ) : ValA (SK s) (scaleF s) := by
  intro v
  refine ⟨v.arr.map fun a x => if x then fin s * a else a, fun g hg => ?_, fun x => ?_⟩
  · obtain ⟨a, _, rfl⟩ := List.mem_map.mp hg
    simp [SK]
  · cases x <;> simp [scaleF, Function.comp_def]

theorem tame_sc {k : ℝ} {F : Bool → Py (Arr Flt)} (h : Sc k (F false) (F true)) : Tame (SK k) F := by
  cases hF : F false with
  | error e =>
    refine Tame.congr (fun x => ?_) (Tame.error e)
    cases x
    · exact hF
    · rw [h, hF]; rfl
  | ok a =>
    have h' : F true = .ok (a.map (fin k * ·)) := by rw [h, hF]; rfl
    cases a with
    | scalar a =>
      refine Tame.congr (fun x => ?_) (Tame.ok (a := .scalar fun x => if x then fin k * a else a)
        (InA.scalar.mpr (by simp [SK])))
      cases x
      · exact hF
      · exact h'
    | vec as =>
      refine Tame.congr (fun x => ?_) (Tame.ok (a := .vec (as.map fun a x => if x then fin k * a else a))
        (InA.vec.mpr fun g hg => ?_))
      · cases x
        · simp [hF, evA, Function.comp_def]
        · simp [h', evA, Arr.map, Function.comp_def]
      · obtain ⟨a, _, rfl⟩ := List.mem_map.mp hg
        simp [SK]

variable {s k : ℝ} {G : Prim Flt → Prop}

theorem tameF_sc1 {F : List (Prim Flt) → Py (Arr Flt)} (h0 : F [] = .error .valueError)
    (h1 : ∀ p, Sc k (F [p]) (F [scalePrim s p]))
    (h2 : ∀ p q ps, F (p :: q :: ps) = .error .valueError) : TameF (SK k) (scaleF s) G F := by
  intro ps _
  refine tame_sc ?_
  rcases ps with _ | ⟨p, _ | ⟨q, ps⟩⟩
  · simp only [List.map_nil, h0]; rfl
  · simp only [List.map_cons, List.map_nil, mapV_true, mapV_false]
    exact h1 p
  · simp only [List.map_cons, h2]; rfl

theorem tameF_sc2 {F : List (Prim Flt) → Py (Arr Flt)} (h0 : F [] = .error .valueError)
    (h1 : ∀ p, F [p] = .error .valueError)
    (h2 : ∀ p q, Sc k (F [p, q]) (F [scalePrim s p, scalePrim s q]))
    (h3 : ∀ p q r ps, F (p :: q :: r :: ps) = .error .valueError) : TameF (SK k) (scaleF s) G F := by
  intro ps _
  refine tame_sc ?_
  rcases ps with _ | ⟨p, _ | ⟨q, _ | ⟨r, ps⟩⟩⟩
  · simp only [List.map_nil, h0]; rfl
  · simp only [List.map_cons, List.map_nil, h1]; rfl
  · simp only [List.map_cons, List.map_nil, mapV_true, mapV_false]
    exact h2 p q
  · simp only [List.map_cons, h3]; rfl

section
variable (hs : 0 < s)
include hs

theorem sk_length : TameF (SK s) (scaleF s) G con.lengthA :=
  tameF_sc1 rfl (sc_length hs) fun _ _ _ => rfl

theorem sk_angle : TameF (SK 1) (scaleF s) G con.angleA :=
  tameF_sc2 rfl (fun _ => rfl) (fun p q => Sc.one.mpr (angle_scale hs p q)) fun _ _ _ _ => rfl

theorem sk_aspect : TameF (SK 1) (scaleF s) G con.aspectRatioA :=
  tameF_sc1 rfl (fun p => Sc.one.mpr (aspect_scale hs p)) fun _ _ _ => rfl

theorem sk_pointOn (r : Param Flt) : TameF (SK s) (scaleF s) G fun ps => con.pointOnLineDistanceA ps r :=
  tameF_sc2 rfl (fun _ => rfl) (fun p q => sc_pointOn hs p q r) fun _ _ _ _ => rfl

theorem sk_pointTo (r : Param Flt) : TameF (SK s) (scaleF s) G fun ps => con.pointToLineDistanceA ps r :=
  tameF_sc2 rfl (fun _ => rfl) (fun p q => sc_pointTo hs p q r) fun _ _ _ _ => rfl

theorem sk_relPoint (r : Param Flt) : TameF (SK 1) (scaleF s) G fun ps => con.relativePointOnLineDistanceA ps r :=
  tameF_sc2 rfl (fun _ => rfl) (fun p q => Sc.one.mpr (relPoint_scale hs p q r)) fun _ _ _ _ => rfl

end

theorem sk_orthogonal : TameF (SK (s * s)) (scaleF s) G ct.orthogonalA :=
  tameF_sc2 rfl (fun _ => rfl) sc_orthogonal fun _ _ _ _ => rfl

theorem sk_parallel : TameF (SK (s * s)) (scaleF s) G ct.parallelA :=
  tameF_sc2 rfl (fun _ => rfl) sc_parallel fun _ _ _ _ => rfl

theorem sk_collinear : TameF (SK (s * s)) (scaleF s) G ct.collinearA :=
  tameF_sc2 rfl (fun _ => rfl) sc_collinear fun _ _ _ _ => rfl

/-! ## Trees -/

section
variable {X α : Type} {A : (X → Flt) → Prop} {f : X → α → PVal Flt} {G : Node PrimType α → Prop}

theorem all_map {c r : Cons Flt} {n : Nat} (hc : AllN (TameP A f G) c) (e : transformMap c n = .ok r) :
    AllN (TameP A f G) r :=
  construction_all e (tameP_empty rfl) fun c' h => by
    rw [List.eq_of_mem_replicate h]; exact hc

theorem all_align (hc : AllN (TameP A f G) (ct.collinear (K := Flt))) {row : Bool} {r : Cons Flt}
    (e : ct.align row = .ok r) : AllN (TameP A f G) r := by
  cases row
  · unfold ct.align at e
    simp only [Bool.false_eq_true, if_false] at e
    exact construction_all e (tameP_compound 0 rfl) (by simp [hc])
  · unfold ct.align at e
    simp only [if_true] at e
    exact construction_all e (tameP_compound 0 rfl) (by simp [hc])

theorem all_rectGrid (hc : AllN (TameP A f G) (ct.collinear (K := Flt))) {m n : Nat} {r : Cons Flt}
    (e : ct.rectilinearGrid m n = .ok r) : AllN (TameP A f G) r := by
  obtain ⟨a, h1, h2⟩ := bind_ok' e
  obtain ⟨row, h3, h4⟩ := bind_ok' h2
  obtain ⟨b, h5, h6⟩ := bind_ok' h4
  obtain ⟨col, h7, h8⟩ := bind_ok' h6
  refine construction_all h8 (tameP_compound 0 rfl) fun c hc' => ?_
  rcases List.mem_append.mp hc' with hc' | hc'
  · rw [List.eq_of_mem_replicate hc']; exact all_map (all_align hc h1) h3
  · rw [List.eq_of_mem_replicate hc']; exact all_map (all_align hc h5) h7

theorem constQ_num (x : Flt) {r : Cons Flt} (h : toScalar (.num x) = .ok r) : ConstQ r.ty r.value := by
  have : AllN ConstQ r := transformPartial_all (P := ConstQ) (Q := ConstQ)
    (show AllN ConstQ (MplLayout.scalarCons (K := Flt)) from leaf_all constQ_value)
    (fun p p' q => constQ_value p p' _) (fun _ _ h => h) h
  exact this.root

theorem all_scalarMul (L : LinSpace A) {c r : Cons Flt} {o : Operand Flt} (hc : AllN (TameP A f G) c)
    (hs : ∀ b, o = .cons b → ConstQ b.ty b.value) (e : transformScalarMul c o = .ok r) : AllN (TameP A f G) r := by
  obtain ⟨b, hb, e⟩ := bind_ok' e
  refine transformNodes_all hc (fun a ha => tame_mulNode L _ a b ha ?_) e
  cases o with
  | num x => exact constQ_num x hb
  | cons c' =>
    simp only [toScalar] at hb
    split at hb
    · cases hb; exact hs _ rfl
    · cases hb

theorem all_relLen (L : LinSpace A) (hl : AllN (TameP A f G) (con.length (K := Flt))) {r : Cons Flt}
    (e : ct.relativeLength = .ok r) : AllN (TameP A f G) r := by
  obtain ⟨m, h1, h2⟩ := bind_ok' e
  obtain ⟨s, h3, h4⟩ := bind_ok' h2
  have hm := all_scalarMul L hl (by simp) h1
  exact transformSum_all hl (all_scalarMul L hm (fun c hc => by cases hc; exact constQ_value) h3)
    (fun a b n h1 h2 e => tame_sumNode L a b n h1 h2 e) h4

/-- `Grid`: every part may have its own class. -/
theorem HT_grid {L : LinSpace A} (V : ValA A f) {H : FamPred X} (h0 : ∀ cls ps, HP A f G cls ps → H cls ps)
    (hr : ∀ {m n : Nat} {r : Cons Flt}, ct.rectilinearGrid m n = .ok r → ∀ ps, HT H r fun _ => ps)
    (hl : ∀ {r : Cons Flt}, ct.relativeLength = .ok r → ∀ n ps, HT H (mapCons r n) fun _ => ps)
    {rows cols : Nat} {c : Cons Flt} (e : ct.grid rows cols = .ok c) {qs : List (X → Param Flt)}
    (h : ParsF A (.grid rows cols) qs) (hlen : qs.length = c.value.sig.paramTypes.length) :
    HT H c (fun x => qs.map (· x)) := by
  rw [eq_of_ok (grid_eq (ct_margin_eq true .right) (ct_margin_eq true .bottom) rows cols) e] at hlen ⊢
  match qs, hlen with
  | [a, b, c, d], _ =>
    have ha := h 0 a rfl
    have hb := h 1 b rfl
    have hc := h 2 c rfl
    have hd := h 3 d rfl
    simp only [Shipped.lengths, show ¬ (2 ≤ 0) by omega, show ¬ (2 ≤ 1) by omega, decide_false, decide_true,
      le_refl, show 2 ≤ 3 by omega, Bool.false_eq_true, if_false, if_true] at ha hb hc hd
    obtain ⟨a, rfl⟩ := ha
    obtain ⟨b, rfl⟩ := hb
    simp only [gridT, HT]
    refine ⟨h0 _ _ (HP_compound 4 rfl fun _ _ => rfl), ?_⟩
    simp only [List.map_cons, List.map_nil, ct.gridParams]
    cases a.iter with
    | error e => exact .inl ⟨e, fun x => rfl⟩
    | ok as =>
    cases b.iter with
    | error e => exact .inl ⟨e, fun x => rfl⟩
    | ok bs =>
    rcases hc.iter with ⟨e, he⟩ | ⟨cs, hcs, hc⟩
    · exact .inl ⟨e, fun x => by rw [he]; rfl⟩
    rcases hd.iter with ⟨e, he⟩ | ⟨ds, hds, hd⟩
    · exact .inl ⟨e, fun x => by rw [hc, he]; rfl⟩
    refine .inr ⟨[fun _ => [], fun _ => as, fun _ => bs, fun x => cs.map (· x), fun x => ds.map (· x)],
      fun x => by rw [hc, hd]; rfl, ?_⟩
    simp only [HTL, and_true]
    exact ⟨hr (rectilinearGrid_eq rows cols) [], hl relativeLength_eq cols as, hl relativeLength_eq rows bs,
      (HT_marginArray L V .right cols hcs).mono h0, (HT_marginArray L V .bottom rows hds).mono h0⟩

end

/-- The number is multiplied by a positive number. -/
def Pos (g : Bool → Flt) : Prop := ∃ k, 0 < k ∧ SK k g

theorem pos_of {k : ℝ} (hk : 0 < k) (g : Bool → Flt) (h : SK k g) : Pos g := ⟨k, hk, h⟩

/-- All shipped constraints: with scaled lengths, the outputs on scaled primitives are multiplied by
positive numbers. -/
theorem HT_scale (hs : 0 < s) {sh : Shipped} {c : Cons Flt} (e : sh.build = .ok c) {qs : List (Bool → Param Flt)}
    (h : ParsF (SK s) sh qs) (hl : qs.length = c.value.sig.paramTypes.length) :
    HT (HP Pos (scaleF s) G) c (fun x => qs.map (· x)) := by
  have up : ∀ {k : ℝ}, 0 < k → ∀ {c : Cons Flt} {ps : Bool → List (Param Flt)},
      HT (HP (SK k) (scaleF s) G) c ps → HT (HP Pos (scaleF s) G) c ps :=
    fun hk _ _ h => h.mono fun _ _ hp => hp.mono (pos_of hk)
  have L := sk_lin s
  have V := sk_val s
  have hss : 0 < s * s := mul_pos hs hs
  have one : ∀ {sh : Shipped} {c : Cons Flt}, sh.build = .ok c → (∀ c ∈ sh.leaves Flt, AllN (TameP (SK 1) (scaleF s) G) c) →
      ∀ ps, HT (HP Pos (scaleF s) G) c fun _ => ps := fun e hl ps =>
    up one_pos (HT_const (shipped_all (tame_closed sk_one) _ hl e) ps)
  have colc : AllN (TameP (SK (s * s)) (scaleF s) G) (ct.collinear (K := Flt)) := tameP_assem0 sk_collinear _ _ _
  have len : AllN (TameP (SK s) (scaleF s) G) (con.length (K := Flt)) := tameP_assem0 (sk_length hs) _ _ _
  by_cases ha : sh.IsAffine
  · exact up hs (HT_affine L V ha e h hl)
  cases sh with
  | length =>
    rw [eq_of_ok ct_length_eq e] at hl ⊢
    exact up hs (HT_cstr0 L (sk_length hs) h (fun _ => rfl) hl)
  | pointOnLineDistance =>
    rw [eq_of_ok ct_pointOnLineDistance_eq e] at hl ⊢
    exact up hs (HT_cstr1 L (sk_pointOn hs) h (fun _ => rfl) hl)
  | pointToLineDistance =>
    rw [eq_of_ok ct_pointToLineDistance_eq e] at hl ⊢
    exact up hs (HT_cstr1 L (sk_pointTo hs) h (fun _ => rfl) hl)
  | relativeLength =>
    obtain ⟨ps, e'⟩ := h.const fun _ => rfl
    rw [e']
    exact up hs (HT_const (all_relLen L len e) ps)
  | orthogonal =>
    cases e
    obtain ⟨ps, e'⟩ := h.const fun _ => rfl
    rw [e']
    exact up hss (HT_const (tameP_assem0 sk_orthogonal _ _ _) ps)
  | parallel =>
    cases e
    obtain ⟨ps, e'⟩ := h.const fun _ => rfl
    rw [e']
    exact up hss (HT_const (tameP_assem0 sk_parallel _ _ _) ps)
  | collinear =>
    cases e
    obtain ⟨ps, e'⟩ := h.const fun _ => rfl
    rw [e']
    exact up hss (HT_const colc ps)
  | align row =>
    obtain ⟨ps, e'⟩ := h.const fun _ => rfl
    rw [e']
    exact up hss (HT_const (all_align colc e) ps)
  | rectilinearGrid m n =>
    obtain ⟨ps, e'⟩ := h.const fun _ => rfl
    rw [e']
    exact up hss (HT_const (all_rectGrid colc e) ps)
  | angle =>
    obtain ⟨ps, e'⟩ := h.const fun _ => rfl
    rw [e']
    refine one e ?_ ps
    simp only [Shipped.leaves, List.mem_singleton, forall_eq]
    exact tameP_assem0 (sk_angle hs) _ _ _
  | aspectRatio =>
    obtain ⟨ps, e'⟩ := h.const fun _ => rfl
    rw [e']
    refine one e ?_ ps
    simp only [Shipped.leaves, List.mem_singleton, forall_eq]
    exact tameP_assem0 (sk_aspect hs) _ _ _
  | relativePointOnLineDistance =>
    obtain ⟨ps, e'⟩ := h.const fun _ => rfl
    rw [e']
    refine one e ?_ ps
    simp only [Shipped.leaves, List.mem_singleton, forall_eq]
    exact tameP_assem1 (sk_relPoint hs) _ _ _ _
  | positionAxisLabel axis twin =>
    obtain ⟨ps, e'⟩ := h.const fun _ => rfl
    rw [e']
    refine one e ?_ ps
    simp only [Shipped.leaves, List.mem_singleton, forall_eq]
    exact tameP_assem1 (sk_relPoint hs) _ _ _ _
  | grid rows cols =>
    refine HT_grid (L := L) V (fun _ _ hp => hp.mono (pos_of hs)) ?_ ?_ e h hl
    · intro m n r e ps
      exact up hss (HT_const (all_rectGrid colc e) ps)
    · intro r e n ps
      refine up hs (HT_const (all_map (n := n) (all_relLen L len e) (transformMap_eq _ _)) ps)
  | _ => exact absurd trivial ha

end MplLayout
