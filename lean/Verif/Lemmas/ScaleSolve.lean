import Verif.Lemmas.ScaleFam
import Verif.Lemmas.ShiftSolve

/-!
# Scaled layouts
-/

namespace MplLayout

open Flt Cons

/-! ## Parameters -/

mutual
theorem parF_scale (s : ℝ) : ∀ p : Param Flt, ParF (SK s) fun x => if x then p.scale s else p
  | .num y => .num _ (fun x => if x then fin s * y else y) (by simp [SK]) fun x => by
      cases x <;> exact .inl rfl
  | .bool b => .num _ (fun x => if x then fin s * (if b then 1 else 0) else (if b then 1 else 0)) (by simp [SK])
      fun x => by
        cases x
        · exact .inr ⟨b, rfl, rfl⟩
        · exact .inl rfl
  | .arr ys => by
    have : (fun x : Bool => if x then (Param.arr ys).scale s else .arr ys)
        = fun x => (.arr ((ys.map fun y (x : Bool) => if x then fin s * y else y).map (· x)) : Param Flt) := by
      funext x
      cases x <;> simp [Param.scale, Function.comp_def]
    rw [this]
    refine .arr _ fun g hg => ?_
    obtain ⟨y, _, rfl⟩ := List.mem_map.mp hg
    simp [SK]
  | .none => by
    have : (fun x : Bool => if x then (Param.none (K := Flt)).scale s else .none) = fun _ => .none := by
      funext x; cases x <;> rfl
    rw [this]
    exact .none
  | .seq ps => by
    obtain ⟨qs, h1, h2, h3⟩ := parF_scaleL s ps
    have : (fun x : Bool => if x then (Param.seq ps).scale s else .seq ps) = fun x => .seq (qs.map (· x)) := by
      funext x
      cases x
      · simp [h2]
      · simp [h3, Param.scale]
    rw [this]
    exact .seq qs h1
  | .axis a => by
    have : (fun x : Bool => if x then (Param.axis a).scale s else .axis a)
        = fun x => .axis { a with
            figWidth := (if x then fin s * a.figWidth else a.figWidth)
            figHeight := (if x then fin s * a.figHeight else a.figHeight) } := by
      funext x; cases x <;> rfl
    rw [this]
    exact .axis a _ _ (by simp [SK]) (by simp [SK])
theorem parF_scaleL (s : ℝ) : ∀ ps : List (Param Flt), ∃ qs : List (Bool → Param Flt), (∀ q ∈ qs, ParF (SK s) q) ∧
    qs.map (· false) = ps ∧ qs.map (· true) = Param.scaleL s ps
  | [] => ⟨[], by simp, rfl, rfl⟩
  | p :: ps => by
    obtain ⟨qs, h1, h2, h3⟩ := parF_scaleL s ps
    refine ⟨(fun x => if x then p.scale s else p) :: qs, ?_, by simp [h2], by simp [h3, Param.scaleL]⟩
    intro q hq
    rcases List.mem_cons.mp hq with rfl | hq
    · exact parF_scale s p
    · exact h1 q hq
end

theorem parsF_scale (s : ℝ) (sh : Shipped) (ps : List (Param Flt)) : ∃ qs : List (Bool → Param Flt),
    ParsF (SK s) sh qs ∧ qs.map (· false) = ps ∧ qs.map (· true) = sh.scaleParams s ps ∧ qs.length = ps.length := by
  refine ⟨ps.mapIdx fun i p => if sh.lengths i then (fun x => if x then p.scale s else p) else fun _ => p,
    fun i q hq => ?_, ?_, ?_, by simp⟩
  · rw [List.getElem?_mapIdx, Option.map_eq_some_iff] at hq
    obtain ⟨p, _, rfl⟩ := hq
    split
    · exact parF_scale s p
    · exact ⟨p, rfl⟩
  · apply List.ext_getElem (by simp)
    intro i h1 h2
    simp only [List.getElem_map, List.getElem_mapIdx]
    split <;> simp
  · apply List.ext_getElem (by simp [Shipped.scaleParams])
    intro i h1 h2
    simp only [List.getElem_map, List.getElem_mapIdx, Shipped.scaleParams]
    split <;> simp

/-! ## Single constraints -/

section call
variable {X α : Type} {A : (X → Flt) → Prop} {f : X → α → PVal Flt}

theorem primInit_fam (v0 : α) (h0 : ∀ x, f x v0 = ⟨0, []⟩) (ks : List Str) (ps : List (Node PrimType α)) :
    ∃ u : Py Unit, ∀ x, rootPrim ks (ps.map (Node.mapV (f x)))
      = u.map fun _ => (Node.mk PrimType.primitiveNode v0 (dictOfZip ks ps)).mapV (f x) := by
  obtain ⟨u, hu⟩ := primNodeInit_check (K := Flt) PrimType.table .primitiveNode 0 ((dictOfZip ks ps).map (·.2.ty))
  refine ⟨u, fun x => ?_⟩
  have h1 : dictOfZip ks (ps.map (Node.mapV (f x)))
      = (dictOfZip ks ps).map fun kc => (kc.1, kc.2.mapV (f x)) := dictOfZip_map _ _ _
  rw [rootPrim, primInit, h1, hu _ _ rfl (by simp), Node.mapV_mk, h0]

/-- Evaluating a construction on a family. -/
theorem call_fam [Nonempty X] (v0 : α) (h0 : ∀ x, f x v0 = ⟨0, []⟩) {c : Cons Flt} {ps : X → List (Param Flt)}
    (prims : List (Node PrimType α)) (hl : ∀ x y, (ps x).length = (ps y).length)
    (hfit : c.value.sig.primTypes.length = prims.length → (∀ x, (ps x).length = c.value.sig.paramTypes.length) →
      ∀ x, c.Fits (argKeys prims.length) (ps x))
    (h : (∀ x, (ps x).length = c.value.sig.paramTypes.length) → HT (HP A f fun _ => True) c ps) :
    ∃ r : Py (List (X → Flt)), (∀ x, c.call (prims.map (·.mapV (f x))) (ps x) = r.map (List.map (· x))) ∧
      ∀ gs, r = .ok gs → ∀ g ∈ gs, A g := by
  obtain ⟨x0⟩ := ‹Nonempty X›
  have : Nonempty X := ⟨x0⟩
  have hz : ∀ x (ps : List (Node PrimType α)) (ts : List PrimType),
      List.zipWith (fun (p : Prim Flt) t => !p.ty.sub t) (ps.map (Node.mapV (f x))) ts
        = List.zipWith (fun (p : Prim Flt) t => !p.ty.sub t) (ps.map (Node.mapV (f x0))) ts := by
    intro x ps
    induction ps with
    | nil => intro ts; simp
    | cons p ps ih => intro ts; cases ts <;> simp [ih]
  have hv : ∀ x, c.validatePrims (prims.map (Node.mapV (f x))) = c.validatePrims (prims.map (Node.mapV (f x0))) := by
    intro x
    simp only [Cons.validatePrims, List.length_map, hz x]
  obtain ⟨u, hu⟩ := primInit_fam v0 h0 (argKeys prims.length) prims
  simp only [Cons.call, List.length_map, hv, hu, validateParams, hl _ x0]
  cases hvp : c.validatePrims (prims.map (Node.mapV (f x0))) with
  | error e => exact ⟨.error e, fun x => rfl, by simp⟩
  | ok _ =>
  by_cases hpl : (ps x0).length = c.value.sig.paramTypes.length
  swap
  · exact ⟨.error .typeError, fun x => by simp only [bind, Except.bind, ne_eq, hpl, not_false_eq_true, if_true]; rfl, by simp⟩
  have hlen : c.value.sig.primTypes.length = prims.length := by
    simp only [Cons.validatePrims, List.length_map] at hvp
    split at hvp
    · cases hvp
    · rename_i hn; exact (not_not.mp hn).symm
  have hall : ∀ x, (ps x).length = c.value.sig.paramTypes.length := fun x => (hl x x0).trans hpl
  have hf := hfit hlen hall
  obtain ⟨z, e1, e2, e3⟩ := Both.exists_mk c ps (hf x0).wf (fun x => (hf x).aligned) (fun x => (hf x).params) (h hall)
  simp only [bind, Except.bind, ne_eq, hpl, not_true_eq_false, if_false, e2]
  cases u with
  | error e => exact ⟨.error e, fun x => rfl, by simp⟩
  | ok _ =>
  cases c.rootPrimKeys (argKeys prims.length) with
  | error e => exact ⟨.error e, fun x => rfl, by simp⟩
  | ok keys =>
  simp only [Except.map, assemFromTree, bind, Except.bind, lookups_fam]
  cases pyMap (pyMap (Node.mk PrimType.primitiveNode v0 (dictOfZip (argKeys prims.length) prims)).getChild)
      ((keys.iterFlat []).map (·.2.value)) with
  | error e => exact ⟨.error e, fun x => rfl, by simp⟩
  | ok pss =>
  obtain ⟨r, h1, h2⟩ := residuals_fam (f := f) (A := A) ((z.iterFlat []).map (·.2)) (fun z' hz' => by
    obtain ⟨kc, hkc, rfl⟩ := List.mem_map.mp hz'
    exact AllN.iterFlat e3 [] kc hkc) pss
  have e4 : ∀ x, residuals ((c.iterFlat []).map (·.2)) (pss.map (List.map (Node.mapV (f x))))
      (((z.par x).iterFlat []).map (·.2.value)) = r.map (List.map (List.map (· x))) := by
    intro x
    rw [← h1 x, ← e1]
    simp only [Both.cons, Both.par, iterFlat_rmap', iterFlat_mapV', List.map_map, Function.comp_def, Node.rmap_value]
  simp only [Except.map, e4]
  cases r with
  | error e => exact ⟨.error e, fun x => rfl, by simp⟩
  | ok gss =>
    refine ⟨npConcat gss, fun x => ?_, fun gs hg => ?_⟩
    · simp only [Except.map, npConcat]
      cases gss <;> simp
    · simp only [npConcat] at hg
      split at hg
      · cases hg
      · cases hg
        intro g hg
        obtain ⟨l, hl, hg⟩ := List.mem_flatten.mp hg
        exact h2 gss rfl l hl g hg

end call

theorem pos_zero {g : Bool → Flt} (h : Pos g) : g true = fin 0 ↔ g false = fin 0 := by
  obtain ⟨k, hk, h⟩ := h
  rw [SK] at h
  rw [h]
  cases g false with
  | bad => simp
  | fin a => rw [fin_mul, fin_inj, fin_inj, mul_eq_zero, or_iff_right hk.ne']

/-- A class of functions that suits all constraints of a kind. -/
def Suits (s : ℝ) (kind : Shipped → Prop) (A : (Bool → Flt) → Prop) : Prop :=
  ∀ {sh : Shipped} {c : Cons Flt}, kind sh → sh.build = .ok c → ∀ {qs : List (Bool → Param Flt)}, ParsF (SK s) sh qs →
    qs.length = c.value.sig.paramTypes.length → HT (HP A (scaleF s) fun _ => True) c (fun x => qs.map (· x))

theorem suits_all {s : ℝ} (hs : 0 < s) (kind : Shipped → Prop) : Suits s kind Pos := fun _ e _ h hl => HT_scale hs e h hl

theorem suits_affine (s : ℝ) : Suits s Shipped.IsAffine (SK s) := fun ha e _ h hl => HT_affine (sk_lin s) (sk_val s) ha e h hl

/-- The calls of a scaled constraint. -/
theorem call_suits {s : ℝ} {kind : Shipped → Prop} {A : (Bool → Flt) → Prop} (hA : Suits s kind A) {sh : Shipped}
    (hkind : kind sh) (hsz : sh.SizeOK) {c : Cons Flt} (e : sh.build = .ok c)
    {params : List (Param Flt)} (hp : sh.ParamsOK params) (prims : List (Prim Flt)) :
    ∃ r : Py (List (Bool → Flt)), c.call prims params = r.map (List.map (· false)) ∧
      c.call (prims.map (scalePrim s)) (sh.scaleParams s params) = r.map (List.map (· true)) ∧
      ∀ gs, r = .ok gs → ∀ g ∈ gs, A g := by
  obtain ⟨qs, h1, h2, h3, h4⟩ := parsF_scale s sh params
  have hT : (∀ x : Bool, (qs.map (· x)).length = c.value.sig.paramTypes.length) →
      HT (HP A (scaleF s) fun _ => True) c (fun x => qs.map (· x)) :=
    fun hl => hA hkind e h1 (by simpa using hl true)
  obtain ⟨r, g1, g2⟩ := call_fam (f := scaleF s) (A := A) ⟨0, []⟩ (fun x => by cases x <;> rfl) (c := c)
    (ps := fun x => qs.map (· x)) prims (fun x y => by simp) (fun hk hl x => by
      refine (hT hl).fits (x := false) ?_ x
      show c.Fits _ (qs.map (· false))
      rw [h2]
      exact (shipped_fits sh hsz e (by simp [argKeys, hk]) (by rw [← h2]; exact hl false) hp).2) hT
  refine ⟨r, ?_, ?_, g2⟩
  · have := g1 false
    rw [h2] at this
    rw [← this]
    congr 1
    conv_lhs => rw [← List.map_id prims]
    exact List.map_congr_left fun p _ => (mapV_false s p).symm
  · have := g1 true
    rw [h3] at this
    rw [← this]
    rfl

theorem call_scale {s : ℝ} (hs : 0 < s) {sh : Shipped} (hsz : sh.SizeOK) {c : Cons Flt} (e : sh.build = .ok c)
    {params : List (Param Flt)} (hp : sh.ParamsOK params) (prims : List (Prim Flt)) :
    ∃ r : Py (List (Bool → Flt)), c.call prims params = r.map (List.map (· false)) ∧
      c.call (prims.map (scalePrim s)) (sh.scaleParams s params) = r.map (List.map (· true)) ∧
      ∀ gs, r = .ok gs → ∀ g ∈ gs, Pos g :=
  call_suits (suits_all hs fun _ => True) trivial hsz e hp prims

/-! ## Layouts -/

variable {s : ℝ} {kind : Shipped → Prop} {A : (Bool → Flt) → Prop}

theorem opFam_scale (hA : Suits s kind A) {op op' : LayoutOp Flt} (h : op.Scaled kind s op') :
    ∃ o : Bool → LayoutOp Flt, OpFam (scaleF s) (HP A (scaleF s) fun _ => True) o ∧ o false = op ∧ o true = op' := by
  cases op with
  | addPrim p k =>
    obtain ⟨_, rfl⟩ := h
    exact ⟨_, .prim p k, by rw [mapV_false], rfl⟩
  | addPrims ps =>
    obtain ⟨_, rfl⟩ := h
    refine ⟨_, .prims ps, ?_, rfl⟩
    simp only [mapV_false, Prod.mk.eta, List.map_id']
  | addConstraint c ks ps k =>
    obtain ⟨sh, e, hsz, hp, hk, rfl⟩ := h
    obtain ⟨qs, h1, h2, h3, h4⟩ := parsF_scale s sh ps
    have hT : (∀ x : Bool, (qs.map (· x)).length = c.value.sig.paramTypes.length) →
        HT (HP A (scaleF s) fun _ => True) c (fun x => qs.map (· x)) :=
      fun hl => hA hk e h1 (by simpa using hl true)
    refine ⟨_, .cons c ks (fun x => qs.map (· x)) k ?_ (fun x y => by simp) (fun hks hl x => ?_) hT, by simp only [h2],
      by simp only [h3]⟩
    · exact (shipped_good (parts := sh.parts) sh hsz (shipped_parts_self sh) e).static.name
    · refine (hT hl).fits (x := false) ?_ x
      show c.Fits _ (qs.map (· false))
      rw [h2]
      exact (shipped_fits sh hsz e hks (by rw [← h2]; exact hl false) hp).2

/-- The two layouts. -/
theorem run_scale (hA : Suits s kind A) {ops ops' : List (LayoutOp Flt)}
    (h : List.Forall₂ (LayoutOp.Scaled kind s) ops ops') (id : Nat) :
    ∃ P Z keys ctr, Fam (scaleF s) (HP A (scaleF s) fun _ => True) P Z keys ∧
      (Layout.empty id).run ops = famL (scaleF s) P Z keys ctr false ∧
      (Layout.empty id).run ops' = famL (scaleF s) P Z keys ctr true := by
  obtain ⟨os, h1, h2, h3⟩ : ∃ os : List (Bool → LayoutOp Flt),
      (∀ o ∈ os, OpFam (scaleF s) (HP A (scaleF s) fun _ => True) o) ∧ os.map (· false) = ops ∧
      os.map (· true) = ops' := by
    induction h with
    | nil => exact ⟨[], by simp, rfl, rfl⟩
    | cons ho _ ih =>
      obtain ⟨o, g1, g2, g3⟩ := opFam_scale hA ho
      obtain ⟨os, k1, k2, k3⟩ := ih
      refine ⟨o :: os, fun o' h' => ?_, by simp [g2, k2], by simp [g3, k3]⟩
      rcases List.mem_cons.mp h' with rfl | h'
      · exact g1
      · exact k1 o' h'
  let P0 : Prim Flt := .mk .primitiveNode ⟨id, []⟩ []
  let Z0 : Both Bool := .mk (rootClass (K := Flt)) (rootVal, fun _ => []) []
  have hF : Fam (scaleF s) (HP A (scaleF s) fun _ => True) P0 Z0 (.mk () [] []) := by
    refine ⟨?_, rfl, AllN_mk.mpr ⟨fun _ _ => Tame.error _, by simp⟩⟩
    intro p m hm
    cases hm with
    | here => exact List.nodup_nil
    | down hc _ => exact absurd hc List.not_mem_nil
  obtain ⟨P, Z, keys, ctr, k1, k2⟩ := run_fam h1 hF {}
  have he : ∀ x, famL (scaleF s) P0 Z0 (.mk () [] []) {} x = Layout.empty id := by
    intro x
    cases x <;> rfl
  refine ⟨P, Z, keys, ctr, k1, ?_, ?_⟩
  · have := k2 false
    rwa [he, h2] at this
  · have := k2 true
    rwa [he, h3] at this

theorem map_fin_iff {xs : List Flt} : (∃ v : List ℝ, xs = v.map fin) ↔ ∀ x ∈ xs, ∃ a, x = fin a := by
  induction xs with
  | nil => simp
  | cons x xs ih =>
    constructor
    · rintro ⟨v, hv⟩ y hy
      rw [hv] at hy
      obtain ⟨a, _, rfl⟩ := List.mem_map.mp hy
      exact ⟨a, rfl⟩
    · intro h
      obtain ⟨a, rfl⟩ := h x (by simp)
      obtain ⟨v, rfl⟩ := ih.mpr fun y hy => h y (List.mem_cons_of_mem _ hy)
      exact ⟨a :: v, rfl⟩

/-- A zero sum of squares. -/
theorem zero_eq_sum_sq {v : List ℝ} : (0 : ℝ) = (v.map (· ^ 2)).sum ↔ ∀ a ∈ v, a = 0 := by
  induction v with
  | nil => simp
  | cons a v ih =>
    have h1 : 0 ≤ (v.map (· ^ 2)).sum :=
      List.sum_nonneg (by simp only [List.mem_map]; rintro _ ⟨y, _, rfl⟩; positivity)
    simp only [List.map_cons, List.sum_cons, List.mem_cons, forall_eq_or_imp, ← ih]
    constructor
    · intro h
      have h2 := sq_nonneg a
      have h3 : a ^ 2 = 0 := by linarith
      exact ⟨pow_eq_zero_iff two_ne_zero |>.mp h3, by linarith⟩
    · rintro ⟨rfl, h⟩
      rw [← h]; norm_num

theorem misfit_zero {l : Layout Flt} {r : Prim Flt} :
    l.Misfit r 0 ↔ ∃ xs, l.residual r = .ok xs ∧ ∀ x ∈ xs, x = fin 0 := by
  constructor
  · rintro ⟨v, h1, h2⟩
    refine ⟨_, h1, fun x hx => ?_⟩
    obtain ⟨a, ha, rfl⟩ := List.mem_map.mp hx
    rw [zero_eq_sum_sq.mp h2 a ha]
  · rintro ⟨xs, h1, h2⟩
    obtain ⟨v, rfl⟩ := map_fin_iff.mpr fun x hx => ⟨0, h2 x hx⟩
    refine ⟨v, h1, zero_eq_sum_sq.mpr fun a ha => ?_⟩
    exact fin_inj.mp (h2 _ (List.mem_map.mpr ⟨a, ha, rfl⟩))

theorem residual_scale {P : Prim Flt} {Z : Both Bool} {keys : KeysNode}
    (hF : Fam (scaleF s) (HP A (scaleF s) fun _ => True) P Z keys) (ctr : ItemCounter) (R : Prim Flt) :
    ∃ r : Py (List (Bool → Flt)), (famL (scaleF s) P Z keys ctr false).residual R = r.map (List.map (· false)) ∧
      (famL (scaleF s) P Z keys ctr true).residual (scalePrim s R) = r.map (List.map (· true)) ∧
      ∀ gs, r = .ok gs → ∀ g ∈ gs, A g := by
  obtain ⟨r, h1, h2⟩ := residual_fam hF ctr R
  refine ⟨r, ?_, h1 true, h2⟩
  have := h1 false
  rwa [mapV_false] at this

theorem misfit_scale_zero {P : Prim Flt} {Z : Both Bool} {keys : KeysNode}
    (hF : Fam (scaleF s) (HP Pos (scaleF s) fun _ => True) P Z keys) (ctr : ItemCounter) (R : Prim Flt) :
    (famL (scaleF s) P Z keys ctr true).Misfit (scalePrim s R) 0 ↔ (famL (scaleF s) P Z keys ctr false).Misfit R 0 := by
  obtain ⟨r, h1, h2, h3⟩ := residual_scale hF ctr R
  rw [misfit_zero, misfit_zero, h1, h2]
  cases r with
  | error e => simp [Except.map]
  | ok gs =>
    simp only [Except.map, Except.ok.injEq, exists_eq_left', List.mem_map, forall_exists_index, and_imp,
      forall_apply_eq_imp_iff₂]
    exact ⟨fun h g hg => (pos_zero (h3 gs rfl g hg)).mp (h g hg), fun h g hg => (pos_zero (h3 gs rfl g hg)).mpr (h g hg)⟩

theorem misfit_scale {P : Prim Flt} {Z : Both Bool} {keys : KeysNode} (hs : s ≠ 0)
    (hF : Fam (scaleF s) (HP (SK s) (scaleF s) fun _ => True) P Z keys) (ctr : ItemCounter) (R : Prim Flt) (m : ℝ) :
    (famL (scaleF s) P Z keys ctr true).Misfit (scalePrim s R) (s ^ 2 * m) ↔
      (famL (scaleF s) P Z keys ctr false).Misfit R m := by
  obtain ⟨r, h1, h2, h3⟩ := residual_scale hF ctr R
  simp only [Layout.Misfit, h1, h2]
  cases r with
  | error e => simp [Except.map]
  | ok gs =>
    have h3 := h3 gs rfl
    have e : gs.map (· true) = (gs.map (· false)).map (fin s * ·) := by
      rw [List.map_map]
      exact List.map_congr_left fun g hg => h3 g hg
    have e2 : ∀ v : List ℝ, ((v.map fin).map (fin s * ·)) = (v.map (s * ·)).map fin := fun v => by
      simp [Function.comp_def]
    have e3 : ∀ v : List ℝ, ((v.map (s * ·)).map (· ^ 2)).sum = s ^ 2 * (v.map (· ^ 2)).sum := fun v => by
      rw [← List.sum_map_mul_left, List.map_map]
      simp [Function.comp_def, mul_pow]
    simp only [Except.map, Except.ok.injEq, e]
    constructor
    · rintro ⟨v, h4, h5⟩
      obtain ⟨w, hw⟩ : ∃ w : List ℝ, gs.map (· false) = w.map fin := by
        refine map_fin_iff.mpr fun x hx => ?_
        have : fin s * x ∈ v.map fin := by rw [← h4]; exact List.mem_map.mpr ⟨x, hx, rfl⟩
        obtain ⟨a, _, ha⟩ := List.mem_map.mp this
        cases x with
        | bad => rw [mul_bad] at ha; cases ha
        | fin x => exact ⟨x, rfl⟩
      refine ⟨w, hw, ?_⟩
      rw [hw, e2] at h4
      have hv : w.map (s * ·) = v := by
        have inj : Function.Injective (fin : ℝ → Flt) := fun a b h => fin_inj.mp h
        exact List.map_injective_iff.mpr inj h4
      rw [← hv, e3] at h5
      exact mul_left_cancel₀ (pow_ne_zero 2 hs) h5
    · rintro ⟨v, h4, rfl⟩
      exact ⟨v.map (s * ·), by rw [h4, e2], (e3 v).symm⟩

namespace Solver

theorem scale_at {p : Prim Flt} {q : List Str} {m : Prim Flt} :
    (scalePrim s p).At q m ↔ ∃ m0, p.At q m0 ∧ m = scalePrim s m0 := At_mapV _

theorem scale_ok {p : Prim Flt} (h : PrimOK p) : PrimOK (scalePrim s p) := by
  refine ⟨WF_mapV _ h.wf, ?_, ?_⟩
  · intro q m hm k hk
    obtain ⟨m0, h0, rfl⟩ := scale_at.mp hm
    rw [scalePrim, Node.keys_mapV] at hk
    exact h.slashFree q m0 h0 k hk
  · intro q q' m m' hm hm' e
    obtain ⟨m0, h0, rfl⟩ := scale_at.mp hm
    obtain ⟨m1, h1, rfl⟩ := scale_at.mp hm'
    simp only [scalePrim, Node.value_mapV] at e ⊢
    have := h.ident q q' m0 m1 h0 h1 e
    rw [this]

theorem scale_finite {p : Prim Flt} (h : p.Finite) : (scalePrim s p).Finite := by
  intro q m hm x hx
  obtain ⟨m0, h0, rfl⟩ := scale_at.mp hm
  rw [scalePrim_arr] at hx
  obtain ⟨y, hy, rfl⟩ := List.mem_map.mp hx
  obtain ⟨u, hu⟩ := h q m0 h0 y hy
  exact ⟨s * u, by rw [hu]; rfl⟩

theorem scalePrim_ty (p : Prim Flt) : (scalePrim s p).ty = p.ty := Node.ty_mapV _ _

/-- Scaling keeps the structure. -/
theorem scale_same {p : Prim Flt} (h : p.WF) : SameStructure p (scalePrim s p) := by
  refine ⟨fun q => ?_, fun q m m' h1 h2 => ?_, fun q q' m n m' n' h1 h2 h3 h4 => ?_⟩
  · constructor
    · rintro ⟨m, hm⟩; exact ⟨_, scale_at.mpr ⟨m, hm, rfl⟩⟩
    · rintro ⟨m, hm⟩
      obtain ⟨m0, h0, rfl⟩ := scale_at.mp hm
      exact ⟨m0, h0⟩
  · obtain ⟨m0, h0, rfl⟩ := scale_at.mp h2
    cases At_unique h h1 h0
    rw [scalePrim_arr, List.length_map, scalePrim_ty, scalePrim, Node.keys_mapV]
    exact ⟨rfl, rfl, rfl⟩
  · obtain ⟨m0, e0, rfl⟩ := scale_at.mp h3
    obtain ⟨n0, e1, rfl⟩ := scale_at.mp h4
    cases At_unique h h1 e0
    cases At_unique h h2 e1
    simp only [scalePrim, Node.value_mapV]

theorem scale_back (hs : s ≠ 0) (p : Prim Flt) : scalePrim s⁻¹ (scalePrim s p) = p := by
  induction p using Node.induct with
  | _ t v cs ih =>
    rw [scalePrim, scalePrim, Node.mapV_mk, Node.mapV_mk]
    congr 1
    · obtain ⟨i, a⟩ := v
      simp only [List.map_map, PVal.mk.injEq, true_and]
      conv_rhs => rw [← List.map_id a]
      refine List.map_congr_left fun x _ => ?_
      cases x with
      | bad => simp
      | fin x => simp [hs]
    · rw [List.map_map]
      conv_rhs => rw [← List.map_id cs]
      refine List.map_congr_left fun kc hk => ?_
      simp only [Function.comp, id]
      exact Prod.ext rfl (ih kc.1 kc.2 hk)

theorem coords_scale {a : Prim Flt} {ps : List (List Str)} {xs : List ℝ} (h : CoordsAt a ps xs) :
    CoordsAt (scalePrim s a) ps (xs.map (s * ·)) := by
  obtain ⟨xss, h, rfl⟩ := h
  refine ⟨xss.map (List.map (s * ·)), ?_, by rw [List.map_flatten]⟩
  rw [List.forall₂_map_right_iff]
  refine h.imp fun p x ⟨n, h1, h2⟩ => ⟨_, scale_at.mpr ⟨n, h1, rfl⟩, ?_⟩
  rw [scalePrim_arr, h2]
  simp [Function.comp_def]

/-- Distances are scaled. -/
theorem moved_scale {a b : Prim Flt} {ps : List (List Str)} {m : ℝ} (h : Moved ps a b m) :
    Moved ps (scalePrim s a) (scalePrim s b) (s ^ 2 * m) := by
  obtain ⟨xs, ys, h1, h2, rfl⟩ := h
  refine ⟨_, _, coords_scale h1, coords_scale h2, ?_⟩
  clear h1 h2
  induction xs generalizing ys with
  | nil => simp
  | cons x xs ih =>
    cases ys with
    | nil => simp
    | cons y ys =>
      simp only [List.map_cons, List.zipWith_cons_cons, List.sum_cons, mul_add, ih]
      ring

/-- `Best.transfer` for a map that multiplies distances. -/
theorem Best.transfer_scale {l l' : Layout Flt} {φ ψ : Prim Flt → Prim Flt} {k : ℝ} (hk : 0 < k) (hok : PrimOK l.prim)
    (hok' : PrimOK l'.prim) (hφ : ∀ r, GoodGeo l r → GoodGeo l' (φ r)) (hψ : ∀ r, GoodGeo l' r → GoodGeo l (ψ r))
    (mφ : ∀ r, GoodGeo l r → Least l r → Least l' (φ r)) (mψ : ∀ r, GoodGeo l' r → Least l' r → Least l (ψ r))
    {ps : List (List Str)} (hps : Represents l.prim ps) (hps' : Represents l'.prim ps)
    (dφ : ∀ r t, GoodGeo l r → Moved ps l.prim r t → Moved ps l'.prim (φ r) (k * t))
    (dψ : ∀ r t, GoodGeo l' r → Moved ps l'.prim r (k * t) → Moved ps l.prim (ψ r) t) {r r' : Prim Flt}
    (h : Best l r) (h' : Best l' r') : SameGeometry r' (φ r) := by
  obtain ⟨g, m, b⟩ := h
  obtain ⟨g', m', b'⟩ := h'
  obtain ⟨t1, t2, a1, a2, a3, a4⟩ := b' (φ r) (hφ r g) (mφ r g m) ps hps'
  obtain ⟨t3, t4, c1, c2, c3, _⟩ := b (ψ r') (hψ r' g') (mψ r' g' m') ps hps
  have e1 := moved_unique hok'.wf (hφ r g).ok.wf (dφ r t3 g c1) a2
  have e0 : k * (t1 / k) = t1 := by field_simp
  rw [← e0] at a1
  have e2 := moved_unique hok.wf (hψ r' g').ok.wf (dψ r' _ g' a1) c2
  have e3 : k * t3 ≤ k * t4 := by nlinarith
  rw [← e2, e0] at e3
  exact a4 (le_antisymm (by linarith) a3)

end Solver

end MplLayout
