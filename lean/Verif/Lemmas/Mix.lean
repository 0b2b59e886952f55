import Verif.Spec.Mix
import Verif.Lemmas.MixLinear
import Verif.Lemmas.Canonical
import Verif.Lemmas.ScaleSolve

/-! Mixed histories. -/

namespace MplLayout

open Flt

/-- The third number is the mixture of the first two. -/
def MX (t : ℝ) (g : Fin 3 → Flt) : Prop := g 2 = fin (1 - t) * g 0 + fin t * g 1

variable {t : ℝ}

theorem mx_lin (t : ℝ) : LinClass (MX t) where
  const c := by
    cases c with
    | bad => simp [MX]
    | fin c => simp only [MX, fin_mul, fin_add, fin_inj]; ring
  add := by
    intro f g h1 h2
    simp only [MX] at *
    rw [h1, h2]
    generalize f 0 = a, f 1 = b, g 0 = c, g 1 = d
    cases a <;> cases b <;> cases c <;> cases d <;> simp only [fin_mul, fin_add, fin_inj, bad_mul, mul_bad, bad_add, add_bad]
    ring
  sub := by
    intro f g h1 h2
    simp only [MX] at *
    rw [h1, h2]
    generalize f 0 = a, f 1 = b, g 0 = c, g 1 = d
    cases a <;> cases b <;> cases c <;> cases d <;>
      simp only [fin_mul, fin_add, fin_sub, fin_inj, bad_mul, mul_bad, bad_add, add_bad, bad_sub, sub_bad]
    ring
  smul := by
    intro k f h
    simp only [MX] at *
    rw [h]
    generalize f 0 = a, f 1 = b
    cases a <;> cases b <;> cases k <;> simp only [fin_mul, fin_add, fin_inj, bad_mul, mul_bad, bad_add, add_bad]
    ring
  muls := by
    intro k f h
    simp only [MX] at *
    rw [h]
    generalize f 0 = a, f 1 = b
    cases a <;> cases b <;> cases k <;> simp only [fin_mul, fin_add, fin_inj, bad_mul, mul_bad, bad_add, add_bad]
    ring

theorem mx_mix (ab : ℝ × ℝ) : MX t fun i => fin (mix t i ab) := by simp [MX, mix]

theorem mx_val (t : ℝ) : ValA (MX t) (mixF t) := by
  intro v
  refine ⟨v.2.map fun ab i => fin (mix t i ab), fun g hg => ?_, fun x => ?_⟩
  · obtain ⟨ab, _, rfl⟩ := List.mem_map.mp hg
    exact mx_mix ab
  · simp [mixF, Function.comp_def]

mutual
theorem parF_const : ∀ p : Param Flt, ParF (MX t) fun _ => p
  | .num y => .num _ (fun _ => y) ((mx_lin t).const y) fun _ => .inl rfl
  | .bool b => .num _ (fun _ => if b then 1 else 0) ((mx_lin t).const _) fun _ => .inr ⟨b, rfl, rfl⟩
  | .arr ys => by
    have := ParF.arr (A := MX t) (ys.map fun y (_ : Fin 3) => y) (fun g hg => by
      obtain ⟨y, _, rfl⟩ := List.mem_map.mp hg
      exact (mx_lin t).const y)
    simpa [Function.comp_def] using this
  | .none => .none
  | .seq ps => by
    have := ParF.seq (A := MX t) (ps.map fun p (_ : Fin 3) => p) (parF_constL ps)
    simpa [Function.comp_def] using this
  | .axis a => .axis a (fun _ => a.figWidth) (fun _ => a.figHeight) ((mx_lin t).const _) ((mx_lin t).const _)
theorem parF_constL : ∀ ps : List (Param Flt), ∀ q ∈ ps.map (fun p (_ : Fin 3) => p), ParF (MX t) q
  | [] => by simp
  | p :: ps => by
    intro q hq
    rcases List.mem_cons.mp hq with rfl | hq
    · exact parF_const p
    · exact parF_constL ps q hq
end

theorem parF_mix {q : Fin 3 → Param Flt} (h : Param.Mixed t q) : ParF (MX t) q := by
  induction h with
  | num ab => exact .num _ _ (mx_mix ab) fun i => .inl rfl
  | arr abs =>
    have := ParF.arr (A := MX t) (abs.map fun ab i => fin (mix t i ab)) (fun g hg => by
      obtain ⟨ab, _, rfl⟩ := List.mem_map.mp hg
      exact mx_mix ab)
    simpa [Function.comp_def] using this
  | seq qs _ ih => exact .seq qs ih
  | axis a w h => exact .axis a _ _ (mx_mix w) (mx_mix h)
  | same p => exact parF_const p

theorem opFam_mix {o : Fin 3 → LayoutOp Flt} (h : LayoutOp.Mixed t o) :
    OpFam (mixF t) (HP (MX t) (mixF t) fun _ => True) o := by
  cases h with
  | addPrim P _ key => exact .prim P key
  | addPrims Ps _ => exact .prims Ps
  | addConstraint sh ha hsz c hc ks qs hp hq key =>
    have hT : (∀ x : Fin 3, (qs.map (· x)).length = c.value.sig.paramTypes.length) →
        HT (HP (MX t) (mixF t) fun _ => True) c (fun x => qs.map (· x)) :=
      fun hl => HT_affine (mx_lin t).toLinSpace (mx_val t) ha hc (fun i q hi => by
        have := hq i q hi
        split at this
        · rename_i h; rw [if_pos h]; exact parF_mix this
        · rename_i h; rw [if_neg h]; exact this) (by simpa using hl 0)
    refine .cons c ks (fun x => qs.map (· x)) key
      (shipped_good (parts := sh.parts) sh hsz (shipped_parts_self sh) hc).static.name (fun x y => by simp)
      (fun hks hl x => ?_) hT
    exact (hT hl).fits (x := 0) (shipped_fits sh hsz hc hks (hl 0) hp).2 x

theorem run_mix {os : List (Fin 3 → LayoutOp Flt)} (h : ∀ o ∈ os, LayoutOp.Mixed t o) (id : Nat) :
    ∃ P Z keys ctr, Fam (mixF t) (HP (MX t) (mixF t) fun _ => True) P Z keys ∧
      ∀ i, (Layout.empty id).run (os.map (· i)) = famL (mixF t) P Z keys ctr i := by
  let P0 : Node PrimType (Nat × List (ℝ × ℝ)) := .mk .primitiveNode (id, []) []
  let Z0 : Both (Fin 3) := .mk (rootClass (K := Flt)) (rootVal, fun _ => []) []
  have hF : Fam (mixF t) (HP (MX t) (mixF t) fun _ => True) P0 Z0 (.mk () [] []) := by
    refine ⟨?_, rfl, AllN_mk.mpr ⟨fun _ _ => Tame.error _, by simp⟩⟩
    intro p m hm
    cases hm with
    | here => exact List.nodup_nil
    | down hc _ => exact absurd hc List.not_mem_nil
  obtain ⟨P, Z, keys, ctr, k1, k2⟩ := run_fam (fun o ho => opFam_mix (h o ho)) hF {}
  exact ⟨P, Z, keys, ctr, k1, k2⟩

theorem mixed_uses {o : Fin 3 → LayoutOp Flt} (h : LayoutOp.Mixed t o) (i : Fin 3) : (o i).Uses Shipped.IsAffine := by
  cases h with
  | addPrim P h key => exact WF_mapV _ h
  | addPrims Ps h =>
    intro kp hkp
    obtain ⟨kp0, h1, rfl⟩ := List.mem_map.mp hkp
    exact WF_mapV _ (h kp0 h1)
  | addConstraint sh ha hsz c hc ks qs hp hq key => exact ⟨sh, hc, hsz, ha⟩

namespace Solver

/-- Trees that differ only in numbers have the same structure. -/
theorem mapV_same {β : Type} {f g : β → PVal Flt} (hid : ∀ v, (f v).id = (g v).id)
    (hlen : ∀ v, (f v).arr.length = (g v).arr.length) {P : Node PrimType β} (hP : P.WF) :
    SameStructure (P.mapV f) (P.mapV g) := by
  refine ⟨fun p => ?_, fun p m m' h1 h2 => ?_, fun p q m n m' n' h1 h2 h3 h4 => ?_⟩
  · constructor <;> rintro ⟨m, hm⟩ <;> obtain ⟨m0, h0, rfl⟩ := (At_mapV _).mp hm <;>
      exact ⟨_, (At_mapV _).mpr ⟨m0, h0, rfl⟩⟩
  · obtain ⟨m0, h0, rfl⟩ := (At_mapV _).mp h1
    obtain ⟨m1, h1', rfl⟩ := (At_mapV _).mp h2
    cases At_unique hP h0 h1'
    simp only [Node.ty_mapV, Node.keys_mapV, Node.value_mapV]
    exact ⟨trivial, trivial, hlen _⟩
  · obtain ⟨m0, a0, rfl⟩ := (At_mapV _).mp h1
    obtain ⟨n0, b0, rfl⟩ := (At_mapV _).mp h2
    obtain ⟨m1, a1, rfl⟩ := (At_mapV _).mp h3
    obtain ⟨n1, b1, rfl⟩ := (At_mapV _).mp h4
    cases At_unique hP a0 a1
    cases At_unique hP b0 b1
    simp only [Node.value_mapV, hid]

theorem WF_of_mapV {β : Type} {f : β → PVal Flt} {P : Node PrimType β} (h : (P.mapV f).WF) : P.WF := by
  intro p m hm
  have := h p _ ((At_mapV f).mpr ⟨m, hm, rfl⟩)
  rwa [Node.keys_mapV] at this

theorem pairs_inj {xs ys : List (ℝ × ℝ)} (f0 : xs.map (fun ab => fin (mix t 0 ab)) = ys.map fun ab => fin (mix t 0 ab))
    (f1 : xs.map (fun ab => fin (mix t 1 ab)) = ys.map fun ab => fin (mix t 1 ab)) : xs = ys := by
  induction xs generalizing ys with
  | nil => cases ys <;> simp_all
  | cons x xs ih =>
    cases ys with
    | nil => simp at f0
    | cons y ys =>
      simp only [List.map_cons, List.cons.injEq, fin_inj, mix] at f0 f1
      rw [ih f0.2 f1.2, Prod.ext f0.1 f1.1]

theorem Node.mapV_mapV {τ α β γ : Type} (f : α → β) (g : β → γ) (n : Node τ α) :
    (n.mapV f).mapV g = n.mapV fun a => g (f a) := by
  induction n using Node.induct with
  | _ ty v cs ih =>
    rw [Node.mapV_mk, Node.mapV_mk, Node.mapV_mk, List.map_map]
    congr 1
    exact List.map_congr_left fun kc hk => Prod.ext rfl (ih kc.1 kc.2 hk)

theorem mix_ok {P : Node PrimType (Nat × List (ℝ × ℝ))} (h0 : PrimOK (P.mapV (mixF t 0)))
    (h1 : PrimOK (P.mapV (mixF t 1))) : PrimOK (P.mapV (mixF t 2)) := by
  refine ⟨WF_mapV _ (WF_of_mapV h0.wf), ?_, ?_⟩
  · intro q m hm k hk
    obtain ⟨m0, a0, rfl⟩ := (At_mapV _).mp hm
    rw [Node.keys_mapV] at hk
    exact h0.slashFree q _ ((At_mapV _).mpr ⟨m0, a0, rfl⟩) k (by rwa [Node.keys_mapV])
  · intro q q' m m' hm hm' e
    obtain ⟨m0, a0, rfl⟩ := (At_mapV _).mp hm
    obtain ⟨m1, a1, rfl⟩ := (At_mapV _).mp hm'
    have k0 := h0.ident q q' _ _ ((At_mapV _).mpr ⟨m0, a0, rfl⟩) ((At_mapV _).mpr ⟨m1, a1, rfl⟩)
    have k1 := h1.ident q q' _ _ ((At_mapV _).mpr ⟨m0, a0, rfl⟩) ((At_mapV _).mpr ⟨m1, a1, rfl⟩)
    simp only [Node.value_mapV] at e k0 k1 ⊢
    have e0 := k0 e
    have e1 := k1 e
    generalize m0.value = x at e e0 e1 ⊢
    generalize m1.value = y at e e0 e1 ⊢
    obtain ⟨i, xs⟩ := x
    obtain ⟨j, ys⟩ := y
    simp only [mixF, PVal.mk.injEq] at e e0 e1 ⊢
    refine ⟨e, ?_⟩
    rw [pairs_inj e0.2 e1.2]

/-- What `Best` says about coordinates. -/
theorem Best.nearest {l0 l : Layout Flt} (hok0 : PrimOK l0.prim) (hok : PrimOK l.prim) (hfin : l.prim.Finite)
    (hstr : SameStructure l0.prim l.prim) (hnip : AllN NIP l.cons) (base : Nat) {m : Nat}
    {M : Matrix (Fin m) (Fin (dim l0)) ℝ} {c : Fin m → ℝ}
    (hres : ∀ x r, rebuild l0 base (vec x) = .ok r → l.residual r = .ok (vec (M.mulVec x + c))) {r : Prim Flt}
    (h : Best l r) : ∃ x y rx ry, rebuild l0 base (vec x) = .ok rx ∧ SameGeometry rx l.prim ∧
      rebuild l0 base (vec y) = .ok ry ∧ SameGeometry ry r ∧ Nearest M c x y := by
  obtain ⟨hg, ⟨s, hs1, hs2⟩, hb⟩ := h
  obtain ⟨x, rx, e1, w1, g1⟩ := exists_param l0 hok0 base hok hstr hfin
  obtain ⟨y, ry, e2, w2, g2⟩ := exists_param l0 hok0 base hg.ok (SameStructure.trans' hstr hg.str) hg.fin
  have hry : l.residual r = .ok (vec (M.mulVec y + c)) := by
    rw [← residual_geometry hnip w2 hg.ok.wf g2]; exact hres y ry e2
  have good : ∀ z : Fin (dim l0) → ℝ, ∃ q, rebuild l0 base (vec z) = .ok q ∧ GoodGeo l q := by
    intro z
    obtain ⟨q, f1, f2⟩ := rebuild_structure l0 hok0 base (vec z) (vec_length z)
    exact ⟨q, f1, rebuild_primOK l0 hok0 base _ (vec_length z) f1,
      SameStructure.trans' (SameStructure.symm' hstr) f2, rebuild_finite l0 hok0 base z f1⟩
  obtain ⟨ps, hps⟩ := represents_exists hok0
  refine ⟨x, y, rx, ry, e1, g1, e2, g2, fun z => ?_, fun z hz => ?_⟩
  · obtain ⟨q, f1, f2⟩ := good z
    obtain ⟨s', k1, k2⟩ := hs2 q f2
    rw [(misfit_vec hry _).mp hs1, (misfit_vec (hres z q f1) _).mp k1] at k2
    exact k2
  · obtain ⟨q, f1, f2⟩ := good z
    have hq : Least l q := by
      refine ⟨s, (misfit_vec (hres z q f1) _).mpr ?_, hs2⟩
      rw [hz]
      exact (misfit_vec hry _).mp hs1
    obtain ⟨a, b, k1, k2, k3, _⟩ := hb q f2 hq ps (represents_str hstr hps)
    rw [moved_eq l0 hok0 base hps e1 g1 e2 g2 k1, moved_eq l0 hok0 base hps e1 g1 f1 (SameGeometry.refl f2.ok.wf) k2] at k3
    exact k3

/-- Rebuilding from mixed parameters. -/
theorem rebuild_mix (l0 : Layout Flt) (hok0 : PrimOK l0.prim) (base : Nat) (u v : Fin (dim l0) → ℝ) :
    ∃ R : Node PrimType (Nat × List (ℝ × ℝ)), rebuild l0 base (vec u) = .ok (R.mapV (mixF t 0)) ∧
      rebuild l0 base (vec v) = .ok (R.mapV (mixF t 1)) ∧
      rebuild l0 base (vec ((1 - t) • u + t • v)) = .ok (R.mapV (mixF t 2)) := by
  obtain ⟨T, hT⟩ := rebuild_mapV l0 hok0 base
  let W : PVal Flt → Nat × List (ℝ × ℝ) := fun a =>
    (a.id, ((unpack (idxBounds (primValues l0)) (List.ofFn fun i => (u i, v i)))[a.id - base]?).getD [])
  have key : ∀ (i : Fin 3) (w : Fin (dim l0) → ℝ), (∀ j, w j = mix t i (u j, v j)) →
      rebuild l0 base (vec w) = .ok ((T.mapV W).mapV (mixF t i)) := by
    intro i w hw
    rw [hT, Node.mapV_mapV]
    congr 2
    funext a
    have : vec w = (List.ofFn fun j => (u j, v j)).map fun ab => fin (mix t i ab) := by
      simp [vec, List.map_ofFn, Function.comp_def, hw]
    simp only [paramVal, W, mixF, this, unpack_map, List.getElem?_map, PVal.mk.injEq, true_and]
    cases (unpack (idxBounds (primValues l0)) (List.ofFn fun i => (u i, v i)))[a.id - base]? <;> rfl
  exact ⟨T.mapV W, key 0 u fun j => rfl, key 1 v fun j => rfl, key 2 _ fun j => rfl⟩

theorem mixed_of {R : Node PrimType (Nat × List (ℝ × ℝ))} {r : Fin 3 → Prim Flt} (hR : R.WF)
    (hg : ∀ i, SameGeometry (R.mapV (mixF t i)) (r i)) (hs : ∀ i, SameStructure (r 0) (r i)) :
    Prim.Mixed t (r 0) (r 1) (r 2) := by
  refine ⟨hs 1, hs 2, fun p ma mb mc h0 h1 h2 => ?_⟩
  have key : ∀ i m, (r i).At p m → ∃ n, R.At p n ∧ m.value.arr = n.value.2.map fun ab => fin (mix t i ab) := by
    intro i m hm
    obtain ⟨m', hm'⟩ := ((hg i).1 p).mpr ⟨m, hm⟩
    have := ((hg i).2 p m' m hm' hm).2.2
    obtain ⟨n, hn, rfl⟩ := (At_mapV _).mp hm'
    rw [Node.value_mapV] at this
    exact ⟨n, hn, this.symm⟩
  obtain ⟨n0, a0, b0⟩ := key 0 ma h0
  obtain ⟨n1, a1, b1⟩ := key 1 mb h1
  obtain ⟨n2, a2, b2⟩ := key 2 mc h2
  cases At_unique hR a0 a1
  cases At_unique hR a0 a2
  exact ⟨n0.value.2, b0, b1, b2⟩

/-- If two members of a mixture have the same geometry so does the third. -/
theorem mix_geometry {R P : Node PrimType (Nat × List (ℝ × ℝ))}
    (h0 : SameGeometry (R.mapV (mixF t 0)) (P.mapV (mixF t 0)))
    (h1 : SameGeometry (R.mapV (mixF t 1)) (P.mapV (mixF t 1))) :
    SameGeometry (R.mapV (mixF t 2)) (P.mapV (mixF t 2)) := by
  refine ⟨fun p => ?_, fun p m m' hm hm' => ?_⟩
  · have := h0.1 p
    constructor
    · rintro ⟨m, hm⟩
      obtain ⟨n, hn, rfl⟩ := (At_mapV _).mp hm
      obtain ⟨m', hm'⟩ := this.mp ⟨_, (At_mapV _).mpr ⟨n, hn, rfl⟩⟩
      obtain ⟨n', hn', rfl⟩ := (At_mapV _).mp hm'
      exact ⟨_, (At_mapV _).mpr ⟨n', hn', rfl⟩⟩
    · rintro ⟨m, hm⟩
      obtain ⟨n, hn, rfl⟩ := (At_mapV _).mp hm
      obtain ⟨m', hm'⟩ := this.mpr ⟨_, (At_mapV _).mpr ⟨n, hn, rfl⟩⟩
      obtain ⟨n', hn', rfl⟩ := (At_mapV _).mp hm'
      exact ⟨_, (At_mapV _).mpr ⟨n', hn', rfl⟩⟩
  · obtain ⟨n, hn, rfl⟩ := (At_mapV _).mp hm
    obtain ⟨n', hn', rfl⟩ := (At_mapV _).mp hm'
    have k0 := h0.2 p _ _ ((At_mapV _).mpr ⟨n, hn, rfl⟩) ((At_mapV _).mpr ⟨n', hn', rfl⟩)
    have k1 := h1.2 p _ _ ((At_mapV _).mpr ⟨n, hn, rfl⟩) ((At_mapV _).mpr ⟨n', hn', rfl⟩)
    simp only [Node.ty_mapV, Node.keys_mapV, Node.value_mapV] at k0 k1 ⊢
    refine ⟨k0.1, k0.2.1, ?_⟩
    simp only [mixF]
    rw [pairs_inj (t := t) k0.2.2 k1.2.2]

/-- The coordinates of a geometry are unique. -/
theorem coords_inj (l : Layout Flt) (hok : PrimOK l.prim) (base : Nat) {x y : Fin (dim l) → ℝ} {a b r : Prim Flt}
    (ha : rebuild l base (vec x) = .ok a) (hb : rebuild l base (vec y) = .ok b) (har : SameGeometry a r)
    (hbr : SameGeometry b r) (hs : SameStructure l.prim r) (hf : r.Finite) : x = y := by
  obtain ⟨ps, hps⟩ := represents_exists hok
  obtain ⟨s, hm⟩ := moved_exists hps hs hf hs hf
  have e := moved_eq l hok base hps ha har hb hbr hm
  have e0 := moved_eq l hok base hps ha har ha har hm
  rw [sub_self, sq_zero.mpr rfl] at e0
  rw [e0] at e
  exact (sub_eq_zero.mp (sq_zero.mp e.symm)).symm

end Solver

end MplLayout
