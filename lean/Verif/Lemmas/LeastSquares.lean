import Verif.Lemmas.SolverRuns
import Mathlib.Algebra.BigOperators.Fin

/-!
# Affine layouts that cannot be satisfied
-/

namespace MplLayout

open Flt

namespace Solver

/-- A Newton step goes to the nearest of the best points. -/
theorem least_step {m n : Nat} {num : Numerics Flt} (hnum : Exact num)
    {res : List Flt → Py (List Flt)} {M : Matrix (Fin m) (Fin n) ℝ}
    {c : Fin m → ℝ} (h : ∀ x, res (vec x) = .ok (vec (M.mulVec x + c)))
    (s : NewtonState Flt) {x : Fin n → ℝ} (hs : s.param = vec x) :
    ∃ s' d, newtonStep num res s = .ok s' ∧ s'.param = vec (x + d) ∧ s'.n = s.n + 1 ∧
      (∀ y, sq (M.mulVec (x + d) + c) ≤ sq (M.mulVec y + c)) ∧
      ∀ y, sq (M.mulVec y + c) = sq (M.mulVec (x + d) + c) → sq d ≤ sq (y - x) := by
  obtain ⟨d, hd, e⟩ := hnum.lstsq M (-(M.mulVec x + c))
  have hre : ∀ z, M.mulVec z - -(M.mulVec x + c) = M.mulVec (x + z) + c := by
    intro z; rw [Matrix.mulVec_add]; abel
  refine ⟨_, d, newtonStep_vec (h x) (hnum.jacobian res x M (affine_jacobian h x)) e s hs, rfl, rfl,
    fun y => ?_, fun y hy => ?_⟩
  · have := hd.least (y - x)
    rwa [hre, hre, add_sub_cancel] at this
  · apply hd.shortest
    rw [hre, hre, add_sub_cancel, hy]

theorem least_loop {m n : Nat} {num : Numerics Flt} (hnum : Exact num)
    {res : List Flt → Py (List Flt)} {M : Matrix (Fin m) (Fin n) ℝ}
    {c : Fin m → ℝ} (h : ∀ x, res (vec x) = .ok (vec (M.mulVec x + c)))
    (absTol relTol : Flt) (maxIter : Int) (fuel : Nat) :
    ∀ (s : NewtonState Flt) (x : Fin n → ℝ), s.param = vec x →
      (∀ y, sq (M.mulVec x + c) ≤ sq (M.mulVec y + c)) → maxIter.toNat - s.n < fuel →
      ∃ s', newtonLoop num res absTol relTol maxIter fuel s = some (.ok s') ∧ s'.param = vec x := by
  induction fuel with
  | zero => intro s x _ _ h; omega
  | succ fuel ih =>
    intro s x hs hx hfuel
    by_cases hc : continues absTol relTol maxIter s = true
    · obtain ⟨s1, d, e1, e2, hn1, e3, e4⟩ := least_step hnum h s hs
      have hd : d = 0 := by
        have := e4 x (le_antisymm (hx _) (e3 x))
        rw [sub_self, sq_zero.mpr rfl] at this
        exact sq_zero.mp (le_antisymm this (sq_nonneg' _))
      rw [hd, add_zero] at e2
      have hlt : (s.n : Int) < maxIter := by
        simp only [continues, Bool.and_eq_true, decide_eq_true_eq] at hc
        exact hc.2
      obtain ⟨s2, f1, f2⟩ := ih s1 x e2 hx (by omega)
      refine ⟨s2, ?_, f2⟩
      simp only [newtonLoop, hc, if_true, e1, f1]
    · refine ⟨s, ?_, hs⟩
      simp only [newtonLoop, hc, if_false, Bool.false_eq_true]

/-- At least one iteration ends at the nearest of the best points. -/
theorem least_newton {m n : Nat} {num : Numerics Flt} (hnum : Exact num)
    {res : List Flt → Py (List Flt)} {M : Matrix (Fin m) (Fin n) ℝ}
    {c : Fin m → ℝ} (h : ∀ x, res (vec x) = .ok (vec (M.mulVec x + c)))
    (a b : ℝ) (maxIter : Int) (hmax : 1 ≤ maxIter) (x : Fin n → ℝ) :
    ∃ s d, newtonLoop num res (fin a) (fin b) maxIter (maxIter.toNat + 1) { param := vec x } = some (.ok s) ∧
      s.param = vec (x + d) ∧ (∀ y, sq (M.mulVec (x + d) + c) ≤ sq (M.mulVec y + c)) ∧
      ∀ y, sq (M.mulVec y + c) = sq (M.mulVec (x + d) + c) → sq d ≤ sq (y - x) := by
  have hc : continues (fin a) (fin b) maxIter { param := vec x } = true := by
    simp only [continues, gtTol, Bool.and_eq_true, decide_eq_true_eq]
    refine ⟨⟨?_, ?_⟩, by simp; omega⟩ <;> simp [PyNum.le]
  obtain ⟨s1, d, e1, e2, hn1, e3, e4⟩ := least_step hnum h { param := vec x } (x := x) rfl
  obtain ⟨s2, f1, f2⟩ := least_loop hnum h (fin a) (fin b) maxIter maxIter.toNat s1 (x + d) e2 e3
    (by simp only at hn1; omega)
  exact ⟨s2, d, by simp only [newtonLoop, hc, if_true, e1, f1], f2, e3, e4⟩

/-- There is only one nearest best point. -/
theorem nearest_unique {m n : Nat} {M : Matrix (Fin m) (Fin n) ℝ} {c : Fin m → ℝ} {x d y : Fin n → ℝ}
    (h1 : ∀ y, sq (M.mulVec (x + d) + c) ≤ sq (M.mulVec y + c))
    (h2 : ∀ y, sq (M.mulVec y + c) = sq (M.mulVec (x + d) + c) → sq d ≤ sq (y - x))
    (hy : sq (M.mulVec y + c) = sq (M.mulVec (x + d) + c)) (hd : sq (y - x) = sq d) : y = x + d := by
  have par : ∀ {k : Nat} (u v : Fin k → ℝ), sq ((1 / 2 : ℝ) • (u + v)) =
      (sq u + sq v) / 2 - sq (u - v) / 4 := by
    intro k u v
    simp only [sq, Finset.sum_div, ← Finset.sum_add_distrib, ← Finset.sum_sub_distrib]
    apply Finset.sum_congr rfl
    intro i _
    simp only [Pi.smul_apply, Pi.add_apply, Pi.sub_apply, smul_eq_mul]; ring
  let z := (1 / 2 : ℝ) • (y + (x + d))
  have hz : M.mulVec z + c = (1 / 2 : ℝ) • ((M.mulVec y + c) + (M.mulVec (x + d) + c)) := by
    rw [Matrix.mulVec_smul, Matrix.mulVec_add M y]
    funext i
    simp only [Pi.add_apply, Pi.smul_apply, smul_eq_mul]; ring
  have e1 := par (M.mulVec y + c) (M.mulVec (x + d) + c)
  rw [← hz, hy] at e1
  have e2 : sq (M.mulVec z + c) = sq (M.mulVec (x + d) + c) := by
    refine le_antisymm ?_ (h1 z)
    have := sq_nonneg' (M.mulVec y + c - (M.mulVec (x + d) + c))
    linarith
  have e3 := h2 z e2
  have hzx : z - x = (1 / 2 : ℝ) • ((y - x) + d) := by
    funext i
    simp only [z, Pi.add_apply, Pi.sub_apply, Pi.smul_apply, smul_eq_mul]; ring
  rw [hzx, par, hd] at e3
  have h0 : sq (y - x - d) = 0 := le_antisymm (by linarith) (sq_nonneg' _)
  have := sq_zero.mp h0
  rw [sub_sub] at this
  exact sub_eq_zero.mp this

/-! ## Distances -/

/-- The squared distance of two lists. -/
def lsq (x y : List ℝ) : ℝ := (List.zipWith (fun x y => (y - x) ^ 2) x y).sum

theorem lsq_flatten : ∀ {xs ys : List (List ℝ)}, xs.map List.length = ys.map List.length →
    lsq xs.flatten ys.flatten = (List.zipWith lsq xs ys).sum
  | [], [], _ => rfl
  | x :: xs, y :: ys, h => by
    simp only [List.map_cons, List.cons.injEq] at h
    have := lsq_flatten h.2
    simp only [List.flatten_cons, List.zipWith_cons_cons, List.sum_cons, lsq] at this ⊢
    rw [List.zipWith_append h.1, List.sum_append, this]

theorem lsq_ofFn {n : Nat} (x y : Fin n → ℝ) : lsq (List.ofFn x) (List.ofFn y) = sq (y - x) := by
  rw [lsq, show List.zipWith (fun x y => (y - x) ^ 2) (List.ofFn x) (List.ofFn y)
    = List.ofFn fun i => (y i - x i) ^ 2 by
      apply List.ext_getElem
      · simp
      · intro i _ _; simp, List.sum_ofFn]
  rfl

theorem map_fin_inj {x y : List ℝ} (h : x.map fin = y.map fin) : x = y :=
  List.map_injective_iff.mpr (fun _ _ e => Flt.fin.inj e) h

/-- What the rebuilt tree holds at a path. -/
theorem rebuild_coords (l : Layout Flt) (hok : PrimOK l.prim) (base : Nat) (x : Fin (dim l) → ℝ)
    {a a' : Prim Flt} (ha : rebuild l base (vec x) = .ok a) (haa : SameGeometry a a') {p : List Str}
    {i : Nat} {m : Prim Flt} (hp : l.prim.At p m) (hi : IdxAt l p i) {xs : List ℝ} {n : Prim Flt}
    (hn : a'.At p n) (hx : n.value.arr = xs.map fin) :
    (unpack (idxBounds (primValues l)) (List.ofFn x))[i]? = some xs := by
  obtain ⟨a0, e1, e2, e3, e4⟩ := rebuild_at l hok base (vec x) (vec_length x)
  rw [ha] at e1; cases e1
  obtain ⟨m', j, v, a1, _, _, a4, _, a6, a7, _⟩ := e4 p m hp
  obtain rfl : i = j := Option.some.inj (hi.symm.trans a4)
  obtain ⟨_, _, hv⟩ := haa.2 p m' n a1 hn
  rw [a7] at hv
  rw [vec_eq, unpack_map, List.getElem?_map, Option.map_eq_some_iff] at a6
  obtain ⟨w, hw, rfl⟩ := a6
  rw [hw, map_fin_inj (hv.trans hx)]

theorem forall2_index {β : Type} {R : List Str → β → Prop} {U : List β} {f : List Str → Nat} :
    ∀ {ps : List (List Str)} {xs : List β}, List.Forall₂ R ps xs →
      (∀ p ∈ ps, ∀ x, R p x → U[f p]? = some x) → xs.map some = ps.map fun p => U[f p]?
  | _, _, .nil, _ => rfl
  | _, _, .cons h hs, hf => by
    simp only [List.map_cons]
    rw [hf _ (by simp) _ h, forall2_index hs fun p hp => hf p (by simp [hp])]

/-- The distance of two rebuilt trees is that of the parameters. -/
theorem moved_eq (l : Layout Flt) (hok : PrimOK l.prim) (base : Nat) {ps : List (List Str)}
    (hps : Represents l.prim ps) {x y : Fin (dim l) → ℝ} {a a' b b' : Prim Flt}
    (ha : rebuild l base (vec x) = .ok a) (haa : SameGeometry a a')
    (hb : rebuild l base (vec y) = .ok b) (hbb : SameGeometry b b') {s : ℝ} (h : Moved ps a' b' s) :
    s = sq (y - x) := by
  obtain ⟨c1, c2, c3, c4, c5⟩ := Props.C17_unique_values PVal.id l.prim hok.wf hok.slashFree hok.ident
  obtain ⟨_, _, ⟨xs, hxs, rfl⟩, ⟨ys, hys, rfl⟩, rfl⟩ := h
  have hidx : ∀ p, ∃ i, ∀ m, l.prim.At p m → IdxAt l p i := by
    intro p
    by_cases hp : ∃ m, l.prim.At p m
    · obtain ⟨m, hm⟩ := hp
      obtain ⟨i, hi, _⟩ := c1 p m hm
      exact ⟨i, fun _ _ => hi⟩
    · exact ⟨0, fun m hm => absurd ⟨m, hm⟩ hp⟩
  choose f hf using hidx
  let U := unpack (idxBounds (primValues l)) (List.ofFn x)
  let W := unpack (idxBounds (primValues l)) (List.ofFn y)
  have pack : ∀ x : Fin (dim l) → ℝ,
      (unpack (idxBounds (primValues l)) (List.ofFn x)).map List.length = (primValues l).map List.length ∧
      (unpack (idxBounds (primValues l)) (List.ofFn x)).flatten = List.ofFn x := by
    intro x
    obtain ⟨h1, h2⟩ := Props.C20_pack_unpack (primValues l) (primValues_ne l hok) (vec x) (vec_length x)
    rw [vec_eq, unpack_map] at h1 h2
    refine ⟨by simpa [Function.comp_def] using h1, ?_⟩
    unfold npConcat at h2
    split at h2
    · cases h2
    · have := Except.ok.inj h2
      rw [← List.map_flatten] at this
      exact map_fin_inj this
  obtain ⟨u1, u2⟩ := pack x
  obtain ⟨w1, w2⟩ := pack y
  have hX : xs.map some = ps.map fun p => U[f p]? :=
    forall2_index hxs fun p hp x' ⟨n, hn, e⟩ => by
      obtain ⟨m, hm⟩ := hps.paths p hp
      exact rebuild_coords l hok base x ha haa hm (hf p m hm) hn e
  have hY : ys.map some = ps.map fun p => W[f p]? :=
    forall2_index hys fun p hp x' ⟨n, hn, e⟩ => by
      obtain ⟨m, hm⟩ := hps.paths p hp
      exact rebuild_coords l hok base y hb hbb hm (hf p m hm) hn e
  have hN : U.length = (primValues l).length := by simpa using congrArg List.length u1
  have hN' : W.length = (primValues l).length := by simpa using congrArg List.length w1
  have hlt : ∀ p ∈ ps, f p < (primValues l).length := by
    intro p hp
    obtain ⟨m, hm⟩ := hps.paths p hp
    obtain ⟨i, h1, h2⟩ := c1 p m hm
    have : f p = i := Option.some.inj ((hf p m hm).symm.trans h1)
    rw [this, primValues, List.length_map]
    exact (List.getElem?_eq_some_iff.mp h2).1
  have hperm : (ps.map f).Perm (List.range (primValues l).length) := by
    rw [List.perm_ext_iff_of_nodup]
    · intro i
      rw [List.mem_range, List.mem_map]
      constructor
      · rintro ⟨p, hp, rfl⟩; exact hlt p hp
      · intro hi
        obtain ⟨q, m, hq, hqi⟩ := c4 i (by simpa [primValues] using hi)
        obtain ⟨p, n, hp, hpn, hid⟩ := hps.all q m hq
        exact ⟨p, hp, (c3 p n q m _ i hpn hq (hf p n hpn) hqi).mpr hid⟩
    · rw [List.nodup_iff_pairwise_ne, List.pairwise_map]
      refine hps.once.imp_of_mem fun {p q} hp hq hne => ?_
      obtain ⟨m, hm⟩ := hps.paths p hp
      obtain ⟨n, hn⟩ := hps.paths q hq
      exact fun e => hne m n hm hn ((c3 p m q n _ _ hm hn (hf p m hm) (hf q n hn)).mp e)
    · exact List.nodup_range
  have hX' : xs = (ps.map f).map fun i => (U[i]?).getD [] := by
    have := congrArg (List.map fun o => o.getD []) hX
    simpa [List.map_map, Function.comp_def] using this
  have hY' : ys = (ps.map f).map fun i => (W[i]?).getD [] := by
    have := congrArg (List.map fun o => o.getD []) hY
    simpa [List.map_map, Function.comp_def] using this
  have full : ∀ {V : List (List ℝ)} {N : Nat}, V.length = N →
      V = (List.range N).map fun i => (V[i]?).getD [] := by
    intro V N hV
    apply List.ext_getElem
    · simp [hV]
    · intro i h1 h2; simp [h1]
  have hlen : ∀ i : Nat, ((U[i]?).getD []).length = ((W[i]?).getD []).length := by
    intro i
    have := congrArg (fun l => l[i]?) (u1.trans w1.symm)
    simp only [List.getElem?_map] at this
    change U[i]?.map _ = W[i]?.map _ at this
    generalize U[i]? = o1 at this ⊢
    generalize W[i]? = o2 at this ⊢
    cases o1 <;> cases o2 <;> simp only [Option.map_none, Option.map_some, reduceCtorEq,
      Option.some.injEq] at this <;> simp [this]
  calc (List.zipWith (fun x y => (y - x) ^ 2) xs.flatten ys.flatten).sum
      = lsq xs.flatten ys.flatten := rfl
    _ = (List.zipWith lsq xs ys).sum := lsq_flatten (by
        rw [hX', hY']
        generalize ps.map f = is
        simp only [List.map_map]
        exact List.map_congr_left fun i _ => hlen i)
    _ = ((ps.map f).map fun i => lsq ((U[i]?).getD []) ((W[i]?).getD [])).sum := by
        rw [hX', hY', List.zipWith_map, List.zipWith_self]
    _ = ((List.range (primValues l).length).map fun i => lsq ((U[i]?).getD []) ((W[i]?).getD [])).sum :=
        (hperm.map _).sum_eq
    _ = (List.zipWith lsq U W).sum := by
        conv_rhs => rw [full hN, full hN', List.zipWith_map, List.zipWith_self]
    _ = lsq U.flatten W.flatten := (lsq_flatten (u1.trans w1.symm)).symm
    _ = sq (y - x) := by rw [u2, w2, lsq_ofFn]

theorem SameGeometry.refl {K : Type} {p : Prim K} (h : p.WF) : SameGeometry p p :=
  ⟨fun _ => Iff.rfl, fun q m m' h1 h2 => by cases At_unique h h1 h2; exact ⟨rfl, rfl, rfl⟩⟩

theorem SameGeometry.symm {K : Type} {p q : Prim K} (h : SameGeometry p q) : SameGeometry q p :=
  ⟨fun x => (h.1 x).symm, fun x m m' h1 h2 => by
    obtain ⟨a, b, c⟩ := h.2 x m' m h2 h1
    exact ⟨a.symm, b.symm, c.symm⟩⟩

theorem moved_exists {l : Prim Flt} {ps : List (List Str)} (hps : Represents l ps) {a b : Prim Flt}
    (ha : SameStructure l a) (hfa : a.Finite) (hb : SameStructure l b) (hfb : b.Finite) :
    ∃ s, Moved ps a b s := by
  have key : ∀ {a : Prim Flt}, SameStructure l a → a.Finite → ∃ xs, CoordsAt a ps xs := by
    intro a ha hfa
    have : ∀ qs : List (List Str), (∀ p ∈ qs, p ∈ ps) → ∃ xss : List (List ℝ),
        List.Forall₂ (fun p x => ∃ n, a.At p n ∧ n.value.arr = x.map fin) qs xss := by
      intro qs
      induction qs with
      | nil => exact fun _ => ⟨[], .nil⟩
      | cons p qs ih =>
        intro h
        obtain ⟨xss, hx⟩ := ih fun q hq => h q (by simp [hq])
        obtain ⟨m, hm⟩ := hps.paths p (h p (by simp))
        obtain ⟨n, hn⟩ := (ha.paths p).mp ⟨m, hm⟩
        obtain ⟨x, hx'⟩ := exists_vec (hfa p n hn) rfl
        exact ⟨List.ofFn x :: xss, .cons ⟨n, hn, hx'.trans (vec_eq x)⟩ hx⟩
    obtain ⟨xss, h⟩ := this ps fun _ h => h
    exact ⟨_, xss, h, rfl⟩
  obtain ⟨xs, hx⟩ := key ha hfa
  obtain ⟨ys, hy⟩ := key hb hfb
  exact ⟨_, xs, ys, hx, hy, rfl⟩

theorem represents_exists {l : Layout Flt} (hok : PrimOK l.prim) : ∃ ps, Represents l.prim ps := by
  obtain ⟨c1, c2, c3, c4, c5⟩ := Props.C17_unique_values PVal.id l.prim hok.wf hok.slashFree hok.ident
  choose P h using c4
  choose N h1 h2 using h
  refine ⟨List.ofFn fun i : Fin _ => P i.1 i.2, ?_, ?_, ?_⟩
  · intro p hp
    obtain ⟨i, rfl⟩ := (List.mem_ofFn' _ _).mp hp
    exact ⟨_, h1 _ _⟩
  · intro q m hq
    obtain ⟨i, hi, hv⟩ := c1 q m hq
    have hlt := (List.getElem?_eq_some_iff.mp hv).1
    exact ⟨_, _, (List.mem_ofFn' _ _).mpr ⟨⟨i, hlt⟩, rfl⟩, h1 i hlt,
      (c3 _ _ _ _ i i (h1 i hlt) hq (h2 i hlt) hi).mp rfl⟩
  · rw [List.pairwise_ofFn]
    intro i j hij m n hm hn e
    have := (c3 _ _ _ _ _ _ hm hn (h2 i.1 i.2) (h2 j.1 j.2)).mpr e
    have : i.1 < j.1 := hij
    omega

theorem misfit_vec {l : Layout Flt} {p : Prim Flt} {n : Nat} {r : Fin n → ℝ} :
    l.residual p = .ok (vec r) → ∀ s, l.Misfit p s ↔ s = sq r := by
  intro h s
  have hs : ((List.ofFn r).map (· ^ 2)).sum = sq r := by
    rw [List.map_ofFn, List.sum_ofFn]; rfl
  constructor
  · rintro ⟨v, hv, rfl⟩
    rw [h] at hv
    rw [← map_fin_inj ((vec_eq r).symm.trans (Except.ok.inj hv)), hs]
  · rintro rfl
    exact ⟨List.ofFn r, by rw [h, vec_eq], hs.symm⟩

end Solver

end MplLayout
