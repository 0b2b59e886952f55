import Verif.Lemmas.Smooth

/-!
# Differentiability of the shipped constraints: the leaves
-/

namespace MplLayout

open Flt Cons

theorem Prim.NoZeroLines.child {p q : Prim Flt} (h : p.NoZeroLines) {k : Str}
    (e : p.getChild k = .ok q) : q.NoZeroLines := by
  rw [Node.getChild_ok_iff] at e
  exact fun path n a b hn => h _ n a b (Node.At.trans (Node.At_of_find e) hn)

theorem Tame.bindX {X : Type} {A : (X → Flt) → Prop} {F : X → Py (Arr Flt)}
    {H : X → Arr Flt → Py (Arr Flt)} (hF : Tame A F)
    (hH : ∀ a, InA A a → Tame A (fun x => H x (evA x a))) : Tame A (fun x => F x >>= H x) := by
  obtain ⟨r, h1, h2⟩ := hF
  cases r with
  | error e => exact ⟨.error e, fun x => by simp only [h1]; rfl, by simp⟩
  | ok a =>
    obtain ⟨s, h3, h4⟩ := hH a (h2 a rfl)
    exact ⟨s, fun x => by simp only [h1]; exact h3 x, h4⟩

theorem tame_take2 {X : Type} {A : (X → Flt) → Prop} {a : Arr (X → Flt)} (ha : InA A a) :
    Tame A (fun x => (evA x a).take2) := by
  cases a with
  | scalar g => exact Tame.error _
  | vec gs =>
    refine Tame.congr (fun x => ?_) (Tame.ok (a := .vec (gs.take 2)) fun g hg =>
      ha g (List.mem_of_mem_take hg))
    simp only [evA, Arr.take2, List.map_take]

section leaves
variable {n : Nat} {x0 : Fin n → ℝ} {α : Type} {f : (Fin n → ℝ) → α → PVal Flt}
  (V : ValA (DiffC x0) f)

/-- Primitives without lines of length zero at `x0` (and without lines to the left). -/
def GoodAt (x0 : Fin n → ℝ) (f : (Fin n → ℝ) → α → PVal Flt) (zero left : Prop) (p : Node PrimType α) :
    Prop :=
  (zero → Prim.NoZeroLines (p.mapV (f x0))) ∧ (left → Prim.NoLeftLines (p.mapV (f x0)))

variable {zero left : Prop}

theorem binop_vec {K : Type} {op : K → K → K} {xs ys : List K} {a : Arr K}
    (h : Arr.binop op (.vec xs) (.vec ys) = .ok a) : ∃ w, a = .vec w := by
  simp only [Arr.binop] at h
  split at h
  · cases h; exact ⟨_, rfl⟩
  · split at h
    · cases h; exact ⟨_, rfl⟩
    · cases h; exact ⟨_, rfl⟩
    · cases h

/-- The coordinates of a line's vector. -/
theorem lineVec_vec (p : Node PrimType α) (x : Fin n → ℝ) {a : Arr Flt}
    (h : con.lineVectorA [p.mapV (f x)] = .ok a) : ∃ u v, (p.mapV (f x)).values = [u, v] ∧
      ∃ w, a = .vec w ∧ Arr.sub (.vec v.value.arr) (.vec u.value.arr) = .ok (.vec w) := by
  simp only [con.lineVectorA] at h
  split at h
  · rename_i u v e
    refine ⟨u, v, e, ?_⟩
    have h' : Arr.sub (.vec v.value.arr) (.vec u.value.arr) = .ok a := h
    obtain ⟨w, rfl⟩ := binop_vec h'
    exact ⟨w, rfl, h'⟩
  · cases h

include V in
/-- A line's vector is not zero. -/
theorem tame_lineVec {p : Node PrimType α} (hp : Prim.NoZeroLines (p.mapV (f x0))) :
    (∃ e, ∀ x, con.lineVectorA [p.mapV (f x)] = .error e) ∨
    ∃ gs : List ((Fin n → ℝ) → Flt), (∀ x, con.lineVectorA [p.mapV (f x)] = .ok (.vec (gs.map (· x)))) ∧
      (∀ g ∈ gs, DiffC x0 g) ∧ NZ (gs.map (· x0)) := by
  obtain ⟨r, h1, h2⟩ := tame_lineVector (G := fun _ => True) diffC_lin.toLinSpace V [p] (by simp)
  simp only [List.map_cons, List.map_nil] at h1
  cases r with
  | error e => exact .inl ⟨e, h1⟩
  | ok a =>
    obtain ⟨u, v, e1, w, e2, e3⟩ := lineVec_vec (f := f) p x0 (h1 x0)
    cases a with
    | scalar g => cases e2
    | vec gs =>
      refine .inr ⟨gs, h1, h2 _ rfl, ?_⟩
      simp only [evA, Arr.vec.injEq] at e2
      rw [e2]
      exact hp [] _ u v (.here _) e1 w e3

include V in
theorem tame_lengthS {p : Node PrimType α} (hp : Prim.NoZeroLines (p.mapV (f x0))) :
    Tame (DiffC x0) (fun x => con.lengthA [p.mapV (f x)]) := by
  rcases tame_lineVec V hp with ⟨e, he⟩ | ⟨gs, h1, h2, h3⟩
  · exact Tame.congr (fun x => by simp only [con.lengthA, he, bind, Except.bind]) (Tame.error e)
  · refine Tame.congr (fun x => ?_) (Tame.ok (InA.scalar.mpr (diffC_norm gs h2 h3)))
    simp only [con.lengthA, h1, bind, Except.bind, Arr.mul, Arr.binop, if_true, evA, Arr.atleast1d,
      List.zipWith_self]

include V in
theorem tame_length (hz : zero) : TameF (DiffC x0) f (GoodAt x0 f zero left) con.lengthA := by
  intro ps hG
  rcases ps with _ | ⟨p, _ | ⟨q, ps⟩⟩
  · exact Tame.error _
  · exact tame_lengthS V ((hG p (by simp)).1 hz)
  · exact Tame.error _

include V in
theorem tame_unit {p : Node PrimType α} (hp : Prim.NoZeroLines (p.mapV (f x0))) :
    (∃ e, ∀ x, con.unitLineVectorA [p.mapV (f x)] = .error e) ∨
    ∃ gs N : List ((Fin n → ℝ) → Flt), ∃ N : (Fin n → ℝ) → Flt,
      (∀ x, con.lineVectorA [p.mapV (f x)] = .ok (.vec (gs.map (· x)))) ∧
      (∀ x, con.unitLineVectorA [p.mapV (f x)] = .ok (.vec (gs.map fun g => g x / N x))) ∧
      (∀ g ∈ gs, DiffC x0 g) ∧ DiffC x0 N ∧
      (∀ x, N x = PyNum.sqrt (Arr.sumList ((gs.map (· x)).map fun a => a * a))) := by
  rcases tame_lineVec V hp with ⟨e, he⟩ | ⟨gs, h1, h2, h3⟩
  · exact .inl ⟨e, fun x => by simp only [con.unitLineVectorA, he, bind, Except.bind]⟩
  · refine .inr ⟨gs, [], _, h1, fun x => ?_, h2, diffC_norm gs h2 h3, fun _ => rfl⟩
    simp only [con.unitLineVectorA, h1, bind, Except.bind, Arr.norm, Arr.div, Arr.binop, List.map_map,
      Function.comp_def]

include V in
theorem tame_unitVec {p : Node PrimType α} (hp : Prim.NoZeroLines (p.mapV (f x0))) :
    Tame (DiffC x0) (fun x => con.unitLineVectorA [p.mapV (f x)]) := by
  rcases tame_unit V hp with ⟨e, he⟩ | ⟨gs, _, N, _, h2, h3, h4, _⟩
  · exact Tame.congr he (Tame.error e)
  · refine Tame.congr (fun x => ?_) (Tame.ok (a := .vec (gs.map fun g x => g x / N x))
      (InA.vec.mpr fun g hg => ?_))
    · rw [h2]; simp [evA, Function.comp_def]
    · obtain ⟨g', hg', rfl⟩ := List.mem_map.mp hg
      exact (h3 g' hg').div h4

variable {G : Node PrimType α → Prop}

include V in
theorem tame_orthogonal : TameF (DiffC x0) f G ct.orthogonalA := by
  intro ps hG
  rcases ps with _ | ⟨p, _ | ⟨q, _ | ⟨r, ps⟩⟩⟩
  · exact Tame.error _
  · exact Tame.error _
  · exact (tame_lineVector (G := fun _ => True) diffC_lin.toLinSpace V [p] (by simp)).bind2
      (tame_lineVector (G := fun _ => True) diffC_lin.toLinSpace V [q] (by simp)) fun a b => tame_dot2
  · exact Tame.error _

include V in
theorem tame_parallel : TameF (DiffC x0) f G ct.parallelA := by
  intro ps hG
  rcases ps with _ | ⟨p, _ | ⟨q, _ | ⟨r, ps⟩⟩⟩
  · exact Tame.error _
  · exact Tame.error _
  · exact (tame_lineVector (G := fun _ => True) diffC_lin.toLinSpace V [p] (by simp)).bind2
      (tame_lineVector (G := fun _ => True) diffC_lin.toLinSpace V [q] (by simp)) fun a b => tame_cross2
  · exact Tame.error _

theorem tame_cat {X : Type} {A : (X → Flt) → Prop} {a b : Arr (X → Flt)} (ha : InA A a) (hb : InA A b) :
    Tame A (fun x => .ok (.vec ((evA x a).atleast1d ++ (evA x b).atleast1d))) := by
  refine Tame.congr (fun x => ?_) (Tame.ok (a := .vec (a.atleast1d ++ b.atleast1d))
    (InA.vec.mpr fun g hg => ?_))
  · rw [evA_atleast1d, evA_atleast1d, ← List.map_append]; rfl
  · rcases List.mem_append.mp hg with hg | hg
    · exact ha g hg
    · exact hb g hg

include V in
theorem tame_collinear : TameF (DiffC x0) f G ct.collinearA := by
  intro ps hG
  rcases ps with _ | ⟨p, _ | ⟨q, _ | ⟨r, ps⟩⟩⟩
  · exact Tame.error _
  · exact Tame.error _
  · simp only [List.map_cons, List.map_nil, ct.collinearA, Node.getInt_mapV]
    cases q.getInt 0 with
    | error e => exact Tame.error e
    | ok a =>
    cases p.getInt 0 with
    | error e => exact Tame.error e
    | ok b =>
    simp only [Except.map, bind, Except.bind]
    obtain ⟨u, hu⟩ := primNodeInit_check (K := Flt) PrimType.table .line 0 [a.ty, b.ty]
    have hl : ∀ x, primInit .line (⟨0, []⟩ : PVal Flt) [k!"Point0", k!"Point1"] [a.mapV (f x), b.mapV (f x)]
        = u.map fun _ => .mk .line ⟨0, []⟩ [(k!"Point0", a.mapV (f x)), (k!"Point1", b.mapV (f x))] := by
      intro x
      rw [primInit, hu _ _ rfl (by
        show [(a.mapV (f x)).ty, (b.mapV (f x)).ty] = _
        rw [Node.ty_mapV, Node.ty_mapV])]
      rfl
    simp only [hl]
    cases u with
    | error e => exact Tame.error e
    | ok _ =>
      simp only [Except.map]
      have h1 := tame_parallel (G := fun _ => True) V [p, q] (by simp)
      have h2 : Tame (DiffC x0) (fun x => ct.parallelA [p.mapV (f x),
          .mk .line ⟨0, []⟩ [(k!"Point0", a.mapV (f x)), (k!"Point1", b.mapV (f x))]]) :=
        (tame_lineVector (G := fun _ => True) diffC_lin.toLinSpace V [p] (by simp)).bind2
          (tame_diff diffC_lin.toLinSpace V a b) fun a b => tame_cross2
      exact h1.bind2 h2 fun a b => tame_cat
  · exact Tame.error _

include V in
theorem tame_unitOf {p : Node PrimType α} (hz : zero) (hp : GoodAt x0 f zero left p) :
    Tame (DiffC x0) (fun x => con.unitLineVectorA [p.mapV (f x)]) := tame_unitVec V (hp.1 hz)

theorem tame_neg {a : Arr ((Fin n → ℝ) → Flt)} (ha : InA (DiffC x0) a) :
    ∃ b, InA (DiffC x0) b ∧ ∀ x, (evA x a).neg = evA x b := by
  cases a with
  | scalar g => exact ⟨.scalar fun x => - g x, InA.scalar.mpr (InA.scalar.mp ha).neg, fun x => rfl⟩
  | vec gs =>
    refine ⟨.vec (gs.map fun g x => - g x), InA.vec.mpr fun g hg => ?_, fun x => ?_⟩
    · obtain ⟨g', hg', rfl⟩ := List.mem_map.mp hg
      exact (ha g' hg').neg
    · simp [evA, Arr.neg, Arr.map, Function.comp_def]

include V in
theorem tame_pointOnS {p q : Node PrimType α} (hz : zero) (hq : GoodAt x0 f zero left q) (r : Param Flt) :
    Tame (DiffC x0) (fun x => con.pointOnLineDistanceA [p.mapV (f x), q.mapV (f x)] r) := by
  simp only [con.pointOnLineDistanceA, Node.getChild_mapV]
  cases r.truthy with
  | error e => exact Tame.error e
  | ok b =>
  obtain ⟨u, h1, h2⟩ := tame_unitVec V (hq.1 hz)
  simp only [bind, Except.bind, h1]
  cases u with
  | error e => exact Tame.error e
  | ok a =>
  simp only [Except.map]
  cases q.getChild (if b = true then k!"Point1" else k!"Point0") with
  | error e => exact Tame.error e
  | ok o =>
    have ha := h2 a rfl
    have hd := tame_diff diffC_lin.toLinSpace V o p
    cases b with
    | false => exact hd.bindX (H := fun x d => Arr.dot d (evA x a)) fun d hd => tame_dot2 hd ha
    | true =>
      obtain ⟨a', h3, h4⟩ := tame_neg ha
      simp only [if_true, h4]
      exact hd.bindX (H := fun x d => Arr.dot d (evA x a')) fun d hd => tame_dot2 hd h3

include V in
theorem tame_pointOn (hz : zero) (r : Param Flt) :
    TameF (DiffC x0) f (GoodAt x0 f zero left) (fun ps => con.pointOnLineDistanceA ps r) := by
  intro ps hG
  rcases ps with _ | ⟨p, _ | ⟨q, _ | ⟨r, ps⟩⟩⟩
  · exact Tame.error _
  · exact Tame.error _
  · exact tame_pointOnS V hz (hG q (by simp)) r
  · exact Tame.error _

include V in
theorem tame_relPoint (hz : zero) (r : Param Flt) :
    TameF (DiffC x0) f (GoodAt x0 f zero left) (fun ps => con.relativePointOnLineDistanceA ps r) := by
  intro ps hG
  rcases ps with _ | ⟨p, _ | ⟨q, _ | ⟨r, ps⟩⟩⟩
  · exact Tame.error _
  · exact Tame.error _
  · have hq := hG q (by simp)
    refine (tame_pointOnS V hz hq r).bind2 (tame_lengthS V (hq.1 hz))
      (K := fun d len => do let q ← Arr.div d len; .ok (.vec q.atleast1d)) fun a b ha hb => ?_
    refine (tame_div2 ha hb).bind fun c hc => ?_
    exact Tame.congr (fun x => by rw [evA_atleast1d]; rfl) (Tame.ok (a := .vec c.atleast1d) hc)
  · exact Tame.error _

include V in
theorem tame_pointTo (hz : zero) (r : Param Flt) :
    TameF (DiffC x0) f (GoodAt x0 f zero left) (fun ps => con.pointToLineDistanceA ps r) := by
  intro ps hG
  rcases ps with _ | ⟨p, _ | ⟨q, _ | ⟨_, ps⟩⟩⟩
  · exact Tame.error _
  · exact Tame.error _
  · have hq := hG q (by simp)
    simp only [List.map_cons, List.map_nil, con.pointToLineDistanceA, Node.getChild_mapV]
    refine (tame_unitVec V (hq.1 hz)).bindX fun u hu => ?_
    cases r.truthy with
    | error e => exact Tame.error e
    | ok b =>
    have hcr : Tame (DiffC x0) (fun x => Arr.cross (evA x u)
        (if b = true then .vec [0, 0, 1] else .vec [0, 0, -1])) :=
      Tame.congr (fun x => by rw [evA_constA])
        (tame_cross2 hu (b := constA (if b = true then .vec [0, 0, 1] else .vec [0, 0, -1])) (by
          intro g hg
          obtain ⟨c, rfl⟩ := mem_constA hg
          exact .const c))
    refine hcr.bindX (H := fun x c => do
      let orth ← c.take2
      let origin ← (q.getChild k!"Point0").map (·.mapV (f x))
      let d ← Arr.sub (.vec (p.mapV (f x)).value.arr) (.vec origin.value.arr)
      Arr.dot d orth) fun c hc => ?_
    refine (tame_take2 hc).bindX (H := fun x orth => do
      let origin ← (q.getChild k!"Point0").map (·.mapV (f x))
      let d ← Arr.sub (.vec (p.mapV (f x)).value.arr) (.vec origin.value.arr)
      Arr.dot d orth) fun o ho => ?_
    cases q.getChild k!"Point0" with
    | error e => exact Tame.error e
    | ok o' =>
      refine (tame_diff diffC_lin.toLinSpace V o' p).bindX (H := fun x d => Arr.dot d (evA x o)) ?_
      intro d hd
      exact tame_dot2 hd ho
  · exact Tame.error _

include V in
theorem tame_aspect (hz : zero) : TameF (DiffC x0) f (GoodAt x0 f zero left) con.aspectRatioA := by
  intro ps hG
  rcases ps with _ | ⟨p, _ | ⟨q, ps⟩⟩
  · exact Tame.error _
  · have hp := (hG p (by simp)).1 hz
    simp only [List.map_cons, List.map_nil, con.aspectRatioA, Node.getChild_mapV]
    cases h0 : p.getChild k!"Line0" with
    | error e => exact Tame.error e
    | ok l0 =>
    have g0 : Prim.NoZeroLines (l0.mapV (f x0)) := hp.child (k := k!"Line0") (by rw [Node.getChild_mapV, h0]; rfl)
    cases h1 : p.getChild k!"Line1" with
    | error e =>
      obtain ⟨r, h, _⟩ := tame_lengthS V g0
      simp only [Except.map, bind, Except.bind, h]
      cases r with
      | error e => exact Tame.error e
      | ok a => exact Tame.error e
    | ok l1 =>
      have g1 : Prim.NoZeroLines (l1.mapV (f x0)) := hp.child (k := k!"Line1") (by rw [Node.getChild_mapV, h1]; rfl)
      exact (tame_lengthS V g0).bind2 (tame_lengthS V g1) fun a b => tame_div2
  · exact Tame.error _

theorem div_fin {a b : Flt} {c : ℝ} (h : a / b = fin c) :
    ∃ x y, a = fin x ∧ b = fin y ∧ y ≠ 0 ∧ c = x / y := by
  cases a with
  | bad => rw [bad_div] at h; cases h
  | fin x =>
    cases b with
    | bad => rw [div_bad] at h; cases h
    | fin y =>
      by_cases hy : y = 0
      · subst hy; rw [div_zero'] at h; cases h
      · rw [fin_div hy, fin_inj] at h
        exact ⟨x, y, rfl, rfl, hy, h.symm⟩

theorem sqrt_nonneg' {a : Flt} {y : ℝ} (h : PyNum.sqrt a = fin y) : 0 ≤ y := by
  cases a with
  | bad => cases h
  | fin x =>
    by_cases hx : x < 0
    · rw [show PyNum.sqrt (fin x) = bad from if_pos hx] at h; cases h
    · rw [fin_sqrt (not_lt.mp hx), fin_inj] at h
      exact h ▸ Real.sqrt_nonneg x

include V in
/-- The direction of a line is a differentiable number. -/
theorem tame_dir {p : Node PrimType α} (hp : GoodAt x0 f True True p) :
    (∃ e, ∀ x, (con.unitLineVectorA [p.mapV (f x)] = .error e)) ∨
    (∃ d : (Fin n → ℝ) → Arr Flt, ∀ x, con.unitLineVectorA [p.mapV (f x)] = .ok (d x) ∧
      (d x).get 1 = .error .indexError) ∨
    (∃ (d : (Fin n → ℝ) → Arr Flt) (u v : (Fin n → ℝ) → Flt), (∀ x,
      con.unitLineVectorA [p.mapV (f x)] = .ok (d x) ∧ (d x).get 1 = .ok (v x) ∧ (d x).get 0 = .ok (u x)) ∧
      DiffC x0 (fun x => PyNum.atan2 (v x) (u x))) := by
  rcases tame_unit V (hp.1 trivial) with ⟨e, he⟩ | ⟨gs, _, N, h1, h2, h3, h4, h5⟩
  · exact .inl ⟨e, he⟩
  rcases gs with _ | ⟨a, _ | ⟨b, gs⟩⟩
  · exact .inr (.inl ⟨_, fun x => ⟨h2 x, rfl⟩⟩)
  · exact .inr (.inl ⟨_, fun x => ⟨h2 x, rfl⟩⟩)
  refine .inr (.inr ⟨_, fun x => a x / N x, fun x => b x / N x, fun x => ⟨h2 x, rfl, rfl⟩, ?_⟩)
  refine DiffC.atan2 ((h3 b (by simp)).div h4) ((h3 a (by simp)).div h4) fun c e1 e2 => ?_
  obtain ⟨y, m, e3, e4, hm, e5⟩ := div_fin e1
  obtain ⟨x, m', e6, e7, -, e8⟩ := div_fin e2
  rw [e4, fin_inj] at e7
  subst e7
  have hy : y = 0 := by
    rcases div_eq_zero_iff.mp e5.symm with h | h
    · exact h
    · exact absurd h hm
  subst hy
  have hmpos : 0 < m := lt_of_le_of_ne (sqrt_nonneg' (by rw [← h5, e4])) (Ne.symm hm)
  obtain ⟨u, v, i1, w, i2, i3⟩ := lineVec_vec (f := f) p x0 (h1 x0)
  cases i2
  simp only [List.map_cons, e3, e6] at i3
  have := hp.2 trivial [] _ u v (.here _) i1 x _ i3
  rw [e8]
  exact div_pos this hmpos

include V in
theorem tame_angle (hz : zero) (hleft : left) : TameF (DiffC x0) f (GoodAt x0 f zero left) con.angleA := by
  intro ps hG
  rcases ps with _ | ⟨p, _ | ⟨q, _ | ⟨r, ps⟩⟩⟩
  · exact Tame.error _
  · exact Tame.error _
  · have hp := hG p (by simp)
    have hq := hG q (by simp)
    simp only [List.map_cons, List.map_nil, con.angleA]
    have hp' : GoodAt x0 f True True p := ⟨fun _ => hp.1 hz, fun _ => hp.2 hleft⟩
    have hq' : GoodAt x0 f True True q := ⟨fun _ => hq.1 hz, fun _ => hq.2 hleft⟩
    rcases tame_dir V hp' with ⟨e, he⟩ | ⟨d, hd⟩ | ⟨d, u, v, hd, hv⟩
    · exact Tame.congr (fun x => by rw [he]; rfl) (Tame.error e)
    · rcases tame_dir V hq' with ⟨e, he⟩ | ⟨d', hd'⟩ | ⟨d', u', v', hd', hv'⟩
      · exact Tame.congr (fun x => by rw [(hd x).1, he]; rfl) (Tame.error e)
      · exact Tame.congr (fun x => by simp only [(hd x).1, (hd' x).1, (hd x).2, bind, Except.bind])
          (Tame.error .indexError)
      · exact Tame.congr (fun x => by simp only [(hd x).1, (hd' x).1, (hd x).2, bind, Except.bind])
          (Tame.error .indexError)
    · rcases tame_dir V hq' with ⟨e, he⟩ | ⟨d', hd'⟩ | ⟨d', u', v', hd', hv'⟩
      · exact Tame.congr (fun x => by rw [(hd x).1, he]; rfl) (Tame.error e)
      · exact Tame.congr (fun x => by
          simp only [(hd x).1, (hd' x).1, (hd x).2, (hd' x).2, bind, Except.bind]) (Tame.error .indexError)
      · refine Tame.congr (fun x => ?_) (Tame.ok (a := .scalar fun x =>
          PyNum.atan2 (v' x) (u' x) - PyNum.atan2 (v x) (u x)) (InA.scalar.mpr (hv'.sub hv)))
        simp only [(hd x).1, (hd' x).1, (hd x).2, (hd' x).2, bind, Except.bind, evA]
  · exact Tame.error _

end leaves

end MplLayout
