import Verif.Lemmas.Canonical
import Verif.Lemmas.Untouched
import Verif.Spec.Locality
import Verif.Props.LayoutRefs

/-!
# Geometries as assignments of coordinates to arrays; sums over independent parts
-/

namespace MplLayout.Solver

open Flt

/-- The tree with other coordinates: those that `g` gives to each array. -/
def placeAt (t : Prim Flt) (g : Nat → List ℝ) : Prim Flt := t.mapV fun v => ⟨v.id, (g v.id).map fin⟩

/-- `g` gives each array of the tree as many coordinates as it has. -/
def FitsAt (t : Prim Flt) (g : Nat → List ℝ) : Prop :=
  ∀ p m, t.At p m → (g m.value.id).length = m.value.arr.length

theorem placeAt_at {t : Prim Flt} {g : Nat → List ℝ} {p : List Str} {m : Prim Flt} :
    (placeAt t g).At p m ↔ ∃ m0, t.At p m0 ∧ m = placeAt m0 g := At_mapV _

theorem placeAt_value {t : Prim Flt} {g : Nat → List ℝ} :
    (placeAt t g).value = ⟨t.value.id, (g t.value.id).map fin⟩ := Node.value_mapV ..

theorem placeAt_getChild (t : Prim Flt) (g : Nat → List ℝ) (k : Str) :
    (placeAt t g).getChild k = (t.getChild k).map (placeAt · g) := Node.getChild_mapV ..

theorem placeAt_congr {t : Prim Flt} (ht : t.WF) {g h : Nat → List ℝ}
    (e : ∀ p m, t.At p m → g m.value.id = h m.value.id) : placeAt t g = placeAt t h := by
  refine ext_At (WF_mapV _ ht) (WF_mapV _ ht) (fun p => ?_) fun p m m' h1 h2 => ?_
  · constructor <;> rintro ⟨m, hm⟩ <;> obtain ⟨m0, h0, -⟩ := placeAt_at.mp hm <;>
      exact ⟨_, placeAt_at.mpr ⟨m0, h0, rfl⟩⟩
  · obtain ⟨m0, h0, rfl⟩ := placeAt_at.mp h1
    obtain ⟨m1, h3, rfl⟩ := placeAt_at.mp h2
    cases At_unique ht h0 h3
    refine ⟨by simp [placeAt], by simp [placeAt], ?_⟩
    rw [placeAt_value, placeAt_value, e p m0 h0]

theorem placeAt_good {l : Layout Flt} (hok : PrimOK l.prim) {g : Nat → List ℝ} (hg : FitsAt l.prim g) :
    GoodGeo l (placeAt l.prim g) := by
  refine ⟨⟨WF_mapV _ hok.wf, ?_, ?_⟩, ⟨fun q => ?_, fun q m m' h1 h2 => ?_,
    fun q q' m n m' n' h1 h2 h3 h4 => ?_⟩, ?_⟩
  · intro q m hm k hk
    obtain ⟨m0, h0, rfl⟩ := placeAt_at.mp hm
    rw [placeAt, Node.keys_mapV] at hk
    exact hok.slashFree q m0 h0 k hk
  · intro q q' m m' hm hm' e
    obtain ⟨m0, h0, rfl⟩ := placeAt_at.mp hm
    obtain ⟨m1, h1, rfl⟩ := placeAt_at.mp hm'
    rw [placeAt_value, placeAt_value] at e ⊢
    simp only at e
    rw [e]
  · constructor
    · rintro ⟨m, hm⟩; exact ⟨_, placeAt_at.mpr ⟨m, hm, rfl⟩⟩
    · rintro ⟨m, hm⟩; obtain ⟨m0, h0, -⟩ := placeAt_at.mp hm; exact ⟨m0, h0⟩
  · obtain ⟨m0, h0, rfl⟩ := placeAt_at.mp h2
    cases At_unique hok.wf h1 h0
    refine ⟨by simp [placeAt], by simp [placeAt], ?_⟩
    rw [placeAt_value]
    simp [hg q m h1]
  · obtain ⟨m0, e0, rfl⟩ := placeAt_at.mp h3
    obtain ⟨n0, e1, rfl⟩ := placeAt_at.mp h4
    cases At_unique hok.wf h1 e0
    cases At_unique hok.wf h2 e1
    rw [placeAt_value, placeAt_value]
  · intro q m hm x hx
    obtain ⟨m0, h0, rfl⟩ := placeAt_at.mp hm
    rw [placeAt_value] at hx
    obtain ⟨y, _, rfl⟩ := List.mem_map.mp hx
    exact ⟨y, rfl⟩

/-- Every geometry is given by such an assignment. -/
theorem geo_placeAt {l : Layout Flt} (hok : PrimOK l.prim) {r : Prim Flt} (hr : GoodGeo l r) :
    ∃ g, FitsAt l.prim g ∧ SameGeometry r (placeAt l.prim g) := by
  classical
  have hreal : ∀ q m, r.At q m → ∃ v : List ℝ, m.value.arr = v.map fin := by
    intro q m hm
    have : ∀ w : List Flt, (∀ x ∈ w, ∃ y, x = Flt.fin y) → ∃ v' : List ℝ, w = v'.map Flt.fin := by
      intro w
      induction w with
      | nil => exact fun _ => ⟨[], rfl⟩
      | cons x w ih =>
        intro hw
        obtain ⟨v', rfl⟩ := ih fun y hy => hw y (by simp [hy])
        obtain ⟨y, rfl⟩ := hw x (by simp)
        exact ⟨y :: v', rfl⟩
    exact this _ (hr.fin q m hm)
  have hex : ∀ i, ∃ v : List ℝ, ∀ p m m', l.prim.At p m → r.At p m' → m.value.id = i →
      m'.value.arr = v.map fin := by
    intro i
    by_cases h : ∃ p m m', l.prim.At p m ∧ r.At p m' ∧ m.value.id = i
    · obtain ⟨p, m, m', h1, h2, h3⟩ := h
      obtain ⟨v, hv⟩ := hreal p m' h2
      refine ⟨v, fun q n n' e1 e2 e3 => ?_⟩
      have := (hr.str.sharing p q m n m' n' h1 e1 h2 e2).mp (h3.trans e3.symm)
      rw [← hv, hr.ok.ident p q m' n' h2 e2 this]
    · exact ⟨[], fun p m m' h1 h2 h3 => absurd ⟨p, m, m', h1, h2, h3⟩ h⟩
  choose g hg using hex
  refine ⟨g, fun p m hm => ?_, ⟨fun p => ?_, fun p m m' h1 h2 => ?_⟩⟩
  · obtain ⟨m', hm'⟩ := (hr.str.paths p).mp ⟨m, hm⟩
    rw [(hr.str.nodes p m m' hm hm').2.2, hg _ p m m' hm hm' rfl, List.length_map]
  · rw [← hr.str.paths p]
    constructor
    · rintro ⟨m, hm⟩; exact ⟨_, placeAt_at.mpr ⟨m, hm, rfl⟩⟩
    · rintro ⟨m, hm⟩; obtain ⟨m0, h0, -⟩ := placeAt_at.mp hm; exact ⟨m0, h0⟩
  · obtain ⟨m0, h0, rfl⟩ := placeAt_at.mp h2
    obtain ⟨e1, e2, -⟩ := hr.str.nodes p m0 m h0 h1
    refine ⟨by simpa [placeAt] using e1.symm, by simpa [placeAt] using e2.symm, ?_⟩
    rw [placeAt_value]
    exact hg _ p m0 m h0 h1 rfl

/-- The squared distance of two lists of coordinates. -/
def dist2 (x y : List ℝ) : ℝ := (List.zipWith (fun a b => (b - a) ^ 2) x y).sum

/-- A list of the arrays of the tree, each once. -/
structure Ids (t : Prim Flt) (is : List Nat) : Prop where
  nodup : is.Nodup
  mem : ∀ i, i ∈ is ↔ ∃ p m, t.At p m ∧ m.value.id = i

theorem ids_exists {l : Layout Flt} (hok : PrimOK l.prim) : ∃ is, Ids l.prim is := by
  classical
  obtain ⟨ps, h⟩ := represents_exists hok
  have key : ∀ qs : List (List Str), (∀ p ∈ qs, ∃ m, l.prim.At p m) →
      ∃ is : List Nat, ∀ i, i ∈ is ↔ ∃ p m, p ∈ qs ∧ l.prim.At p m ∧ m.value.id = i := by
    intro qs
    induction qs with
    | nil => exact fun _ => ⟨[], fun i => by simp⟩
    | cons p qs ih =>
      intro hq
      obtain ⟨is, his⟩ := ih fun q hq' => hq q (by simp [hq'])
      obtain ⟨m, hm⟩ := hq p (by simp)
      refine ⟨m.value.id :: is, fun i => ?_⟩
      rw [List.mem_cons, his]
      constructor
      · rintro (rfl | ⟨q, n, h1, h2, h3⟩)
        · exact ⟨p, m, by simp, hm, rfl⟩
        · exact ⟨q, n, by simp [h1], h2, h3⟩
      · rintro ⟨q, n, h1, h2, h3⟩
        rcases List.mem_cons.mp h1 with rfl | h1
        · cases At_unique hok.wf hm h2
          exact .inl h3.symm
        · exact .inr ⟨q, n, h1, h2, h3⟩
  obtain ⟨is, his⟩ := key ps h.paths
  refine ⟨is.dedup, List.nodup_dedup _, fun i => ?_⟩
  rw [List.mem_dedup, his]
  constructor
  · rintro ⟨p, m, _, h2, h3⟩; exact ⟨p, m, h2, h3⟩
  · rintro ⟨q, m, h2, h3⟩
    obtain ⟨p, n, h4, h5, h6⟩ := h.all q m h2
    exact ⟨p, n, h4, h5, h6.trans h3⟩

/-- A list of the arrays gives a list of paths, and the distance from one assignment to another is the sum
of the distances of the arrays. -/
theorem Ids.represents {t : Prim Flt} (ht : t.WF) {is : List Nat} (h : Ids t is) :
    ∃ ps, Represents t ps ∧ ∀ g, CoordsAt (placeAt t g) ps (is.flatMap g) := by
  classical
  have hex : ∀ i, ∃ p : List Str, i ∈ is → ∃ m, t.At p m ∧ m.value.id = i := by
    intro i
    by_cases hi : i ∈ is
    · obtain ⟨p, m, h1, h2⟩ := (h.mem i).mp hi
      exact ⟨p, fun _ => ⟨m, h1, h2⟩⟩
    · exact ⟨[], fun h => absurd h hi⟩
  choose P hP using hex
  refine ⟨is.map P, ⟨?_, ?_, ?_⟩, fun g => ⟨is.map g, ?_, by rw [List.flatMap_def]⟩⟩
  · intro p hp
    obtain ⟨i, hi, rfl⟩ := List.mem_map.mp hp
    obtain ⟨m, hm, _⟩ := hP i hi
    exact ⟨m, hm⟩
  · intro q m hm
    have hi := (h.mem m.value.id).mpr ⟨q, m, hm, rfl⟩
    obtain ⟨n, hn, e⟩ := hP _ hi
    exact ⟨_, n, List.mem_map.mpr ⟨_, hi, rfl⟩, hn, e⟩
  · rw [List.pairwise_map]
    refine h.nodup.imp_of_mem fun {i j} hi hj hne m n hm hn e => hne ?_
    obtain ⟨m', hm', e1⟩ := hP i hi
    obtain ⟨n', hn', e2⟩ := hP j hj
    cases At_unique ht hm hm'
    cases At_unique ht hn hn'
    rw [← e1, e, e2]
  · rw [List.forall₂_map_left_iff, List.forall₂_map_right_iff, List.forall₂_same]
    intro i hi
    obtain ⟨m, hm, e⟩ := hP i hi
    exact ⟨_, placeAt_at.mpr ⟨m, hm, rfl⟩, by rw [placeAt_value, e]⟩

theorem dist2_flatMap {g h : Nat → List ℝ} : ∀ {is : List Nat}, (∀ i ∈ is, (g i).length = (h i).length) →
    dist2 (is.flatMap g) (is.flatMap h) = (is.map fun i => dist2 (g i) (h i)).sum
  | [], _ => rfl
  | i :: is, hl => by
    have ih := dist2_flatMap (g := g) (h := h) (is := is) fun j hj => hl j (by simp [hj])
    simp only [dist2, List.flatMap_cons, List.map_cons, List.sum_cons] at ih ⊢
    rw [List.zipWith_append (hl i (by simp)), List.sum_append, ih]

/-- The distances of a tree's assignments. -/
theorem Ids.moved {t : Prim Flt} {is : List Nat} (h : Ids t is) {ps : List (List Str)}
    (hps : ∀ g, CoordsAt (placeAt t g) ps (is.flatMap g)) {g0 g : Nat → List ℝ} (h0 : FitsAt t g0)
    (hg : FitsAt t g) (e : SameGeometry (placeAt t g0) t) :
    Moved ps t (placeAt t g) (is.map fun i => dist2 (g0 i) (g i)).sum := by
  refine ⟨is.flatMap g0, is.flatMap g, coords_geometry e (hps g0), hps g, ?_⟩
  rw [← dist2_flatMap]
  · rfl
  · intro i hi
    obtain ⟨p, m, h1, rfl⟩ := (h.mem i).mp hi
    rw [h0 p m h1, hg p m h1]

/-! ## Sums of squares of some of the constraints -/

/-- `s` is the sum of the squared values of the constraints, which are all finite. -/
def SumSq (as : List (Added Flt)) (r : Prim Flt) (s : ℝ) : Prop :=
  ∃ vs : List (List ℝ), List.Forall₂ (fun a v => Added.Value a r (v.map fin)) as vs ∧
    s = (vs.flatten.map (· ^ 2)).sum

theorem flatten_fin {vs : List (List Flt)} {v : List ℝ} (h : v.map fin = vs.flatten) :
    ∃ ws : List (List ℝ), vs = ws.map (List.map fin) ∧ v = ws.flatten := by
  induction vs generalizing v with
  | nil =>
    refine ⟨[], rfl, ?_⟩
    simpa using h
  | cons w vs ih =>
    rw [List.flatten_cons, List.map_eq_append_iff] at h
    obtain ⟨v1, v2, rfl, rfl, h2⟩ := h
    obtain ⟨ws, rfl, rfl⟩ := ih h2
    exact ⟨v1 :: ws, rfl, rfl⟩

theorem misfit_sumSq {id : Nat} {ops : List (LayoutOp Flt)} (hs : ∀ op ∈ ops, op.Sensible)
    (ht : ∀ op ∈ ops, op.TopLevel) {l : Layout Flt} (hl : l = (Layout.empty id).run ops) {r : Prim Flt}
    (hr : GoodGeo l r) (s : ℝ) :
    l.Misfit r s ↔ (Layout.empty id).added ops ≠ [] ∧ SumSq ((Layout.empty id).added ops) r s := by
  have k := structure_getChild hr.ok.wf hr.str
  subst hl
  have h := Props.C50_residual_partial id ops (fun op h => Props.Sensible.regular (hs op h)) ht r k
  constructor
  · rintro ⟨v, e1, rfl⟩
    obtain ⟨hne, vs, e2, e3⟩ := (h _).mp e1
    obtain ⟨ws, rfl, rfl⟩ := flatten_fin e3
    exact ⟨hne, ws, List.forall₂_map_right_iff.mp e2, rfl⟩
  · rintro ⟨hne, ws, e, rfl⟩
    refine ⟨ws.flatten, (h _).mpr ⟨hne, ws.map (List.map fin), List.forall₂_map_right_iff.mpr e, ?_⟩, rfl⟩
    rw [List.map_flatten]

theorem sumSq_perm {as bs : List (Added Flt)} (h : as.Perm bs) {r : Prim Flt} {s : ℝ}
    (hs : SumSq as r s) : SumSq bs r s := by
  obtain ⟨vs, h1, rfl⟩ := hs
  obtain ⟨ws, h2, h3⟩ := List.perm_comp_forall₂ h.symm h1
  exact ⟨ws, h2, ((List.Perm.flatten h3).symm.map _).sum_eq⟩

theorem sumSq_append {as bs : List (Added Flt)} {r : Prim Flt} {s : ℝ} :
    SumSq (as ++ bs) r s ↔ ∃ s1 s2, SumSq as r s1 ∧ SumSq bs r s2 ∧ s = s1 + s2 := by
  constructor
  · rintro ⟨vs, h, rfl⟩
    obtain ⟨v1, v2, h1, h2, rfl⟩ : ∃ v1 v2, List.Forall₂ (fun a v => Added.Value a r (v.map fin)) as v1 ∧
        List.Forall₂ (fun a v => Added.Value a r (v.map fin)) bs v2 ∧ vs = v1 ++ v2 := by
      clear * - h
      induction as generalizing vs with
      | nil => exact ⟨[], vs, .nil, h, rfl⟩
      | cons a as ih =>
        cases h with
        | cons x xs =>
          obtain ⟨v1, v2, e1, e2, rfl⟩ := ih _ xs
          exact ⟨_ :: v1, v2, .cons x e1, e2, rfl⟩
    refine ⟨_, _, ⟨v1, h1, rfl⟩, ⟨v2, h2, rfl⟩, ?_⟩
    rw [List.flatten_append, List.map_append, List.sum_append]
  · rintro ⟨_, _, ⟨vs, h1, rfl⟩, ⟨ws, h2, rfl⟩, rfl⟩
    refine ⟨vs ++ ws, List.rel_append h1 h2, ?_⟩
    rw [List.flatten_append, List.map_append, List.sum_append]

theorem sumSq_congr {as : List (Added Flt)} {r r' : Prim Flt}
    (h : ∀ a ∈ as, ∀ k ∈ a.primKeys, ∀ q, r.getChild k = .ok q → r'.getChild k = .ok q) {s : ℝ}
    (hs : SumSq as r s) : SumSq as r' s := by
  obtain ⟨vs, h1, rfl⟩ := hs
  refine ⟨vs, ?_, rfl⟩
  induction h1 with
  | nil => exact .nil
  | @cons a v as vs hv _ ih =>
    refine .cons ?_ (ih fun b hb => h b (by simp [hb]))
    obtain ⟨prims, e1, e2⟩ := hv
    refine ⟨prims, ?_, e2⟩
    have ha := h a (by simp)
    clear * - e1 ha
    generalize a.primKeys = ks at e1 ha
    induction e1 with
    | nil => exact .nil
    | cons hk _ ih => exact .cons (ha _ (by simp) _ hk) (ih fun k hk => ha k (by simp [hk]))

theorem sumSq_unique {as : List (Added Flt)} {r : Prim Flt} {s s' : ℝ} (h : SumSq as r s)
    (h' : SumSq as r s') : s = s' := by
  obtain ⟨vs, h1, rfl⟩ := h
  obtain ⟨ws, h2, rfl⟩ := h'
  have : vs = ws := by
    clear * - h1 h2
    induction h1 generalizing ws with
    | nil => cases h2; rfl
    | cons hv _ ih =>
      cases h2 with
      | cons hw hws =>
        obtain ⟨p1, a1, a2⟩ := hv
        obtain ⟨p2, b1, b2⟩ := hw
        have hp : p1 = p2 := by
          clear * - a1 b1
          generalize Added.primKeys _ = ks at a1 b1
          induction a1 generalizing p2 with
          | nil => cases b1; rfl
          | cons x _ ih =>
            cases b1 with
            | cons y ys =>
              rw [ih _ ys]
              congr 1
              exact Except.ok.inj (x.symm.trans y)
        subst hp
        rw [ih _ hws, map_fin_inj (Except.ok.inj (a2.symm.trans b2))]
  rw [this]

/-- The keys of an accepted constraint name primitives of the layout. -/
theorem added_resolves {id : Nat} {ops : List (LayoutOp Flt)} (ht : ∀ op ∈ ops, op.Trees)
    {a : Added Flt} (ha : a ∈ (Layout.empty id).added ops) {k : Str} (hk : k ∈ a.primKeys) :
    ∃ p, ((Layout.empty id).run ops).prim.getChild k = .ok p := by
  have split : ∀ (ops : List (LayoutOp Flt)) (l : Layout Flt), a ∈ l.added ops → ∃ o1 key o2,
      ops = o1 ++ [.addConstraint a.c a.primKeys a.param key] ++ o2 ∧
      ((l.run o1).addConstraint a.c a.primKeys a.param key).2 = .ok () := by
    intro ops
    induction ops with
    | nil => intro l h; cases h
    | cons op ops ih =>
      intro l h
      rcases List.mem_append.mp h with h | h
      · cases op with
        | addPrim _ _ => cases h
        | addPrims _ => cases h
        | addConstraint c ks ps key =>
          rcases hx : (l.step (.addConstraint c ks ps key)).2 with e | u
          · rw [hx] at h; cases h
          · rw [hx] at h
            obtain rfl := List.mem_singleton.mp h
            exact ⟨[], key, ops, rfl, hx⟩
      · obtain ⟨o1, key, o2, rfl, h2⟩ := ih _ h
        exact ⟨op :: o1, key, o2, rfl, h2⟩
  obtain ⟨o1, key, o2, rfl, h2⟩ := split ops _ ha
  have := Props.C48_own_keys_partial id o1 o2 a.c a.primKeys a.param key ht h2
  obtain ⟨t, ht⟩ := List.forall₂_iff_get.mp this |>.1 |> fun _ => List.getElem_of_mem hk
  obtain ⟨hlt, rfl⟩ := ht
  have h3 := (List.forall₂_iff_get.mp this).2 t hlt ((List.forall₂_iff_get.mp this).1 ▸ hlt)
  obtain ⟨p, hp, _⟩ := h3
  exact ⟨p, hp⟩

theorem root_arr (id : Nat) {ops : List (LayoutOp Flt)} (ht : ∀ op ∈ ops, op.Trees) :
    ((Layout.empty id).run ops).prim.value.arr = [] := by
  have h := ((Layout.Inv.empty (K := Flt) id).wf.run (ops := ops) ht).2.prim [] _ (.here _)
  obtain ⟨m, hm, _, e⟩ := h
  cases hm
  rw [e]
  rfl

/-! ## A part of a layout that the other constraints do not refer to -/

section part
open Classical

variable {l l' : Layout Flt}

/-- The array is one of those of the part. -/
def Mine (t : Prim Flt) (i : Nat) : Prop := ∃ p m, p ≠ [] ∧ t.At p m ∧ m.value.id = i

/-- The assignment `g` for the part and `h` for the rest. -/
noncomputable def mix (t : Prim Flt) (g h : Nat → List ℝ) : Nat → List ℝ := fun i => if Mine t i then g i else h i

theorem mix_mine {t : Prim Flt} {g h : Nat → List ℝ} {i : Nat} (hi : Mine t i) : mix t g h i = g i := if_pos hi

theorem mix_not {t : Prim Flt} {g h : Nat → List ℝ} {i : Nat} (hi : ¬Mine t i) : mix t g h i = h i := if_neg hi

theorem mix_part (hok' : PrimOK l'.prim) (hroot : l'.prim.value.arr = []) (hp : l'.prim.PartOf l.prim)
    {g : Nat → List ℝ} (hg : FitsAt l.prim g) : FitsAt l'.prim (mix l'.prim g fun _ => []) := by
  intro p m hm
  by_cases h : Mine l'.prim m.value.id
  · rw [mix_mine h]
    obtain ⟨q, n, h1, h2, h3⟩ := h
    rw [← h3, hg q n (hp q n h1 h2), hok'.ident q p n m h2 hm h3]
  · rw [mix_not h]
    cases p with
    | nil => cases hm; simp [hroot]
    | cons k p => exact absurd ⟨_, m, by simp, hm, rfl⟩ h

theorem mix_whole (hok : PrimOK l.prim) (hp : l'.prim.PartOf l.prim) {g h : Nat → List ℝ}
    (hg : FitsAt l'.prim g) (hh : FitsAt l.prim h) : FitsAt l.prim (mix l'.prim g h) := by
  intro p m hm
  by_cases hi : Mine l'.prim m.value.id
  · rw [mix_mine hi]
    obtain ⟨q, n, h1, h2, h3⟩ := hi
    rw [← h3, hg q n h2, hok.ident q p n m (hp q n h1 h2) hm h3]
  · rw [mix_not hi, hh p m hm]

/-- The constraints of the part see only the part. -/
theorem part_sum (hok : PrimOK l.prim) (hok' : PrimOK l'.prim) (hp : l'.prim.PartOf l.prim)
    {as : List (Added Flt)} (hres : ∀ a ∈ as, ∀ k ∈ a.primKeys, ∃ p, l'.prim.getChild k = .ok p)
    {g g' : Nat → List ℝ} (e : ∀ i, Mine l'.prim i → g i = g' i) {s : ℝ} :
    SumSq as (placeAt l.prim g) s ↔ SumSq as (placeAt l'.prim g') s := by
  have key : ∀ a ∈ as, ∀ k ∈ a.primKeys, ∃ q, (placeAt l.prim g).getChild k = .ok q ∧
      (placeAt l'.prim g').getChild k = .ok q := by
    intro a ha k hk
    obtain ⟨p, h1⟩ := hres a ha k hk
    have hat := Node.At_of_find (Node.getChild_ok_iff.mp h1)
    have h2 : l.prim.getChild k = .ok p :=
      Node.getChild_ok_iff.mpr ((Node.find_iff_At hok.wf).mpr (hp _ _ (splitAll_ne_nil k) hat))
    refine ⟨placeAt p g', ?_, by rw [placeAt_getChild, h1]; rfl⟩
    rw [placeAt_getChild, h2, ← placeAt_congr (Node.WF.at hok'.wf hat) (g := g) (h := g')]
    · rfl
    · exact fun q m hm => e _ ⟨_, m, by simp [splitAll_ne_nil], hat.trans hm, rfl⟩
  constructor
  · refine sumSq_congr fun a ha k hk q hq => ?_
    obtain ⟨q', h1, h2⟩ := key a ha k hk
    rw [h1] at hq; cases hq; exact h2
  · refine sumSq_congr fun a ha k hk q hq => ?_
    obtain ⟨q', h1, h2⟩ := key a ha k hk
    rw [h2] at hq; cases hq; exact h1

/-- The other constraints do not see the part. -/
theorem rest_sum (hok : PrimOK l.prim) (hp : l'.prim.PartOf l.prim)
    {as : List (Added Flt)} (hres : ∀ p m, p ≠ [] → l'.prim.At p m → Unseen as l.prim p)
    {g g' : Nat → List ℝ} (e : ∀ i, ¬Mine l'.prim i → g i = g' i) {s : ℝ}
    (hs : SumSq as (placeAt l.prim g) s) : SumSq as (placeAt l.prim g') s := by
  refine sumSq_congr (fun a ha k hk q hq => ?_) hs
  rw [placeAt_getChild] at hq ⊢
  cases h0 : l.prim.getChild k with
  | error er => rw [h0] at hq; cases hq
  | ok q0 =>
    rw [h0] at hq
    rw [← hq]
    have hat := Node.At_of_find (Node.getChild_ok_iff.mp h0)
    show Except.ok (placeAt q0 g') = Except.ok (placeAt q0 g)
    rw [placeAt_congr (Node.WF.at hok.wf hat)]
    rintro path n hn
    refine (e _ ?_).symm
    rintro ⟨p, m, h1, h2, h3⟩
    exact hres p m h1 h2 a ha k hk q0 h0 path n m hn (hp p m h1 h2) h3.symm

theorem misfit_geometry {id : Nat} {kind : Shipped → Prop} {ops : List (LayoutOp Flt)}
    (hops : ∀ op ∈ ops, op.Uses kind) (hl : l = (Layout.empty id).run ops) {a b : Prim Flt} (ha : a.WF)
    (hb : b.WF) (h : SameGeometry a b) (s : ℝ) : l.Misfit a s ↔ l.Misfit b s := by
  have hn : AllN NIP l.cons := by rw [hl]; exact run_nip hops id
  simp only [Layout.Misfit, residual_geometry hn ha hb h]

/-- The part's own geometry. -/
theorem part_geometry (hok' : PrimOK l'.prim) (hroot : l'.prim.value.arr = []) (hp : l'.prim.PartOf l.prim)
    {g0 : Nat → List ℝ} (f0 : FitsAt l.prim g0) (e0 : SameGeometry l.prim (placeAt l.prim g0)) :
    SameGeometry (placeAt l'.prim (mix l'.prim g0 fun _ => [])) l'.prim := by
  have f0p := mix_part hok' hroot hp f0
  refine ⟨fun p => ?_, fun p m m' h1 h2 => ?_⟩
  · exact ((placeAt_good hok' f0p).str.paths p).symm
  · obtain ⟨m0, h3, rfl⟩ := placeAt_at.mp h1
    have h30 := At_unique hok'.wf h3 h2
    subst h30
    refine ⟨by simp [placeAt], by simp [placeAt], ?_⟩
    rw [placeAt_value]
    by_cases hi : Mine l'.prim m0.value.id
    · rw [mix_mine hi]
      obtain ⟨q, n, h4, h5, h6⟩ := hi
      have := (e0.2 q n _ (hp q n h4 h5) (placeAt_at.mpr ⟨n, hp q n h4 h5, rfl⟩)).2.2
      rw [placeAt_value] at this
      rw [← h6, ← this, hok'.ident q p n m0 h5 h2 h6]
    · rw [mix_not hi]
      cases p with
      | nil => cases h2; simp [hroot]
      | cons k p => exact absurd ⟨_, m0, by simp, h2, rfl⟩ hi

/-- If the whole has a misfit then so has the part. -/
theorem part_misfit {id id' : Nat} {ops ops' : List (LayoutOp Flt)}
    (hops' : ∀ op ∈ ops', op.Uses Shipped.IsAffine) (hops : ∀ op ∈ ops, op.Uses Shipped.IsAffine)
    (hs : ∀ op ∈ ops, op.Sensible) (hs' : ∀ op ∈ ops', op.Sensible) (ht : ∀ op ∈ ops, op.TopLevel)
    (ht' : ∀ op ∈ ops', op.TopLevel) (hl : l = (Layout.empty id).run ops)
    (hl' : l' = (Layout.empty id').run ops') (hok : PrimOK l.prim) (hok' : PrimOK l'.prim)
    (hfin : l.prim.Finite) (hp : l'.prim.PartOf l.prim) {rest : List (Added Flt)}
    (hne : (Layout.empty id').added ops' ≠ [])
    (hperm : ((Layout.empty id).added ops).Perm ((Layout.empty id').added ops' ++ rest))
    {s0 : ℝ} (h0 : l.Misfit l.prim s0) : ∃ s, l'.Misfit l'.prim s := by
  have hroot : l'.prim.value.arr = [] := by
    rw [hl']; exact root_arr id' fun op h => uses_trees (hops' op h)
  have hkeys : ∀ a ∈ (Layout.empty id').added ops', ∀ k ∈ a.primKeys, ∃ p, l'.prim.getChild k = .ok p := by
    intro a ha k hk
    rw [hl']
    exact added_resolves (fun op h => uses_trees (hops' op h)) ha hk
  obtain ⟨g0, f0, e0⟩ := geo_placeAt hok (r := l.prim) ⟨hok, Props.SameStructure.refl hok.wf, hfin⟩
  have gg := placeAt_good hok f0
  have gp := placeAt_good hok' (mix_part hok' hroot hp f0)
  obtain ⟨_, q⟩ := (misfit_sumSq hs ht hl gg _).mp ((misfit_geometry hops hl hok.wf gg.ok.wf e0 _).mp h0)
  obtain ⟨a1, a2, b1, b2, rfl⟩ := sumSq_append.mp (sumSq_perm hperm q)
  refine ⟨a1, (misfit_geometry hops' hl' gp.ok.wf hok'.wf (part_geometry hok' hroot hp f0 e0) _).mp
    ((misfit_sumSq hs' ht' hl' gp a1).mpr ⟨hne, (part_sum hok hok' hp hkeys
      (fun i hi => (mix_mine hi).symm)).mp b1⟩)⟩

theorem dist2_nil {x y : List ℝ} (h : y.length = 0) : dist2 x y = 0 := by
  rw [List.length_eq_zero_iff.mp h]; simp [dist2]

theorem best_part {id id' : Nat} {ops ops' : List (LayoutOp Flt)}
    (hops : ∀ op ∈ ops, op.Uses Shipped.IsAffine) (hops' : ∀ op ∈ ops', op.Uses Shipped.IsAffine)
    (hs : ∀ op ∈ ops, op.Sensible) (hs' : ∀ op ∈ ops', op.Sensible) (ht : ∀ op ∈ ops, op.TopLevel)
    (ht' : ∀ op ∈ ops', op.TopLevel) (hl : l = (Layout.empty id).run ops)
    (hl' : l' = (Layout.empty id').run ops') (hok : PrimOK l.prim) (hok' : PrimOK l'.prim)
    (hfin : l.prim.Finite) (hp : l'.prim.PartOf l.prim) {rest : List (Added Flt)}
    (hperm : ((Layout.empty id).added ops).Perm ((Layout.empty id').added ops' ++ rest))
    (hres : ∀ p m, p ≠ [] → l'.prim.At p m → Unseen rest l.prim p)
    {r r' : Prim Flt} (h : Best l r) (h' : Best l' r') : r'.PlacedIn r := by
  have hroot : l'.prim.value.arr = [] := by
    rw [hl']; exact root_arr id' fun op h => uses_trees (hops' op h)
  have hkeys : ∀ a ∈ (Layout.empty id').added ops', ∀ k ∈ a.primKeys, ∃ p, l'.prim.getChild k = .ok p := by
    intro a ha k hk
    rw [hl']
    exact added_resolves (fun op h => uses_trees (hops' op h)) ha hk
  obtain ⟨gd, lst, near⟩ := h
  obtain ⟨gd', lst', near'⟩ := h'
  obtain ⟨g, fg, eg⟩ := geo_placeAt hok gd
  obtain ⟨g', fg', eg'⟩ := geo_placeAt hok' gd'
  obtain ⟨g0, f0, e0⟩ := geo_placeAt hok (r := l.prim) ⟨hok, Props.SameStructure.refl hok.wf, hfin⟩
  -- the part of the first result, and the first result with the second as its part
  have fp := mix_part hok' hroot hp fg
  have fw := mix_whole hok hp fg' fg
  have f0p := mix_part hok' hroot hp f0
  have gp := placeAt_good hok' fp
  have gw := placeAt_good hok fw
  have gg := placeAt_good hok fg
  have gg' := placeAt_good hok' fg'
  obtain ⟨s, ms, ls⟩ := lst
  obtain ⟨s', ms', ls'⟩ := lst'
  have ms1 := (misfit_geometry hops hl gd.ok.wf gg.ok.wf eg s).mp ms
  have ms1' := (misfit_geometry hops' hl' gd'.ok.wf gg'.ok.wf eg' s').mp ms'
  obtain ⟨hne, q1⟩ := (misfit_sumSq hs ht hl gg s).mp ms1
  obtain ⟨hne', q1'⟩ := (misfit_sumSq hs' ht' hl' gg' s').mp ms1'
  obtain ⟨a1, a2, b1, b2, rfl⟩ := sumSq_append.mp (sumSq_perm hperm q1)
  -- misfit of the part of the first result
  have mp : l'.Misfit (placeAt l'.prim (mix l'.prim g fun _ => [])) a1 :=
    (misfit_sumSq hs' ht' hl' gp a1).mpr ⟨hne', (part_sum hok hok' hp hkeys
      (fun i hi => (mix_mine hi).symm)).mp b1⟩
  have mw : l.Misfit (placeAt l.prim (mix l'.prim g' g)) (s' + a2) := by
    refine (misfit_sumSq hs ht hl gw _).mpr ⟨hne, sumSq_perm hperm.symm (sumSq_append.mpr ⟨s', a2, ?_, ?_, rfl⟩)⟩
    · exact (part_sum hok hok' hp hkeys (fun i hi => mix_mine hi)).mpr q1'
    · exact rest_sum hok hp hres (fun i hi => (mix_not hi).symm) b2
  have le1 : a1 ≤ s' := by
    obtain ⟨t, t1, t2⟩ := ls _ gw
    rw [misfit_unique t1 mw] at t2
    linarith
  have le2 : s' ≤ a1 := by
    obtain ⟨t, t1, t2⟩ := ls' _ gp
    rwa [misfit_unique t1 mp] at t2
  obtain rfl : s' = a1 := le_antisymm le2 le1
  have lp : Least l' (placeAt l'.prim (mix l'.prim g fun _ => [])) := ⟨_, mp, ls'⟩
  have lw : Least l (placeAt l.prim (mix l'.prim g' g)) := ⟨_, mw, ls⟩
  -- distances
  obtain ⟨is, his⟩ := ids_exists hok
  have hisW : Ids l.prim (is.filter (fun i => decide (Mine l'.prim i)) ++
      is.filter (fun i => !decide (Mine l'.prim i))) := by
    have hperm := List.filter_append_perm (fun i => decide (Mine l'.prim i)) is
    exact ⟨hperm.nodup_iff.mpr his.nodup, fun i => (hperm.mem_iff).trans (his.mem i)⟩
  have hisP : Ids l'.prim (is.filter (fun i => decide (Mine l'.prim i)) ++
      if Mine l'.prim l'.prim.value.id then [] else [l'.prim.value.id]) := by
    have hmem : ∀ i, i ∈ is.filter (fun i => decide (Mine l'.prim i)) ↔ Mine l'.prim i := by
      intro i
      rw [List.mem_filter, decide_eq_true_iff]
      refine ⟨fun h => h.2, fun h => ⟨?_, h⟩⟩
      obtain ⟨p, m, h1, h2, h3⟩ := h
      exact (his.mem i).mpr ⟨p, m, hp p m h1 h2, h3⟩
    have hsplit : ∀ i, (∃ p m, l'.prim.At p m ∧ m.value.id = i) ↔ Mine l'.prim i ∨ i = l'.prim.value.id := by
      intro i
      constructor
      · rintro ⟨p, m, h1, h2⟩
        cases p with
        | nil => cases h1; exact .inr h2.symm
        | cons k p => exact .inl ⟨_, m, by simp, h1, h2⟩
      · rintro (⟨p, m, _, h1, h2⟩ | rfl)
        · exact ⟨p, m, h1, h2⟩
        · exact ⟨[], _, .here _, rfl⟩
    refine ⟨?_, fun i => ?_⟩
    · split
      · rw [List.append_nil]; exact his.nodup.filter _
      · rename_i hr
        rw [List.nodup_append]
        refine ⟨his.nodup.filter _, by simp, ?_⟩
        rintro i hi j hj rfl
        rw [List.mem_singleton] at hj
        exact hr (hj ▸ (hmem i).mp hi)
    · rw [hsplit, List.mem_append, hmem]
      split
      · rename_i hr
        constructor
        · rintro (h | h)
          · exact .inl h
          · cases h
        · rintro (h | rfl)
          · exact .inl h
          · exact .inl hr
      · rw [List.mem_singleton]
  obtain ⟨ps, rps, cps⟩ := hisW.represents hok.wf
  obtain ⟨ps', rps', cps'⟩ := hisP.represents hok'.wf
  have e0' := part_geometry hok' hroot hp f0 e0
  obtain ⟨t1, t2, m1, m2, m3, -⟩ := near _ gw lw ps rps
  obtain ⟨t3, t4, m4, m5, m6, m7⟩ := near' _ gp lp ps' rps'
  have mg : Moved ps l.prim r t1 → Moved ps l.prim (placeAt l.prim g) t1 := by
    rintro ⟨xs, ys, h1, h2, h3⟩
    exact ⟨xs, ys, h1, coords_geometry eg h2, h3⟩
  have mg' : Moved ps' l'.prim r' t3 → Moved ps' l'.prim (placeAt l'.prim g') t3 := by
    rintro ⟨xs, ys, h1, h2, h3⟩
    exact ⟨xs, ys, h1, coords_geometry eg' h2, h3⟩
  have d1 := moved_unique hok.wf gg.ok.wf (mg m1) (hisW.moved cps f0 fg (SameGeometry.symm e0))
  have d2 := moved_unique hok.wf gw.ok.wf m2 (hisW.moved cps f0 fw (SameGeometry.symm e0))
  have d3 := moved_unique hok'.wf gg'.ok.wf (mg' m4) (hisP.moved cps' f0p fg' e0')
  have d4 := moved_unique hok'.wf gp.ok.wf m5 (hisP.moved cps' f0p fp e0')
  rw [List.map_append, List.sum_append] at d1 d2 d3 d4
  have hroot0 : ∀ g1 : Nat → List ℝ, FitsAt l'.prim g1 → ∀ g2 : Nat → List ℝ,
      (List.map (fun i => dist2 (g2 i) (g1 i)) (if Mine l'.prim l'.prim.value.id then []
        else [l'.prim.value.id])).sum = 0 := by
    intro g1 h1 g2
    split
    · rfl
    · simp only [List.map_cons, List.map_nil, List.sum_cons, List.sum_nil, add_zero]
      exact dist2_nil (by rw [h1 [] _ (.here _), hroot]; rfl)
  rw [hroot0 _ fg', add_zero] at d3
  rw [hroot0 _ fp, add_zero] at d4
  have c1 : ∀ {f1 f2 : Nat → ℝ}, (∀ i, Mine l'.prim i → f1 i = f2 i) →
      List.map f1 (is.filter fun i => decide (Mine l'.prim i))
        = List.map f2 (is.filter fun i => decide (Mine l'.prim i)) := by
    intro f1 f2 h
    exact List.map_congr_left fun i hi => h i (by simpa using (List.mem_filter.mp hi).2)
  have c2 : ∀ {f1 f2 : Nat → ℝ}, (∀ i, ¬Mine l'.prim i → f1 i = f2 i) →
      List.map f1 (is.filter fun i => !decide (Mine l'.prim i))
        = List.map f2 (is.filter fun i => !decide (Mine l'.prim i)) := by
    intro f1 f2 h
    exact List.map_congr_left fun i hi => h i (by simpa using (List.mem_filter.mp hi).2)
  rw [c1 (f2 := fun i => dist2 (g0 i) (g' i)) (fun i hi => by rw [mix_mine hi]),
    c2 (f2 := fun i => dist2 (g0 i) (g i)) (fun i hi => by rw [mix_not hi])] at d2
  rw [c1 (f2 := fun i => dist2 (g0 i) (g' i)) (fun i hi => by rw [mix_mine hi])] at d3
  rw [c1 (f2 := fun i => dist2 (g0 i) (g i)) (fun i hi => by rw [mix_mine hi, mix_mine hi])] at d4
  have same := m7 (le_antisymm (by rw [d3, d4]; rw [d1, d2] at m3; linarith) m6)
  -- the result
  intro p m' hpn hm'
  obtain ⟨n', hn'⟩ := (gd'.str.paths p).mpr ⟨m', hm'⟩
  have hn := hp p n' hpn hn'
  obtain ⟨m, hm⟩ := (gd.str.paths p).mp ⟨n', hn⟩
  obtain ⟨_, _, u3⟩ := same.2 p m' _ hm' (placeAt_at.mpr ⟨n', hn', rfl⟩)
  obtain ⟨_, _, v3⟩ := eg.2 p m _ hm (placeAt_at.mpr ⟨n', hn, rfl⟩)
  obtain ⟨x1, x2, _⟩ := gd.str.nodes p n' m hn hm
  obtain ⟨y1, y2, _⟩ := gd'.str.nodes p n' m' hn' hm'
  refine ⟨m, hm, x1.symm.trans y1, x2.symm.trans y2, ?_⟩
  rw [u3, v3, placeAt_value, placeAt_value, mix_mine ⟨p, n', hpn, hn', rfl⟩]

end part

end MplLayout.Solver
