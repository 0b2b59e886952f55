import Verif.Lemmas.Jacfwd

/-!
# Where the tangents are finite
-/

namespace MplLayout

open Flt Solver

/-- The traced number carries the value, and its tangent is finite if the value is. -/
structure FinR (c : Flt) (d : Dual) : Prop where
  val : d.val = c
  fin : ∀ a t, c = fin a → d.tan = some t → ∃ s, t = fin s

theorem addTan_some {s t : Option Flt} {r : Flt} (h : Dual.addTan s t = some r)
    (hs : ∀ a, s = some a → ∃ x, a = fin x) (ht : ∀ a, t = some a → ∃ x, a = fin x) : ∃ x, r = fin x := by
  cases s with
  | none =>
    cases t with
    | none => cases h
    | some t => cases h; exact ht _ rfl
  | some s =>
    obtain ⟨x, rfl⟩ := hs _ rfl
    cases t with
    | none => cases h; exact ⟨x, rfl⟩
    | some t =>
      obtain ⟨y, rfl⟩ := ht _ rfl
      cases h
      exact ⟨x + y, rfl⟩

/-- An operation with finite rules. -/
theorem FinR.op2 {op : Flt → Flt → Flt} {P Q : Flt → Flt → Flt → Flt} {a b : Flt} {d e : Dual} (hd : FinR a d)
    (he : FinR b e) (hop : ∀ c, op a b = Flt.fin c → ∃ x y, a = Flt.fin x ∧ b = Flt.fin y)
    (hP : ∀ x y c t, a = Flt.fin x → b = Flt.fin y → op a b = Flt.fin c → d.tan = some (Flt.fin t) →
      ∃ s, P a b (Flt.fin t) = Flt.fin s)
    (hQ : ∀ x y c t, a = Flt.fin x → b = Flt.fin y → op a b = Flt.fin c → e.tan = some (Flt.fin t) →
      ∃ s, Q a b (Flt.fin t) = Flt.fin s) :
    FinR (op a b) ⟨op d.val e.val, Dual.addTan (d.tan.map (P d.val e.val)) (e.tan.map (Q d.val e.val))⟩ := by
  refine ⟨by rw [hd.val, he.val], fun c t hc ht => ?_⟩
  obtain ⟨x, y, ex, ey⟩ := hop c hc
  simp only [hd.val, he.val] at ht
  refine addTan_some ht (fun u hu => ?_) fun u hu => ?_
  · obtain ⟨w, hw, rfl⟩ := Option.map_eq_some_iff.mp hu
    obtain ⟨s, rfl⟩ := hd.fin x w ex hw
    exact hP x y c s ex ey hc hw
  · obtain ⟨w, hw, rfl⟩ := Option.map_eq_some_iff.mp hu
    obtain ⟨s, rfl⟩ := he.fin y w ey hw
    exact hQ x y c s ex ey hc hw

theorem finR_num : NumRel FinR ValC where
  ofC := by rintro b _ rfl; exact ⟨rfl, fun _ _ _ h => nomatch h⟩
  truthy := by rintro b _ rfl; rfl
  c_zero := rfl
  c_one := rfl
  c_mul := by rintro b _ d _ rfl rfl; rfl
  c_sub := by rintro b _ d _ rfl rfl; rfl
  c_neg := by rintro b _ rfl; rfl
  add {a d b e} h h' := by
    have e' : d + e = ⟨d.val + e.val, Dual.addTan (d.tan.map fun t => t) (e.tan.map fun t => t)⟩ := by
      simp only [Option.map_id']; rfl
    rw [e']
    exact FinR.op2 (op := (· + ·)) (P := fun _ _ t => t) (Q := fun _ _ t => t) h h' (fun c h => map2_fin h)
      (fun _ _ _ t _ _ _ _ => ⟨t, rfl⟩) fun _ _ _ t _ _ _ _ => ⟨t, rfl⟩
  sub {a d b e} h h' := by
    have e' : d - e = ⟨d.val - e.val, Dual.addTan (d.tan.map fun t => t) (e.tan.map fun t => -t)⟩ := by
      simp only [Option.map_id']; rfl
    rw [e']
    exact FinR.op2 (op := (· - ·)) (P := fun _ _ t => t) (Q := fun _ _ t => -t) h h' (fun c h => map2_fin h)
      (fun _ _ _ t _ _ _ _ => ⟨t, rfl⟩) fun _ _ _ t _ _ _ _ => ⟨-t, rfl⟩
  mul h h' :=
    FinR.op2 (op := (· * ·)) (P := fun _ b t => t * b) (Q := fun a _ t => a * t) h h' (fun c h => map2_fin h)
      (fun x y c t _ hy _ _ => ⟨t * y, by rw [hy]; rfl⟩) fun x y c t hx _ _ _ => ⟨x * t, by rw [hx]; rfl⟩
  div {a d b e} h h' := by
    refine FinR.op2 (op := (· / ·)) (P := fun _ b t => t / b) (Q := fun a b t => (-t * a) * (Flt.fin 1 / (b * b))) h h'
      (fun c h => ?_) (fun x y c t hx hy hc _ => ?_) fun x y c t hx hy hc _ => ?_
    · obtain ⟨x, y, h1, h2, -⟩ := div_eq_fin h
      exact ⟨x, y, h1, h2⟩
    · obtain ⟨_, y', _, h2, hy0⟩ := div_eq_fin hc
      exact ⟨t / y', by rw [h2, fin_div hy0]⟩
    · obtain ⟨_, y', _, h2, hy0⟩ := div_eq_fin hc
      exact ⟨-t * x * (1 / (y' * y')), by rw [hx, h2, fin_mul, fin_div (mul_ne_zero hy0 hy0), fin_neg, fin_mul, fin_mul]⟩
  neg {a d} h := by
    refine ⟨by rw [← h.val]; rfl, fun c t hc ht => ?_⟩
    obtain ⟨w, hw, rfl⟩ := Option.map_eq_some_iff.mp (show d.tan.map (fun g => -g) = some t from ht)
    obtain ⟨x, rfl⟩ := map1_fin hc
    obtain ⟨s, rfl⟩ := h.fin x w rfl hw
    exact ⟨-s, rfl⟩
  natCast _ := ⟨rfl, fun _ _ _ h => nomatch h⟩

/-- Primitives at which the rules are finite. -/
def FinG (zero dir : Prop) (p : Prim Flt) : Prop := (zero → Prim.NoZeroLines p) ∧ (dir → Prim.HasDirections p)

theorem Prim.HasDirections.child {p : Prim Flt} (h : Prim.HasDirections p) {k : Str} {q : Prim Flt}
    (hq : p.getChild k = .ok q) : Prim.HasDirections q := by
  intro path m a b hm
  rw [Node.getChild_ok_iff] at hq
  exact h _ m a b (Node.At.trans (Node.At_of_find hq) hm)

variable {zero dir : Prop}

theorem finG_child : ChildOK (FinG zero dir) :=
  fun _ _ _ h e => ⟨fun hz => (h.1 hz).child e, fun hd => (h.2 hd).child e⟩

theorem finR_zero (hz : zero) : ZeroOK FinR (FinG zero dir) := by
  intro p p' h hG v v' e e'
  have hw := lineVec1_rel finR_num h
  rw [e, e'] at hw
  have hw : LRel FinR v v' := hw
  have hs := sumList_rel finR_num (LRel.map hw fun _ _ h => finR_num.mul h h)
  refine ⟨congrArg PyNum.sqrt hs.val, fun a t ha ht => ?_⟩
  obtain ⟨w, hw', rfl⟩ := Option.map_eq_some_iff.mp ht
  obtain ⟨u, w0, ev, es⟩ := lineVector_flt e
  rcases hG.1 hz [] _ u w0 (.here _) ev v es with rfl | hnz
  · cases hw
    cases hw'
  · have h0 := sumSq_ne hnz
    rw [← hs.val] at ha h0
    cases hx : (Arr.sumList (v'.map fun x => x * x)).val with
    | bad => rw [hx] at ha; cases ha
    | fin x =>
      rw [hx] at ha h0
      have hx0 : 0 ≤ x := by
        by_contra hx0
        have : PyNum.sqrt (Flt.fin x) = bad := if_pos (not_le.mp hx0)
        rw [this] at ha; cases ha
      have hp : 0 < x := lt_of_le_of_ne hx0 fun h => h0 (by rw [← h])
      obtain ⟨s, rfl⟩ := hs.fin x w (by rw [← hs.val, hx]) hw'
      refine ⟨s * (1 / 2 / Real.sqrt x), ?_⟩
      rw [fin_sqrt hx0, fin_div (Real.sqrt_pos.mpr hp).ne', fin_mul]

theorem unit_dir {q : Prim Flt} (h : Prim.HasDirections q) {d : Arr Flt} (e : con.unitLineVectorA [q] = .ok d)
    (h0 : d.get 0 = .ok (fin 0)) (h1 : d.get 1 = .ok (fin 0)) : False := by
  simp only [con.unitLineVectorA, py_bind_ok] at e
  obtain ⟨w, e1, e2⟩ := e
  obtain ⟨w, rfl⟩ := lineVector_vec e1
  obtain ⟨p, q, ev, es⟩ := lineVector_flt e1
  have hd : d = .vec (w.map fun x => x / PyNum.sqrt (Arr.sumList (w.map fun x => x * x))) := by
    simp only [Arr.div, Arr.norm, Arr.binop, Except.ok.injEq] at e2
    exact e2.symm
  subst hd
  rcases w with _ | ⟨x, _ | ⟨y, w⟩⟩
  · cases h1
  · cases h1
  · have i1 : y / _ = fin 0 := Except.ok.inj h1
    have i0 : x / _ = fin 0 := Except.ok.inj h0
    obtain ⟨y, m, rfl, e4, hm, e5⟩ := div_fin i1
    obtain ⟨x, m', rfl, e7, hm', e8⟩ := div_fin i0
    have hy : y = 0 := (div_eq_zero_iff.mp e5.symm).resolve_right hm
    have hx : x = 0 := (div_eq_zero_iff.mp e8.symm).resolve_right hm'
    subst hx hy
    exact h [] _ p q (.here _) ev w es

theorem finR_ang (hz : zero) (hd : dir) : AngOK FinR (FinG zero dir) := by
  intro p p' h hG d d' e e' a b a' b' e1 e2 e3 e4
  have hu := unit1_rel finR_num (finR_zero hz) h hG
  rw [e, e'] at hu
  have ha := get_rel (R := FinR) hu 0
  have hb := get_rel (R := FinR) hu 1
  rw [e1, e3] at ha
  rw [e2, e4] at hb
  have ha : FinR a a' := ha
  have hb : FinR b b' := hb
  have hne : ∀ y x, b = Flt.fin y → a = Flt.fin x → y * y + x * x ≠ 0 := by
    rintro y x rfl rfl h0
    have hy : y = 0 := by nlinarith [mul_self_nonneg x, mul_self_nonneg y]
    have hx : x = 0 := by nlinarith [mul_self_nonneg x, mul_self_nonneg y]
    subst hx hy
    exact unit_dir (hG.2 hd) e e1 e2
  refine FinR.op2 (op := PyNum.atan2) (P := fun a b t => t * (b / (a * a + b * b)))
    (Q := fun a b t => t * (-a / (a * a + b * b))) hb ha (fun c h => map2_fin h)
    (fun y x c t ey ex _ _ => ?_) fun y x c t ey ex _ _ => ?_
  · have := hne y x ey ex
    subst ey ex
    exact ⟨_, by rw [fin_mul, fin_mul, fin_add, fin_div this, fin_mul]⟩
  · have := hne y x ey ex
    subst ey ex
    exact ⟨_, by rw [fin_mul, fin_mul, fin_add, fin_neg, fin_div this, fin_mul]⟩

/-- The tangents of the residual are finite. -/
theorem finR_res (id : Nat) (prog : List BuildCall) (base : Nat) (zero dir : Prop)
    (hs : Uses prog fun s => (s.MeasuresLength → zero) ∧ (s = .angle → dir)) {x : List Flt} {d : List Dual}
    (h : LRel FinR x d)
    (hg : ∀ root, rebuild (builtLayout id prog) base x = .ok root → ∀ k q, root.getChild k = .ok q → FinG zero dir q) :
    PyRel (LRel FinR) (globalRes (builtLayout id prog) base x) (globalRes (tracedLayout id prog) base d) := by
  have hl : LyRel FinR ValC (FinG zero dir) (builtLayout id prog) (tracedLayout id prog) :=
    layout_rel finR_num (fun _ => rfl) id prog fun s ks ps key hm =>
      ⟨fun h => finR_zero ((hs s ks ps key hm).1 h), fun h => by
        subst h
        exact finR_ang ((hs _ ks ps key hm).1 trivial) ((hs _ ks ps key hm).2 rfl), fun _ => finG_child⟩
  exact globalRes_rel hl base h fun root e k q hq => hg root e k q hq

theorem seed_finR (x : List Flt) (j : Nat) : LRel FinR x (Dual.seed x j) := by
  have : LRel FinR x (x.mapIdx fun i a => (⟨a, some (if i = j then fin 1 else fin 0)⟩ : Dual)) := by
    refine List.forall₂_iff_get.mpr ⟨by simp, fun i h1 h2 => ⟨by simp, fun a t _ ht => ?_⟩⟩
    simp only [List.get_eq_getElem, List.getElem_mapIdx, Option.some.injEq] at ht
    split at ht
    · exact ⟨1, ht.symm⟩
    · exact ⟨0, ht.symm⟩
  exact this

end MplLayout
