import Verif.Lemmas.ShippedFits
import Verif.Spec.Sizes

/-! Output sizes of the shipped constructions. -/

namespace MplLayout

open Cons

variable {parts : List (Str × PrimType)}

/-- A primitive that constructions can use. -/
structure Sound (parts : List (Str × PrimType)) (p : Prim Flt) : Prop where
  shaped : p.Shaped parts
  planar : p.Planar

theorem Sound.child {p q : Prim Flt} (h : Sound parts p) {path : List Str} (ha : p.At path q) :
    Sound parts q :=
  ⟨h.shaped.child ha, fun path' n hn => h.planar (path ++ path') n (ha.trans hn)⟩

theorem resolve_At {K : Type} {prims : List (Prim K)} {key : Str} {q : Prim K}
    (h : resolve prims key = .ok q) : ∃ p ∈ prims, ∃ path, p.At path q := by
  unfold resolve at h
  split at h
  · cases h
  · split at h
    · cases h
    · split at h
      · cases h
      · next p hp =>
        refine ⟨p, List.mem_of_getElem? hp, ?_⟩
        split at h
        · cases h; exact ⟨[], .here _⟩
        · rw [Node.getChild_ok_iff] at h
          exact ⟨_, Node.At_of_find h⟩

/-- The construction's nodes all return what they declare. -/
def SizedFor (parts : List (Str × PrimType)) (c : Cons Flt) (ps : List (Param Flt)) : Prop :=
  ∀ prims, List.Forall₂ (fun (p : Prim Flt) t => p.ty.IsA t) prims c.value.sig.primTypes →
    (∀ p ∈ prims, Sound parts p) → c.Sized prims ps

/-- The construction itself returns what it declares. -/
def OwnSized (parts : List (Str × PrimType)) (c : Cons Flt) (ps : List (Param Flt)) : Prop :=
  ∀ prims own, List.Forall₂ (fun (p : Prim Flt) t => p.ty.IsA t) prims c.value.sig.primTypes →
    (∀ p ∈ prims, Sound parts p) → c.ty.assem prims ps = .ok own →
      own.atleast1d.length = c.value.sig.valueSize

theorem OwnSized.leaf {c : Cons Flt} {ps : List (Param Flt)} (h : OwnSized parts c ps)
    (hc : c.children = []) : SizedFor parts c ps := by
  cases c with
  | mk t v cs =>
    simp only [Node.children_mk] at hc
    subst hc
    intro prims h1 h2
    exact ⟨fun own e => h prims own h1 h2 e, fun pss _ => by simp [SizedL]⟩

theorem pyMap_ok_forall₂ {α β : Type} {f : α → Py β} : ∀ {xs : List α} {ys : List β},
    pyMap f xs = .ok ys → List.Forall₂ (fun x y => f x = .ok y) xs ys
  | [], ys, h => by cases h; exact .nil
  | x :: xs, ys, h => by
    simp only [pyMap, py_bind_ok] at h
    obtain ⟨y, h1, ys', h2, h3⟩ := h
    cases h3
    exact .cons h1 (pyMap_ok_forall₂ h2)

theorem SizedFor.compound {cls : ConsClass Flt} {v : ConsVal Flt} {cs : List (Str × Cons Flt)}
    {ps : List (Param Flt)} (hs : ∀ kt ∈ parts, '/' ∉ kt.1)
    (h0 : OwnSized parts (.mk cls v cs) ps)
    (hty : KTypedL parts v.sig.primTypes cs v.childPrimKeys)
    (hp : ∀ pss, v.childParams ps = .ok pss → ∀ (i : Nat) kc q, cs[i]? = some kc → pss[i]? = some q →
      kc.2.KTyped parts → SizedFor parts kc.2 q) :
    SizedFor parts (.mk cls v cs) ps := by
  intro prims h1 h2
  refine ⟨fun own e => h0 prims own h1 h2 e, fun pss e => ?_⟩
  replace hp := hp pss e
  simp only [Node.value_mk] at h1
  generalize v.childPrimKeys = kss at hty
  clear h0 e
  induction cs generalizing kss pss with
  | nil => simp [SizedL]
  | cons kc cs ih =>
    obtain ⟨k, c⟩ := kc
    cases kss with
    | nil => simp [SizedL]
    | cons ks kss =>
      cases pss with
      | nil => simp [SizedL]
      | cons q pss =>
        simp only [KTypedL] at hty
        obtain ⟨t1, t2, t3⟩ := hty
        simp only [SizedL]
        refine ⟨?_, ih _ (fun i kc q e1 e2 => hp (i + 1) kc q (by simpa using e1) (by simpa using e2)) _ t3⟩
        intro cps hcps
        have hr := pyMap_ok_forall₂ hcps
        refine hp 0 (k, c) q rfl rfl t2 cps ?_ ?_
        · clear hcps t2 t3 ih hp
          generalize c.value.sig.primTypes = us at t1
          show List.Forall₂ _ cps us
          induction t1 generalizing cps with
          | nil => cases hr; exact .nil
          | cons t1 _ ih2 =>
            cases hr with
            | cons r1 r2 =>
              refine .cons ?_ (ih2 _ r2)
              obtain ⟨q', f1, f2, _⟩ := shaped_refType hs h1 (fun p hp => (h2 p hp).shaped) t1
              rw [r1] at f1; cases f1; exact f2
        · intro p hp'
          clear hp ih t1 t2 t3 hcps
          induction hr with
          | nil => cases hp'
          | cons r1 _ ih2 =>
            rcases List.mem_cons.mp hp' with rfl | hp'
            · obtain ⟨p0, g1, _, g2⟩ := resolve_At r1
              exact (h2 p0 g1).child g2
            · exact ih2 hp'

/-! ## Leaves -/

theorem forall₂_one {α β : Type} {R : α → β → Prop} {xs : List α} {b : β}
    (h : List.Forall₂ R xs [b]) : ∃ a, xs = [a] ∧ R a b := by
  cases h with
  | cons h h' => cases h'; exact ⟨_, rfl, h⟩

theorem forall₂_two {α β : Type} {R : α → β → Prop} {xs : List α} {b c : β}
    (h : List.Forall₂ R xs [b, c]) : ∃ a d, xs = [a, d] ∧ R a b ∧ R d c := by
  cases h with
  | cons h h' => obtain ⟨d, rfl, hd⟩ := forall₂_one h'; exact ⟨_, d, rfl, h, hd⟩

theorem point_two {p : Prim Flt} (hs : Sound parts p) (h : p.ty.IsA .point) :
    ∃ a b, p.value.arr = [a, b] := by
  have := hs.planar [] p (.here p) h
  match hv : p.value.arr with
  | [a, b] => exact ⟨a, b, rfl⟩
  | [] | [_] | _ :: _ :: _ :: _ => rw [hv] at this; simp at this

theorem line_child {l : Prim Flt} (hs : Sound parts l) (h : l.ty.IsA .line) {k : Str}
    (hk : k ∈ [k!"Point0", k!"Point1"]) : ∃ q, dictGet l.children k = some q ∧ q.ty.IsA .point ∧
      Sound parts q := by
  obtain ⟨q, hq, hty⟩ := (hs.shaped [] l (.here l)).1 h k hk
  have hn : '/' ∉ k := by
    simp only [List.mem_cons, List.not_mem_nil, or_false] at hk
    rcases hk with rfl | rfl <;> decide
  rw [Node.getChild_ok_iff, splitAll_noslash hn] at hq
  have ha := Node.At_of_find hq
  simp only [Node.find] at hq
  cases hd : dictGet l.children k with
  | none => simp [hd] at hq
  | some q' =>
    simp only [hd, Option.some.injEq] at hq
    subst hq
    exact ⟨q', rfl, hty, hs.child ha⟩

theorem line_getChild {l : Prim Flt} (hs : Sound parts l) (h : l.ty.IsA .line) {k : Str}
    (hk : k ∈ [k!"Point0", k!"Point1"]) {q : Prim Flt} (e : l.getChild k = .ok q) :
    ∃ a b, q.value.arr = [a, b] := by
  obtain ⟨q', e', hty⟩ := (hs.shaped [] l (.here l)).1 h k hk
  rw [e] at e'
  cases e'
  rw [Node.getChild_ok_iff] at e
  exact point_two (hs.child (Node.At_of_find e)) hty

theorem line_values {l : Prim Flt} (hs : Sound parts l) (h : l.ty.IsA .line) {a b : Prim Flt}
    (e : l.values = [a, b]) :
    (∃ x y, a.value.arr = [x, y]) ∧ ∃ x y, b.value.arr = [x, y] := by
  obtain ⟨q0, d0, t0, s0⟩ := line_child hs h (k := k!"Point0") (by simp)
  obtain ⟨q1, d1, t1, s1⟩ := line_child hs h (k := k!"Point1") (by simp)
  cases l with
  | mk t v cs =>
    simp only [Node.values, Node.children_mk] at e d0 d1
    match cs, e with
    | [(k0, a'), (k1, b')], e =>
      simp only [List.map_cons, List.map_nil, List.cons.injEq, and_true] at e
      obtain ⟨rfl, rfl⟩ := e
      have P0 := point_two s0 t0
      have P1 := point_two s1 t1
      simp only [dictGet] at d0 d1
      by_cases hk : k0 = k!"Point0"
      · subst hk
        have : k!"Point0" ≠ k!"Point1" := by decide
        simp only [if_true, if_neg this, Option.some.injEq] at d0 d1
        split at d1 <;> cases d1
        subst d0
        exact ⟨P0, P1⟩
      · simp only [if_neg hk] at d0
        by_cases hk1 : k1 = k!"Point0"
        · subst hk1
          have : k!"Point0" ≠ k!"Point1" := by decide
          simp only [if_true, if_neg this, Option.some.injEq] at d0 d1
          split at d1 <;> cases d1
          subst d0
          exact ⟨P1, P0⟩
        · simp [hk1] at d0

theorem sub_two (a b c d : Flt) :
    Arr.sub (.vec [a, b]) (.vec [c, d]) = .ok (.vec [a - c, b - d]) := rfl

theorem lineVector_two {l : Prim Flt} (hs : Sound parts l) (h : l.ty.IsA .line) {v : Arr Flt}
    (e : con.lineVectorA [l] = .ok v) : ∃ x y, v = .vec [x, y] := by
  unfold con.lineVectorA at e
  simp only at e
  split at e
  · next a b hv =>
    obtain ⟨⟨x, y, h1⟩, x', y', h2⟩ := line_values hs h hv
    simp only [con.coordinateA, h1, h2, bind, Except.bind, sub_two] at e
    cases e
    exact ⟨_, _, rfl⟩
  · cases e

theorem dot_two {x y : Flt} {d : List Flt} {own : Arr Flt} (e : Arr.dot (.vec [x, y]) (.vec d) = .ok own) :
    ∃ z, own = .scalar z := by
  simp only [Arr.dot] at e
  split at e <;> cases e
  exact ⟨_, rfl⟩

theorem unit_two {l : Prim Flt} (hs : Sound parts l) (h : l.ty.IsA .line) {v : Arr Flt}
    (e : con.unitLineVectorA [l] = .ok v) : ∃ x y, v = .vec [x, y] := by
  simp only [con.unitLineVectorA, py_bind_ok] at e
  obtain ⟨w, h1, h2⟩ := e
  obtain ⟨x, y, rfl⟩ := lineVector_two hs h h1
  cases h2
  exact ⟨_, _, rfl⟩

theorem mid_two {l : Prim Flt} (hs : Sound parts l) (h : l.ty.IsA .line) {v : Arr Flt}
    (e : con.midpointA [l] = .ok v) : ∃ x y, v = .vec [x, y] := by
  simp only [con.midpointA, py_bind_ok] at e
  obtain ⟨p0, h0, p1, h1, a, ha, b, hb, s, hs', h2⟩ := e
  obtain ⟨x, y, e0⟩ := line_getChild hs h (by simp) h0
  obtain ⟨x', y', e1⟩ := line_getChild hs h (by simp) h1
  simp only [con.coordinateA, e0, e1] at ha hb
  cases ha; cases hb; cases hs'; cases h2
  exact ⟨_, _, rfl⟩

theorem length_one {l : Prim Flt} {v : Arr Flt} (e : con.lengthA [l] = .ok v) : ∃ x, v = .scalar x := by
  simp only [con.lengthA, py_bind_ok] at e
  obtain ⟨_, _, _, _, e⟩ := e
  cases e
  exact ⟨_, rfl⟩

theorem own_leaf0 {name : Str} {types : List PrimType} {size : Nat} {f : List (Prim Flt) → Py (Arr Flt)}
    (h : ∀ prims own, List.Forall₂ (fun (p : Prim Flt) t => p.ty.IsA t) prims types →
      (∀ p ∈ prims, Sound parts p) → f prims = .ok own → own.atleast1d.length = size)
    (ps : List (Param Flt)) : OwnSized parts (con.leaf0 name types size f) ps := by
  intro prims own h1 h2 e
  cases ps with
  | nil => exact h prims own h1 h2 e
  | cons _ _ => cases e

theorem own_leaf1 {name : Str} {types : List PrimType} {pt : ParamType} {size : Nat}
    {f : List (Prim Flt) → Param Flt → Py (Arr Flt)} {ps : List (Param Flt)}
    (h : ∀ prims own q, ps = [q] → List.Forall₂ (fun (p : Prim Flt) t => p.ty.IsA t) prims types →
      (∀ p ∈ prims, Sound parts p) → f prims q = .ok own → own.atleast1d.length = size) :
    OwnSized parts (con.leaf1 name types pt size f) ps := by
  intro prims own h1 h2 e
  match ps, e with
  | [q], e => exact h prims own q rfl h1 h2 e
  | [], e => cases e
  | _ :: _ :: _, e => cases e

theorem own_coordinate (ps : List (Param Flt)) : OwnSized parts con.coordinate ps :=
  own_leaf0 (fun prims own h1 h2 e => by
    obtain ⟨p, rfl, hp⟩ := forall₂_one h1
    obtain ⟨x, y, hv⟩ := point_two (h2 p (by simp)) hp
    simp only [con.coordinateA, hv] at e
    cases e; rfl) ps

theorem directedDistance_own {d : List Flt} {prims : List (Prim Flt)} {own : Arr Flt}
    (h1 : List.Forall₂ (fun (p : Prim Flt) t => p.ty.IsA t) prims [.point, .point])
    (h2 : ∀ p ∈ prims, Sound parts p) (e : con.directedDistanceA (.vec d) prims = .ok own) :
    own.atleast1d.length = 1 := by
  obtain ⟨p, q, rfl, hp, hq⟩ := forall₂_two h1
  obtain ⟨x, y, hv⟩ := point_two (h2 p (by simp)) hp
  obtain ⟨x', y', hw⟩ := point_two (h2 q (by simp)) hq
  simp only [con.directedDistanceA, hv, hw, sub_two, bind, Except.bind] at e
  obtain ⟨z, rfl⟩ := dot_two e
  rfl

theorem directedLength_own {d : List Flt} {prims : List (Prim Flt)} {own : Arr Flt}
    (h1 : List.Forall₂ (fun (p : Prim Flt) t => p.ty.IsA t) prims [.line])
    (h2 : ∀ p ∈ prims, Sound parts p) (e : con.directedLengthA (.vec d) prims = .ok own) :
    own.atleast1d.length = 1 := by
  obtain ⟨l, rfl, hl⟩ := forall₂_one h1
  simp only [con.directedLengthA, py_bind_ok] at e
  obtain ⟨v, e1, e2⟩ := e
  obtain ⟨x, y, rfl⟩ := lineVector_two (h2 l (by simp)) hl e1
  obtain ⟨z, rfl⟩ := dot_two e2
  rfl

theorem midDirected_own {d : List Flt} {prims : List (Prim Flt)} {own : Arr Flt}
    (h1 : List.Forall₂ (fun (p : Prim Flt) t => p.ty.IsA t) prims [.line, .line])
    (h2 : ∀ p ∈ prims, Sound parts p) (e : con.midpointDirectedDistanceA (.vec d) prims = .ok own) :
    own.atleast1d.length = 1 := by
  obtain ⟨l, m, rfl, hl, hm⟩ := forall₂_two h1
  simp only [con.midpointDirectedDistanceA, py_bind_ok] at e
  obtain ⟨v, e1, w, e2, u, e3, e4⟩ := e
  obtain ⟨x, y, rfl⟩ := mid_two (h2 m (by simp)) hm e1
  obtain ⟨x', y', rfl⟩ := mid_two (h2 l (by simp)) hl e2
  rw [sub_two] at e3
  cases e3
  obtain ⟨z, rfl⟩ := dot_two e4
  rfl

theorem own_xDistance (ps : List (Param Flt)) : OwnSized parts con.xDistance ps :=
  own_leaf0 (fun _ _ => directedDistance_own) ps
theorem own_yDistance (ps : List (Param Flt)) : OwnSized parts con.yDistance ps :=
  own_leaf0 (fun _ _ => directedDistance_own) ps
theorem own_xLength (ps : List (Param Flt)) : OwnSized parts con.xLength ps :=
  own_leaf0 (fun _ _ => directedLength_own) ps
theorem own_yLength (ps : List (Param Flt)) : OwnSized parts con.yLength ps :=
  own_leaf0 (fun _ _ => directedLength_own) ps
theorem own_midpointXDistance (ps : List (Param Flt)) : OwnSized parts con.midpointXDistance ps :=
  own_leaf0 (fun _ _ => midDirected_own) ps
theorem own_midpointYDistance (ps : List (Param Flt)) : OwnSized parts con.midpointYDistance ps :=
  own_leaf0 (fun _ _ => midDirected_own) ps

theorem own_lineVector (ps : List (Param Flt)) : OwnSized parts con.lineVector ps :=
  own_leaf0 (fun prims own h1 h2 e => by
    obtain ⟨l, rfl, hl⟩ := forall₂_one h1
    obtain ⟨x, y, rfl⟩ := lineVector_two (h2 l (by simp)) hl e
    rfl) ps
theorem own_unitLineVector (ps : List (Param Flt)) : OwnSized parts con.unitLineVector ps :=
  own_leaf0 (fun prims own h1 h2 e => by
    obtain ⟨l, rfl, hl⟩ := forall₂_one h1
    obtain ⟨x, y, rfl⟩ := unit_two (h2 l (by simp)) hl e
    rfl) ps
theorem own_midpoint (ps : List (Param Flt)) : OwnSized parts con.midpoint ps :=
  own_leaf0 (fun prims own h1 h2 e => by
    obtain ⟨l, rfl, hl⟩ := forall₂_one h1
    obtain ⟨x, y, rfl⟩ := mid_two (h2 l (by simp)) hl e
    rfl) ps
theorem own_length (ps : List (Param Flt)) : OwnSized parts con.length ps :=
  own_leaf0 (fun prims own h1 h2 e => by
    obtain ⟨l, rfl, hl⟩ := forall₂_one h1
    obtain ⟨x, rfl⟩ := length_one e
    rfl) ps
theorem own_angle (ps : List (Param Flt)) : OwnSized parts con.angle ps :=
  own_leaf0 (fun prims own h1 h2 e => by
    obtain ⟨l, m, rfl, hl, hm⟩ := forall₂_two h1
    simp only [con.angleA, py_bind_ok] at e
    obtain ⟨_, _, _, _, _, _, _, _, _, _, _, _, e⟩ := e
    cases e; rfl) ps
theorem own_aspectRatio (ps : List (Param Flt)) : OwnSized parts con.aspectRatio ps :=
  own_leaf0 (fun prims own h1 h2 e => by
    obtain ⟨q, rfl, hq⟩ := forall₂_one h1
    simp only [con.aspectRatioA, py_bind_ok] at e
    obtain ⟨_, _, _, e1, _, _, _, e2, e⟩ := e
    obtain ⟨x, rfl⟩ := length_one e1
    obtain ⟨y, rfl⟩ := length_one e2
    cases e; rfl) ps

theorem own_directedDistance (d : List Flt) : OwnSized parts con.directedDistance [.arr d] :=
  own_leaf1 fun prims own q hq h1 h2 e => by
    cases hq
    exact directedDistance_own h1 h2 e
theorem own_directedLength (d : List Flt) : OwnSized parts con.directedLength [.arr d] :=
  own_leaf1 fun prims own q hq h1 h2 e => by
    cases hq
    exact directedLength_own h1 h2 e
theorem own_midpointDirectedDistance (d : List Flt) :
    OwnSized parts con.midpointDirectedDistance [.arr d] :=
  own_leaf1 fun prims own q hq h1 h2 e => by
    cases hq
    exact midDirected_own h1 h2 e

theorem pointOnLine_own {p l : Prim Flt} {q : Param Flt} {own : Arr Flt} (hp : p.ty.IsA .point)
    (hl : l.ty.IsA .line) (sp : Sound parts p) (sl : Sound parts l)
    (e : con.pointOnLineDistanceA [p, l] q = .ok own) : ∃ z, own = .scalar z := by
  simp only [con.pointOnLineDistanceA, py_bind_ok] at e
  obtain ⟨r, _, u, e1, o, e2, d, e3, e4⟩ := e
  obtain ⟨x, y, rfl⟩ := unit_two sl hl e1
  obtain ⟨a, b, hv⟩ := point_two sp hp
  obtain ⟨a', b', hw⟩ := line_getChild sl hl (by cases r <;> simp) e2
  rw [hv, hw, sub_two] at e3
  cases e3
  have : ∃ d, (if r = true then Arr.neg (.vec [x, y]) else .vec [x, y]) = .vec d := by
    cases r <;> exact ⟨_, rfl⟩
  obtain ⟨d, hd⟩ := this
  rw [hd] at e4
  exact dot_two e4

theorem own_pointOnLineDistance (ps : List (Param Flt)) : OwnSized parts con.pointOnLineDistance ps :=
  own_leaf1 fun prims own q _ h1 h2 e => by
    obtain ⟨p, l, rfl, hp, hl⟩ := forall₂_two h1
    obtain ⟨z, rfl⟩ := pointOnLine_own hp hl (h2 p (by simp)) (h2 l (by simp)) e
    rfl

theorem own_relativePointOnLineDistance (ps : List (Param Flt)) :
    OwnSized parts con.relativePointOnLineDistance ps :=
  own_leaf1 fun prims own q _ h1 h2 e => by
    obtain ⟨p, l, rfl, hp, hl⟩ := forall₂_two h1
    simp only [con.relativePointOnLineDistanceA, py_bind_ok] at e
    obtain ⟨d, e1, n, e2, k, e3, e4⟩ := e
    obtain ⟨z, rfl⟩ := pointOnLine_own hp hl (h2 p (by simp)) (h2 l (by simp)) e1
    obtain ⟨x, rfl⟩ := length_one e2
    cases e3; cases e4; rfl

theorem own_pointToLineDistance (ps : List (Param Flt)) : OwnSized parts con.pointToLineDistance ps :=
  own_leaf1 fun prims own q _ h1 h2 e => by
    obtain ⟨p, l, rfl, hp, hl⟩ := forall₂_two h1
    simp only [con.pointToLineDistanceA, py_bind_ok] at e
    obtain ⟨u, e1, r, _, c, e2, o, e3, g, e4, d, e5, e6⟩ := e
    obtain ⟨x, y, rfl⟩ := unit_two (h2 l (by simp)) hl e1
    obtain ⟨a, b, hv⟩ := point_two (h2 p (by simp)) hp
    obtain ⟨a', b', hw⟩ := line_getChild (h2 l (by simp)) hl (by simp) e4
    rw [hv, hw, sub_two] at e5
    cases e5
    have : ∃ t, o = .vec t := by
      cases r <;> (cases e2; cases e3; exact ⟨_, rfl⟩)
    obtain ⟨t, rfl⟩ := this
    obtain ⟨z, rfl⟩ := dot_two e6
    rfl

theorem own_coincident (ps : List (Param Flt)) : OwnSized parts ct.coincident ps :=
  own_leaf0 (fun prims own h1 h2 e => by
    obtain ⟨p, q, rfl, hp, hq⟩ := forall₂_two h1
    obtain ⟨x, y, hv⟩ := point_two (h2 p (by simp)) hp
    obtain ⟨x', y', hw⟩ := point_two (h2 q (by simp)) hq
    simp only [ct.coincidentA, hv, hw, sub_two] at e
    cases e; rfl) ps

theorem own_vertical (ps : List (Param Flt)) : OwnSized parts ct.vertical ps :=
  own_leaf0 (fun prims own h1 h2 e => by
    obtain ⟨l, rfl, hl⟩ := forall₂_one h1
    simp only [ct.verticalA, py_bind_ok] at e
    obtain ⟨v, e1, e2⟩ := e
    obtain ⟨x, y, rfl⟩ := lineVector_two (h2 l (by simp)) hl e1
    obtain ⟨z, rfl⟩ := dot_two e2
    rfl) ps
theorem own_horizontal (ps : List (Param Flt)) : OwnSized parts ct.horizontal ps :=
  own_leaf0 (fun prims own h1 h2 e => by
    obtain ⟨l, rfl, hl⟩ := forall₂_one h1
    simp only [ct.horizontalA, py_bind_ok] at e
    obtain ⟨v, e1, e2⟩ := e
    obtain ⟨x, y, rfl⟩ := lineVector_two (h2 l (by simp)) hl e1
    obtain ⟨z, rfl⟩ := dot_two e2
    rfl) ps
theorem own_orthogonal (ps : List (Param Flt)) : OwnSized parts ct.orthogonal ps :=
  own_leaf0 (fun prims own h1 h2 e => by
    obtain ⟨l, m, rfl, hl, hm⟩ := forall₂_two h1
    simp only [ct.orthogonalA, py_bind_ok] at e
    obtain ⟨v, e1, w, e2, e3⟩ := e
    obtain ⟨x, y, rfl⟩ := lineVector_two (h2 l (by simp)) hl e1
    obtain ⟨x', y', rfl⟩ := lineVector_two (h2 m (by simp)) hm e2
    obtain ⟨z, rfl⟩ := dot_two e3
    rfl) ps

theorem cross_two {a b : Arr Flt} {x y x' y' : Flt} (h : a = .vec [x, y]) (h' : b = .vec [x', y'])
    {own : Arr Flt} (e : Arr.cross a b = .ok own) : ∃ z, own = .scalar z := by
  subst h h'
  cases e
  exact ⟨_, rfl⟩

theorem own_parallel (ps : List (Param Flt)) : OwnSized parts ct.parallel ps :=
  own_leaf0 (fun prims own h1 h2 e => by
    obtain ⟨l, m, rfl, hl, hm⟩ := forall₂_two h1
    simp only [ct.parallelA, py_bind_ok] at e
    obtain ⟨v, e1, w, e2, e3⟩ := e
    obtain ⟨x, y, h⟩ := lineVector_two (h2 l (by simp)) hl e1
    obtain ⟨x', y', h'⟩ := lineVector_two (h2 m (by simp)) hm e2
    obtain ⟨z, rfl⟩ := cross_two h h' e3
    rfl) ps

theorem own_collinear (ps : List (Param Flt)) : OwnSized parts ct.collinear ps :=
  own_leaf0 (fun prims own h1 h2 e => by
    obtain ⟨l, m, rfl, hl, hm⟩ := forall₂_two h1
    have sl := h2 l (by simp)
    have sm := h2 m (by simp)
    simp only [ct.collinearA, py_bind_ok] at e
    obtain ⟨q, eq, p, ep, l2, e2, a, ea, b, eb, e3⟩ := e
    have hmv : ∃ m0 m1, m.values = [m0, m1] := by
      simp only [ct.parallelA, py_bind_ok] at ea
      obtain ⟨_, _, w, ew, _⟩ := ea
      simp only [con.lineVectorA] at ew
      split at ew
      · next a b h => exact ⟨a, b, h⟩
      · cases ew
    have hlv : ∃ m0 m1, l.values = [m0, m1] := by
      simp only [ct.parallelA, py_bind_ok] at ea
      obtain ⟨w, ew, _⟩ := ea
      simp only [con.lineVectorA] at ew
      split at ew
      · next a b h => exact ⟨a, b, h⟩
      · cases ew
    obtain ⟨m0, m1, hm'⟩ := hmv
    obtain ⟨l0, l1, hl'⟩ := hlv
    have eq' : q = m0 := by
      rw [Node.getInt, hm'] at eq; cases eq; rfl
    have ep' : p = l0 := by
      rw [Node.getInt, hl'] at ep; cases ep; rfl
    subst eq' ep'
    obtain ⟨⟨x, y, hq⟩, _⟩ := line_values sm hm hm'
    obtain ⟨⟨x', y', hp⟩, _⟩ := line_values sl hl hl'
    have hl2 : l2.values = [q, p] := by
      rw [((primInit_ok (by decide)).mp e2).2.2]
      rfl
    have hv2 : con.lineVectorA [l2] = .ok (.vec [x' - x, y' - y]) := by
      simp only [con.lineVectorA, hl2, con.coordinateA, hq, hp, bind, Except.bind, sub_two]
    simp only [ct.parallelA, py_bind_ok] at ea eb
    obtain ⟨v, f1, w, f2, f3⟩ := ea
    obtain ⟨v', g1, w', g2, g3⟩ := eb
    obtain ⟨_, _, hv⟩ := lineVector_two sl hl f1
    obtain ⟨_, _, hw⟩ := lineVector_two sm hm f2
    obtain ⟨_, _, hv'⟩ := lineVector_two sl hl g1
    rw [hv2] at g2
    obtain ⟨_, rfl⟩ := cross_two hv hw f3
    obtain ⟨_, rfl⟩ := cross_two hv' (Except.ok.inj g2).symm g3
    cases e3
    rfl) ps

/-! ## Sums -/

theorem binop_size {f : Flt → Flt → Flt} {x y own : Arr Flt} {n : Nat}
    (hx : x.atleast1d.length = n) (hy : ∀ ys, y = .vec ys → ys.length = 1 ∨ ys.length = n)
    (e : Arr.binop f x y = .ok own) : own.atleast1d.length = n := by
  subst hx
  cases x with
  | scalar x =>
    cases y with
    | scalar y => cases e; rfl
    | vec ys =>
      cases e
      rcases hy ys rfl with h | h <;> simpa [Arr.atleast1d] using h
  | vec xs =>
    cases y with
    | scalar y => cases e; simp [Arr.atleast1d]
    | vec ys =>
      simp only [Arr.binop] at e
      split at e
      · next h => cases e; simp [Arr.atleast1d, h]
      · next h =>
        rcases hy ys rfl with h' | h'
        · split at e
          · simp [h'] at h
          · cases e; simp [Arr.atleast1d]
          · cases e
        · exact absurd h'.symm h

theorem negVec_assem (c : Cons Flt) (p : Param Flt) :
    (negVec c).ty.assem [] [p] = (do
      let x ← p.toArr
      (Arr.scalar (-1)).mul x) := by
  cases c
  rfl

theorem toArr_fits {p : Param Flt} {n : Nat} (hp : p.FitsSize n) {x : Arr Flt}
    (e : p.toArr = .ok x) : ∀ ys, x = .vec ys → ys.length = 1 ∨ ys.length = n := by
  intro ys hy
  subst hy
  cases p with
  | arr xs => cases e; exact hp _ rfl
  | num | bool => cases e
  | _ => cases e

theorem split2_prims {α β : Type} {R : α → β → Prop} {xs : List α} {ts : List β}
    (h : List.Forall₂ R xs (ts ++ [])) : split2 ts.length 0 xs = (xs, []) := by
  rw [List.append_nil] at h
  have := split2_append (a := ts.length) (b := 0) (xs := xs) (ys := []) h.length_eq rfl
  simpa using this

theorem cstr_own {c : Cons Flt} {qs : List (Param Flt)} {p : Param Flt}
    (hl : qs.length = c.value.sig.paramTypes.length) (h : OwnSized parts c qs)
    (hp : p.FitsSize c.value.sig.valueSize) : OwnSized parts (cstr c) (qs ++ [p]) := by
  intro prims own h1 h2 e
  have hv : (negVec c).value.sig.primTypes = [] := by cases c; rfl
  have hw : (negVec c).value.sig.paramTypes.length = 1 := by cases c; rfl
  have hsig : (cstr c).value.sig = c.value.sig.concat (negVec c).value.sig c.value.sig.valueSize := by
    cases c; rfl
  have hcls : (cstr c).ty = sumClass c (negVec c) := by cases c; rfl
  rw [hsig] at h1 ⊢
  simp only [ConsSig.concat, hv] at h1 ⊢
  rw [hcls] at e
  have hsp := split2_append (xs := qs) (ys := [p]) hl (b := 1) rfl
  simp only [sumClass, hv, hw, List.length_nil, split2_prims h1, hsp, py_bind_ok] at e
  rw [negVec_assem] at e
  simp only [py_bind_ok] at e
  obtain ⟨x, ex, y, ⟨z, ez, ey⟩, e⟩ := e
  rw [List.append_nil] at h1
  refine binop_size (h prims x h1 h2 ex) ?_ e
  intro ys hy
  subst hy
  rw [scalar_mul_map] at ey
  cases z with
  | scalar z => cases ey
  | vec zs =>
    cases ey
    simpa using toArr_fits hp ez zs rfl

theorem cstr_sized0 {c : Cons Flt} (h : ∀ qs, OwnSized parts c qs) (hc : c.children = [])
    {ps : List (Param Flt)} (hl : ps.length = c.value.sig.paramTypes.length + 1)
    (hp : ∀ p ∈ ps, p.FitsSize c.value.sig.valueSize) : SizedFor parts (cstr c) ps := by
  obtain ⟨qs, p, rfl⟩ : ∃ qs p, ps = qs ++ [p] := by
    rcases List.eq_nil_or_concat ps with rfl | ⟨qs, p, rfl⟩
    · simp at hl
    · exact ⟨qs, p, by simp⟩
  refine (cstr_own (by simpa using hl) (h qs) (hp p (by simp))).leaf ?_
  cases c with
  | mk t v cs =>
    simp only [Node.children_mk] at hc
    subst hc
    rfl

/-! ## Compounds -/

/-- `SizedFor` for constructions whose argument keys are well typed. -/
def Sz (parts : List (Str × PrimType)) (c : Cons Flt) (ps : List (Param Flt)) : Prop :=
  c.KTyped parts → SizedFor parts c ps

theorem Sz.of {c : Cons Flt} {ps : List (Param Flt)} (h : SizedFor parts c ps) : Sz parts c ps :=
  fun _ => h

theorem Sz.compound {cls : ConsClass Flt} {v : ConsVal Flt} {cs : List (Str × Cons Flt)}
    {ps : List (Param Flt)} (hs : ∀ kt ∈ parts, '/' ∉ kt.1)
    (h0 : OwnSized parts (.mk cls v cs) ps)
    (hp : ∀ pss, v.childParams ps = .ok pss → ∀ (i : Nat) kc q, cs[i]? = some kc → pss[i]? = some q →
      Sz parts kc.2 q) : Sz parts (.mk cls v cs) ps := by
  intro hty
  simp only [Cons.KTyped] at hty
  exact SizedFor.compound hs h0 hty.2 hp

theorem own_empty {cls : ConsClass Flt} {v : ConsVal Flt} {cs : List (Str × Cons Flt)}
    {ps : List (Param Flt)} (hv : v.sig.valueSize = 0)
    (h : ∀ prims own, cls.assem prims ps = .ok own → own = .vec []) :
    OwnSized parts (.mk cls v cs) ps := by
  intro prims own _ _ e
  rw [h prims own e]
  exact hv.symm

theorem compoundAssem_nil {n : Nat} {prims : List (Prim Flt)} {ps : List (Param Flt)} {own : Arr Flt}
    (e : compoundAssem n prims ps = .ok own) : own = .vec [] := by
  unfold compoundAssem at e
  split at e <;> cases e
  rfl

theorem get1 {α : Type} {a b : α} {i : Nat} (h : [a][i]? = some b) : i = 0 ∧ b = a := by
  match i with
  | 0 => exact ⟨rfl, by simpa using h.symm⟩
  | i + 1 => simp at h

theorem oneT_params {p : Param Flt} (hp : p.FitsSize 1) {pss : List (List (Param Flt))}
    {q : List (Param Flt)}
    (e1 : (do
        let cb ← (do
          let ca ← vectorChildParams (K := Flt) 1 [1] [1] [p]
          .ok (ca.map (· ++ [])))
        .ok (List.zipWith (· ++ ·) [[]] cb)) = (.ok pss : Py (List (List (Param Flt)))))
    (e2 : pss[0]? = some q) : ∃ p', q = [p'] ∧ p'.FitsSize 1 := by
  cases p with
  | num x => cases e1; cases e2; exact ⟨_, rfl, fun xs h => by cases h; exact .inl rfl⟩
  | bool x => cases e1; cases e2; exact ⟨_, rfl, fun xs h => by cases h; exact .inl rfl⟩
  | arr xs =>
    have hx : xs.length = 1 := by rcases hp xs rfl with h | h <;> exact h
    match xs, hx with
    | [x], _ => cases e1; cases e2; exact ⟨_, rfl, fun xs h => by cases h; exact .inl rfl⟩
  | seq ps => cases e1; cases e2; exact ⟨_, rfl, fun xs h => by cases h⟩
  | none => cases e1
  | axis a => cases e1

theorem sz_oneT (hs : ∀ kt ∈ parts, '/' ∉ kt.1) {name key cn : Str} {ctypes : List PrimType}
    {f : List (Prim Flt) → Py (Arr Flt)} {ks : List Str} {ty : List PrimType}
    (h : ∀ qs, OwnSized parts (con.leaf0 cn ctypes 1 f) qs) :
    (∀ ps, Sz parts (oneT { name := name, assem := compoundAssem 0 } key
      (con.leaf0 cn ctypes 1 f) ks ty) ps) ∧
    ∀ p : Param Flt, p.FitsSize 1 → Sz parts (cstr (oneT { name := name, assem := compoundAssem 0 } key
      (con.leaf0 cn ctypes 1 f) ks ty)) [p] := by
  have hown : ∀ qs, OwnSized parts (oneT { name := name, assem := compoundAssem 0 } key
      (con.leaf0 cn ctypes 1 f) ks ty) qs := fun qs => own_empty rfl fun prims own e => compoundAssem_nil (prims := prims) e
  constructor
  · intro ps
    refine Sz.compound hs (hown ps) ?_
    intro pss _ i kc q e1 _
    obtain ⟨_, rfl⟩ := get1 e1
    exact .of ((h q).leaf rfl)
  · intro p hp
    have e : ∃ cls v, cstr (oneT { name := name, assem := compoundAssem 0 } key
        (con.leaf0 cn ctypes 1 f) ks ty) = .mk cls v [(key, cstr (con.leaf0 cn ctypes 1 f))] ∧
        ∀ pss q, v.childParams [p] = .ok pss → pss[0]? = some q → ∃ p', q = [p'] ∧ p'.FitsSize 1 := by
      refine ⟨_, _, rfl, ?_⟩
      intro pss q e1 e2
      exact oneT_params hp e1 e2
    obtain ⟨cls, v, e, hpar⟩ := e
    have ho := cstr_own (qs := []) (p := p) rfl (hown []) (fun xs hx => .inl (by
      rcases hp xs hx with h | h <;> exact h))
    rw [e] at ho ⊢
    refine Sz.compound hs ho ?_
    intro pss e1 i kc q e2 e3
    obtain ⟨rfl, rfl⟩ := get1 e2
    obtain ⟨p', rfl, hp'⟩ := hpar pss q e1 e3
    exact .of (cstr_sized0 h rfl rfl (fun r hr => by rw [List.mem_singleton.mp hr]; exact hp'))

theorem sz_margin (hs : ∀ kt ∈ parts, '/' ∉ kt.1) (outer : Bool) (side : con.Side) :
    (∀ ps, Sz parts (marginT outer side) ps) ∧
    ∀ p : Param Flt, p.FitsSize 1 → Sz parts (cstr (marginT outer side)) [p] := by
  cases outer <;> cases side <;>
    first
      | exact sz_oneT hs own_midpointXDistance
      | exact sz_oneT hs own_midpointYDistance

theorem sz_box (hs : ∀ kt ∈ parts, '/' ∉ kt.1) (ps : List (Param Flt)) : Sz parts boxT ps := by
  refine Sz.compound hs (own_empty rfl fun prims own e => compoundAssem_nil (prims := prims) e) ?_
  intro pss _ i kc q e1 _
  have := List.mem_of_getElem? e1
  simp only [List.mem_cons, List.not_mem_nil, or_false] at this
  rcases this with rfl | rfl | rfl | rfl
  · exact .of ((own_horizontal q).leaf rfl)
  · exact .of ((own_horizontal q).leaf rfl)
  · exact .of ((own_vertical q).leaf rfl)
  · exact .of ((own_vertical q).leaf rfl)

theorem sz_align (hs : ∀ kt ∈ parts, '/' ∉ kt.1) (row : Bool) (ps : List (Param Flt)) :
    Sz parts (alignT row) ps := by
  cases row <;>
  · refine Sz.compound hs (own_empty rfl fun prims own e => compoundAssem_nil (prims := prims) e) ?_
    intro pss _ i kc q e1 _
    have := List.mem_of_getElem? e1
    simp only [List.mem_cons, List.not_mem_nil, or_false] at this
    rcases this with rfl | rfl <;> exact .of ((own_collinear q).leaf rfl)

theorem sz_map (hs : ∀ kt ∈ parts, '/' ∉ kt.1) {c : Cons Flt} {n : Nat} {ps : List (Param Flt)}
    (h : ∀ qs, (∀ q ∈ qs, q ∈ ps) → qs.length ≤ c.value.sig.paramTypes.length → Sz parts c qs) : Sz parts (mapCons c n) ps := by
  unfold mapCons
  refine Sz.compound hs (own_empty rfl fun _ _ e => by cases e; rfl) ?_
  intro pss e i kc q e1 e2
  cases e
  have h' := List.mem_of_getElem? e1
  rw [List.eq_of_mem_replicate (List.of_mem_zip (a := kc.1) (b := kc.2) h').2]
  rw [List.getElem?_map, Option.map_eq_some_iff] at e2
  obtain ⟨j, _, rfl⟩ := e2
  refine h _ (fun q hq => ?_) ?_
  · simp only [pySlice] at hq
    exact List.mem_of_mem_drop (List.mem_of_mem_take hq)
  · simp only [pySlice, sliceBound_nat', List.length_take, List.length_drop]
    have : (j + 1) * c.value.sig.paramTypes.length
        = j * c.value.sig.paramTypes.length + c.value.sig.paramTypes.length := by ring
    omega

theorem own_relLen {ps : List (Param Flt)} (hp : ∀ p ∈ ps, p.FitsSize 1) (hlen : ps.length ≤ 1) :
    OwnSized parts (relLenT (K := Flt)) ps := by
  intro prims own h1 h2 e
  obtain ⟨l, m, rfl, hl, hm⟩ := forall₂_two h1
  match ps, hp, hlen, e with
  | [], _, _, e =>
    have e' : (do
      let x ← con.lengthA [l]
      let y ← (do
        let y ← (.error .typeError : Py (Arr Flt))
        let x ← (.ok x : Py (Arr Flt))
        y.mul x)
      x.add y) = .ok own := e
    simp only [py_bind_ok] at e'
    obtain ⟨_, _, _, ⟨_, h, _⟩, _⟩ := e'
    cases h
  | [q], hp, _, e =>
    have e' : (do
      let x ← con.lengthA [l]
      let y ← (do
        let y ← q.toArr
        let x ← (do
          let y ← (.ok (.scalar (-1)) : Py (Arr Flt))
          let x ← con.lengthA [m]
          y.mul x)
        y.mul x)
      x.add y) = .ok own := e
    simp only [py_bind_ok] at e'
    obtain ⟨x, e1, y, ⟨z, e2, w, ⟨_, h, v, e3, e4⟩, e5⟩, e6⟩ := e'
    cases h
    obtain ⟨x, rfl⟩ := length_one e1
    obtain ⟨v, rfl⟩ := length_one e3
    cases e4
    refine binop_size (n := 1) rfl ?_ e6
    intro ys hy
    subst hy
    refine .inl ?_
    have := binop_size (n := 1) (x := z) ?_ (fun ys h => by cases h) e5
    · simpa [Arr.atleast1d] using this
    · cases z with
      | scalar => rfl
      | vec zs => rcases toArr_fits (hp q (by simp)) e2 zs rfl with h | h <;> exact h
  | q :: r :: rest, _, hlen, _ => simp at hlen

theorem sz_relLen {ps : List (Param Flt)} (hp : ∀ p ∈ ps, p.FitsSize 1) (hlen : ps.length ≤ 1) :
    Sz parts (relLenT (K := Flt)) ps := .of ((own_relLen hp hlen).leaf rfl)

theorem sz_rectGrid (hs : ∀ kt ∈ parts, '/' ∉ kt.1) (rows cols : Nat) (ps : List (Param Flt)) :
    Sz parts (rectGridT rows cols) ps := by
  refine Sz.compound hs (own_empty rfl fun prims own e => compoundAssem_nil (prims := prims) e) ?_
  intro pss _ i kc q e1 _
  have h := List.mem_of_getElem? e1
  rcases List.mem_append.mp (List.of_mem_zip (a := kc.1) (b := kc.2) h).2 with h | h
  · rw [List.eq_of_mem_replicate h]; exact sz_map hs fun qs _ _ => sz_align hs true qs
  · rw [List.eq_of_mem_replicate h]; exact sz_map hs fun qs _ _ => sz_align hs false qs

theorem sz_marginArray (hs : ∀ kt ∈ parts, '/' ∉ kt.1) (n : Nat) (side : con.Side)
    {ps : List (Param Flt)} (hp : ∀ p ∈ ps, p.FitsSize 1) :
    Sz parts (marginArrayT (cstr (marginT true side)) n) ps := by
  refine Sz.compound hs (own_empty rfl fun prims own e => by cases e; rfl) ?_
  intro pss e i kc q e1 e2
  cases e
  rw [(marginArray_child e1).1]
  rw [List.getElem?_map, Option.map_eq_some_iff] at e2
  obtain ⟨p, hp', rfl⟩ := e2
  exact (sz_margin hs true side).2 p (hp p (List.mem_of_getElem? hp'))

theorem sz_grid (hs : ∀ kt ∈ parts, '/' ∉ kt.1) (rows cols : Nat) {ps : List (Param Flt)}
    (hp : ∀ p ∈ ps, ∀ qs, p.iter = .ok qs → ∀ q ∈ qs, q.FitsSize 1) :
    Sz parts (gridT (cstr (marginT true .right)) (cstr (marginT true .bottom)) rows cols) ps := by
  refine Sz.compound hs (own_empty rfl fun prims own e => compoundAssem_nil (prims := prims) e) ?_
  intro pss e i kc q e1 e2
  match ps, hp, e with
  | [a, b, c, d], hp, e =>
    simp only [ct.gridParams, py_bind_ok] at e
    obtain ⟨as, ha, bs, hb, cs, hc, ds, hd, e⟩ := e
    cases e
    have h0 := sz_rectGrid hs rows cols []
    have h1 : Sz parts (mapCons (relLenT (K := Flt)) cols) as := sz_map hs fun qs hq hl =>
      sz_relLen (fun q h => hp a (by simp) as ha q (hq q h)) hl
    have h2 : Sz parts (mapCons (relLenT (K := Flt)) rows) bs := sz_map hs fun qs hq hl =>
      sz_relLen (fun q h => hp b (by simp) bs hb q (hq q h)) hl
    have h3 := sz_marginArray hs cols .right (hp c (by simp) cs hc)
    have h4 := sz_marginArray hs rows .bottom (hp d (by simp) ds hd)
    match i with
    | 0 => simp only [List.getElem?_cons_zero, Option.some.injEq] at e1 e2
           subst e1 e2; exact h0
    | 1 => simp only [List.getElem?_cons_succ, List.getElem?_cons_zero, Option.some.injEq] at e1 e2
           subst e1 e2; exact h1
    | 2 => simp only [List.getElem?_cons_succ, List.getElem?_cons_zero, Option.some.injEq] at e1 e2
           subst e1 e2; exact h2
    | 3 => simp only [List.getElem?_cons_succ, List.getElem?_cons_zero, Option.some.injEq] at e1 e2
           subst e1 e2; exact h3
    | 4 => simp only [List.getElem?_cons_succ, List.getElem?_cons_zero, Option.some.injEq] at e1 e2
           subst e1 e2; exact h4
    | i + 5 => simp at e1
  | [], _, e => cases e
  | [_], _, e => cases e
  | [_, _], _, e => cases e
  | [_, _, _], _, e => cases e
  | _ :: _ :: _ :: _ :: _ :: _, _, e => cases e

theorem FitsSize_num {n : Nat} (x : Flt) : (Param.num x).FitsSize n := fun _ h => by cases h

theorem sz_thickness (hs : ∀ kt ∈ parts, '/' ∉ kt.1) (kind : AxisKind) (ps : List (Param Flt)) :
    Sz parts (thicknessT kind) ps := by
  have hx : ∀ (pss : List (List (Param Flt))) (i : Nat) (q : List (Param Flt)),
      ct.axisThicknessParams ps = .ok pss → pss[i]? = some q →
      ∃ x : Flt, q = [.num x] := by
    intro pss i q e1 e2
    match ps, e1 with
    | .none :: _, e1 => cases e1; obtain ⟨_, rfl⟩ := get1 e2; exact ⟨_, rfl⟩
    | .axis a :: _, e1 =>
      simp only [ct.axisThicknessParams, py_bind_ok] at e1
      obtain ⟨t, _, e1⟩ := e1
      cases e1
      obtain ⟨_, rfl⟩ := get1 e2; exact ⟨_, rfl⟩
    | .num _ :: _, e1 => cases e1
    | .arr _ :: _, e1 => cases e1
    | .bool _ :: _, e1 => cases e1
    | .seq _ :: _, e1 => cases e1
    | [], e1 => cases e1
  cases kind with
  | x =>
    refine Sz.compound hs (own_empty rfl fun prims own e => compoundAssem_nil (prims := prims) e) ?_
    intro pss e i kc q e1 e2
    obtain ⟨_, rfl⟩ := get1 e1
    obtain ⟨x, rfl⟩ := hx pss i q e e2
    exact .of (cstr_sized0 own_yLength rfl rfl (fun r hr => by
      rw [List.mem_singleton.mp hr]; exact FitsSize_num x))
  | y =>
    refine Sz.compound hs (own_empty rfl fun prims own e => compoundAssem_nil (prims := prims) e) ?_
    intro pss e i kc q e1 e2
    obtain ⟨_, rfl⟩ := get1 e1
    obtain ⟨x, rfl⟩ := hx pss i q e e2
    exact .of (cstr_sized0 own_xLength rfl rfl (fun r hr => by
      rw [List.mem_singleton.mp hr]; exact FitsSize_num x))

theorem sz_label (hs : ∀ kt ∈ parts, '/' ∉ kt.1) (kind : AxisKind) (twin : Bool)
    {ps : List (Param Flt)} (hp : ∀ p ∈ ps, p.FitsSize 1) : Sz parts (labelT kind twin) ps := by
  refine Sz.compound hs (own_empty rfl fun prims own e => compoundAssem_nil (prims := prims) e) ?_
  intro pss e i kc q e1 e2
  obtain ⟨_, rfl⟩ := get1 e1
  match ps, hp, e with
  | [p], hp, e =>
    cases e
    obtain ⟨_, rfl⟩ := get1 e2
    refine .of (cstr_sized0 own_relativePointOnLineDistance rfl rfl (fun r hr => ?_))
    simp only [List.mem_cons, List.not_mem_nil, or_false] at hr
    rcases hr with rfl | rfl
    · intro xs h; cases h
    · exact hp _ (by simp)
  | [], _, e => cases e
  | _ :: _ :: _, _, e => cases e

/-- Every shipped constraint without `CoincidentLines` returns what it declares. -/
theorem shipped_sized (s : Shipped) (hn : ¬ s.UsesCoincidentLines) (hs : ∀ kt ∈ parts, '/' ∉ kt.1)
    {c : Cons Flt} (e : s.build = .ok c) {ps : List (Param Flt)}
    (hl : ps.length = c.value.sig.paramTypes.length) (hp : s.ParamsSized ps) : Sz parts c ps := by
  cases s with
  | fix => cases eq_of_ok ct_fix_eq e; exact .of (cstr_sized0 own_coordinate rfl hl hp)
  | directedDistance =>
    cases eq_of_ok ct_directedDistance_eq e
    obtain ⟨d, p, rfl, hp⟩ := hp
    exact .of ((cstr_own (qs := [.arr d]) rfl (own_directedDistance d) hp).leaf rfl)
  | xDistance => cases eq_of_ok ct_xDistance_eq e; exact .of (cstr_sized0 own_xDistance rfl hl hp)
  | yDistance => cases eq_of_ok ct_yDistance_eq e; exact .of (cstr_sized0 own_yDistance rfl hl hp)
  | coincident => cases e; exact .of ((own_coincident _).leaf rfl)
  | length => cases eq_of_ok ct_length_eq e; exact .of (cstr_sized0 own_length rfl hl hp)
  | directedLength =>
    cases eq_of_ok ct_directedLength_eq e
    obtain ⟨d, p, rfl, hp⟩ := hp
    exact .of ((cstr_own (qs := [.arr d]) rfl (own_directedLength d) hp).leaf rfl)
  | xLength => cases eq_of_ok ct_xLength_eq e; exact .of (cstr_sized0 own_xLength rfl hl hp)
  | yLength => cases eq_of_ok ct_yLength_eq e; exact .of (cstr_sized0 own_yLength rfl hl hp)
  | vertical => cases e; exact .of ((own_vertical _).leaf rfl)
  | horizontal => cases e; exact .of ((own_horizontal _).leaf rfl)
  | relativeLength =>
    cases eq_of_ok relativeLength_eq e
    exact sz_relLen hp (le_of_eq hl)
  | midpointXDistance =>
    cases eq_of_ok ct_midpointXDistance_eq e
    exact .of (cstr_sized0 own_midpointXDistance rfl hl hp)
  | midpointYDistance =>
    cases eq_of_ok ct_midpointYDistance_eq e
    exact .of (cstr_sized0 own_midpointYDistance rfl hl hp)
  | orthogonal => cases e; exact .of ((own_orthogonal _).leaf rfl)
  | parallel => cases e; exact .of ((own_parallel _).leaf rfl)
  | angle => cases eq_of_ok ct_angle_eq e; exact .of (cstr_sized0 own_angle rfl hl hp)
  | collinear => cases e; exact .of ((own_collinear _).leaf rfl)
  | coincidentLines => exact absurd trivial hn
  | pointOnLineDistance =>
    cases eq_of_ok ct_pointOnLineDistance_eq e
    exact .of (cstr_sized0 own_pointOnLineDistance rfl hl hp)
  | pointToLineDistance =>
    cases eq_of_ok ct_pointToLineDistance_eq e
    exact .of (cstr_sized0 own_pointToLineDistance rfl hl hp)
  | relativePointOnLineDistance =>
    cases eq_of_ok ct_relativePointOnLineDistance_eq e
    exact .of (cstr_sized0 own_relativePointOnLineDistance rfl hl hp)
  | box => cases eq_of_ok box_eq e; exact sz_box hs _
  | width =>
    cases eq_of_ok ct_width_eq e
    match ps, hl with
    | [p], _ => exact (sz_oneT hs own_xLength).2 p (hp p (by simp))
  | height =>
    cases eq_of_ok ct_height_eq e
    match ps, hl with
    | [p], _ => exact (sz_oneT hs own_yLength).2 p (hp p (by simp))
  | aspectRatio =>
    cases eq_of_ok ct_aspectRatio_eq e; exact .of (cstr_sized0 own_aspectRatio rfl hl hp)
  | axisThickness axis => cases eq_of_ok (thickness_eq axis) e; exact sz_thickness hs axis _
  | margin outer side =>
    cases eq_of_ok (ct_margin_eq outer side) e
    rw [(margin_sig outer side).2] at hl
    match ps, hl with
    | [p], _ => exact (sz_margin hs outer side).2 p (hp p (by simp))
  | outerMarginArray n side =>
    cases eq_of_ok (outerMarginArray_eq (ct_margin_eq true side) n) e
    exact sz_marginArray hs n side hp
  | align row => cases eq_of_ok (align_eq row) e; exact sz_align hs row _
  | coincidentOutwardFaces side => exact absurd trivial hn
  | rectilinearGrid rows cols =>
    cases eq_of_ok (rectilinearGrid_eq rows cols) e; exact sz_rectGrid hs rows cols _
  | grid rows cols =>
    cases eq_of_ok (grid_eq (ct_margin_eq true .right) (ct_margin_eq true .bottom) rows cols) e
    exact sz_grid hs rows cols hp
  | positionAxis axis side twin => exact absurd trivial hn
  | positionAxisLabel axis twin =>
    cases eq_of_ok (label_eq axis twin) e; exact sz_label hs axis twin hp

end MplLayout
