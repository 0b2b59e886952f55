import Verif.Lemmas.ShippedAll

/-!
# Evaluating constructions on primitives that depend on a parameter

The nodes of the primitives have values `f x a` that depend on a parameter `x`.  `A` is a class of
functions of the parameter (for example the affine ones).  `Tame`: an evaluation succeeds or fails
for all parameters alike, and the entries of its result are functions of class `A`.
-/

namespace MplLayout

open Flt Cons

section tame
variable {X α : Type}

/-- The array at one parameter. -/
def evA (x : X) : Arr (X → Flt) → Arr Flt
  | .scalar g => .scalar (g x)
  | .vec gs => .vec (gs.map (· x))

theorem evA_atleast1d (x : X) (a : Arr (X → Flt)) : (evA x a).atleast1d = a.atleast1d.map (· x) := by
  cases a <;> rfl

/-- A class of functions closed under linear operations. -/
structure LinSpace (A : (X → Flt) → Prop) : Prop where
  zero : A (fun _ => 0)
  add : ∀ {f g}, A f → A g → A (fun x => f x + g x)
  sub : ∀ {f g}, A f → A g → A (fun x => f x - g x)
  smul : ∀ c {f}, A f → A (fun x => c * f x)
  muls : ∀ c {f}, A f → A (fun x => f x * c)

/-- A class of functions closed under linear operations that contains the constants. -/
structure LinClass (A : (X → Flt) → Prop) : Prop extends LinSpace A where
  const : ∀ c, A (fun _ => c)
  zero := const 0

/-- All entries are in the class. -/
def InA (A : (X → Flt) → Prop) (a : Arr (X → Flt)) : Prop := ∀ g ∈ a.atleast1d, A g

/-- Succeeds or fails for all parameters alike, with entries in the class. -/
def Tame (A : (X → Flt) → Prop) (F : X → Py (Arr Flt)) : Prop :=
  ∃ r : Py (Arr (X → Flt)), (∀ x, F x = r.map (evA x)) ∧ ∀ a, r = .ok a → InA A a

variable {A : (X → Flt) → Prop}

theorem Tame.error (e : Err) : Tame A (fun _ => .error e) := ⟨.error e, fun _ => rfl, by simp⟩

theorem Tame.ok {a : Arr (X → Flt)} (h : InA A a) : Tame A (fun x => .ok (evA x a)) :=
  ⟨.ok a, fun _ => rfl, fun b e => by cases e; exact h⟩

theorem Tame.bind {F : X → Py (Arr Flt)} {H : Arr Flt → Py (Arr Flt)} (hF : Tame A F)
    (hH : ∀ a, InA A a → Tame A (fun x => H (evA x a))) : Tame A (fun x => F x >>= H) := by
  obtain ⟨r, h1, h2⟩ := hF
  cases r with
  | error e => exact ⟨.error e, fun x => by simp only [h1]; rfl, by simp⟩
  | ok a =>
    obtain ⟨s, h3, h4⟩ := hH a (h2 a rfl)
    exact ⟨s, fun x => by simp only [h1]; exact h3 x, h4⟩

theorem Tame.congr {F G : X → Py (Arr Flt)} (h : ∀ x, F x = G x) (hG : Tame A G) : Tame A F := by
  obtain ⟨r, h1, h2⟩ := hG
  exact ⟨r, fun x => (h x).trans (h1 x), h2⟩

theorem InA.vec {gs : List (X → Flt)} : InA A (.vec gs) ↔ ∀ g ∈ gs, A g := Iff.rfl
theorem InA.scalar {g : X → Flt} : InA A (.scalar g) ↔ A g := by simp [InA, Arr.atleast1d]

theorem tame_binop {op : Flt → Flt → Flt}
    {a b : Arr (X → Flt)} (hop : ∀ f ∈ a.atleast1d, ∀ g ∈ b.atleast1d, A (fun x => op (f x) (g x))) :
    Tame A (fun x => Arr.binop op (evA x a) (evA x b)) := by
  have hz : ∀ (fs gs : List (X → Flt)), (∀ f ∈ fs, ∀ g ∈ gs, A (fun x => op (f x) (g x))) →
      ∀ h ∈ List.zipWith (fun f g x => op (f x) (g x)) fs gs, A h := by
    intro fs gs hfg h hh
    obtain ⟨f, hf, g, hg, rfl⟩ : ∃ f ∈ fs, ∃ g ∈ gs, h = fun x => op (f x) (g x) := by
      clear hfg hop
      induction fs generalizing gs with
      | nil => simp at hh
      | cons f fs ih =>
        cases gs with
        | nil => simp at hh
        | cons g gs =>
          simp only [List.zipWith_cons_cons, List.mem_cons] at hh
          rcases hh with rfl | hh
          · exact ⟨f, by simp, g, by simp, rfl⟩
          · obtain ⟨f', h1, g', h2, e⟩ := ih gs hh
            exact ⟨f', by simp [h1], g', by simp [h2], e⟩
    exact hfg f hf g hg
  refine ⟨Arr.binop (fun f g x => op (f x) (g x)) a b, fun x => ?_, fun r hr => ?_⟩
  · cases a with
    | scalar f =>
      cases b with
      | scalar g => rfl
      | vec gs => simp [evA, Arr.binop, Except.map]
    | vec fs =>
      cases b with
      | scalar g => simp [evA, Arr.binop, Except.map]
      | vec gs =>
        simp only [evA, Arr.binop, List.length_map]
        by_cases hl : fs.length = gs.length
        · simp only [hl, if_true, Except.map, evA, Except.ok.injEq, Arr.vec.injEq]
          rw [List.zipWith_map, List.map_zipWith]
        · simp only [hl, if_false]
          rcases fs with _ | ⟨f, _ | ⟨f', fs⟩⟩ <;> rcases gs with _ | ⟨g, _ | ⟨g', gs⟩⟩ <;>
            simp_all [Except.map, evA]
  · cases a with
    | scalar f =>
      cases b with
      | scalar g =>
        simp only [Arr.binop] at hr; cases hr
        exact InA.scalar.mpr (hop f (by simp [Arr.atleast1d]) g (by simp [Arr.atleast1d]))
      | vec gs =>
        simp only [Arr.binop] at hr; cases hr
        rw [InA.vec]
        intro h hh
        obtain ⟨g, hg, rfl⟩ := List.mem_map.mp hh
        exact hop f (by simp [Arr.atleast1d]) g hg
    | vec fs =>
      cases b with
      | scalar g =>
        simp only [Arr.binop] at hr; cases hr
        rw [InA.vec]
        intro h hh
        obtain ⟨f, hf, rfl⟩ := List.mem_map.mp hh
        exact hop f hf g (by simp [Arr.atleast1d])
      | vec gs =>
        simp only [Arr.binop] at hr
        split at hr
        · cases hr
          exact InA.vec.mpr (hz fs gs hop)
        · split at hr
          · cases hr
            rw [InA.vec]
            intro h hh
            obtain ⟨g, hg, rfl⟩ := List.mem_map.mp hh
            exact hop _ (by simp [Arr.atleast1d]) g hg
          · cases hr
            rw [InA.vec]
            intro h hh
            obtain ⟨f, hf, rfl⟩ := List.mem_map.mp hh
            exact hop f hf _ (by simp [Arr.atleast1d])
          · cases hr

/-- A constant array. -/
def constA (a : Arr Flt) : Arr (X → Flt) :=
  match a with
  | .scalar c => .scalar fun _ => c
  | .vec cs => .vec (cs.map fun c _ => c)

theorem evA_constA (x : X) (a : Arr Flt) : evA x (constA a) = a := by
  cases a with
  | scalar c => rfl
  | vec cs => simp [evA, constA, Function.comp_def]

theorem mem_constA {a : Arr Flt} {g : X → Flt} (h : g ∈ (constA (X := X) a).atleast1d) :
    ∃ c, g = fun _ => c := by
  cases a with
  | scalar c => exact ⟨c, by simpa [constA, Arr.atleast1d] using h⟩
  | vec cs =>
    obtain ⟨c, _, rfl⟩ := List.mem_map.mp (show g ∈ cs.map fun c _ => c from h)
    exact ⟨c, rfl⟩

section lin
variable (L : LinSpace A)
include L

theorem tame_add {a b : Arr (X → Flt)} (ha : InA A a) (hb : InA A b) :
    Tame A (fun x => Arr.add (evA x a) (evA x b)) :=
  tame_binop fun f hf g hg => L.add (ha f hf) (hb g hg)

theorem tame_sub {a b : Arr (X → Flt)} (ha : InA A a) (hb : InA A b) :
    Tame A (fun x => Arr.sub (evA x a) (evA x b)) :=
  tame_binop fun f hf g hg => L.sub (ha f hf) (hb g hg)

theorem tame_smul (c : Arr Flt) {a : Arr (X → Flt)} (ha : InA A a) :
    Tame A (fun x => Arr.mul c (evA x a)) := by
  refine Tame.congr (G := fun x => Arr.mul (evA x (constA c)) (evA x a))
    (fun x => by rw [evA_constA]) (tame_binop fun f hf g hg => ?_)
  obtain ⟨c, rfl⟩ := mem_constA hf
  exact L.smul c (ha g hg)

theorem tame_muls (c : Arr Flt) {a : Arr (X → Flt)} (ha : InA A a) :
    Tame A (fun x => Arr.binop (· * ·) (evA x a) c) := by
  refine Tame.congr (G := fun x => Arr.binop (· * ·) (evA x a) (evA x (constA c)))
    (fun x => by rw [evA_constA]) (tame_binop fun f hf g hg => ?_)
  obtain ⟨c, rfl⟩ := mem_constA hg
  exact L.muls c (ha f hf)

theorem lin_dot (gs : List (X → Flt)) (cs : List Flt) {acc : X → Flt} (h : ∀ g ∈ gs, A g)
    (ha : A acc) :
    A (fun x => (List.zipWith (· * ·) (gs.map (· x)) cs).foldl (· + ·) (acc x)) := by
  induction gs generalizing cs acc with
  | nil => simpa using ha
  | cons g gs ih =>
    cases cs with
    | nil => simpa using ha
    | cons c cs =>
      exact ih cs (fun g hg => h g (by simp [hg])) (L.add ha (L.muls c (h g (by simp))))

theorem tame_dot (c : Arr Flt) {a : Arr (X → Flt)} (ha : InA A a) :
    Tame A (fun x => Arr.dot (evA x a) c) := by
  cases a with
  | scalar g =>
    cases c with
    | scalar y => exact tame_muls L (.scalar y) ha
    | vec ys => exact tame_muls L (.vec ys) ha
  | vec gs =>
    cases c with
    | scalar y => exact tame_muls L (.scalar y) ha
    | vec ys =>
      by_cases hl : gs.length = ys.length
      · refine Tame.congr (G := fun x => .ok (evA x (.scalar fun x =>
          (List.zipWith (· * ·) (gs.map (· x)) ys).foldl (· + ·) 0))) (fun x => ?_)
          (Tame.ok (InA.scalar.mpr (lin_dot L gs ys ha L.zero)))
        simp [evA, Arr.dot, hl, Arr.sumList]
      · exact Tame.congr (fun x => by simp [evA, Arr.dot, hl]) (Tame.error Err.typeError)

end lin

/-! ## Primitives that depend on a parameter -/

/-- The values of nodes have entries in the class. -/
def ValA (A : (X → Flt) → Prop) (f : X → α → PVal Flt) : Prop :=
  ∀ a, ∃ gs : List (X → Flt), (∀ g ∈ gs, A g) ∧ ∀ x, (f x a).arr = gs.map (· x)

/-- `Tame` for every list of primitives (with property `G`) that depend on the parameter. -/
def TameF (A : (X → Flt) → Prop) (f : X → α → PVal Flt) (G : Node PrimType α → Prop)
    (F : List (Prim Flt) → Py (Arr Flt)) : Prop :=
  ∀ ps : List (Node PrimType α), (∀ p ∈ ps, G p) → Tame A (fun x => F (ps.map (·.mapV (f x))))

/-- `Tame` for every list of primitives (with property `G`) that depend on the parameter, and all
parameters of the construction. -/
def TameP (A : (X → Flt) → Prop) (f : X → α → PVal Flt) (G : Node PrimType α → Prop) :
    ConsPred Flt := fun cls _ => ∀ params, TameF A f G (fun ps => cls.assem ps params)

variable {f : X → α → PVal Flt} {G : Node PrimType α → Prop}

theorem tameP_assem0 {F : List (Prim Flt) → Py (Arr Flt)} (h : TameF A f G F) (name : Str)
    (types : List PrimType) (size : Nat) : AllN (TameP A f G) (con.leaf0 name types size F) := by
  refine leaf_all fun params ps hG => ?_
  cases params with
  | nil => exact h ps hG
  | cons => exact Tame.error _

theorem tameP_assem1 {F : List (Prim Flt) → Param Flt → Py (Arr Flt)}
    (h : ∀ q, TameF A f G (fun ps => F ps q)) (name : Str)
    (types : List PrimType) (pt : ParamType) (size : Nat) :
    AllN (TameP A f G) (con.leaf1 name types pt size F) := by
  refine leaf_all fun params ps hG => ?_
  rcases params with _ | ⟨q, _ | ⟨q', params⟩⟩
  · exact Tame.error _
  · exact h q ps hG
  · exact Tame.error _

variable (L : LinSpace A) (V : ValA A f)

include V in
theorem tame_val (p : Node PrimType α) : ∃ a, InA A a ∧
    ∀ x, Arr.vec (p.mapV (f x)).value.arr = evA x a := by
  obtain ⟨gs, h1, h2⟩ := V p.value
  exact ⟨.vec gs, h1, fun x => by rw [Node.value_mapV, h2]; rfl⟩

include V in
theorem tame_coordinate : TameF A f G con.coordinateA := by
  intro ps hG
  rcases ps with _ | ⟨p, _ | ⟨q, ps⟩⟩
  · exact Tame.error _
  · obtain ⟨a, h1, h2⟩ := tame_val V p
    exact Tame.congr (fun x => by simp only [List.map_cons, List.map_nil, con.coordinateA]; rw [h2])
      (Tame.ok h1)
  · exact Tame.error _

include L V in
theorem tame_diff (p q : Node PrimType α) : Tame A (fun x =>
    Arr.sub (.vec (q.mapV (f x)).value.arr) (.vec (p.mapV (f x)).value.arr)) := by
  obtain ⟨a, h1, h2⟩ := tame_val V p
  obtain ⟨b, h3, h4⟩ := tame_val V q
  exact Tame.congr (fun x => by rw [h2, h4]) (tame_sub L h3 h1)

include L V in
theorem tame_coincident : TameF A f G ct.coincidentA := by
  intro ps hG
  rcases ps with _ | ⟨p, _ | ⟨q, _ | ⟨r, ps⟩⟩⟩
  · exact Tame.error _
  · exact Tame.error _
  · exact tame_diff L V p q
  · exact Tame.error _

include L V in
theorem tame_directedDistance (d : Arr Flt) : TameF A f G (con.directedDistanceA d) := by
  intro ps hG
  rcases ps with _ | ⟨p, _ | ⟨q, _ | ⟨r, ps⟩⟩⟩
  · exact Tame.error _
  · exact Tame.error _
  · exact (tame_diff L V p q).bind fun a ha => tame_dot L d ha
  · exact Tame.error _

include L V in
theorem tame_lineVector : TameF A f G con.lineVectorA := by
  intro ps hG
  rcases ps with _ | ⟨l, _ | ⟨q, ps⟩⟩
  · exact Tame.error _
  · simp only [List.map_cons, List.map_nil, con.lineVectorA, Node.values_mapV]
    rcases l.values with _ | ⟨p, _ | ⟨q, _ | ⟨r, ps⟩⟩⟩
    · exact Tame.error _
    · exact Tame.error _
    · exact tame_diff L V p q
    · exact Tame.error _
  · exact Tame.error _

include L V in
theorem tame_directedLength (d : Arr Flt) : TameF A f G (con.directedLengthA d) := by
  intro ps hG
  have h := tame_lineVector L V (G := G) ps hG
  rcases ps with _ | ⟨l, _ | ⟨q, ps⟩⟩
  · exact Tame.error _
  · exact h.bind fun a ha => tame_dot L d ha
  · exact Tame.error _

include L V in
theorem tame_vertical : TameF A f G ct.verticalA := fun ps hG =>
  (tame_lineVector L V ps hG).bind fun _ ha => tame_dot L _ ha

include L V in
theorem tame_horizontal : TameF A f G ct.horizontalA := fun ps hG =>
  (tame_lineVector L V ps hG).bind fun _ ha => tame_dot L _ ha

include L V in
theorem tame_midpoint : TameF A f G con.midpointA := by
  intro ps hG
  rcases ps with _ | ⟨l, _ | ⟨q, ps⟩⟩
  · exact Tame.error _
  · simp only [List.map_cons, List.map_nil, con.midpointA, Node.getChild_mapV]
    cases l.getChild k!"Point0" with
    | error e => exact Tame.error e
    | ok p0 =>
      cases l.getChild k!"Point1" with
      | error e => exact Tame.error e
      | ok p1 =>
        obtain ⟨a, h1, h2⟩ := tame_val V p0
        obtain ⟨b, h3, h4⟩ := tame_val V p1
        refine Tame.congr (G := fun x => Arr.add (evA x a) (evA x b) >>= fun s =>
          Arr.mul (.scalar (1 / ((2 : Nat) : Flt))) s) (fun x => ?_)
          ((tame_add L h1 h3).bind fun s hs => tame_smul L _ hs)
        simp only [Except.map, con.coordinateA, bind, Except.bind, ← h2, ← h4]
  · exact Tame.error _

include L V in
theorem tame_midpointDistance (d : Arr Flt) : TameF A f G (con.midpointDirectedDistanceA d) := by
  intro ps hG
  rcases ps with _ | ⟨p, _ | ⟨q, _ | ⟨r, ps⟩⟩⟩
  · exact Tame.error _
  · exact Tame.error _
  · obtain ⟨r0, h1, h2⟩ := tame_midpoint L V (G := G) [p] (by simp at hG ⊢; exact hG.1)
    obtain ⟨r1, h3, h4⟩ := tame_midpoint L V (G := G) [q] (by simp at hG ⊢; exact hG.2)
    simp only [List.map_cons, List.map_nil] at h1 h3
    simp only [List.map_cons, List.map_nil, con.midpointDirectedDistanceA, h1, h3]
    cases r1 with
    | error e => exact Tame.error e
    | ok b =>
      cases r0 with
      | error e => exact Tame.error e
      | ok a => exact (tame_sub L (h4 b rfl) (h2 a rfl)).bind fun s hs => tame_dot L d hs
  · exact Tame.error _

theorem tame_withDirection {F : Arr Flt → List (Prim Flt) → Py (Arr Flt)}
    (h : ∀ d, TameF A f G (F d)) (q : Param Flt) : TameF A f G (fun ps => con.withDirection F ps q) := by
  intro ps hG
  simp only [con.withDirection]
  cases q.toArr with
  | error e => exact Tame.error e
  | ok d => exact h d ps hG

include L V in
theorem tame_coincidentLines (q : Param Flt) : TameF A f G (fun ps => ct.coincidentLinesA ps q) := by
  intro ps hG
  rcases ps with _ | ⟨l, _ | ⟨m, _ | ⟨r, ps⟩⟩⟩
  · exact Tame.error _
  · exact Tame.error _
  · simp only [List.map_cons, List.map_nil, ct.coincidentLinesA, Node.getChild_mapV]
    cases q.truthy with
    | error e => exact Tame.error e
    | ok b =>
    cases m.getChild k!"Point0" with
    | error e => exact Tame.error e
    | ok p10 =>
    cases m.getChild k!"Point1" with
    | error e => exact Tame.error e
    | ok p11 =>
    cases l.getChild k!"Point0" with
    | error e => exact Tame.error e
    | ok p00 =>
    cases l.getChild k!"Point1" with
    | error e => exact Tame.error e
    | ok p01 =>
    simp only [Except.map, bind, Except.bind]
    have key : ∀ a b c d : Node PrimType α, Tame A (fun x =>
        (ct.coincidentA [a.mapV (f x), b.mapV (f x)]).bind fun e0 =>
          (ct.coincidentA [c.mapV (f x), d.mapV (f x)]).bind fun e1 =>
            .ok (.vec (e0.atleast1d ++ e1.atleast1d))) := by
      intro a b c d
      obtain ⟨r0, f1, e2⟩ := tame_coincident L V (G := fun _ => True) [a, b] (by simp)
      obtain ⟨r1, e3, e4⟩ := tame_coincident L V (G := fun _ => True) [c, d] (by simp)
      simp only [List.map_cons, List.map_nil] at f1 e3
      simp only [f1, e3]
      rcases r0 with e | e0
      · exact Tame.error e
      rcases r1 with e | e1
      · exact Tame.error e
      have h0 := e2 e0 rfl
      have h1 := e4 e1 rfl
      refine Tame.congr (G := fun x => .ok (evA x (.vec (e0.atleast1d ++ e1.atleast1d)))) (fun x => ?_)
        (Tame.ok (InA.vec.mpr fun g hg => ?_))
      · cases e0 <;> cases e1 <;> simp [evA, Arr.atleast1d, Except.map, Except.bind]
      · rcases List.mem_append.mp hg with hg | hg
        · exact h0 g hg
        · exact h1 g hg
    cases b
    · simp only [Bool.false_eq_true, if_false]
      exact key _ _ _ _
    · simp only [if_true]
      exact key _ _ _ _
  · exact Tame.error _

/-! ## Closure -/

/-- The value does not depend on primitives. -/
def ConstQ : ConsPred Flt := fun cls _ =>
  ∀ prims prims' params, cls.assem prims params = cls.assem prims' params

theorem constQ_value : ∀ prims prims' (params : List (Param Flt)),
    valueAssem prims params = valueAssem prims' params := by
  intro prims prims' params
  rcases params with _ | ⟨q, _ | ⟨q', params⟩⟩ <;> rfl

include L in
theorem tame_mulNode (name : Str) (a b : Cons Flt) (ha : TameP A f G a.ty a.value)
    (hb : ConstQ b.ty b.value) : TameP A f G (scalarNode name (fun x y => y.mul x) a b).1
      (scalarNode name (fun x y => y.mul x) a b).2.1 := by
  intro params ps hG
  simp only [scalarNode, split2_map]
  cases hy : b.ty.assem [] (split2 a.value.sig.paramTypes.length b.value.sig.paramTypes.length params).2 with
  | error e =>
    exact Tame.congr (fun x => by rw [hb _ [], hy]; rfl) (Tame.error e)
  | ok y =>
    refine Tame.congr (G := fun x => a.ty.assem _ _ >>= fun z => y.mul z)
      (fun x => by rw [hb _ [], hy]; rfl) ?_
    exact (ha _ _ fun p hp => hG p (split2_mem (.inl hp))).bind fun z hz => tame_smul L y hz

include L in
theorem tame_sumNode (a b : Cons Flt) (n : ConsClass Flt × ConsVal Flt × List Str)
    (ha : TameP A f G a.ty a.value) (hb : TameP A f G b.ty b.value) (e : sumNode a b = .ok n) :
    TameP A f G n.1 n.2.1 := by
  simp only [sumNode] at e
  split at e
  · cases e
  · split at e
    · cases e
    · cases e
      intro params ps hG
      simp only [split2_map]
      obtain ⟨r0, h1, h2⟩ := ha (split2 a.value.sig.paramTypes.length b.value.sig.paramTypes.length params).1
        (split2 a.value.sig.primTypes.length b.value.sig.primTypes.length ps).1
        fun p hp => hG p (split2_mem (.inl hp))
      obtain ⟨r1, h3, h4⟩ := hb (split2 a.value.sig.paramTypes.length b.value.sig.paramTypes.length params).2
        (split2 a.value.sig.primTypes.length b.value.sig.primTypes.length ps).2
        fun p hp => hG p (split2_mem (.inr hp))
      simp only [h1, h3]
      cases r0 with
      | error e => exact Tame.error e
      | ok y =>
        cases r1 with
        | error e => exact Tame.error e
        | ok z => exact tame_add L (h2 y rfl) (h4 z rfl)

end tame

section closed
variable {X α : Type} {A : (X → Flt) → Prop} {f : X → α → PVal Flt} {G : Node PrimType α → Prop}
  (L : LinClass A)
include L

theorem tame_const {r : Py (Arr Flt)} : Tame A (fun _ => r) := by
  cases r with
  | error e => exact Tame.error e
  | ok a =>
    refine Tame.congr (fun x => by simp only [evA_constA]) (Tame.ok (a := constA a) fun g hg => ?_)
    obtain ⟨c, rfl⟩ := mem_constA hg
    exact L.const c

theorem tame_closed : Closed (TameP A f G) ConstQ where
  compound cls v n h _ := by
    intro params ps hG
    simp only [h, compoundAssem]
    split
    · exact tame_const L
    · exact Tame.error _
  empty cls v h _ := by
    intro params ps hG
    simp only [h]
    exact tame_const L
  vector n r h := vector_all (P := TameP A f G) (fun _ params ps hG => by
    show Tame A fun x => valueAssem _ _
    rcases params with _ | ⟨q, _ | ⟨q', params⟩⟩
    · exact Tame.error _
    · exact tame_const L
    · exact Tame.error _) n r h
  num x r h := by
    have : AllN ConstQ r := transformPartial_all (P := ConstQ) (Q := ConstQ)
      (show AllN ConstQ (MplLayout.scalarCons (K := Flt)) from leaf_all constQ_value)
      (fun p p' q => constQ_value p p' _) (fun _ _ h => h) h
    exact this.root
  scalarCons := constQ_value
  mul name a b ha hb := tame_mulNode L.toLinSpace name a b ha hb
  sum a b n ha hb e := tame_sumNode L.toLinSpace a b n ha hb e

end closed

end MplLayout
