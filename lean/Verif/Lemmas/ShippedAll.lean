import Verif.Lemmas.Shift
import Verif.Spec.Jacfwd

/-!
# Properties of all nodes of the shipped constraints

`make_all`: a property of nodes that holds at the leaves of a shipped constraint and is kept by
the operations that build constraints holds at all of its nodes.
-/

namespace MplLayout

open Cons

variable {K : Type} [PyNum K]

/-- A property `P` of nodes that the building operations keep.  `Q` is a property of the scalar
factors. -/
structure Closed (P Q : ConsPred K) : Prop where
  compound : ∀ cls v n, cls.assem = compoundAssem n → v.sig.valueSize = 0 → P cls v
  empty : ∀ cls v, cls.assem = (fun _ _ => .ok (.vec [])) → v.sig.valueSize = 0 → P cls v
  vector : ∀ (n : Node Unit Nat) r, MplLayout.vector (K := K) n = .ok r → AllN P r
  num : ∀ x (r : Cons K), toScalar (.num x) = .ok r → Q r.ty r.value
  scalarCons : Q (MplLayout.scalarCons (K := K)).ty (MplLayout.scalarCons (K := K)).value
  mul : ∀ name (a b : Cons K), P a.ty a.value → Q b.ty b.value →
    P (scalarNode name (fun x y => y.mul x) a b).1 (scalarNode name (fun x y => y.mul x) a b).2.1
  sum : ∀ (a b : Cons K) n, P a.ty a.value → P b.ty b.value → sumNode a b = .ok n → P n.1 n.2.1

/-- The leaves that a shipped constraint is built from. -/
def Shipped.leaves (K : Type) [PyNum K] : Shipped → List (Cons K)
  | .fix => [con.coordinate]
  | .directedDistance => [con.directedDistance]
  | .xDistance => [con.xDistance]
  | .yDistance => [con.yDistance]
  | .coincident => [ct.coincident]
  | .length => [con.length]
  | .directedLength => [con.directedLength]
  | .xLength => [con.xLength]
  | .yLength => [con.yLength]
  | .vertical => [ct.vertical]
  | .horizontal => [ct.horizontal]
  | .relativeLength => [con.length]
  | .midpointXDistance => [con.midpointXDistance]
  | .midpointYDistance => [con.midpointYDistance]
  | .orthogonal => [ct.orthogonal]
  | .parallel => [ct.parallel]
  | .angle => [con.angle]
  | .collinear => [ct.collinear]
  | .coincidentLines => [ct.coincidentLines]
  | .pointOnLineDistance => [con.pointOnLineDistance]
  | .pointToLineDistance => [con.pointToLineDistance]
  | .relativePointOnLineDistance => [con.relativePointOnLineDistance]
  | .box => [ct.horizontal, ct.vertical]
  | .width => [con.xLength]
  | .height => [con.yLength]
  | .aspectRatio => [con.aspectRatio]
  | .axisThickness _ => [con.xLength, con.yLength]
  | .margin _ _ => [con.midpointXDistance, con.midpointYDistance]
  | .outerMarginArray _ _ => [con.midpointXDistance, con.midpointYDistance]
  | .align _ => [ct.collinear]
  | .coincidentOutwardFaces _ => [ct.coincidentLines]
  | .rectilinearGrid _ _ => [ct.collinear]
  | .grid _ _ => [ct.collinear, con.length, con.midpointXDistance, con.midpointYDistance]
  | .positionAxis _ _ _ => [ct.coincidentLines]
  | .positionAxisLabel _ _ => [con.relativePointOnLineDistance]

section
variable {P Q : ConsPred K} (H : Closed P Q)
include H

namespace Closed

theorem scalarMul {c r : Cons K} {s : Operand K} (hc : AllN P c)
    (hs : ∀ b, s = .cons b → Q b.ty b.value) (e : transformScalarMul c s = .ok r) : AllN P r := by
  obtain ⟨b, hb, e⟩ := bind_ok' e
  refine transformNodes_all hc (fun a ha => H.mul _ a b ha ?_) e
  cases s with
  | num x => exact H.num x b hb
  | cons c' =>
    simp only [toScalar] at hb
    split at hb
    · cases hb; exact hs _ rfl
    · cases hb

theorem sumTrees {a b r : Cons K} (ha : AllN P a) (hb : AllN P b)
    (e : transformSum a b = .ok r) : AllN P r :=
  transformSum_all ha hb (fun a b n h1 h2 e => H.sum a b n h1 h2 e) e

theorem constraint {c r : Cons K} (hc : AllN P c) (e : transformConstraint c = .ok r) :
    AllN P r := by
  obtain ⟨n, _, e⟩ := bind_ok' e
  obtain ⟨v, hv, e⟩ := bind_ok' e
  obtain ⟨m, hm, e⟩ := bind_ok' e
  exact H.sumTrees hc (H.scalarMul (H.vector _ _ hv) (by simp) hm) e

theorem map {c r : Cons K} {n : Nat} (hc : AllN P c) (e : transformMap c n = .ok r) :
    AllN P r :=
  construction_all e (H.empty _ _ rfl rfl) fun c' h => by
    rw [List.eq_of_mem_replicate h]; exact hc

theorem one {cls : ConsClass K} {keys : List Str} {children : List (Cons K)}
    {cpk : List (List Str)} {cp : List (Param K) → Py (List (List (Param K)))} {sig : ConsSig}
    {r : Cons K} (e : construction cls keys children cpk cp sig = .ok r) (n : Nat)
    (h : cls.assem = compoundAssem n) (hs : sig.valueSize = 0) (hc : ∀ c ∈ children, AllN P c) :
    AllN P r :=
  construction_all e (H.compound _ _ n h hs) hc

theorem margin (hx : AllN P (con.midpointXDistance (K := K)))
    (hy : AllN P (con.midpointYDistance (K := K))) {outer : Bool} {side : con.Side} {r : Cons K}
    (e : ct.margin outer side = .ok r) : AllN P r := by
  obtain ⟨c, h1, h2⟩ := bind_ok' e
  refine H.constraint ?_ h2
  cases side <;> exact H.one h1 0 rfl rfl (by simp [hx, hy])

theorem relLen (hl : AllN P (con.length (K := K))) {r : Cons K}
    (e : ct.relativeLength = .ok r) : AllN P r := by
  obtain ⟨m, h1, h2⟩ := bind_ok' e
  obtain ⟨s, h3, h4⟩ := bind_ok' h2
  have hm := H.scalarMul hl (by simp) h1
  exact H.sumTrees hl (H.scalarMul hm (fun c hc => by cases hc; exact H.scalarCons) h3) h4

theorem outerMargins (hx : AllN P (con.midpointXDistance (K := K)))
    (hy : AllN P (con.midpointYDistance (K := K))) {n : Nat} {side : con.Side} {r : Cons K}
    (e : ct.outerMarginArray n side = .ok r) : AllN P r := by
  obtain ⟨m, h1, h2⟩ := bind_ok' e
  exact construction_all h2 (H.empty _ _ rfl rfl)
    fun c' h => by rw [List.eq_of_mem_replicate h]; exact H.margin hx hy h1

theorem align (hc : AllN P (ct.collinear (K := K))) {row : Bool} {r : Cons K}
    (e : ct.align row = .ok r) : AllN P r := by
  cases row
  · unfold ct.align at e
    simp only [Bool.false_eq_true, if_false] at e
    exact H.one e 0 rfl rfl (by simp [hc])
  · unfold ct.align at e
    simp only [if_true] at e
    exact H.one e 0 rfl rfl (by simp [hc])

theorem faces (hc : AllN P (ct.coincidentLines (K := K))) {side : con.Side} {r : Cons K}
    (e : ct.coincidentOutwardFaces side = .ok r) : AllN P r :=
  H.one e 0 rfl rfl (by simp [hc])

theorem rectGrid (hc : AllN P (ct.collinear (K := K))) {m n : Nat} {r : Cons K}
    (e : ct.rectilinearGrid m n = .ok r) : AllN P r := by
  obtain ⟨a, h1, h2⟩ := bind_ok' e
  obtain ⟨row, h3, h4⟩ := bind_ok' h2
  obtain ⟨b, h5, h6⟩ := bind_ok' h4
  obtain ⟨col, h7, h8⟩ := bind_ok' h6
  refine H.one h8 0 rfl rfl fun c hc' => ?_
  rcases List.mem_append.mp hc' with hc' | hc'
  · rw [List.eq_of_mem_replicate hc']; exact H.map (H.align hc h1) h3
  · rw [List.eq_of_mem_replicate hc']; exact H.map (H.align hc h5) h7

theorem grid (hc : AllN P (ct.collinear (K := K))) (hl : AllN P (con.length (K := K)))
    (hx : AllN P (con.midpointXDistance (K := K)))
    (hy : AllN P (con.midpointYDistance (K := K))) {m n : Nat} {r : Cons K}
    (e : ct.grid m n = .ok r) : AllN P r := by
  obtain ⟨rect, h1, e⟩ := bind_ok' e
  obtain ⟨l1, h2, e⟩ := bind_ok' e
  obtain ⟨w, h3, e⟩ := bind_ok' e
  obtain ⟨l2, h4, e⟩ := bind_ok' e
  obtain ⟨h, h5, e⟩ := bind_ok' e
  obtain ⟨cm, h6, e⟩ := bind_ok' e
  obtain ⟨rm, h7, e⟩ := bind_ok' e
  refine H.one e 4 rfl rfl fun c hc' => ?_
  simp only [List.mem_cons, List.not_mem_nil, or_false] at hc'
  rcases hc' with rfl | rfl | rfl | rfl | rfl
  · exact H.rectGrid hc h1
  · exact H.map (H.relLen hl h2) h3
  · exact H.map (H.relLen hl h4) h5
  · exact H.outerMargins hx hy h6
  · exact H.outerMargins hx hy h7

end Closed

theorem make_all (s : Shipped) (hl : ∀ c ∈ s.leaves K, AllN P c) {c : Cons K}
    (e : s.make K = .ok c) : AllN P c := by
  cases s with
  | fix | directedDistance | xDistance | yDistance | length | directedLength | xLength | yLength
  | midpointXDistance | midpointYDistance | angle | pointOnLineDistance | pointToLineDistance
  | relativePointOnLineDistance | aspectRatio =>
    exact H.constraint (hl _ (by simp [Shipped.leaves])) e
  | coincident | vertical | horizontal | orthogonal | parallel | collinear | coincidentLines =>
    cases e; exact hl _ (by simp [Shipped.leaves])
  | relativeLength => exact H.relLen (hl _ (by simp [Shipped.leaves])) e
  | box =>
    have hh := hl ct.horizontal (by simp [Shipped.leaves])
    have hv := hl ct.vertical (by simp [Shipped.leaves])
    have e' : ct.box = .ok c := e
    unfold ct.box at e'
    exact H.one e' 0 rfl rfl (by simp [hh, hv])
  | width =>
    have xl := hl con.xLength (by simp [Shipped.leaves])
    obtain ⟨c', h1, h2⟩ := bind_ok' e
    exact H.constraint (H.one h1 0 rfl rfl (by simp [xl])) h2
  | height =>
    have yl := hl con.yLength (by simp [Shipped.leaves])
    obtain ⟨c', h1, h2⟩ := bind_ok' e
    exact H.constraint (H.one h1 0 rfl rfl (by simp [yl])) h2
  | axisThickness axis =>
    have xl := hl con.xLength (by simp [Shipped.leaves])
    have yl := hl con.yLength (by simp [Shipped.leaves])
    cases axis
    · obtain ⟨c', h1, h2⟩ := bind_ok' e
      exact H.one h2 1 rfl rfl (by simp [H.constraint yl h1])
    · obtain ⟨c', h1, h2⟩ := bind_ok' e
      exact H.one h2 1 rfl rfl (by simp [H.constraint xl h1])
  | margin outer side =>
    exact H.margin (hl _ (by simp [Shipped.leaves])) (hl _ (by simp [Shipped.leaves])) e
  | outerMarginArray n side =>
    exact H.outerMargins (hl _ (by simp [Shipped.leaves])) (hl _ (by simp [Shipped.leaves])) e
  | align row => exact H.align (hl _ (by simp [Shipped.leaves])) e
  | coincidentOutwardFaces side => exact H.faces (hl _ (by simp [Shipped.leaves])) e
  | rectilinearGrid rows cols => exact H.rectGrid (hl _ (by simp [Shipped.leaves])) e
  | grid rows cols =>
    exact H.grid (hl _ (by simp [Shipped.leaves])) (hl _ (by simp [Shipped.leaves]))
      (hl _ (by simp [Shipped.leaves])) (hl _ (by simp [Shipped.leaves])) e
  | positionAxis axis side twin =>
    have hc := hl ct.coincidentLines (by simp [Shipped.leaves])
    obtain ⟨a, h1, h2⟩ := bind_ok' e
    cases twin
    · exact H.one h2 0 rfl rfl (by simp [H.faces hc h1])
    · obtain ⟨b, h3, h4⟩ := bind_ok' h2
      exact H.one h4 0 rfl rfl (by simp [H.faces hc h1, H.faces hc h3])
  | positionAxisLabel axis twin =>
    have hc := hl con.relativePointOnLineDistance (by simp [Shipped.leaves])
    obtain ⟨a, h1, h2⟩ := bind_ok' e
    exact H.one h2 1 rfl rfl (by simp [H.constraint hc h1])

end

theorem make_flt (s : Shipped) : s.make Flt = s.build := by
  cases s <;> rfl

theorem shipped_all {P Q : ConsPred Flt} (H : Closed P Q) (s : Shipped) (hl : ∀ c ∈ s.leaves Flt, AllN P c)
    {c : Cons Flt} (e : s.build = .ok c) : AllN P c :=
  make_all H s hl (by rw [make_flt]; exact e)

end MplLayout
