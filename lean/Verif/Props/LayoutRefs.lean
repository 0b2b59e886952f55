import Verif.Lemmas.Made
import Verif.Lemmas.ShippedFits
import Verif.Props.Constructions

/-!
# Constraint arguments never dangle (C48)
-/

namespace MplLayout.Props

open Cons

variable {K : Type}

attribute [local instance] exampleNum

/-- C48, for layouts of primitives made by the constructors, where every axes has (at least) the
parts selected by the four options, and of any shipped constraints (any parameters, any primitive
keys, any keys, accepted or refused calls in any order) that only use those parts: every primitive
key of every constraint node names a primitive of the class that the constraint requires.  Missing:
constraints that use parts which an axes lacks (`C48_counterexample`), and constraint classes that
the package does not ship (for those see `C48_own_keys_partial`). -/
theorem C48_shipped_partial (x y tx ty : Bool) (id : Nat) (ops : List (LayoutOp Flt))
    (h : ∀ op ∈ ops, op.MadeIn (axesParts x y tx ty)) : ((Layout.empty id).run ops).NoDangling := by
  have hs := axesParts_noslash x y tx ty
  have hnd : ((axesParts x y tx ty).map (·.1)).Nodup := by
    rw [show (axesParts x y tx ty).map (·.1) = axesKeys x y tx ty by
      rw [axesParts, List.map_map]; exact List.map_id _]
    exact axesKeys_nodup' x y tx ty
  have h0 : (Layout.empty id : Layout Flt).prim.Shaped (axesParts x y tx ty) := by
    have : Prim.SW (axesParts x y tx ty) (Layout.empty id : Layout Flt).prim :=
      shaped_mk (by simp) (by simp) (by rintro ⟨⟩) (by rintro ⟨⟩) (by rintro ⟨⟩)
    exact this.2
  refine ((Layout.Refs.empty id).run hs h0 ?_).1.noDangling
  intro op hop
  have hm := h op hop
  cases op with
  | addPrim prim key => exact Prim.Made.sw hm
  | addPrims prims => exact fun kp hk => Prim.Made.sw (hm kp hk)
  | addConstraint c primKeys param key =>
    obtain ⟨s, e, hsz, hp⟩ := hm
    have := (shipped_good s hsz (fun kt hk => dictGet_of_mem hnd (hp hk)) e).static
    exact ⟨this.wf, this.name, this.typed⟩

/-- C48 for the primitive keys given to a call, without any assumption on the constraint's class or
on the primitives: once a call has been accepted, then after any further calls all its primitive
keys name primitives of the classes that the constraint requires.  Missing: the keys of its
descendants. -/
theorem C48_own_keys_partial (id : Nat) (ops ops' : List (LayoutOp K)) (c : Cons K)
    (primKeys : List Str) (param : List (Param K)) (key : Str)
    (hr : ∀ op ∈ ops ++ [.addConstraint c primKeys param key] ++ ops', op.Trees)
    (hok : (((Layout.empty id).run ops).addConstraint c primKeys param key).2 = .ok ()) :
    let l := (Layout.empty id).run (ops ++ [.addConstraint c primKeys param key] ++ ops')
    List.Forall₂ (fun key t => ∃ prim, l.prim.getChild key = .ok prim ∧ prim.ty.IsA t)
      primKeys c.value.sig.primTypes := by
  intro l
  have hl : l = ((((Layout.empty id).run ops).addConstraint c primKeys param key).1).run ops' := by
    simp [l, Layout.run, Layout.step]
  have h0 : ((Layout.empty id : Layout K).run ops).Wf :=
    ((Layout.Inv.empty id).wf.run fun op h => hr op (by simp [h])).1
  have hreg := hr (.addConstraint c primKeys param key) (by simp)
  have h1 := h0.addConstraint hreg.1 hreg.2 primKeys param key
  have h2 := h1.1.run (ops := ops') fun op h => hr op (by simp [h])
  have hck : ∃ prims, List.Forall₂ (fun k p => ((Layout.empty id).run ops).prim.getChild k = .ok p)
      primKeys prims ∧ c.Accepts prims param := by
    obtain ⟨ctr, key', hk1, hk2, e⟩ := ((Layout.empty id).run ops).addConstraint_cases hreg.2 primKeys
      param key
    rw [e] at hok
    unfold Layout.checkAndStore at hok
    cases hc : Layout.check { (Layout.empty id).run ops with counter := ctr } c primKeys param with
    | error er => rw [hc] at hok; cases hok
    | ok u => exact Layout.check_ok.mp hc
  obtain ⟨prims, e1, e2, _⟩ := hck
  have : List.Forall₂ (fun key t => ∃ prim, ((Layout.empty id).run ops).prim.getChild key = .ok prim ∧
      prim.ty.IsA t) primKeys c.value.sig.primTypes := by
    rw [List.forall₂_iff_get] at e1 e2 ⊢
    refine ⟨e1.1.trans e2.1, fun i a b => ⟨_, e1.2 i a (by omega), e2.2 i (by omega) b⟩⟩
  refine Layout.forall₂_getChild_mono ?_ this
  intro k q hq
  rw [hl]
  obtain ⟨q', a1, a2, _⟩ := Layout.getChild_extends h0.prim h2.1.prim
    ((h2.2.prim).trans (h1.2.1.prim)) hq
  exact ⟨q', a1, a2⟩

/-- The code violates C48: `PositionXAxis` is accepted for an axes without an x axis, and stores for
its descendants the keys of parts that do not exist. -/
theorem C48_counterexample :
    let ax : Prim Rat := ((newAxes none none false false false false 10).map (·.1)).toOption.getD
      (exRect 0 0 1 1)
    let c : Cons Rat := (ct.positionAxis .x .bottom false).toOption.getD ct.coincident
    let l := ((Layout.empty 0).run [.addPrim ax k!"ax"])
    let r := l.addConstraint c [k!"ax"] [] k!"pos"
    r.2 = .ok () ∧
    ((r.1.keys.getChild k!"pos/AlignOutside").map (·.value)) = .ok [k!"ax/Frame", k!"ax/XAxis"] ∧
    ((r.1.prim.getChild k!"ax/XAxis").map (·.ty)) = .error (.keyError k!"ax/XAxis") := by
  decide +kernel

/-- A history as in `C48_shipped_partial`. -/
noncomputable def madeOps (q ax : Prim Flt) : List (LayoutOp Flt) :=
  [.addPrim q k!"Figure", .addPrim ax k!"Axes0",
   .addConstraint (positionT .x .bottom false) [k!"Axes0"] [] [],
   .addConstraint boxT [k!"Axes0/Frame"] [] k!"box",
   .addConstraint boxT [k!"Axes0/Missing"] [] k!"box2"]

example : ∃ q ax, (newQuadrilateral none none 0 = .ok (q, 9) ∧
      ∃ n, newAxes none none true true false false 20 = .ok (ax, n)) ∧
    ∀ op ∈ madeOps q ax, op.MadeIn (axesParts true true false false) := by
  refine ⟨_, _, ⟨rfl, _, rfl⟩, ?_⟩
  intro op h
  simp only [madeOps, List.mem_cons, List.not_mem_nil, or_false] at h
  rcases h with rfl | rfl | rfl | rfl | rfl
  · exact .quadrilateral (v := none) (ps := none) (n := 0) (n' := 9) (by rintro l ⟨⟩) rfl
  · exact .axes (v := none) (ps := none) (n := 20) (by rintro l ⟨⟩) (by rintro l ⟨⟩)
      (fun _ h => h) rfl
  · exact ⟨.positionAxis .x .bottom false, position_eq .x .bottom false, trivial, by decide⟩
  · exact ⟨.box, box_eq, trivial, by simp [Shipped.parts]⟩
  · exact ⟨.box, box_eq, trivial, by simp [Shipped.parts]⟩

end MplLayout.Props
