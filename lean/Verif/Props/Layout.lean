import Verif.Lemmas.LayoutResidual
import Verif.Lemmas.ShippedFits
import Verif.Props.Constructions
import Verif.Props.Containers

/-!
# Properties of layouts (C47, C49, C50, C51, C54)
-/

namespace MplLayout.Props

open Cons

variable {K : Type}

attribute [local instance] exampleNum

/-- Calls with shipped constraints and sensible parameters are regular. -/
theorem Sensible.regular {op : LayoutOp Flt} (h : op.Sensible) : op.Regular := by
  cases op with
  | addPrim prim key => exact h
  | addPrims prims => exact h
  | addConstraint c primKeys param key =>
    obtain ⟨s, e, hs, hp⟩ := h
    exact ⟨(shipped_good (parts := s.parts) s hs (shipped_parts_self s) e).static.name,
      fun hk hl => (shipped_fits s hs e hk hl hp).2⟩

/-! ## C47: constraints stay paired with their own arguments -/

/-- C47, for histories of calls whose arguments fit (any keys, any order, accepted or refused): the
flat lists of constraints, primitive keys and parameters agree node by node.  Missing: calls whose
parameter tree cannot be built (next theorem but one). -/
theorem C47_paired_partial (id : Nat) (ops : List (LayoutOp K)) (hr : ∀ op ∈ ops, op.Regular) :
    ((Layout.empty id).run ops).Paired :=
  ((Layout.Inv.empty id).run hr).paired

/-- C47 for the constraints that the package ships. -/
theorem C47_shipped_partial (id : Nat) (ops : List (LayoutOp Flt)) (hr : ∀ op ∈ ops, op.Sensible) :
    ((Layout.empty id).run ops).Paired :=
  C47_paired_partial id ops fun op h => Sensible.regular (hr op h)

/-- Equal lengths, in particular. -/
theorem C47_lengths_partial (id : Nat) (ops : List (LayoutOp K)) (hr : ∀ op ∈ ops, op.Regular) :
    let f := ((Layout.empty id).run ops).flatConstraints
    f.1.length = f.2.1.length ∧ f.1.length = f.2.2.length := by
  obtain ⟨ps, _, _, h1, h2, h3⟩ := C47_paired_partial id ops hr
  exact ⟨h1.length_eq.symm.trans h2.length_eq, h1.length_eq.symm.trans h3.length_eq⟩

/-- The state just after a successful call. -/
theorem addConstraint_stored {l : Layout K} {c : Cons K} {primKeys : List Str}
    {param : List (Param K)} {key : Str} (hn : '/' ∉ c.ty.name)
    (h : (l.addConstraint c primKeys param key).2 = .ok ()) :
    ∃ key', (key ≠ [] → key' = key) ∧ ∃ kt pt, c.rootPrimKeys primKeys = .ok kt ∧
      c.rootParams param = .ok pt ∧
      l.cons.addChild key' c = .ok (l.addConstraint c primKeys param key).1.cons ∧
      l.keys.addChild key' kt = .ok (l.addConstraint c primKeys param key).1.keys ∧
      l.params.addChild key' pt = .ok (l.addConstraint c primKeys param key).1.params := by
  obtain ⟨ctr, key', hk1, hk2, e⟩ := l.addConstraint_cases hn primKeys param key
  rw [e] at h ⊢
  refine ⟨key', fun hk => (hk1 hk).1, ?_⟩
  unfold Layout.checkAndStore at h ⊢
  cases hc : Layout.check { l with counter := ctr } c primKeys param with
  | error er => rw [hc] at h; cases h
  | ok u =>
    rw [hc] at h
    simp only at h ⊢
    unfold Layout.store at h ⊢
    simp only at h ⊢
    cases h1 : l.cons.addChild key' c with
    | error er => rw [h1] at h; cases h
    | ok cons =>
      rw [h1] at h
      simp only [Layout.storeKeys] at h ⊢
      cases h2 : (do let t ← c.rootPrimKeys primKeys; l.keys.addChild key' t) with
      | error er => rw [h2] at h; cases h
      | ok keys =>
        rw [h2] at h
        simp only [Layout.storeParams] at h ⊢
        cases h3 : (do let t ← c.rootParams param; l.params.addChild key' t) with
        | error er => rw [h3] at h; cases h
        | ok params =>
          obtain ⟨kt, hkt, hk⟩ := py_bind_ok.mp h2
          obtain ⟨pt, hpt, hp⟩ := py_bind_ok.mp h3
          exact ⟨kt, pt, hkt, hpt, rfl, hk, hp⟩

theorem Regular.trees {op : LayoutOp K} (h : op.Regular)
    (hw : ∀ c primKeys param key, op = .addConstraint c primKeys param key → c.WF) : op.Trees := by
  cases op with
  | addPrim prim key => exact h
  | addPrims prims => exact h
  | addConstraint c primKeys param key => exact ⟨hw _ _ _ _ rfl, h.1⟩

/-- C47, from the point of view of one call: once a constraint has been added with its primitive
keys and parameters, then after any further regular calls there is a position at which the three
flat lists have that constraint's class and data, those primitive keys and those parameters. -/
theorem C47_own_arguments_partial (id : Nat) (ops ops' : List (LayoutOp K)) (c : Cons K)
    (primKeys : List Str) (param : List (Param K)) (key : Str)
    (hr : ∀ op ∈ ops ++ [.addConstraint c primKeys param key] ++ ops', op.Regular ∧ op.Trees)
    (hok : (((Layout.empty id).run ops).addConstraint c primKeys param key).2 = .ok ()) :
    let f := ((Layout.empty id).run (ops ++ [.addConstraint c primKeys param key] ++ ops')).flatConstraints
    ∃ (i : Nat) (m : Cons K), f.1[i]? = some m ∧ m.ty = c.ty ∧ m.value = c.value ∧
      f.2.1[i]? = some primKeys ∧ f.2.2[i]? = some param := by
  intro f
  have hrun : (Layout.empty id).run (ops ++ [.addConstraint c primKeys param key] ++ ops')
      = ((((Layout.empty id).run ops).addConstraint c primKeys param key).1).run ops' := by
    simp [Layout.run, Layout.step]
  have hi0 : ((Layout.empty id : Layout K).run ops).Inv :=
    (Layout.Inv.empty id).run fun op h => (hr op (by simp [h])).1
  have hreg := (hr (.addConstraint c primKeys param key) (by simp)).1
  have hi1 := hi0.addConstraint hreg
  obtain ⟨key', _, kt, pt, hkt, hpt, h1, h2, h3⟩ := addConstraint_stored hreg.1 hok
  have hext := (hi1.wf.run (ops := ops') fun op h => (hr op (by simp [h])).2).2
  have hi2 := hi1.run (ops := ops') fun op h => (hr op (by simp [h])).1
  have a1 := Node.At_of_find (Node.addChild_find h1 [])
  have a2 := Node.At_of_find (Node.addChild_find h2 [])
  have a3 := Node.At_of_find (Node.addChild_find h3 [])
  simp only [List.append_nil] at a1 a2 a3
  obtain ⟨m1, b1, c1, d1⟩ := hext.cons _ _ a1
  obtain ⟨m2, b2, c2, d2⟩ := hext.keys _ _ a2
  obtain ⟨m3, b3, c3, d3⟩ := hext.params _ _ a3
  obtain ⟨ps, hnd, hmem, f1, f2, f3⟩ := hi2.paired
  have hne : splitAll key' ≠ [] := splitAll_ne_nil key'
  obtain ⟨i, hi⟩ := List.mem_iff_getElem?.mp ((hmem (splitAll key')).mpr ⟨hne, m1, b1⟩)
  have hkv : kt.value = primKeys := by
    cases c
    simp only [rootPrimKeys, py_bind_ok] at hkt
    obtain ⟨_, _, _, _, e⟩ := hkt
    cases e; rfl
  have hpv : pt.value = param := by
    cases c
    simp only [rootParams, py_bind_ok] at hpt
    obtain ⟨_, _, _, _, e⟩ := hpt
    cases e; rfl
  have uniq : ∀ {τ α : Type} {n a b : Node τ α} {p : List Str}, n.WF → n.At p a → n.At p b → a = b := by
    intro τ α n a b p hn ha hb
    have e1 := (Node.find_iff_At hn).mpr ha
    have e2 := (Node.find_iff_At hn).mpr hb
    rw [e1] at e2; exact Option.some.inj e2
  rcases forall₂_getElem? f1 i with ⟨e, _⟩ | ⟨p, x, e1, e2, e3⟩
  · rw [e] at hi; cases hi
  rcases forall₂_getElem? f2 i with ⟨e, _⟩ | ⟨p', y, e1', e2', n2, e3', e4'⟩
  · rw [e] at hi; cases hi
  rcases forall₂_getElem? f3 i with ⟨e, _⟩ | ⟨p'', z, e1'', e2'', n3, e3'', e4''⟩
  · rw [e] at hi; cases hi
  rw [hi] at e1 e1' e1''
  cases e1; cases e1'; cases e1''
  have u1 := uniq hi2.cons e3 b1
  have u2 := uniq hi2.keysWF e3' b2
  have u3 := uniq hi2.paramsWF e3'' b3
  subst u1 u2 u3
  have hf : f = (((((Layout.empty id).run ops).addConstraint c primKeys param key).1).run ops').flatConstraints := by
    rw [← hrun]
  rw [hf]
  exact ⟨i, _, e2, c1, d1, by rw [e2', ← e4', d2, hkv], by rw [e2'', ← e4'', d3, hpv]⟩

/-- A history with a refused parameter: `Width` with the parameter `None` (which it cannot use),
then `Height` with the parameter 5. -/
def brokenLayout : Layout Rat :=
  (Layout.empty 0).run [.addPrim (exRect 0 0 2 3) k!"q",
    .addConstraint ((ct.width).toOption.getD ct.coincident) [k!"q"] [.none] k!"w",
    .addConstraint ((ct.height).toOption.getD ct.coincident) [k!"q"] [.num 5] k!"h"]

/-- The code violates C47 (and C49): a call that raises has stored its constraint and its primitive
keys but not its parameters, and from then on the constraint is paired with the parameters of the
next one. -/
theorem C47_counterexample :
    (((Layout.empty 0).run [.addPrim (exRect 0 0 2 3) k!"q"]).addConstraint
      ((ct.width).toOption.getD ct.coincident) [k!"q"] [.none] k!"w").2 = .error .typeError ∧
    brokenLayout.cons.keys = [k!"w", k!"h"] ∧ brokenLayout.keys.keys = [k!"w", k!"h"] ∧
    brokenLayout.params.keys = [k!"h"] ∧
    brokenLayout.flatConstraints.1.length = 4 ∧ brokenLayout.flatConstraints.2.2.length = 2 := by
  decide +kernel

/-- The code violates C47 even when no call raises: a one-row grid of three quadrilaterals given one
column margin instead of two is accepted, and the flat lists have different lengths. -/
theorem C47_counterexample_accepted :
    let l := (Layout.empty 0 : Layout Rat).run [.addPrim (exRect 0 0 1 1) k!"a",
      .addPrim (exRect 2 0 3 1) k!"b", .addPrim (exRect 4 0 5 1) k!"c"]
    let r := l.addConstraint ((ct.grid 1 3).toOption.getD ct.coincident) [k!"a", k!"b", k!"c"]
      [.arr [1, 1], .arr [], .arr [1], .arr []] k!"grid"
    r.2 = .ok () ∧ r.1.flatConstraints.1.length ≠ r.1.flatConstraints.2.2.length := by
  decide +kernel

/-- A sensible history: an upright rectangle with a width and a height. -/
noncomputable def sensibleOps : List (LayoutOp Flt) :=
  [.addPrim (realRect ⟨0, 0, 2, 3⟩) k!"q",
   .addConstraint (cstr widthT) [k!"q"] [.num (Flt.fin 2)] [],
   .addConstraint (cstr heightT) [k!"q"] [.num (Flt.fin 5)] k!"h",
   .addConstraint (cstr heightT) [k!"nothing"] [.num (Flt.fin 5)] k!"h2"]

example : ∀ op ∈ sensibleOps, op.Sensible := by
  intro op h
  simp only [sensibleOps, List.mem_cons, List.not_mem_nil, or_false] at h
  rcases h with rfl | rfl | rfl | rfl
  · show Node.WF _
    refine (Node.goodB_iff _).mp ?_ |>.1
    rfl
  · exact ⟨.width, ct_width_eq, trivial, by intro p hp; simp at hp; subst hp; trivial⟩
  · exact ⟨.height, ct_height_eq, trivial, by intro p hp; simp at hp; subst hp; trivial⟩
  · exact ⟨.height, ct_height_eq, trivial, by intro p hp; simp at hp; subst hp; trivial⟩

/-! ## C49: a rejected call changes nothing -/

/-- C49 for `add_prim`: if it raises, the layout is as before (any layout, any primitive, any key). -/
theorem C49_add_prim (l : Layout K) (prim : Prim K) (key : Str) (e : Err)
    (h : (l.addPrim prim key).2 = .error e) : (l.addPrim prim key).1 = l := by
  unfold Layout.addPrim at h ⊢
  cases h1 : l.prim.addChild key prim with
  | ok r => rw [h1] at h; cases h
  | error er => rfl

/-- C49 for `add_constraint`, for a layout reached by regular calls and a regular call: if it
raises, all four trees are as before.  Missing: calls whose parameter tree cannot be built
(`C49_counterexample`). -/
theorem C49_add_constraint_partial (id : Nat) (ops : List (LayoutOp K))
    (hr : ∀ op ∈ ops, op.Regular) (c : Cons K) (primKeys : List Str) (param : List (Param K))
    (key : Str) (hc : (LayoutOp.addConstraint c primKeys param key).Regular) (e : Err) :
    let l := (Layout.empty id).run ops
    (l.addConstraint c primKeys param key).2 = .error e →
    (l.addConstraint c primKeys param key).1.SameTrees l := by
  intro l h
  have hi : l.Inv := (Layout.Inv.empty id).run hr
  obtain ⟨ctr, key', hk1, hk2, e⟩ := l.addConstraint_cases hc.1 primKeys param key
  rw [e] at h ⊢
  have hi' := hi.counter ctr
  unfold Layout.checkAndStore at h ⊢
  cases hck : Layout.check { l with counter := ctr } c primKeys param with
  | error er => exact ⟨rfl, rfl, rfl, rfl⟩
  | ok u =>
    rw [hck] at h
    simp only at h ⊢
    obtain ⟨hl1, hl2⟩ := Layout.accepts_lengths hck
    rcases Layout.store_cases hi' (hc.2 hl1 hl2) key' with ⟨er, _, hs⟩ | ⟨_, _, _, _, _, _, _, _, _, _, hs, _⟩
    · rw [hs]; exact ⟨rfl, rfl, rfl, rfl⟩
    · rw [hs] at h; cases h

/-- C49 for the shipped constraints. -/
theorem C49_shipped_partial (id : Nat) (ops : List (LayoutOp Flt))
    (hr : ∀ op ∈ ops, op.Sensible) (c : Cons Flt) (primKeys : List Str) (param : List (Param Flt))
    (key : Str) (hc : (LayoutOp.addConstraint c primKeys param key).Sensible) (e : Err) :
    let l := (Layout.empty id).run ops
    (l.addConstraint c primKeys param key).2 = .error e →
    (l.addConstraint c primKeys param key).1.SameTrees l :=
  C49_add_constraint_partial id ops (fun op h => Sensible.regular (hr op h)) c primKeys param key
    (Sensible.regular hc) e

/-- C49 for any layout and any constraint whatever, when the call is refused by the checks (wrong
primitive key, wrong class, wrong number of arguments) or because the key is taken: all four trees
are as before. -/
theorem C49_refused (l : Layout K) (c : Cons K) (hn : '/' ∉ c.ty.name) (primKeys : List Str)
    (param : List (Param K)) (key : Str)
    (h : (¬ ∃ prims, List.Forall₂ (fun k p => l.prim.getChild k = .ok p) primKeys prims ∧
        c.Accepts prims param) ∨
      (key ≠ [] ∧ ∃ m, l.cons.getChild key = .ok m)) :
    (∃ e, (l.addConstraint c primKeys param key).2 = .error e) ∧
    (l.addConstraint c primKeys param key).1.SameTrees l := by
  obtain ⟨ctr, key', hk1, hk2, e⟩ := l.addConstraint_cases hn primKeys param key
  rw [e]
  unfold Layout.checkAndStore
  cases hck : Layout.check { l with counter := ctr } c primKeys param with
  | error er => exact ⟨⟨er, rfl⟩, rfl, rfl, rfl, rfl⟩
  | ok u =>
    rcases h with h | ⟨hk, m, hm⟩
    · exact absurd (Layout.check_ok.mp hck) h
    · obtain ⟨rfl, rfl⟩ := hk1 hk
      have : l.cons.addChild key' c = .error (.keyError key') := by
        rw [Node.getChild_ok_iff, splitAll_split key', Node.find_append] at hm
        rw [Node.addChild_eq]
        cases hf : l.cons.find (splitAll key').dropLast with
        | none => rw [hf] at hm
        | some d =>
          rw [hf] at hm
          have hmem : (splitAll key').getLastD [] ∈ Node.keys d := by
            simp only [Option.bind_some, Node.find] at hm
            cases hd : dictGet d.children ((splitAll key').getLastD []) with
            | none => rw [hd] at hm; exact nomatch hm
            | some x => exact List.mem_map.mpr ⟨_, dictGet_eq_some_mem hd, rfl⟩
          simp only [if_pos hmem]
      simp only [Layout.store, this]
      exact ⟨⟨_, rfl⟩, rfl, rfl, rfl, rfl⟩

/-- C49, what holds of every call of `add_constraint` on every layout of well-formed trees, even
when it raises half-way: primitives are unchanged, and constraints, keys and parameters that were
there are still there, with the same classes and values. -/
theorem C49_nothing_lost (l : Layout K) (hl : l.prim.WF ∧ l.cons.WF ∧ l.keys.WF ∧ l.params.WF)
    (c : Cons K) (hc : c.WF) (hn : '/' ∉ c.ty.name) (primKeys : List Str) (param : List (Param K))
    (key : Str) :
    let l' := (l.addConstraint c primKeys param key).1
    l'.prim = l.prim ∧ Node.Extends l'.cons l.cons ∧ l'.keys.Extends l.keys ∧
      l'.params.Extends l.params := by
  have h := Layout.Wf.addConstraint (l := l) ⟨hl.1, hl.2.1, hl.2.2.1, hl.2.2.2⟩ hc hn primKeys param key
  exact ⟨h.2.2, h.2.1.cons, h.2.1.keys, h.2.1.params⟩

/-- The code violates C49: `Width` with the parameter `None` raises and leaves its constraint
behind. -/
theorem C49_counterexample : ∃ (l : Layout Rat) (c : Cons Rat) (primKeys : List Str)
    (param : List (Param Rat)) (key : Str), ct.width = .ok c ∧
    (l.addConstraint c primKeys param key).2 = .error .typeError ∧
    Node.keys (l.addConstraint c primKeys param key).1.cons ≠ l.cons.keys := by
  refine ⟨(Layout.empty 0).run [.addPrim (exRect 0 0 2 3) k!"q"],
    (ct.width).toOption.getD ct.coincident, [k!"q"], [.none], k!"w", ?_, ?_, ?_⟩
  · have : ∃ c, (ct.width : Py (Cons Rat)) = .ok c := by
      cases h : (ct.width : Py (Cons Rat)) with
      | ok c => exact ⟨c, rfl⟩
      | error e =>
        have h2 : ((ct.width : Py (Cons Rat)).toOption).isSome = true := by decide +kernel
        rw [h] at h2; cases h2
    obtain ⟨c, hc⟩ := this
    rw [hc]; rfl
  · decide +kernel
  · decide +kernel

/-! ## C50: the residual of a layout -/

/-- C50: for a layout built by any regular calls whose constraint keys have no slash, and any tree
of primitives with the layout's structure (in particular the layout's own), the assembled residual
is the concatenation, in the order of the successful calls, of what each constraint returns when it
is called with the primitives under its keys and with its parameters; assembling succeeds exactly if
there is a constraint and all these calls succeed.  Missing: constraints added below other
constraints, whose order is that of the tree (`C50_counterexample`). -/
theorem C50_residual_partial (id : Nat) (ops : List (LayoutOp K)) (hr : ∀ op ∈ ops, op.Regular)
    (ht : ∀ op ∈ ops, op.TopLevel) (root : Prim K)
    (hroot : ∀ k p, ((Layout.empty id).run ops).prim.getChild k = .ok p →
      ∃ p', root.getChild k = .ok p' ∧ p'.ty = p.ty) (v : List K) :
    ((Layout.empty id).run ops).residual root = .ok v ↔
      (Layout.empty id).added ops ≠ [] ∧
      ∃ vs, List.Forall₂ (fun a w => a.Value root w) ((Layout.empty id).added ops) vs ∧
        v = vs.flatten := by
  have := ((Layout.Top.empty (K := K) id).run hr ht).residual (root := root) hroot v
  simpa using this

/-- C50 for shipped constraints and the layout's own primitives. -/
theorem C50_shipped_partial (id : Nat) (ops : List (LayoutOp Flt)) (hr : ∀ op ∈ ops, op.Sensible)
    (ht : ∀ op ∈ ops, op.TopLevel) (v : List Flt) :
    ((Layout.empty id).run ops).residual ((Layout.empty id).run ops).prim = .ok v ↔
      (Layout.empty id).added ops ≠ [] ∧
      ∃ vs, List.Forall₂ (fun a w => a.Value ((Layout.empty id).run ops).prim w)
          ((Layout.empty id).added ops) vs ∧ v = vs.flatten :=
  C50_residual_partial id ops (fun op h => Sensible.regular (hr op h)) ht _
    (fun _ p h => ⟨p, h, rfl⟩) v

/-- The history used below: constraints `A`, `B` and then `A/x`. -/
def nestedOps : List (LayoutOp Rat) :=
  [.addPrim (exRect 0 0 2 3) k!"q",
   .addConstraint ((ct.width).toOption.getD ct.coincident) [k!"q"] [.num 7] k!"A",
   .addConstraint ((ct.height).toOption.getD ct.coincident) [k!"q"] [.num 5] k!"B",
   .addConstraint ((ct.height).toOption.getD ct.coincident) [k!"q"] [.num 1] k!"A/x"]

/-- The code violates C50: a constraint added last, below `A`, is not last in the residual. -/
theorem C50_counterexample :
    ((Layout.empty 0).added nestedOps).length = 3 ∧
    ((Layout.empty 0).run nestedOps).residual ((Layout.empty 0).run nestedOps).prim
      = .ok [2 - 7, 3 - 1, 3 - 5] := by
  constructor <;> decide +kernel

/-- A layout with two constraints at the top level, and its residual. -/
example :
    let ops : List (LayoutOp Rat) := nestedOps.take 3
    (∀ op ∈ ops, op.TopLevel) ∧
    ((Layout.empty 0).run ops).residual ((Layout.empty 0).run ops).prim = .ok [2 - 7, 3 - 5] := by
  refine ⟨?_, by decide +kernel⟩
  intro op h
  simp only [nestedOps, List.take_succ_cons, List.take_zero, List.mem_cons, List.not_mem_nil,
    or_false] at h
  rcases h with rfl | rfl | rfl
  · trivial
  · show '/' ∉ k!"A"; decide
  · show '/' ∉ k!"B"; decide

/-! ## C51: constraint keys are unique -/

/-- C51, automatic keys: on every layout whatever (in particular one rebuilt without its counter,
whose trees are full of keys), the loop for the automatic key ends, and with a key that neither the
constraints nor the primitive keys nor the parameters have at the top level. -/
theorem C51_auto_terminates (l : Layout K) (c : Cons K) (hn : '/' ∉ c.ty.name) :
    ∃ n, (l.autoKey c).2 = .ok (c.ty.name ++ natStr n) ∧ c.ty.name ++ natStr n ∉ l.cons.keys ∧
      c.ty.name ++ natStr n ∉ l.keys.keys ∧ c.ty.name ++ natStr n ∉ l.params.keys := by
  obtain ⟨ctr, k, h, h1, h2, h3⟩ := l.autoKey_eq c hn
  exact ⟨k, by rw [h], h1, h2, h3⟩

/-- C51, automatic keys: if a call without a key succeeds, the three trees are the old ones with one
new child at the end, under a new key. -/
theorem C51_auto_key (l : Layout K) (c : Cons K) (hn : '/' ∉ c.ty.name) (primKeys : List Str)
    (param : List (Param K)) (h : (l.addConstraint c primKeys param []).2 = .ok ()) :
    let l' := (l.addConstraint c primKeys param []).1
    ∃ key kt pt, key ∉ l.cons.keys ∧ key ∉ l.keys.keys ∧ key ∉ l.params.keys ∧
      l'.cons.children = l.cons.children ++ [(key, c)] ∧
      l'.keys.children = l.keys.children ++ [(key, kt)] ∧ kt.value = primKeys ∧
      l'.params.children = l.params.children ++ [(key, pt)] ∧ pt.value = param := by
  intro l'
  obtain ⟨ctr, key', _, hk2, e⟩ := l.addConstraint_cases hn primKeys param []
  obtain ⟨hs, n1, n2, n3⟩ := hk2 rfl
  have hl' : l' = (Layout.checkAndStore { l with counter := ctr } c primKeys param key').1 := by
    rw [← e]
  rw [e] at h
  unfold Layout.checkAndStore at h hl'
  cases hc : Layout.check { l with counter := ctr } c primKeys param with
  | error er => rw [hc] at h; cases h
  | ok u =>
    rw [hc] at h hl'
    simp only [Layout.store, Layout.addChild_top l.cons c hs n1] at h hl'
    simp only [Layout.storeKeys] at h hl'
    cases h2 : c.rootPrimKeys primKeys with
    | error er => rw [h2] at h; cases h
    | ok kt =>
      simp only [h2, bind, Except.bind, Layout.addChild_top l.keys kt hs n2] at h hl'
      simp only [Layout.storeParams] at h hl'
      cases h3 : c.rootParams param with
      | error er => rw [h3] at h; cases h
      | ok pt =>
        simp only [h3, bind, Except.bind, Layout.addChild_top l.params pt hs n3] at h hl'
        have hkv : kt.value = primKeys := by
          cases c
          simp only [rootPrimKeys, py_bind_ok] at h2
          obtain ⟨_, _, _, _, e⟩ := h2
          cases e; rfl
        have hpv : pt.value = param := by
          cases c
          simp only [rootParams, py_bind_ok] at h3
          obtain ⟨_, _, _, _, e⟩ := h3
          cases e; rfl
        rw [hl']
        exact ⟨key', kt, pt, n1, n2, n3, rfl, rfl, hkv, rfl, hpv⟩

/-- C51, explicit keys: if a constraint exists under the key, the call raises, with `KeyError` if
the arguments are acceptable, and the whole layout is as before. -/
theorem C51_explicit_key (l : Layout K) (c : Cons K) (primKeys : List Str) (param : List (Param K))
    (key : Str) (hk : key ≠ []) (m : Cons K) (hm : l.cons.getChild key = .ok m) :
    (l.addConstraint c primKeys param key).1 = l ∧
    (∃ e, (l.addConstraint c primKeys param key).2 = .error e) ∧
    ((∃ prims, List.Forall₂ (fun k p => l.prim.getChild k = .ok p) primKeys prims ∧
        c.Accepts prims param) →
      (l.addConstraint c primKeys param key).2 = .error (.keyError key)) := by
  have hadd : l.cons.addChild key c = .error (.keyError key) := by
    rw [Node.getChild_ok_iff, splitAll_split key, Node.find_append] at hm
    rw [Node.addChild_eq]
    cases hf : l.cons.find (splitAll key).dropLast with
    | none => rw [hf] at hm
    | some d =>
      rw [hf] at hm
      have hmem : (splitAll key).getLastD [] ∈ Node.keys d := by
        simp only [Option.bind_some, Node.find] at hm
        cases hd : dictGet d.children ((splitAll key).getLastD []) with
        | none => rw [hd] at hm; exact nomatch hm
        | some x => exact List.mem_map.mpr ⟨_, dictGet_eq_some_mem hd, rfl⟩
      simp only [if_pos hmem]
  unfold Layout.addConstraint
  rw [if_neg hk]
  unfold Layout.checkAndStore
  cases hck : l.check c primKeys param with
  | error er =>
    refine ⟨rfl, ⟨er, rfl⟩, fun h => ?_⟩
    rw [Layout.check_ok.mpr h] at hck; cases hck
  | ok u =>
    simp only [Layout.store, hadd]
    simp

/-- Keys stay distinct over any history of calls with trees: every node of the constraint tree has
distinct keys, so no constraint ever shadows another. -/
theorem C51_distinct (id : Nat) (ops : List (LayoutOp K)) (hr : ∀ op ∈ ops, op.Trees)
    (p : List Str) (m : Cons K) (hm : Node.At ((Layout.empty id).run ops).cons p m) :
    (Node.keys m).Nodup :=
  (((Layout.Inv.empty id).wf.run hr).1.cons) p m hm

/-- A layout with constraints whose counter has been lost: the next automatic key is new. -/
example :
    let l := ((Layout.empty 0 : Layout Rat).run [.addPrim (exRect 0 0 2 3) k!"q",
      .addConstraint ct.horizontal [k!"q/Line0"] [] [],
      .addConstraint ct.horizontal [k!"q/Line2"] [] k!"Horizontal1"])
    let l' := { l with counter := {} }
    (l'.addConstraint ct.horizontal [k!"q/Line0"] [] []).1.cons.keys
      = [k!"Horizontal0", k!"Horizontal1", k!"Horizontal2"] ∧
    (l'.addConstraint ct.horizontal [k!"q/Line0"] [] k!"Horizontal1").2
      = .error (.keyError k!"Horizontal1") := by
  constructor <;> decide +kernel

/-! ## C54: adding primitives is monotone -/

/-- C54, one call: the new primitive is found under its key; every key that is neither the new key
nor below or above it has the same look-up outcome as before; a primitive above keeps its class and
value. -/
theorem C54_add_prim (l : Layout K) (prim : Prim K) (key : Str)
    (h : (l.addPrim prim key).2 = .ok ()) :
    let l' := (l.addPrim prim key).1
    l'.prim.getChild key = .ok prim ∧
    (∀ r m, l'.prim.getChild (key ++ '/' :: r) = .ok m ↔ prim.getChild r = .ok m) ∧
    (∀ key', key' ≠ key → (∀ r, key' ≠ key ++ '/' :: r) → (∀ r, key ≠ key' ++ '/' :: r) →
      l'.prim.getChild key' = l.prim.getChild key') ∧
    (∀ anc r a, key = anc ++ '/' :: r → l.prim.getChild anc = .ok a →
      ∃ a', l'.prim.getChild anc = .ok a' ∧ a'.ty = a.ty ∧ a'.value = a.value) := by
  intro l'
  have hadd : ∃ root, l.prim.addChild key prim = .ok root ∧ l'.prim = root := by
    have e : l' = (l.addPrim prim key).1 := rfl
    unfold Layout.addPrim at h e
    cases h1 : l.prim.addChild key prim with
    | error er => rw [h1] at h; cases h
    | ok root => rw [h1] at e; exact ⟨root, rfl, by rw [e]⟩
  obtain ⟨root, hr, e⟩ := hadd
  rw [e]
  obtain ⟨h1, h2, h3, h4, _⟩ := C04_add_child _ _ _ _ hr
  refine ⟨h1, h2, h3, ?_⟩
  intro anc r a hk ha
  obtain ⟨a', e1, e2⟩ := h4 anc r a hk ha
  obtain ⟨_, _, _, _, t1, t2, _⟩ := C04_add_child _ _ _ _ e1
  exact ⟨a', e2, t1, t2⟩

/-- C54 over histories: whatever calls follow (accepted or refused), a key that resolves to a
primitive resolves to a primitive of the same class with the same value. -/
theorem C54_history (id : Nat) (ops ops' : List (LayoutOp K)) (hr : ∀ op ∈ ops ++ ops', op.Trees)
    (key : Str) (p : Prim K) (h : ((Layout.empty id).run ops).prim.getChild key = .ok p) :
    ∃ p', ((Layout.empty id).run (ops ++ ops')).prim.getChild key = .ok p' ∧ p'.ty = p.ty ∧
      p'.value = p.value := by
  have hrun : (Layout.empty id : Layout K).run (ops ++ ops')
      = ((Layout.empty id).run ops).run ops' := by simp [Layout.run]
  have h0 := ((Layout.Inv.empty (K := K) id).wf.run (ops := ops) fun op hm => hr op (by simp [hm])).1
  have h1 := h0.run (ops := ops') fun op hm => hr op (by simp [hm])
  rw [hrun]
  exact Layout.getChild_extends h0.prim h1.1.prim h1.2.prim h

/-- C54: `add_constraint` never touches the primitives (any layout, any arguments, any outcome). -/
theorem C54_constraint (l : Layout K) (c : Cons K) (hn : '/' ∉ c.ty.name) (primKeys : List Str)
    (param : List (Param K)) (key : Str) : (l.addConstraint c primKeys param key).1.prim = l.prim := by
  obtain ⟨ctr, key', _, _, e⟩ := l.addConstraint_cases hn primKeys param key
  rw [e]
  unfold Layout.checkAndStore
  cases Layout.check { l with counter := ctr } c primKeys param with
  | error er => rfl
  | ok u =>
    simp only [Layout.store]
    cases l.cons.addChild key' c with
    | error er => rfl
    | ok cons =>
      simp only [Layout.storeKeys]
      cases (do let t ← c.rootPrimKeys primKeys; l.keys.addChild key' t) with
      | error er => rfl
      | ok keys =>
        simp only [Layout.storeParams]
        cases (do let t ← c.rootParams param; l.params.addChild key' t) <;> rfl

example :
    let l := ((Layout.empty 0 : Layout Rat).addPrim (exRect 0 0 2 3) k!"q").1
    (l.addPrim (exRect 4 4 5 5) k!"r").2 = .ok () ∧
    (l.addPrim (exRect 4 4 5 5) k!"q").2 = .error (.keyError k!"q") := by
  constructor <;> decide +kernel

end MplLayout.Props
