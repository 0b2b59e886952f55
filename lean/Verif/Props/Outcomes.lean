import Verif.Props.Layout

/-!
# C76: which calls of `add_prim` and `add_constraint` succeed, and what the others raise
-/

namespace MplLayout.Props

open Cons

variable {K : Type}

/-- The primitives under the given keys. -/
def Finds (l : Layout K) (primKeys : List Str) (prims : List (Prim K)) : Prop :=
  List.Forall₂ (fun k p => l.prim.getChild k = .ok p) primKeys prims

/-- C76 for `add_prim`, any layout and any arguments: it raises `KeyError` with the key if something
is found under the key or nothing under the part of the key before the last `/`, and succeeds
otherwise. -/
theorem C76_add_prim (l : Layout K) (prim : Prim K) (key : Str) :
    (((∃ m, l.prim.getChild key = .ok m) ∨ ¬ ParentResolves l.prim key) →
      (l.addPrim prim key).2 = .error (.keyError key)) ∧
    ((∀ m, l.prim.getChild key ≠ .ok m) → ParentResolves l.prim key →
      (l.addPrim prim key).2 = .ok ()) := by
  obtain ⟨h1, h2⟩ := C05_add_child_outcome l.prim prim key
  unfold Layout.addPrim
  constructor
  · intro h
    rw [h1.mpr h]
  · intro hn hp
    cases hc : l.prim.addChild key prim with
    | ok r => rfl
    | error e =>
      obtain rfl := h2 e hc
      rcases h1.mp hc with ⟨m, hm⟩ | h
      · exact absurd hm (hn m)
      · exact absurd hp h

theorem lookup_error {root : Prim K} {pre post : List Str} {k : Str}
    (h1 : ∀ k' ∈ pre, ∃ p, root.getChild k' = .ok p) (h2 : ∀ p, root.getChild k ≠ .ok p) :
    lookupPrims root (pre ++ k :: post) = .error (.keyError k) := by
  induction pre with
  | nil =>
    simp only [lookupPrims, List.nil_append, pyMap]
    cases hk : root.getChild k with
    | ok p => exact absurd hk (h2 p)
    | error e => rw [(Node.getChild_error_iff.mp hk).2]; rfl
  | cons k' pre ih =>
    obtain ⟨p, hp⟩ := h1 k' (by simp)
    have := ih fun k'' h => h1 k'' (by simp [h])
    simp only [lookupPrims] at this
    simp only [lookupPrims, List.cons_append, pyMap, hp, this]
    rfl

/-- C76, a missing primitive, any layout and any other arguments: `add_constraint` raises `KeyError`
with the first of the primitive keys under which there is nothing. -/
theorem C76_missing (l : Layout K) (c : Cons K) (hn : '/' ∉ c.ty.name) (pre post : List Str) (k : Str)
    (param : List (Param K)) (key : Str) (h1 : ∀ k' ∈ pre, ∃ p, l.prim.getChild k' = .ok p)
    (h2 : ∀ p, l.prim.getChild k ≠ .ok p) :
    (l.addConstraint c (pre ++ k :: post) param key).2 = .error (.keyError k) := by
  obtain ⟨ctr, key', _, _, e⟩ := l.addConstraint_cases hn (pre ++ k :: post) param key
  rw [e]
  have : Layout.check { l with counter := ctr } c (pre ++ k :: post) param = .error (.keyError k) := by
    simp only [Layout.check, lookup_error (root := l.prim) h1 h2]
    rfl
  simp only [Layout.checkAndStore, this]

/-- C76, wrong arguments, any layout and any key: if the number or the class of the primitives or the
number of the parameters is not what the constraint declares, `add_constraint` raises
`RuntimeError`. -/
theorem C76_wrong (l : Layout K) (c : Cons K) (hn : '/' ∉ c.ty.name) (primKeys : List Str)
    (prims : List (Prim K)) (hp : Finds l primKeys prims) (param : List (Param K)) (key : Str)
    (h : ¬ c.Accepts prims param) :
    (l.addConstraint c primKeys param key).2 = .error .runtimeError := by
  obtain ⟨ctr, key', _, _, e⟩ := l.addConstraint_cases hn primKeys param key
  rw [e]
  have hl : lookupPrims l.prim primKeys = .ok prims := pyMap_ok.mpr hp
  have : Layout.check { l with counter := ctr } c primKeys param = .error .runtimeError := by
    simp only [Layout.check, hl]
    show (reraiseType (c.validatePrims prims) >>= fun _ => reraiseType (c.validateParams param)) = _
    rcases validatePrims_ok c prims with ⟨a1, a2 | a2⟩
    · rcases validateParams_ok c param with ⟨b1, b2 | b2⟩
      · exact absurd ⟨a1.mp a2, b1.mp b2⟩ h
      · rw [a2, b2]; rfl
    · rw [a2]; rfl
  simp only [Layout.checkAndStore, this]

/-- C76, the key: with acceptable arguments, on any layout, `add_constraint` with a key raises
`KeyError` with the key if a constraint is found under it or nothing under the part before the last
`/`. -/
theorem C76_key (l : Layout K) (c : Cons K) (primKeys : List Str)
    (prims : List (Prim K)) (hp : Finds l primKeys prims) (param : List (Param K)) (key : Str)
    (ha : c.Accepts prims param) (hk : key ≠ [])
    (h : (∃ m, l.cons.getChild key = .ok m) ∨ ¬ ParentResolves l.cons key) :
    (l.addConstraint c primKeys param key).2 = .error (.keyError key) := by
  have hck : l.check c primKeys param = .ok () := Layout.check_ok.mpr ⟨prims, hp, ha⟩
  have hadd := ((C05_add_child_outcome l.cons c key).1).mpr h
  simp only [Layout.addConstraint, hk, if_false, Layout.checkAndStore, hck, Layout.store, hadd]

/-- C76, success: on a layout made by regular calls, a regular call with acceptable arguments and
without a key, or with a key that is free and whose parent exists, succeeds.  (Regular: the parameters
can be distributed over the parts of the constraint; true of the shipped constraints with sensible
parameters, `Sensible.regular`.) -/
theorem C76_accepted (id : Nat) (ops : List (LayoutOp K)) (hr : ∀ op ∈ ops, op.Regular) (l : Layout K)
    (hl : l = (Layout.empty id).run ops) (c : Cons K) (primKeys : List Str) (prims : List (Prim K))
    (hp : Finds l primKeys prims) (param : List (Param K)) (key : Str)
    (hc : (LayoutOp.addConstraint c primKeys param key).Regular) (ha : c.Accepts prims param)
    (h : key = [] ∨ ((∀ m, l.cons.getChild key ≠ .ok m) ∧ ParentResolves l.cons key)) :
    (l.addConstraint c primKeys param key).2 = .ok () := by
  have hi : l.Inv := by rw [hl]; exact (Layout.Inv.empty id).run hr
  obtain ⟨ctr, key', hk1, hk2, e⟩ := l.addConstraint_cases hc.1 primKeys param key
  rw [e]
  have hck : Layout.check { l with counter := ctr } c primKeys param = .ok () :=
    Layout.check_ok.mpr ⟨prims, hp, ha⟩
  obtain ⟨e1, e2⟩ := Layout.accepts_lengths hck
  rcases Layout.store_cases (hi.counter ctr) (hc.2 e1 e2) key' with ⟨er, he, _⟩ | ⟨_, _, _, _, _, _, _, _, _, _, hs, _⟩
  · exfalso
    obtain ⟨g1, g2⟩ := C05_add_child_outcome l.cons c key'
    obtain rfl := g2 er he
    have hbad := g1.mp he
    rcases h with h | ⟨h3, h4⟩
    · obtain ⟨n1, n2, _, _⟩ := hk2 h
      have := Layout.addChild_top l.cons c n1 n2
      rw [this] at he
      cases he
    · by_cases hk : key = []
      · obtain ⟨n1, n2, _, _⟩ := hk2 hk
        have := Layout.addChild_top l.cons c n1 n2
        rw [this] at he
        cases he
      · obtain ⟨rfl, _⟩ := hk1 hk
        rcases hbad with ⟨m, hm⟩ | hbad
        · exact h3 m hm
        · exact hbad h4
  · simp only [Layout.checkAndStore, hck, hs]

/-- C76, the cases are exhaustive: one of the hypotheses of the last four theorems holds. -/
theorem C76_cases (l : Layout K) (c : Cons K) (primKeys : List Str) (param : List (Param K)) (key : Str) :
    (∃ pre k post, primKeys = pre ++ k :: post ∧ (∀ k' ∈ pre, ∃ p, l.prim.getChild k' = .ok p) ∧
      ∀ p, l.prim.getChild k ≠ .ok p) ∨
    ∃ prims, Finds l primKeys prims ∧ (¬ c.Accepts prims param ∨ c.Accepts prims param ∧
      (key ≠ [] ∧ ((∃ m, l.cons.getChild key = .ok m) ∨ ¬ ParentResolves l.cons key) ∨
        (key = [] ∨ ((∀ m, l.cons.getChild key ≠ .ok m) ∧ ParentResolves l.cons key)))) := by
  have : ∀ ks : List Str, (∃ pre k post, ks = pre ++ k :: post ∧
      (∀ k' ∈ pre, ∃ p, l.prim.getChild k' = .ok p) ∧ ∀ p, l.prim.getChild k ≠ .ok p) ∨
      ∃ prims, Finds l ks prims := by
    intro ks
    induction ks with
    | nil => exact .inr ⟨[], .nil⟩
    | cons k ks ih =>
      cases hk : l.prim.getChild k with
      | error e => exact .inl ⟨[], k, ks, rfl, by simp, by simp [hk]⟩
      | ok p =>
        rcases ih with ⟨pre, k', post, rfl, h1, h2⟩ | ⟨prims, h⟩
        · exact .inl ⟨k :: pre, k', post, rfl, by
            intro k'' h
            rcases List.mem_cons.mp h with rfl | h
            · exact ⟨p, hk⟩
            · exact h1 k'' h, h2⟩
        · exact .inr ⟨p :: prims, .cons hk h⟩
  rcases this primKeys with h | ⟨prims, h⟩
  · exact .inl h
  · refine .inr ⟨prims, h, ?_⟩
    by_cases ha : c.Accepts prims param
    · refine .inr ⟨ha, ?_⟩
      by_cases hk : key = []
      · exact .inr (.inl hk)
      · by_cases hm : (∃ m, l.cons.getChild key = .ok m) ∨ ¬ ParentResolves l.cons key
        · exact .inl ⟨hk, hm⟩
        · simp only [not_or, not_exists, not_not] at hm
          exact .inr (.inr hm)
    · exact .inl ha

attribute [local instance] exampleNum

/-- Each of the cases, on a layout with a rectangle and a constraint. -/
example :
    let l := ((Layout.empty 0 : Layout Rat).run [.addPrim (exRect 0 0 2 3) k!"q",
      .addConstraint ct.horizontal [k!"q/Line0"] [] k!"h"])
    (l.addPrim (exRect 0 0 2 3) k!"q").2 = .error (.keyError k!"q") ∧
    (l.addPrim (exRect 0 0 2 3) k!"p/x").2 = .error (.keyError k!"p/x") ∧
    (l.addPrim (exRect 0 0 2 3) k!"p").2 = .ok () ∧
    (l.addConstraint ct.horizontal [k!"q/Line4", k!"r"] [] k!"h").2 = .error (.keyError k!"q/Line4") ∧
    (l.addConstraint ct.horizontal [k!"q"] [] k!"h").2 = .error .runtimeError ∧
    (l.addConstraint ct.horizontal [k!"q/Line0"] [.none] k!"h").2 = .error .runtimeError ∧
    (l.addConstraint ct.horizontal [k!"q/Line0"] [] k!"h").2 = .error (.keyError k!"h") ∧
    (l.addConstraint ct.horizontal [k!"q/Line0"] [] k!"i/h").2 = .error (.keyError k!"i/h") ∧
    (l.addConstraint ct.horizontal [k!"q/Line0"] [] k!"h/h").2 = .ok () ∧
    (l.addConstraint ct.horizontal [k!"q/Line0"] [] []).2 = .ok () := by
  refine ⟨?_, ?_, ?_, ?_, ?_, ?_, ?_, ?_, ?_, ?_⟩ <;> decide +kernel

end MplLayout.Props
