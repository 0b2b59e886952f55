import Verif.Props.Layout

/-!
# C69: exactly the valid calls are accepted
-/

namespace MplLayout.Props

variable {K τ α : Type}

/-- A place for `key` in the tree `n`: directly below the root, or below the node under the part of
the key before the last slash, and not taken. -/
def FreeKey (n : Node τ α) (key : Str) : Prop :=
  ('/' ∉ key ∧ key ∉ n.keys) ∨
  ∃ parent last m, key = parent ++ '/' :: last ∧ '/' ∉ last ∧ n.getChild parent = .ok m ∧ last ∉ m.keys

theorem addChild_ok_iff (n c : Node τ α) (key : Str) :
    (∃ r, n.addChild key c = .ok r) ↔ FreeKey n key := by
  rw [Node.addChild_eq]
  constructor
  · rintro ⟨r, h⟩
    cases hf : n.find (splitAll key).dropLast with
    | none => rw [hf] at h; cases h
    | some m =>
      rw [hf] at h
      simp only at h
      by_cases hm : (splitAll key).getLastD [] ∈ m.keys
      · rw [if_pos hm] at h; cases h
      · by_cases hs : '/' ∉ key
        · rw [(noslash_iff_dropLast key).mp hs, Node.find] at hf
          cases hf
          rw [splitAll_noslash hs] at hm
          exact .inl ⟨hs, hm⟩
        · have hd : (splitAll key).dropLast ≠ [] := fun e => hs ((noslash_iff_dropLast key).mpr e)
          refine .inr ⟨joinSlash (splitAll key).dropLast, (splitAll key).getLastD [], m, ?_, ?_, ?_, hm⟩
          · have h1 := joinSlash_splitAll key
            rw [splitAll_split key] at h1
            conv_lhs => rw [← h1]
            generalize (splitAll key).dropLast = p at hd
            clear h1
            induction p with
            | nil => exact absurd rfl hd
            | cons x p ih =>
              cases p with
              | nil => rfl
              | cons y p =>
                simp only [List.cons_append, joinSlash]
                rw [show joinSlash (y :: (p ++ [(splitAll key).getLastD []]))
                  = joinSlash ((y :: p) ++ [(splitAll key).getLastD []]) from rfl, ih (by simp)]
                simp
          · exact mem_splitAll_noslash (getLastD_mem_splitAll key)
          · rw [Node.getChild_ok_iff]
            have : splitAll (joinSlash (splitAll key).dropLast) = (splitAll key).dropLast := by
              apply splitAll_joinSlash hd
              intro s hs
              exact mem_splitAll_noslash (List.mem_of_mem_dropLast hs)
            rw [this]; exact hf
  · rintro (⟨h1, h2⟩ | ⟨parent, last, m, rfl, h1, h2, h3⟩)
    · rw [(noslash_iff_dropLast key).mp h1, splitAll_noslash h1]
      simp only [Node.find, List.getLastD_cons, List.getLastD_nil]
      rw [if_neg h2]
      exact ⟨_, rfl⟩
    · rw [splitAll_append_slash, splitAll_noslash h1, List.dropLast_concat]
      rw [Node.getChild_ok_iff] at h2
      rw [h2]
      have : (splitAll parent ++ [last]).getLastD [] = last := by simp
      simp only [this, if_neg h3]
      exact ⟨_, rfl⟩

/-- C69, `add_prim`: on any layout, the call is accepted exactly if there is a place for the key. -/
theorem C69_add_prim (l : Layout K) (prim : Prim K) (key : Str) :
    (l.addPrim prim key).2 = .ok () ↔ FreeKey l.prim key := by
  rw [← addChild_ok_iff l.prim prim key]
  unfold Layout.addPrim
  cases l.prim.addChild key prim with
  | ok r => simp
  | error e => simp

/-- `C69_add_constraint` from the invariant of layouts. -/
theorem addConstraint_ok_iff {l : Layout K} (hi : l.Inv)
    (c : Cons K) (primKeys : List Str) (param : List (Param K)) (key : Str)
    (hc : (LayoutOp.addConstraint c primKeys param key).Regular) :
    (l.addConstraint c primKeys param key).2 = .ok () ↔
      (∃ prims, List.Forall₂ (fun k p => l.prim.getChild k = .ok p) primKeys prims ∧
        List.Forall₂ (fun (p : Prim K) t => p.ty.IsA t) prims c.value.sig.primTypes ∧
        param.length = c.value.sig.paramTypes.length) ∧
      (key = [] ∨ FreeKey l.cons key) := by
  obtain ⟨ctr, key', hk1, hk2, e⟩ := l.addConstraint_cases hc.1 primKeys param key
  have hi' := hi.counter ctr
  rw [e]
  unfold Layout.checkAndStore
  have hck := Layout.check_ok (l := { l with counter := ctr }) (c := c) (primKeys := primKeys)
    (param := param)
  have hfree : key = [] ∨ FreeKey l.cons key ↔ ∃ r, l.cons.addChild key' c = .ok r := by
    rw [addChild_ok_iff]
    by_cases hk : key = []
    · obtain ⟨h1, h2, _⟩ := hk2 hk
      exact ⟨fun _ => .inl ⟨h1, h2⟩, fun _ => .inl hk⟩
    · obtain ⟨rfl, _⟩ := hk1 hk
      simp [hk]
  rw [hfree]
  cases hx : Layout.check { l with counter := ctr } c primKeys param with
  | error er =>
    simp only [reduceCtorEq, false_iff]
    rintro ⟨⟨prims, h1, h2, h3⟩, -⟩
    rw [hck.mpr ⟨prims, h1, h2, h3⟩] at hx
    cases hx
  | ok u =>
    obtain ⟨prims, h1, h2, h3⟩ := hck.mp hx
    have hfit := hc.2 (h1.length_eq.trans h2.length_eq) h3
    rcases Layout.store_cases hi' hfit key' with ⟨er, g1, g2⟩ | ⟨cons, _, _, _, _, g1, _, _, _, _, g2, _⟩
    · simp only [g2, reduceCtorEq, false_iff]
      rintro ⟨-, r, hr⟩
      rw [show l.cons.addChild key' c = .error er from g1] at hr
      cases hr
    · simp only [g2, true_iff]
      exact ⟨⟨prims, h1, h2, h3⟩, cons, g1⟩

/-- C69, `add_constraint`: on a layout reached by regular calls, a regular call is accepted exactly if
the primitive keys name primitives of the classes that the constraint declares, it gets as many
parameters as it declares, and the key is automatic or there is a place for it. -/
theorem C69_add_constraint (id : Nat) (ops : List (LayoutOp K)) (hr : ∀ op ∈ ops, op.Regular)
    (c : Cons K) (primKeys : List Str) (param : List (Param K)) (key : Str)
    (hc : (LayoutOp.addConstraint c primKeys param key).Regular) :
    let l := (Layout.empty id).run ops
    (l.addConstraint c primKeys param key).2 = .ok () ↔
      (∃ prims, List.Forall₂ (fun k p => l.prim.getChild k = .ok p) primKeys prims ∧
        List.Forall₂ (fun (p : Prim K) t => p.ty.IsA t) prims c.value.sig.primTypes ∧
        param.length = c.value.sig.paramTypes.length) ∧
      (key = [] ∨ FreeKey l.cons key) := by
  exact addConstraint_ok_iff ((Layout.Inv.empty id).run hr) c primKeys param key hc

/-- C69 for the shipped constraints. -/
theorem C69_shipped (id : Nat) (ops : List (LayoutOp Flt)) (hr : ∀ op ∈ ops, op.Sensible)
    (c : Cons Flt) (primKeys : List Str) (param : List (Param Flt)) (key : Str)
    (hc : (LayoutOp.addConstraint c primKeys param key).Sensible) :
    let l := (Layout.empty id).run ops
    (l.addConstraint c primKeys param key).2 = .ok () ↔
      (∃ prims, List.Forall₂ (fun k p => l.prim.getChild k = .ok p) primKeys prims ∧
        List.Forall₂ (fun (p : Prim Flt) t => p.ty.IsA t) prims c.value.sig.primTypes ∧
        param.length = c.value.sig.paramTypes.length) ∧
      (key = [] ∨ FreeKey l.cons key) :=
  C69_add_constraint id ops (fun op h => Sensible.regular (hr op h)) c primKeys param key
    (Sensible.regular hc)

/-- Both outcomes occur, and the theorem decides them: after `sensibleOps` a second height under a free
key is accepted, under the taken key `h` it is not; neither is one for a primitive that is missing. -/
example :
    let l := (Layout.empty 0).run sensibleOps
    (l.addConstraint (cstr heightT) [k!"q"] [.num (Flt.fin 5)] k!"h3").2 = .ok () ∧
    (l.addConstraint (cstr heightT) [k!"q"] [.num (Flt.fin 5)] k!"h").2 ≠ .ok () ∧
    (l.addConstraint (cstr heightT) [k!"p"] [.num (Flt.fin 5)] k!"h3").2 ≠ .ok () ∧
    FreeKey l.prim k!"q/x" ∧ ¬ FreeKey l.prim k!"q" := by
  refine ⟨rfl, ?_, ?_, ?_, ?_⟩
  · intro h; cases h
  · intro h; cases h
  · exact .inr ⟨k!"q", k!"x", _, rfl, by decide, rfl, by decide⟩
  · rintro (⟨_, h⟩ | ⟨parent, last, m, h, -⟩)
    · exact h (by decide)
    · have : '/' ∈ k!"q" := by rw [h]; simp
      exact absurd this (by decide)

end MplLayout.Props
