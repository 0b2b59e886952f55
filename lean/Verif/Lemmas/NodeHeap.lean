import Verif.Spec.NodeHeap
import Verif.Lemmas.ShiftSolve
import Verif.Lemmas.LayoutSolve

/-!
# Pictures of objects on the heap
-/

namespace MplLayout

variable {τ α K : Type}

/-- The children of an object, as references. -/
def refs (cs : List (Str × Picture τ α)) : List (Str × Nat) := cs.map fun kc => (kc.1, kc.2.addr)

@[simp] theorem addr_mk (t : τ) (v : Nat × α) (cs) : (Node.mk t v cs : Picture τ α).addr = v.1 := rfl

theorem Pictured_mk {h : Heap τ α} {t : τ} {v : Nat × α} {cs : List (Str × Picture τ α)} :
    Pictured h (.mk t v cs) ↔ h[v.1]? = some ⟨t, v.2, refs cs⟩ ∧ ∀ k c, (k, c) ∈ cs → Pictured h c := by
  constructor
  · intro H
    refine ⟨H [] _ (.here _), fun k c hc p m hm => H (k :: p) m (.down hc hm)⟩
  · rintro ⟨h1, h2⟩ p m hm
    cases hm with
    | here => exact h1
    | down hc hm => exact h2 _ _ hc _ _ hm

theorem Pictured.at {h : Heap τ α} {t m : Picture τ α} {p : List Str} (ht : Pictured h t)
    (hm : t.At p m) : Pictured h m := fun _ _ hq => ht _ _ (hm.trans hq)

theorem Pictured.obj {h : Heap τ α} {t : Picture τ α} (ht : Pictured h t) :
    h[t.addr]? = some ⟨t.ty, t.value.2, refs t.children⟩ := ht [] t (.here t)

theorem Pictured.obj' {h : Heap τ α} {t : Picture τ α} (ht : Pictured h t) :
    h.obj t.addr = .ok ⟨t.ty, t.value.2, refs t.children⟩ := by
  rw [Heap.obj, ht.obj]

theorem Pictured.unique {h : Heap τ α} {t u : Picture τ α} (ht : Pictured h t) (hu : Pictured h u)
    (e : t.addr = u.addr) : t = u := by
  induction t using Node.induct generalizing u with
  | _ ty v cs ih =>
    cases u with
    | mk ty' v' cs' =>
      obtain ⟨h1, h2⟩ := Pictured_mk.mp ht
      obtain ⟨h1', h2'⟩ := Pictured_mk.mp hu
      simp only [addr_mk] at e
      rw [e, h1'] at h1
      simp only [Option.some.injEq, Obj.mk.injEq] at h1
      obtain ⟨rfl, hv, hr⟩ := h1
      have : v = v' := Prod.ext e hv.symm
      subst this
      congr 1
      clear h1' ht hu
      induction cs generalizing cs' with
      | nil => cases cs' with
        | nil => rfl
        | cons => simp [refs] at hr
      | cons kc cs ih2 => cases cs' with
        | nil => simp [refs] at hr
        | cons kc' cs' =>
          simp only [refs, List.map_cons, List.cons.injEq, Prod.mk.injEq] at hr
          obtain ⟨⟨e1, e2⟩, e3⟩ := hr
          congr 1
          · exact Prod.ext e1.symm (ih kc.1 kc.2 (by simp) (h2 kc.1 _ (by simp))
              (h2' kc'.1 _ (by simp)) e2.symm)
          · exact ih2 (fun k c hc => ih k c (by simp [hc])) cs' (fun k c hc => h2 k c (by simp [hc]))
              (fun k c hc => h2' k c (by simp [hc])) e3

theorem dictGet_refs (cs : List (Str × Picture τ α)) (k : Str) :
    dictGet (refs cs) k = (dictGet cs k).map Node.addr := dictGet_mapVal _ _ _

theorem dictSet_refs (cs : List (Str × Picture τ α)) (k : Str) (c : Picture τ α) :
    dictSet (refs cs) k c.addr = refs (dictSet cs k c) := dictSet_mapVal _ _ _ _

theorem dictHas_refs (cs : List (Str × Picture τ α)) (k : Str) :
    dictHas (refs cs) k = dictHas cs k := by
  simp only [dictHas, dictGet_refs, Option.isSome_map]

/-- Lookup of an object agrees with lookup in the picture. -/
theorem Pictured.getPath {h : Heap τ α} {t : Picture τ α} (ht : Pictured h t) (p : List Str) :
    h.getPath t.addr p = (t.getPath p).map Node.addr := by
  induction p generalizing t with
  | nil => rfl
  | cons k ks ih =>
    cases ks with
    | nil =>
      simp only [Heap.getPath, ht.obj', bind, Except.bind, dictGet_refs, Node.getPath]
      cases dictGet t.children k <;> rfl
    | cons k' ks =>
      simp only [Heap.getPath, ht.obj', bind, Except.bind, dictGet_refs, Node.getPath]
      cases hd : dictGet t.children k with
      | none => rfl
      | some c =>
        simp only [Option.map_some]
        rw [ih (ht.at (.down (dictGet_eq_some_mem hd) (.here _)))]
        cases c.getPath (k' :: ks) with
        | ok m => rfl
        | error e => cases e <;> rfl

theorem Pictured.getChild {h : Heap τ α} {t : Picture τ α} (ht : Pictured h t) (key : Str) :
    h.getChild t.addr key = (t.getChild key).map Node.addr := ht.getPath _

/-- `add_child` on the heap: the exceptions of the tree, or a change of the object found. -/
theorem Pictured.addPath {h : Heap τ α} {t : Picture τ α} (ht : Pictured h t) (c : Nat)
    (p : List Str) (k : Str) :
    h.addPath t.addr c (p ++ [k]) = match t.find p with
      | some m => if k ∈ m.keys then .error (.keyError (joinSlash (p ++ [k])))
          else .ok (h.set m.addr ⟨m.ty, m.value.2, refs m.children ++ [(k, c)]⟩)
      | none => .error (.keyError (joinSlash (p ++ [k]))) := by
  induction p generalizing t with
  | nil =>
    simp only [List.nil_append, Heap.addPath, ht.obj', bind, Except.bind, Node.find, joinSlash,
      dictHas_refs]
    by_cases hk : k ∈ t.keys
    · have : dictHas t.children k = true := dictHas_iff.2 hk
      simp [this, hk, reraiseKey]
    · have : dictHas t.children k = false := dictHas_false_iff.2 hk
      have hn : k ∉ (refs t.children).map (·.1) := by
        simpa [refs, List.map_map, Function.comp_def, Node.keys] using hk
      simp [this, hk, reraiseKey, dictSet_of_notMem _ hn]
  | cons a p ih =>
    obtain ⟨b, q, hq⟩ : ∃ b q, p ++ [k] = b :: q := by
      cases p with
      | nil => exact ⟨k, [], rfl⟩
      | cons x xs => exact ⟨x, xs ++ [k], rfl⟩
    rw [List.cons_append, hq, Heap.addPath, Node.find]
    simp only [ht.obj', bind, Except.bind, dictGet_refs]
    cases ha : dictGet t.children a with
    | none => simp [reraiseKey]
    | some n' =>
      simp only [Option.map_some]
      rw [← hq, ih (ht.at (.down (dictGet_eq_some_mem ha) (.here _)))]
      cases hf : n'.find p with
      | none => simp [reraiseKey]
      | some m =>
        simp only
        by_cases hk : k ∈ m.keys <;> simp [hk, reraiseKey]

theorem Pictured.addChild {h : Heap τ α} {t : Picture τ α} (ht : Pictured h t) (c : Nat) (key : Str) :
    h.addChild t.addr key c = match t.find (splitAll key).dropLast with
      | some m => if (splitAll key).getLastD [] ∈ m.keys then .error (.keyError key)
          else .ok (h.set m.addr ⟨m.ty, m.value.2, refs m.children ++ [((splitAll key).getLastD [], c)]⟩)
      | none => .error (.keyError key) := by
  have := ht.addPath c (splitAll key).dropLast ((splitAll key).getLastD [])
  rw [Node.dropLast_append_last (splitAll_ne_nil key), joinSlash_splitAll] at this
  exact this

/-! ## Planting -/

theorem Node.plantL_eq (b : Nat) (k : Str) (c : Picture τ α) (cs : List (Str × Picture τ α)) :
    Node.plantL cs b k c = cs.map fun kc => (kc.1, kc.2.plant b k c) := by
  induction cs with
  | nil => rfl
  | cons kc cs ih => rw [Node.plantL, ih]; rfl

theorem Node.plant_mk (b : Nat) (k : Str) (c : Picture τ α) (t : τ) (v : Nat × α)
    (cs : List (Str × Picture τ α)) : (Node.mk t v cs).plant b k c =
      .mk t v (cs.map (fun kc => (kc.1, kc.2.plant b k c)) ++ if v.1 = b then [(k, c)] else []) := by
  rw [Node.plant, Node.plantL_eq]

@[simp] theorem Node.addr_plant (b : Nat) (k : Str) (c t : Picture τ α) :
    (t.plant b k c).addr = t.addr := by
  cases t; rw [Node.plant_mk]; rfl

theorem Holds_mk {b : Nat} {t : τ} {v : Nat × α} {cs : List (Str × Picture τ α)} :
    (Node.mk t v cs : Picture τ α).Holds b ↔ v.1 = b ∨ ∃ k c, (k, c) ∈ cs ∧ c.Holds b := by
  constructor
  · rintro ⟨p, m, hm, e⟩
    cases hm with
    | here => exact .inl e
    | down hc hm => exact .inr ⟨_, _, hc, _, _, hm, e⟩
  · rintro (e | ⟨k, c, hc, p, m, hm, e⟩)
    · exact ⟨[], _, .here _, e⟩
    · exact ⟨k :: p, m, .down hc hm, e⟩

/-- Nothing changes in a tree that does not hold the object. -/
theorem Node.plant_self {b : Nat} {k : Str} {c t : Picture τ α} (h : ¬ t.Holds b) :
    t.plant b k c = t := by
  induction t using Node.induct with
  | _ ty v cs ih =>
    rw [Holds_mk] at h
    push Not at h
    rw [Node.plant_mk, if_neg h.1, List.append_nil]
    congr 1
    conv_rhs => rw [← List.map_id cs]
    refine List.map_congr_left fun kc hkc => ?_
    exact Prod.ext rfl (ih kc.1 kc.2 hkc (h.2 _ _ hkc))

theorem refs_plant (b : Nat) (k : Str) (c : Picture τ α) (cs : List (Str × Picture τ α)) :
    refs (cs.map fun kc => (kc.1, kc.2.plant b k c)) = refs cs := by
  simp [refs, List.map_map, Function.comp_def]

/-- Changing one object in place: every picture gets the child at each place of this object. -/
theorem Pictured.plant {h : Heap τ α} {m c u : Picture τ α} (hm : Pictured h m) (hc : Pictured h c)
    (hcy : ¬ c.Holds m.addr) (k : Str) (hu : Pictured h u) :
    Pictured (h.set m.addr ⟨m.ty, m.value.2, refs m.children ++ [(k, c.addr)]⟩)
      (u.plant m.addr k c) := by
  have hlt : m.addr < h.length := by
    by_contra hge
    have := hm.obj
    rw [List.getElem?_eq_none (by omega)] at this
    cases this
  have frame : ∀ w : Picture τ α, Pictured h w → ¬ w.Holds m.addr →
      Pictured (h.set m.addr ⟨m.ty, m.value.2, refs m.children ++ [(k, c.addr)]⟩) w := by
    intro w hw hn p x hx
    rw [List.getElem?_set_ne (fun e => hn ⟨p, x, hx, e.symm⟩)]
    exact hw p x hx
  induction u using Node.induct with
  | _ ty v cs ih =>
    obtain ⟨h1, h2⟩ := Pictured_mk.mp hu
    rw [Node.plant_mk, Pictured_mk]
    by_cases e : v.1 = m.addr
    · have hmm : m = .mk ty v cs := hm.unique hu e.symm
      rw [if_pos e]
      constructor
      · rw [e, List.getElem?_set_self hlt, hmm]
        simp only [Node.ty_mk, Node.value_mk, Node.children_mk, addr_mk]
        have := refs_plant v.1 k c cs
        rw [show refs (cs.map (fun kc => (kc.1, kc.2.plant v.1 k c)) ++ [(k, c)]) =
          refs (cs.map fun kc => (kc.1, kc.2.plant v.1 k c)) ++ [(k, c.addr)] by simp [refs], this]
      · intro k' c' hc'
        rcases List.mem_append.1 hc' with hc' | hc'
        · obtain ⟨kc, hkc, e'⟩ := List.mem_map.1 hc'
          cases e'
          exact ih kc.1 kc.2 hkc (h2 _ _ hkc)
        · simp only [List.mem_singleton, Prod.mk.injEq] at hc'
          obtain ⟨rfl, rfl⟩ := hc'
          exact frame _ hc hcy
    · rw [if_neg e, List.append_nil]
      constructor
      · rw [List.getElem?_set_ne (fun e' => e e'.symm), refs_plant]
        exact h1
      · intro k' c' hc'
        obtain ⟨kc, hkc, e'⟩ := List.mem_map.1 hc'
        cases e'
        exact ih kc.1 kc.2 hkc (h2 _ _ hkc)

/-- If only one place holds the object, planting is writing at this place. -/
theorem plant_setAt {t m c : Picture τ α} {p : List Str} {k : Str} (ht : t.WF) (hm : t.At p m)
    (hk : k ∉ m.keys) (h1 : ∀ q x, t.At q x → x.addr = m.addr → q = p) :
    t.plant m.addr k c = t.setAt p k c := by
  induction p generalizing t with
  | nil =>
    cases hm with
    | here =>
      cases m with
      | mk ty v cs =>
        rw [Node.plant_mk, addr_mk, if_pos rfl, Node.setAt, Node.children_mk,
          dictSet_of_notMem _ (show k ∉ cs.map (·.1) from hk)]
        congr 2
        conv_rhs => rw [← List.map_id cs]
        refine List.map_congr_left fun kc hkc => Prod.ext rfl (Node.plant_self ?_)
        rintro ⟨q, x, hx, e⟩
        exact nomatch h1 (kc.1 :: q) x (.down hkc hx) e
  | cons a p ih =>
    cases hm with
    | @down _ n' _ _ _ hc hm =>
      cases t with
      | mk ty v cs =>
        have hnd : (cs.map (·.1)).Nodup := ht.keys_nodup
        have hget : dictGet cs a = some n' := dictGet_of_mem hnd hc
        have hv : v.1 ≠ m.addr := fun e => nomatch h1 [] _ (.here _) e
        rw [Node.plant_mk, if_neg hv, List.append_nil, Node.setAt, Node.children_mk, hget]
        simp only [Node.ty_mk, Node.value_mk]
        rw [← ih (ht.child hc) hm (fun q x hx e => by
          have := h1 (a :: q) x (.down hc hx) e
          exact (List.cons.inj this).2)]
        congr 1
        have key : ∀ kc ∈ cs, kc.1 ≠ a → kc.2.plant m.addr k c = kc.2 := by
          intro kc hkc hne
          refine Node.plant_self ?_
          rintro ⟨q, x, hx, e⟩
          exact hne (List.cons.inj (h1 (kc.1 :: q) x (.down hkc hx) e)).1
        clear ht h1 ih hv
        induction cs with
        | nil => cases hget
        | cons kc cs ih2 =>
          simp only [List.map_cons, dictSet]
          simp only [List.map_cons, List.nodup_cons] at hnd
          by_cases e : kc.1 = a
          · have e2 : kc.2 = n' := by
              simp only [dictGet, if_pos e, Option.some.injEq] at hget; exact hget
            rw [if_pos e, ← e2]
            congr 1
            conv_rhs => rw [← List.map_id cs]
            refine List.map_congr_left fun kc' hkc' => Prod.ext rfl (key kc' (by simp [hkc']) ?_)
            intro e3
            exact hnd.1 (List.mem_map.2 ⟨kc', hkc', e3.trans e.symm⟩)
          · rw [if_neg e]
            have hget' : dictGet cs a = some n' := by simpa [dictGet, e] using hget
            rw [ih2 (dictGet_eq_some_mem hget') hnd.2 hget' (fun kc' hkc' => key kc' (by simp [hkc']))]
            rw [key kc (by simp) e]

end MplLayout
