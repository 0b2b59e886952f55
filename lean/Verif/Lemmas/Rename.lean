import Verif.Spec.Rename
import Verif.Lemmas.ShiftSolve
import Verif.Lemmas.SolveKeeps
import Verif.Lemmas.Family

/-!
# Renaming the primitives of a layout
-/

namespace MplLayout

open Cons

variable {K : Type} {ρ : Str → Str}

theorem splitAll_rename (hρ : Renaming ρ) (key : Str) {k : Str} {ks : List Str} (h : splitAll key = k :: ks) :
    splitAll (renameKey ρ key) = ρ k :: ks := by
  have hs : ∀ w ∈ splitAll key, '/' ∉ w := fun w hw => mem_splitAll_noslash hw
  rw [h] at hs
  unfold renameKey
  rw [h]
  apply splitAll_joinSlash (by simp)
  intro w hw
  rcases List.mem_cons.mp hw with rfl | hw
  · exact hρ.noSlash k (hs k (by simp))
  · exact hs w (by simp [hw])

theorem dictGet_rename (hρ : Renaming ρ) {β : Type} (d : List (Str × β)) (k : Str) :
    dictGet (d.map fun kc => (ρ kc.1, kc.2)) (ρ k) = dictGet d k := by
  induction d with
  | nil => rfl
  | cons kc d ih => simp only [List.map_cons, dictGet, hρ.inj.eq_iff, ih]

theorem dictSet_rename (hρ : Renaming ρ) {β : Type} (d : List (Str × β)) (k : Str) (v : β) :
    dictSet (d.map fun kc => (ρ kc.1, kc.2)) (ρ k) v = (dictSet d k v).map fun kc => (ρ kc.1, kc.2) := by
  induction d with
  | nil => rfl
  | cons kc d ih =>
    simp only [List.map_cons, dictSet, hρ.inj.eq_iff, ih]
    split <;> simp

theorem find_rename (hρ : Renaming ρ) (p : Prim K) (k : Str) (ks : List Str) :
    (p.rename ρ).find (ρ k :: ks) = p.find (k :: ks) := by
  simp only [Node.find, Prim.rename, Node.children_mk, dictGet_rename hρ]

/-- Looking up. -/
theorem getChild_rename (hρ : Renaming ρ) (p : Prim K) (key : Str) :
    ((p.rename ρ).getChild (renameKey ρ key)).toOption = (p.getChild key).toOption := by
  rw [Node.getChild_eq', Node.getChild_eq']
  cases h : splitAll key with
  | nil => exact absurd h (splitAll_ne_nil key)
  | cons k ks =>
    rw [splitAll_rename hρ key h, find_rename hρ]
    cases p.find (k :: ks) <;> rfl

/-- Adding. -/
theorem addChild_rename (hρ : Renaming ρ) (p c : Prim K) (key : Str) :
    ((p.rename ρ).addChild (renameKey ρ key) c).toOption = ((p.addChild key c).toOption).map (Prim.rename ρ) := by
  rw [Node.addChild_eq, Node.addChild_eq]
  cases h : splitAll key with
  | nil => exact absurd h (splitAll_ne_nil key)
  | cons k ks =>
    rw [splitAll_rename hρ key h]
    cases ks with
    | nil =>
      simp only [List.dropLast_singleton, Node.find, List.getLastD_cons, List.getLastD_nil]
      have hk : ρ k ∈ (p.rename ρ).keys ↔ k ∈ p.keys := by
        simp only [Prim.rename, Node.keys, Node.children_mk, List.map_map, List.mem_map, Function.comp]
        constructor
        · rintro ⟨x, hx, e⟩; exact ⟨x, hx, hρ.inj e⟩
        · rintro ⟨x, hx, rfl⟩; exact ⟨x, hx, rfl⟩
      by_cases hm : k ∈ p.keys
      · simp only [hk, hm, if_true]; rfl
      · simp only [hk, hm, if_false]
        simp only [Except.toOption, Option.map_some, Node.setAt, Prim.rename, Node.ty_mk, Node.value_mk,
          Node.children_mk, dictSet_rename hρ]
    | cons k' ks =>
      simp only [List.dropLast_cons_cons, find_rename hρ, List.getLastD_cons]
      cases hf : p.find (k :: (k' :: ks).dropLast) with
      | none => rfl
      | some m =>
        simp only []
        split
        · rfl
        · simp only [Except.toOption, Option.map_some, Node.setAt, Prim.rename, Node.ty_mk, Node.value_mk,
            Node.children_mk, dictGet_rename hρ]
          cases hd : dictGet p.children k with
          | none => simp only [Node.find, hd] at hf; cases hf
          | some d => simp only [Node.ty_mk, Node.value_mk, Node.children_mk, dictSet_rename hρ]

/-! ## Layouts -/

/-- The layout with other names. -/
def Layout.rename (ρ : Str → Str) (l : Layout K) : Layout K :=
  { l with prim := l.prim.rename ρ, keys := l.keys.mapV (List.map (renameKey ρ)) }

theorem toOption_cases {β γ : Type} {x : Py β} {y : Py γ} {f : γ → β} (h : x.toOption = y.toOption.map f) :
    (∃ v, x = .ok (f v) ∧ y = .ok v) ∨ ∃ e e', x = .error e ∧ y = .error e' := by
  cases x <;> cases y <;> simp [Except.toOption] at h ⊢
  exact h

theorem addPrim_rename (hρ : Renaming ρ) (l : Layout K) (p : Prim K) (key : Str) :
    ((l.rename ρ).addPrim p (renameKey ρ key)).1 = (l.addPrim p key).1.rename ρ ∧
    (((l.rename ρ).addPrim p (renameKey ρ key)).2 = .ok () ↔ (l.addPrim p key).2 = .ok ()) := by
  simp only [Layout.addPrim, Layout.rename]
  rcases toOption_cases (addChild_rename hρ l.prim p key) with ⟨v, e1, e2⟩ | ⟨e, e', e1, e2⟩
  · rw [e1, e2]; exact ⟨rfl, Iff.rfl⟩
  · rw [e1, e2]; exact ⟨rfl, by simp⟩

theorem addPrims_rename (hρ : Renaming ρ) : ∀ (ps : List (Str × Prim K)) (l : Layout K),
    ((l.rename ρ).addPrims (ps.map fun kp => (renameKey ρ kp.1, kp.2))).1 = (l.addPrims ps).1.rename ρ ∧
    (((l.rename ρ).addPrims (ps.map fun kp => (renameKey ρ kp.1, kp.2))).2 = .ok () ↔ (l.addPrims ps).2 = .ok ())
  | [], l => ⟨rfl, Iff.rfl⟩
  | (key, p) :: ps, l => by
    obtain ⟨h1, h2⟩ := addPrim_rename hρ l p key
    simp only [List.map_cons, Layout.addPrims]
    rcases h : l.addPrim p key with ⟨l', r⟩
    rcases h' : (l.rename ρ).addPrim p (renameKey ρ key) with ⟨l'', r'⟩
    rw [h, h'] at h1 h2
    simp only at h1 h2
    subst h1
    cases r with
    | ok u =>
      cases h2.mpr rfl
      exact addPrims_rename hρ ps l'
    | error e =>
      cases r' with
      | ok u => exact absurd (h2.mp rfl) (by simp)
      | error e' => exact ⟨rfl, by simp⟩

theorem lookup_rename (hρ : Renaming ρ) (p : Prim K) : ∀ ks : List Str,
    (lookupPrims (p.rename ρ) (ks.map (renameKey ρ))).toOption = (lookupPrims p ks).toOption
  | [] => rfl
  | k :: ks => by
    have h1 := getChild_rename hρ p k
    have h2 := lookup_rename hρ p ks
    unfold lookupPrims at h2 ⊢
    simp only [List.map_cons, pyMap]
    cases e1 : (p.rename ρ).getChild (renameKey ρ k) <;> cases e2 : p.getChild k <;> rw [e1, e2] at h1 <;>
      simp only [Except.toOption, reduceCtorEq, Option.some.injEq] at h1
    · rfl
    · subst h1
      revert h2
      cases pyMap (p.rename ρ).getChild (ks.map (renameKey ρ)) <;> cases pyMap p.getChild ks <;>
        simp [Except.toOption, bind, Except.bind]

theorem check_rename (hρ : Renaming ρ) (l : Layout K) (c : Cons K) (ks : List Str) (ps : List (Param K)) :
    (l.rename ρ).check c (ks.map (renameKey ρ)) ps = .ok () ↔ l.check c ks ps = .ok () := by
  simp only [Layout.check, Layout.rename]
  have := lookup_rename hρ l.prim ks
  cases h1 : lookupPrims (l.prim.rename ρ) (ks.map (renameKey ρ)) with
  | error e =>
    cases h2 : lookupPrims l.prim ks with
    | error e' => cases e <;> cases e' <;> simp [bind, Except.bind, reraiseType]
    | ok v => rw [h1, h2] at this; simp [Except.toOption] at this
  | ok v =>
    cases h2 : lookupPrims l.prim ks with
    | error e' => rw [h1, h2] at this; simp [Except.toOption] at this
    | ok w =>
      rw [h1, h2] at this
      simp only [Except.toOption, Option.some.injEq] at this
      rw [this]

theorem renameKey_append (k : Str) (rest : Option Str) :
    renameKey ρ (joinSlash (k :: rest.toList)) = joinSlash (renameKey ρ k :: rest.toList) := by
  cases rest with
  | none => rfl
  | some s =>
    cases h : splitAll k with
    | nil => exact absurd h (splitAll_ne_nil k)
    | cons w ws =>
      simp only [Option.toList_some]
      have e : joinSlash [k, s] = k ++ '/' :: s := by rw [joinSlash_cons (by simp)]; rfl
      have e' : joinSlash [renameKey ρ k, s] = renameKey ρ k ++ '/' :: s := by
        rw [joinSlash_cons (by simp)]; rfl
      rw [e, e']
      conv_lhs => rw [renameKey, splitAll_append_slash, h]
      simp only [List.cons_append]
      conv_rhs => rw [renameKey, h]
      show joinSlash (ρ w :: (ws ++ splitAll s)) = joinSlash (ρ w :: ws) ++ '/' :: s
      rw [← List.cons_append, joinSlash_append (by simp) (splitAll_ne_nil s), joinSlash_splitAll]

theorem replacePrefix_rename (ks : List Str) (key : Str) :
    replacePrefix (ks.map (renameKey ρ)) key = (replacePrefix ks key).map (renameKey ρ) := by
  unfold replacePrefix
  rcases split1 key with ⟨pre, rest⟩
  simp only [bind, Except.bind]
  cases argnum pre with
  | error e => rfl
  | ok i =>
    simp only [pyIndex_map]
    cases pyIndex ks (Int.ofNat i) with
    | error e => rfl
    | ok k => simp only [Except.map, renameKey_append]

theorem childKeys_rename (v : ConsVal K) (ks : List Str) :
    v.childKeys (ks.map (renameKey ρ)) = (v.childKeys ks).map (List.map (List.map (renameKey ρ))) := by
  unfold ConsVal.childKeys
  exact pyMap_map_comm _ _ _ (fun keys => pyMap_map_comm _ _ _ (replacePrefix_rename ks) keys) _

mutual
theorem rootPrimKeys_rename : ∀ (c : Cons K) (ks : List Str),
    c.rootPrimKeys (ks.map (renameKey ρ)) = (c.rootPrimKeys ks).map (Node.mapV (List.map (renameKey ρ)))
  | .mk t v cs, ks => by
    simp only [rootPrimKeys, childKeys_rename, bind, Except.bind]
    cases v.childKeys ks with
    | error e => rfl
    | ok kss =>
      simp only [Except.map, rootPrimKeysL_rename cs kss]
      cases rootPrimKeysL cs kss with
      | error e => rfl
      | ok ns => simp only [Node.mapV_mk, dictOfPairs_mapVal]
theorem rootPrimKeysL_rename : ∀ (cs : List (Str × Cons K)) (kss : List (List Str)),
    rootPrimKeysL cs (kss.map (List.map (renameKey ρ))) = (rootPrimKeysL cs kss).map
      (List.map fun kn => (kn.1, kn.2.mapV (List.map (renameKey ρ))))
  | [], kss => by cases kss <;> rfl
  | (k, c) :: cs, [] => rfl
  | (k, c) :: cs, ks :: kss => by
    simp only [List.map_cons, rootPrimKeysL, bind, Except.bind, rootPrimKeys_rename c ks]
    cases c.rootPrimKeys ks with
    | error e => rfl
    | ok n =>
      simp only [Except.map, rootPrimKeysL_rename cs kss]
      cases rootPrimKeysL cs kss <;> rfl
end

theorem Node.containsPath_mapV {τ α β : Type} (f : α → β) (n : Node τ α) (p : List Str) :
    (n.mapV f).containsPath p = n.containsPath p := by
  induction p generalizing n with
  | nil => rfl
  | cons k ks ih =>
    simp only [Node.containsPath, Node.children_mapV, dictGet_mapVal, dictHas, Option.isSome_map]
    split
    · rfl
    · cases dictGet n.children k with
      | none => rfl
      | some c => exact ih c

theorem store_rename (l : Layout K) (c : Cons K) (ks : List Str) (ps : List (Param K)) (key : Str) :
    (l.rename ρ).store c (ks.map (renameKey ρ)) ps key
      = ((l.store c ks ps key).1.rename ρ, (l.store c ks ps key).2) := by
  simp only [Layout.store, Layout.rename]
  cases l.cons.addChild key c with
  | error e => rfl
  | ok cons =>
    simp only [Layout.storeKeys, rootPrimKeys_rename, bind, Except.bind]
    cases c.rootPrimKeys ks with
    | error e => rfl
    | ok t =>
      simp only [Except.map, Node.addChild_mapV]
      cases l.keys.addChild key t with
      | error e => rfl
      | ok keys =>
        simp only [Layout.storeParams, bind, Except.bind]
        cases c.rootParams ps with
        | error e => rfl
        | ok t' =>
          cases hq : l.params.addChild key t' with
          | error e => simp only [hq]
          | ok q => simp only [hq]

theorem checkAndStore_rename (hρ : Renaming ρ) (l : Layout K) (c : Cons K) (ks : List Str) (ps : List (Param K))
    (key : Str) :
    ((l.rename ρ).checkAndStore c (ks.map (renameKey ρ)) ps key).1
      = (l.checkAndStore c ks ps key).1.rename ρ ∧
    (((l.rename ρ).checkAndStore c (ks.map (renameKey ρ)) ps key).2 = .ok () ↔
      (l.checkAndStore c ks ps key).2 = .ok ()) := by
  have h := check_rename hρ l c ks ps
  simp only [Layout.checkAndStore]
  cases h1 : (l.rename ρ).check c (ks.map (renameKey ρ)) ps with
  | ok u =>
    rw [h.mp h1, store_rename]
    exact ⟨rfl, Iff.rfl⟩
  | error e =>
    cases h2 : l.check c ks ps with
    | ok u => rw [h.mpr h2] at h1; cases h1
    | error e' => exact ⟨rfl, by simp⟩

theorem autoKey_rename (l : Layout K) (c : Cons K) : (l.rename ρ).autoKey c = l.autoKey c := by
  have h : (l.rename ρ).keys.contains = l.keys.contains := by
    funext key
    exact Node.containsPath_mapV _ _ _
  have h' : (l.rename ρ).counterFuel = l.counterFuel := by
    simp only [Layout.counterFuel, Layout.rename, Node.len, Node.children_mapV, List.length_map]
  unfold Layout.autoKey
  rw [h, h']
  rfl

theorem step_rename (hρ : Renaming ρ) (l : Layout K) (op : LayoutOp K) :
    ((l.rename ρ).step (op.rename ρ)).1 = (l.step op).1.rename ρ ∧
    (((l.rename ρ).step (op.rename ρ)).2 = .ok () ↔ (l.step op).2 = .ok ()) := by
  cases op with
  | addPrim p k => exact addPrim_rename hρ l p k
  | addPrims ps => exact addPrims_rename hρ ps l
  | addConstraint c ks ps key =>
    simp only [LayoutOp.rename, Layout.step, Layout.addConstraint]
    split
    · rw [autoKey_rename]
      rcases l.autoKey c with ⟨ctr, r⟩
      cases r with
      | error e => exact ⟨rfl, Iff.rfl⟩
      | ok key => exact checkAndStore_rename hρ { l with counter := ctr } c ks ps key
    · exact checkAndStore_rename hρ l c ks ps key

theorem run_rename (hρ : Renaming ρ) : ∀ (ops : List (LayoutOp K)) (l : Layout K),
    (l.rename ρ).run (ops.map (LayoutOp.rename ρ)) = (l.run ops).rename ρ ∧
    (l.rename ρ).successes (ops.map (LayoutOp.rename ρ)) = l.successes ops
  | [], _ => ⟨rfl, rfl⟩
  | op :: ops, l => by
    obtain ⟨h1, h2⟩ := step_rename hρ l op
    obtain ⟨h3, h4⟩ := run_rename hρ ops (l.step op).1
    simp only [Layout.run, List.map_cons, List.foldl_cons, Layout.successes, h1] at *
    refine ⟨h3, ?_⟩
    rw [h4, decide_eq_decide.mpr h2]

/-! ## Solving -/

theorem At_rename (hρ : Renaming ρ) {p : Prim K} {q : List Str} {m : Prim K} : (p.rename ρ).At q m ↔
    (q = [] ∧ m = p.rename ρ) ∨ ∃ k ks, q = ρ k :: ks ∧ p.At (k :: ks) m := by
  constructor
  · intro h
    cases h with
    | here => exact .inl ⟨rfl, rfl⟩
    | down hc hm =>
      right
      simp only [Prim.rename, Node.children_mk, List.mem_map] at hc
      obtain ⟨⟨k, c⟩, hk, e⟩ := hc
      cases e
      exact ⟨k, _, rfl, .down hk hm⟩
  · rintro (⟨rfl, rfl⟩ | ⟨k, ks, rfl, h⟩)
    · exact .here _
    · cases h with
      | down hc hm => exact .down (List.mem_map.mpr ⟨_, hc, rfl⟩) hm

theorem keys_rename (p : Prim K) : (p.rename ρ).keys = p.keys.map ρ := by
  simp [Prim.rename, Node.keys, Node.children_mk, Function.comp_def]

/-- The values at the nodes are those before. -/
theorem At_rename_value (hρ : Renaming ρ) {p : Prim K} {q : List Str} {m : Prim K} (h : (p.rename ρ).At q m) :
    ∃ q' m', p.At q' m' ∧ m'.value = m.value := by
  rcases (At_rename hρ).mp h with ⟨rfl, rfl⟩ | ⟨k, ks, rfl, h'⟩
  · exact ⟨[], p, .here _, rfl⟩
  · exact ⟨_, m, h', rfl⟩

theorem primOK_rename (hρ : Renaming ρ) {p : Prim K} (h : PrimOK p) : PrimOK (p.rename ρ) := by
  refine ⟨?_, ?_, ?_⟩
  · intro q m hm
    rcases (At_rename hρ).mp hm with ⟨rfl, rfl⟩ | ⟨k, ks, rfl, hm'⟩
    · rw [keys_rename]; exact (h.wf [] p (.here _)).map hρ.inj
    · exact h.wf _ m hm'
  · intro q m hm k hk
    rcases (At_rename hρ).mp hm with ⟨rfl, rfl⟩ | ⟨k, ks, rfl, hm'⟩
    · rw [keys_rename] at hk
      obtain ⟨k', hk', rfl⟩ := List.mem_map.mp hk
      exact hρ.noSlash _ (h.slashFree [] p (.here _) k' hk')
    · exact h.slashFree _ m hm' _ hk
  · intro q q' m m' hm hm' e
    obtain ⟨_, n, hn, e1⟩ := At_rename_value hρ hm
    obtain ⟨_, n', hn', e2⟩ := At_rename_value hρ hm'
    rw [← e1, ← e2] at e ⊢
    exact h.ident _ _ n n' hn hn' e

theorem mapV_rename (f : PVal K → PVal K) (p : Prim K) : (p.rename ρ).mapV f = Prim.rename ρ (p.mapV f) := by
  simp only [Prim.rename, Node.mapV_mk, Node.ty_mapV, Node.value_mapV, Node.children_mapV, List.map_map,
    Function.comp_def]

/-- The listed values do not depend on names. -/
theorem filterUnique_values {τ α ι : Type} [DecidableEq ι] (ident : α → ι) {n n' : Node τ α}
    (h : (n.iterFlat []).map (·.2.value) = (n'.iterFlat []).map (·.2.value)) :
    (filterUnique ident n).2 = (filterUnique ident n').2 := by
  have key : ∀ (xs ys : List (Str × α)), xs.map (·.2) = ys.map (·.2) → ∀ s t : FilterState ι α,
      s.valueIdToIdx = t.valueIdToIdx → s.values = t.values →
      (xs.foldl (filterStep ident) s).values = (ys.foldl (filterStep ident) t).values := by
    intro xs
    induction xs with
    | nil => intro ys h s t h1 h2; cases ys with
      | nil => exact h2
      | cons => simp at h
    | cons x xs ih =>
      intro ys h s t h1 h2
      cases ys with
      | nil => simp at h
      | cons y ys =>
        simp only [List.map_cons, List.cons.injEq] at h
        simp only [List.foldl_cons]
        apply ih _ h.2
        · simp only [filterStep, h.1, h1, h2]; split <;> simp [h1]
        · simp only [filterStep, h.1, h1, h2]; split <;> simp [h2]
  exact key _ _ (by simpa [List.map_map, Function.comp_def] using h) _ _ rfl rfl

theorem iterFlat_values_key {τ α : Type} (n : Node τ α) (a b : Str) :
    (n.iterFlat a).map (·.2) = (n.iterFlat b).map (·.2) := by
  induction n using Node.induct generalizing a b with
  | _ t v cs ih =>
    simp only [Node.iterFlat, Node.iterFlatL_eq, List.map_cons, List.map_flatMap]
    congr 1
    exact List.flatMap_congr fun kc hk => ih kc.1 kc.2 hk _ _

theorem values_rename (p : Prim K) : (filterUnique PVal.id (p.rename ρ)).2 = (filterUnique PVal.id p).2 := by
  apply filterUnique_values
  cases p with
  | mk t v cs =>
    simp only [Prim.rename, Node.ty_mk, Node.value_mk, Node.children_mk, Node.iterFlat, Node.iterFlatL_eq,
      List.map_cons, List.map_flatMap, List.flatMap_map]
    congr 1
    apply List.flatMap_congr
    intro kc _
    have := congrArg (List.map Node.value) (iterFlat_values_key kc.2 ([] ++ '/' :: ρ kc.1) ([] ++ '/' :: kc.1))
    simpa [List.map_map, Function.comp_def] using this

namespace Solver

/-- The value that the solver gives to a node. -/
def newVal (base : Nat) (vals : List (PVal K)) (g : List K) (v : PVal K) : PVal K :=
  ⟨base + (vals.map (·.id)).idxOf v.id,
    ((unpack (idxBounds (vals.map (·.arr))) g)[(vals.map (·.id)).idxOf v.id]?).getD []⟩

theorem unpack_length (vs : List (List K)) (g : List K) : (unpack (idxBounds vs) g).length = vs.length := by
  have : ∀ (ss : List Nat) (a : Nat), (cumsum a ss).length = ss.length + 1 := by
    intro ss
    induction ss with
    | nil => intro a; rfl
    | cons s ss ih => intro a; simp [cumsum, ih]
  simp [unpack, idxBounds, this]

/-- The rebuilt tree for any parameters: the layout's tree with other arrays. -/
theorem rebuild_eq (l : Layout K) (hok : PrimOK l.prim) (base : Nat) (g : List K) :
    rebuild l base g = .ok (l.prim.mapV (newVal base (filterUnique PVal.id l.prim).2 g)) := by
  obtain ⟨c1, _, _, _, c5⟩ := Props.C17_unique_values PVal.id l.prim hok.wf hok.slashFree hok.ident
  obtain ⟨h2, _⟩ := Props.C19_rebuild PVal.id l.prim hok.wf hok.slashFree hok.ident
    (freshVals base (unpack (idxBounds (primValues l)) g))
  obtain ⟨r, e1, e2, e3, e4⟩ := h2 (by
    rw [length_freshVals, unpack_length, primValues, List.length_map])
  have : rebuild l base g = .ok r := e1
  rw [this]
  congr 1
  refine ext_At e2 (WF_mapV _ hok.wf) (fun p => ?_) (fun p m m' hm hm' => ?_)
  · constructor
    · rintro ⟨m, hm⟩
      obtain ⟨m0, h0⟩ := e3 p m hm
      exact ⟨_, (At_mapV _).mpr ⟨m0, h0, rfl⟩⟩
    · rintro ⟨m, hm⟩
      obtain ⟨m0, h0, rfl⟩ := (At_mapV _).mp hm
      obtain ⟨m1, _, h1, _⟩ := e4 p m0 h0
      exact ⟨m1, h1⟩
  · obtain ⟨m0, h0, rfl⟩ := (At_mapV _).mp hm'
    obtain ⟨m1, i, a1, a2, a3, a4, a5⟩ := e4 p m0 h0
    obtain ⟨j, b1, b2⟩ := c1 p m0 h0
    obtain rfl := At_unique e2 a1 hm
    have hij : i = j := Option.some.inj (a4.symm.trans b1)
    subst hij
    simp only [Node.ty_mapV, Node.keys_mapV, Node.value_mapV]
    refine ⟨a2, a3, ?_⟩
    have hidx : ((filterUnique PVal.id l.prim).2.map (·.id)).idxOf m0.value.id = i := by
      have hi : ((filterUnique PVal.id l.prim).2.map (·.id))[i]? = some m0.value.id := by
        rw [List.getElem?_map, b2]; rfl
      obtain ⟨hlt, he⟩ := List.getElem?_eq_some_iff.mp hi
      rw [← he]
      exact c5.idxOf_getElem i hlt
    rw [getElem?_freshVals] at a5
    simp only [newVal, hidx]
    cases hv : (unpack (idxBounds (primValues l)) g)[i]? with
    | none => rw [hv] at a5; cases a5
    | some v =>
      rw [hv] at a5
      rw [← Option.some.inj a5]
      simp only [primValues] at hv
      rw [hv]; rfl

theorem pyMap_rename (hρ : Renaming ρ) (p : Prim K) : ∀ kss : List (List Str),
    (∀ ks ∈ kss, ∃ v, lookupPrims p ks = .ok v) →
    pyMap (lookupPrims (p.rename ρ)) (kss.map (List.map (renameKey ρ))) = pyMap (lookupPrims p) kss
  | [], _ => rfl
  | ks :: kss, h => by
    obtain ⟨v, hv⟩ := h ks (by simp)
    have h1 := lookup_rename hρ p ks
    rw [hv] at h1
    have h2 : lookupPrims (p.rename ρ) (ks.map (renameKey ρ)) = .ok v := by
      cases e : lookupPrims (p.rename ρ) (ks.map (renameKey ρ)) with
      | error e' => rw [e] at h1; simp [Except.toOption] at h1
      | ok w => rw [e] at h1; simp only [Except.toOption, Option.some.injEq] at h1; rw [h1]
    simp only [List.map_cons, pyMap, hv, h2, pyMap_rename hρ p kss fun ks h' => h ks (by simp [h'])]

theorem residual_rename [PyNum K] (hρ : Renaming ρ) (l : Layout K) (p : Prim K)
    (h : ∀ ks ∈ l.flatConstraints.2.1, ∃ v, lookupPrims p ks = .ok v) :
    (l.rename ρ).residual (p.rename ρ) = l.residual p := by
  have hf : (l.rename ρ).flatConstraints
      = (l.flatConstraints.1, l.flatConstraints.2.1.map (List.map (renameKey ρ)), l.flatConstraints.2.2) := by
    simp only [Layout.flatConstraints, Layout.rename, iterFlat_mapV', List.map_map, Function.comp_def,
      Node.value_mapV, List.map_drop]
  simp only [Layout.residual, Layout.residualList, hf, List.length_map, ← List.map_take]
  rw [pyMap_rename hρ p _ fun ks h' => h ks (List.mem_of_mem_take h')]

/-- All look-ups succeed in every tree of the layout's structure. -/
theorem lookups_ok {l : Layout K} (hp : l.Paired) (hd : l.NoDangling) (f : PVal K → PVal K) :
    ∀ ks ∈ l.flatConstraints.2.1, ∃ v, lookupPrims (l.prim.mapV f) ks = .ok v := by
  obtain ⟨ps, -, hps, -, h2, -⟩ := hp
  intro ks hks
  obtain ⟨p, hp, n, hn, rfl⟩ : ∃ p ∈ ps, ∃ n, l.keys.At p n ∧ n.value = ks := by
    clear hps
    generalize l.flatConstraints.2.1 = kss at h2 hks
    induction h2 with
    | nil => cases hks
    | cons h _ ih =>
      rcases List.mem_cons.mp hks with rfl | hk
      · exact ⟨_, by simp, h⟩
      · obtain ⟨p, hp, h⟩ := ih hk
        exact ⟨p, by simp [hp], h⟩
  obtain ⟨hne, c, hc⟩ := (hps p).mp hp
  have := hd p c n hne hc hn
  generalize n.value = ks at this
  generalize c.value.sig.primTypes = ts at this
  induction this with
  | nil => exact ⟨[], rfl⟩
  | cons h _ ih =>
    obtain ⟨prim, e, _⟩ := h
    obtain ⟨v, hv⟩ := ih
    refine ⟨prim.mapV f :: v, ?_⟩
    unfold lookupPrims at hv ⊢
    simp only [pyMap, Node.getChild_mapV, e, hv]
    rfl

theorem rebuild_rename (hρ : Renaming ρ) (l : Layout K) (hok : PrimOK l.prim) (base : Nat) (g : List K) :
    rebuild (l.rename ρ) base g = (rebuild l base g).map (Prim.rename ρ) := by
  rw [rebuild_eq l hok, rebuild_eq (l.rename ρ) (primOK_rename hρ hok)]
  simp only [Layout.rename, values_rename, mapV_rename, Except.map]

variable [PyNum K]

theorem globalRes_rename (hρ : Renaming ρ) (l : Layout K) (hok : PrimOK l.prim) (hp : l.Paired) (hd : l.NoDangling)
    (base : Nat) : globalRes (l.rename ρ) base = globalRes l base := by
  funext g
  simp only [globalRes, rebuild_rename hρ l hok, rebuild_eq l hok, Except.map, bind, Except.bind]
  exact residual_rename hρ l _ (lookups_ok hp hd _)

theorem solve_rename (hρ : Renaming ρ) (l : Layout K) (hok : PrimOK l.prim) (hp : l.Paired) (hd : l.NoDangling)
    (num : Numerics K) (base : Nat) (absTol relTol : K) (maxIter : Int) (method : Str) :
    solve num (l.rename ρ) base absTol relTol maxIter method
      = (solve num l base absTol relTol maxIter method).map fun ri => (ri.1.rename ρ, ri.2) := by
  have hg : globalParam (l.rename ρ) = globalParam l := by
    simp only [globalParam, primValues, Layout.rename, values_rename]
  have hr := globalRes_rename hρ l hok hp hd base
  have ho : objective (l.rename ρ) base = objective l base := by funext g; simp only [objective, hr]
  simp only [solve]
  split
  · simp only [solveNewton, hg, hr, bind, Except.bind]
    cases globalParam l with
    | error e => rfl
    | ok g0 =>
      simp only []
      cases newtonLoop num (globalRes l base) absTol relTol maxIter (maxIter.toNat + 1) { param := g0 } with
      | none => rfl
      | some r =>
        cases r with
        | error e => rfl
        | ok s => simp only [rebuild_rename hρ l hok, rebuild_eq l hok]; rfl
  · split
    · simp only [solveMinimize, hg, ho, bind, Except.bind]
      cases globalParam l with
      | error e => rfl
      | ok g0 =>
        simp only []
        cases num.iterates (objective l base) g0 maxIter with
        | error e => rfl
        | ok its => simp only [rebuild_rename hρ l hok, rebuild_eq l hok]; rfl
    · rfl

end Solver

/-! ## Drawing -/

section drawing
variable [PyNum K]

theorem toOption_bind {β γ : Type} (x : Py β) (f : β → Py γ) :
    (x >>= f).toOption = x.toOption.bind fun v => (f v).toOption := by
  cases x <;> rfl

theorem renameKey_slash (key s : Str) : renameKey ρ (key ++ '/' :: s) = renameKey ρ key ++ '/' :: s := by
  have := renameKey_append (ρ := ρ) key (some s)
  simpa [joinSlash_cons, joinSlash] using this

theorem labelCalls_rename (hρ : Renaming ρ) (p a : Prim K) (sz : Arr K) (key : Str) (i : Nat) (kind : AxisKind) :
    (labelCalls (p.rename ρ) a sz (renameKey ρ key) i kind).toOption = (labelCalls p a sz key i kind).toOption := by
  simp only [labelCalls, toOption_bind, List.append_assoc, List.cons_append, List.nil_append]
  congr 1
  funext b
  split
  · simp only [toOption_bind, ← renameKey_slash, getChild_rename hρ]
  · rfl

theorem tickCalls_rename (hρ : Renaming ρ) (p a : Prim K) (key : Str) (i : Nat) (f : Prim K) (kind : AxisKind) :
    (tickCalls (p.rename ρ) a (renameKey ρ key) i f kind).toOption = (tickCalls p a key i f kind).toOption := by
  simp only [tickCalls, toOption_bind, List.append_assoc, List.cons_append, List.nil_append]
  congr 1
  funext b
  split
  · simp only [toOption_bind, ← renameKey_slash, getChild_rename hρ]
  · rfl

theorem updateAxes_rename (hρ : Renaming ρ) (p : Prim K) (o sz : Arr K) (kv : Str × Nat) :
    (updateAxes (p.rename ρ) o sz (renameKey ρ kv.1, kv.2)).toOption = (updateAxes p o sz kv).toOption := by
  simp only [updateAxes, updateAxis, toOption_bind, ← renameKey_slash, getChild_rename hρ, labelCalls_rename hρ,
    tickCalls_rename hρ]

theorem pyMap_toOption {β β' γ : Type} {f : β → Py γ} {f' : β' → Py γ} (g : β → β')
    (h : ∀ b, (f' (g b)).toOption = (f b).toOption) : ∀ bs : List β,
    (pyMap f' (bs.map g)).toOption = (pyMap f bs).toOption
  | [] => rfl
  | b :: bs => by simp only [List.map_cons, pyMap, toOption_bind, h, pyMap_toOption g h bs]

theorem updateSubplots_rename (hρ : Renaming ρ) (p : Prim K) (fig : Str) (axs : List (Str × Nat)) :
    (updateSubplots (p.rename ρ) (renameKey ρ fig) (axs.map fun kv => (renameKey ρ kv.1, kv.2))).toOption
      = (updateSubplots p fig axs).toOption := by
  simp only [updateSubplots, toOption_bind, getChild_rename hρ]
  have := fun o sz => pyMap_toOption (f := updateAxes p o sz) (f' := updateAxes (p.rename ρ) o sz)
    (fun kv => (renameKey ρ kv.1, kv.2)) (updateAxes_rename hρ p o sz) axs
  simp only [this]

theorem renameKey_inj (hρ : Renaming ρ) : Function.Injective (renameKey ρ) := by
  intro a b h
  cases ha : splitAll a with
  | nil => exact absurd ha (splitAll_ne_nil a)
  | cons x xs =>
    cases hb : splitAll b with
    | nil => exact absurd hb (splitAll_ne_nil b)
    | cons y ys =>
      have h1 := splitAll_rename hρ a ha
      have h2 := splitAll_rename hρ b hb
      rw [h, h2] at h1
      obtain ⟨e1, e2⟩ := List.cons.inj h1
      rw [← joinSlash_splitAll a, ← joinSlash_splitAll b, ha, hb, hρ.inj e1, e2]

theorem dictSet_mapKey {g : Str → Str} (hg : Function.Injective g) {β : Type} (d : List (Str × β)) (k : Str)
    (v : β) :
    dictSet (d.map fun kc => (g kc.1, kc.2)) (g k) v = (dictSet d k v).map fun kc => (g kc.1, kc.2) := by
  induction d with
  | nil => rfl
  | cons kc d ih =>
    simp only [List.map_cons, dictSet, hg.eq_iff, ih]
    split <;> simp

theorem dictOfZip_mapKey {g : Str → Str} (hg : Function.Injective g) {β : Type} (ks : List Str) (vs : List β) :
    dictOfZip (ks.map g) vs = (dictOfZip ks vs).map fun kv => (g kv.1, kv.2) := by
  have key : ∀ (ps d : List (Str × β)),
      (ps.map fun kv => (g kv.1, kv.2)).foldl (fun d kv => dictSet d kv.1 kv.2) (d.map fun kv => (g kv.1, kv.2))
        = (ps.foldl (fun d kv => dictSet d kv.1 kv.2) d).map fun kv => (g kv.1, kv.2) := by
    intro ps
    induction ps with
    | nil => intro d; rfl
    | cons p ps ih => intro d; simp only [List.map_cons, List.foldl_cons, dictSet_mapKey hg, ih]
  have hz : (ks.map g).zip vs = (ks.zip vs).map fun kv => (g kv.1, kv.2) := by
    rw [List.zip_map_left]; rfl
  rw [dictOfZip, hz]
  exact key (ks.zip vs) []

theorem subplots_rename (hρ : Renaming ρ) (p : Prim K) (fig : Str) (axs : Option (List Str))
    (h : axs = none → ∀ k ∈ p.keys, '/' ∉ k ∧ hasSub k!"Axes" (ρ k) = hasSub k!"Axes" k) :
    (subplots (p.rename ρ) (renameKey ρ fig) (axs.map (List.map (renameKey ρ)))).toOption
      = (subplots p fig axs).toOption.map fun cd => (cd.1, cd.2.map fun kv => (renameKey ρ kv.1, kv.2)) := by
  have hk : axesKeysOf (p.rename ρ) (axs.map (List.map (renameKey ρ))) = (axesKeysOf p axs).map (renameKey ρ) := by
    cases axs with
    | some ks => rfl
    | none =>
      simp only [Option.map_none, axesKeysOf, keys_rename]
      have := h rfl
      generalize p.keys = ks at this
      induction ks with
      | nil => rfl
      | cons k ks ih =>
        obtain ⟨h1, h2⟩ := this k (by simp)
        have hr : renameKey ρ k = ρ k := by rw [renameKey, splitAll_noslash h1]; rfl
        simp only [List.map_cons, List.filter_cons, h2]
        split
        · simp [hr, ih fun k hk => this k (by simp [hk])]
        · exact ih fun k hk => this k (by simp [hk])
  simp only [subplots, hk, List.length_map, dictOfZip_mapKey (renameKey_inj hρ), toOption_bind,
    updateSubplots_rename hρ]
  cases (updateSubplots p fig (dictOfZip (axesKeysOf p axs) (List.range (axesKeysOf p axs).length))).toOption <;> rfl

end drawing

end MplLayout
