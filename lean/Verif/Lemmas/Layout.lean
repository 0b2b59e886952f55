import Verif.Spec.Layout
import Verif.Lemmas.Constructions
import Verif.Lemmas.Shift

/-! Lemmas about layouts. -/

namespace MplLayout

section tree
variable {τ σ α β : Type}
namespace Node

mutual
/-- All paths, depth first. -/
def paths : Node τ α → List (List Str)
  | .mk _ _ cs => [] :: pathsL cs
/-- All paths below a list of children. -/
def pathsL : List (Str × Node τ α) → List (List Str)
  | [] => []
  | (k, c) :: cs => (paths c).map (k :: ·) ++ pathsL cs
end

theorem pathsL_eq (cs : List (Str × Node τ α)) :
    pathsL cs = cs.flatMap fun kc => (paths kc.2).map (kc.1 :: ·) := by
  induction cs with
  | nil => rfl
  | cons kc cs ih => cases kc; simp [pathsL, ih]

theorem mem_paths (n : Node τ α) (p : List Str) : p ∈ n.paths ↔ ∃ m, n.At p m := by
  induction n using induct generalizing p with
  | _ t v cs ih =>
    rw [paths, pathsL_eq, List.mem_cons, List.mem_flatMap]
    constructor
    · rintro (rfl | ⟨⟨k, c⟩, hc, hp⟩)
      · exact ⟨_, .here _⟩
      · obtain ⟨q, hq, rfl⟩ := List.mem_map.mp hp
        obtain ⟨m, hm⟩ := (ih k c hc q).mp hq
        exact ⟨m, .down hc hm⟩
    · rintro ⟨m, hm⟩
      cases hm with
      | here => exact .inl rfl
      | down hc hm =>
        exact .inr ⟨_, hc, List.mem_map.mpr ⟨_, (ih _ _ hc _).mpr ⟨_, hm⟩, rfl⟩⟩

theorem paths_nodup (n : Node τ α) (hn : n.WF) : n.paths.Nodup := by
  induction n using induct with
  | _ t v cs ih =>
    rw [paths, pathsL_eq, List.nodup_cons]
    refine ⟨?_, ?_⟩
    · rw [List.mem_flatMap]; rintro ⟨kc, _, h⟩; simp at h
    · rw [List.nodup_flatMap]
      constructor
      · rintro ⟨k, c⟩ hc
        exact (ih k c hc (hn.child hc)).map (fun a b h => by simpa using h)
      · have := hn.keys_nodup
        rw [List.nodup_iff_pairwise_ne, List.pairwise_map] at this
        refine List.Pairwise.imp (fun {a b} hab => ?_) this
        intro p h1 h2
        obtain ⟨q, _, rfl⟩ := List.mem_map.mp h1
        obtain ⟨q', _, h⟩ := List.mem_map.mp h2
        simp only [List.cons.injEq] at h
        exact hab h.1.symm

theorem iterFlat_paths₂ (n : Node τ α) (key : Str) :
    List.Forall₂ (fun p (kn : Str × Node τ α) => n.At p kn.2) n.paths (n.iterFlat key) := by
  induction n using induct generalizing key with
  | _ t v cs ih =>
    rw [paths, pathsL_eq, iterFlat, iterFlatL_eq]
    refine .cons (.here _) ?_
    have : ∀ ds : List (Str × Node τ α), (∀ kc ∈ ds, kc ∈ cs) →
        List.Forall₂ (fun p (kn : Str × Node τ α) => (Node.mk t v cs).At p kn.2)
          (ds.flatMap fun kc => (paths kc.2).map (kc.1 :: ·))
          (ds.flatMap fun kc => iterFlat (key ++ '/' :: kc.1) kc.2) := by
      intro ds hds
      induction ds with
      | nil => simp
      | cons kc ds ihd =>
        obtain ⟨k, c⟩ := kc
        rw [List.flatMap_cons, List.flatMap_cons]
        refine List.rel_append ?_ (ihd fun kc h => hds kc (List.mem_cons_of_mem _ h))
        have hc := hds (k, c) (by simp)
        rw [List.forall₂_map_left_iff]
        exact (ih k c hc (key ++ '/' :: k)).imp fun p kn h => .down hc h
    exact this cs fun _ h => h

/-- The shape of a tree. -/
abbrev skel (n : Node τ α) : Node Unit Unit := n.rmap () fun _ => ()

theorem paths_rmap (b : σ) (f : α → β) (n : Node τ α) : (n.rmap b f).paths = n.paths := by
  induction n using induct with
  | _ t v cs ih =>
    rw [rmap, paths, paths, pathsL_eq, pathsL_eq, rmapL_eq, List.flatMap_map]
    congr 1
    rw [List.flatMap_congr]
    rintro ⟨k, c⟩ hc
    simp [ih k c hc]

theorem paths_of_skel {n : Node τ α} {m : Node σ β} (h : n.skel = m.skel) : n.paths = m.paths := by
  rw [← paths_rmap () (fun _ => ()) n, ← paths_rmap () (fun _ => ()) m]; exact congrArg _ h

theorem children_rmap (b : σ) (f : α → β) (n : Node τ α) :
    (n.rmap b f).children = n.children.map fun kc => (kc.1, kc.2.rmap b f) := by
  cases n; simp [rmap, rmapL_eq]

theorem find_rmap (b : σ) (f : α → β) (n : Node τ α) (p : List Str) :
    (n.rmap b f).find p = (n.find p).map (·.rmap b f) := by
  induction p generalizing n with
  | nil => rfl
  | cons k p ih =>
    simp only [find, children_rmap, dictGet_mapVal]
    cases dictGet n.children k with
    | none => rfl
    | some c => exact ih c

theorem setAt_rmap (b : σ) (f : α → β) (n c : Node τ α) (p : List Str) (k : Str) :
    (n.setAt p k c).rmap b f = (n.rmap b f).setAt p k (c.rmap b f) := by
  induction p generalizing n with
  | nil =>
    simp only [setAt, children_rmap, rmap_ty, rmap_value, dictSet_mapVal]
    rw [rmap, rmapL_eq]
  | cons a p ih =>
    simp only [setAt, children_rmap, dictGet_mapVal]
    cases h : dictGet n.children a with
    | none => rfl
    | some d =>
      simp only [Option.map_some, rmap_ty, rmap_value]
      rw [rmap, rmapL_eq, ← ih, dictSet_mapVal]

theorem addChild_rmap (b : σ) (f : α → β) (n c : Node τ α) (key : Str) :
    (n.rmap b f).addChild key (c.rmap b f) = (n.addChild key c).map (·.rmap b f) := by
  rw [addChild_eq, addChild_eq, find_rmap]
  cases n.find (splitAll key).dropLast with
  | none => rfl
  | some m =>
    simp only [Option.map_some, rmap_keys]
    split
    · rfl
    · simp only [Except.map, setAt_rmap]

theorem addChild_skel {n n' c : Node τ α} {m d : Node σ β} {key : Str} (h : n.skel = m.skel)
    (hc : c.skel = d.skel) (hn : n.addChild key c = .ok n') :
    ∃ m', m.addChild key d = .ok m' ∧ n'.skel = m'.skel := by
  have h1 := addChild_rmap () (fun _ => ()) n c key
  have h2 := addChild_rmap () (fun _ => ()) m d key
  rw [hn] at h1
  rw [show n.rmap () (fun _ => ()) = m.rmap () (fun _ => ()) from h,
    show c.rmap () (fun _ => ()) = d.rmap () (fun _ => ()) from hc, h2] at h1
  cases hm : m.addChild key d with
  | error e => rw [hm] at h1; cases h1
  | ok m' =>
    rw [hm] at h1
    simp only [Except.map, Except.ok.injEq] at h1
    exact ⟨m', rfl, h1.symm⟩

theorem addChild_skel_err {n c : Node τ α} {m d : Node σ β} {key : Str} {e : Err} (h : n.skel = m.skel)
    (hc : c.skel = d.skel) (hn : n.addChild key c = .error e) : m.addChild key d = .error e := by
  have h1 := addChild_rmap () (fun _ => ()) n c key
  have h2 := addChild_rmap () (fun _ => ()) m d key
  rw [hn] at h1
  rw [show n.rmap () (fun _ => ()) = m.rmap () (fun _ => ()) from h,
    show c.rmap () (fun _ => ()) = d.rmap () (fun _ => ()) from hc, h2] at h1
  cases hm : m.addChild key d with
  | error e' => rw [hm] at h1; simpa [Except.map] using h1
  | ok m' => rw [hm] at h1; cases h1

theorem addChild_ok {n n' c : Node τ α} {key : Str} (h : n.addChild key c = .ok n') :
    ∃ m, n.find (splitAll key).dropLast = some m ∧ (splitAll key).getLastD [] ∉ m.keys ∧
      n' = n.setAt (splitAll key).dropLast ((splitAll key).getLastD []) c := by
  rw [addChild_eq] at h
  cases hf : n.find (splitAll key).dropLast with
  | none => rw [hf] at h; cases h
  | some m =>
    simp only [hf] at h
    split at h
    · cases h
    · cases h; exact ⟨m, rfl, by assumption, rfl⟩

theorem addChild_WF {n n' c : Node τ α} {key : Str} (h : n.addChild key c = .ok n') (hn : n.WF)
    (hc : c.WF) : n'.WF := by
  obtain ⟨m, _, _, rfl⟩ := addChild_ok h
  exact setAt_good hn hc

theorem Extends.refl (n : Node τ α) : n.Extends n := fun _ m h => ⟨m, h, rfl, rfl⟩

theorem Extends.trans {a b c : Node τ α} (h : c.Extends b) (h' : b.Extends a) : c.Extends a := by
  intro p m hm
  obtain ⟨m1, h1, e1, e2⟩ := h' p m hm
  obtain ⟨m2, h2, e3, e4⟩ := h p m1 h1
  exact ⟨m2, h2, e3.trans e1, e4.trans e2⟩

theorem mem_dictSet_of_ne {γ : Type} {d : List (Str × γ)} {k k' : Str} {v w : γ} (h : (k, v) ∈ d)
    (hne : k ≠ k') : (k, v) ∈ dictSet d k' w := by
  induction d with
  | nil => cases h
  | cons kc d ih =>
    obtain ⟨a, b⟩ := kc
    simp only [dictSet]
    rcases List.mem_cons.mp h with h | h
    · cases h
      rw [if_neg hne]; simp
    · split
      · exact List.mem_cons_of_mem _ h
      · exact List.mem_cons_of_mem _ (ih h)

theorem self_mem_dictSet {γ : Type} {d : List (Str × γ)} {k : Str} {w : γ} :
    (k, w) ∈ dictSet d k w := by
  induction d with
  | nil => simp [dictSet]
  | cons kc d ih =>
    obtain ⟨a, b⟩ := kc
    simp only [dictSet]
    split
    · rename_i h; subst h; simp
    · exact List.mem_cons_of_mem _ ih

theorem setAt_extends {n c : Node τ α} {p : List Str} {k : Str} (hn : n.WF) (m : Node τ α)
    (hm : n.find p = some m) (hk : k ∉ m.keys) : (n.setAt p k c).Extends n := by
  induction p generalizing n with
  | nil =>
    cases hm
    rw [setAt]
    intro q l hl
    cases hl with
    | here => exact ⟨_, .here _, rfl, rfl⟩
    | @down _ d _ a q hc hl =>
      have : a ≠ k := by rintro rfl; exact hk (List.mem_map.mpr ⟨_, hc, rfl⟩)
      exact ⟨l, .down (mem_dictSet_of_ne hc this) hl, rfl, rfl⟩
  | cons b p ih =>
    simp only [find] at hm
    cases hd : dictGet n.children b with
    | none => simp [hd] at hm
    | some d =>
      simp only [hd] at hm
      simp only [setAt, hd]
      have hmem := dictGet_eq_some_mem hd
      have hx := ih (hn.child hmem) hm
      intro q l hl
      cases hl with
      | here => exact ⟨_, .here _, rfl, rfl⟩
      | @down _ d' _ a q hc hl =>
        by_cases hab : a = b
        · subst hab
          have : d' = d := by
            have h1 := dictGet_of_mem hn.keys_nodup hc
            rw [hd] at h1; exact (Option.some.inj h1).symm
          subst this
          obtain ⟨l', h1, h2⟩ := hx q l hl
          exact ⟨l', .down self_mem_dictSet h1, h2⟩
        · exact ⟨l, .down (mem_dictSet_of_ne hc hab) hl, rfl, rfl⟩

theorem addChild_extends {n n' c : Node τ α} {key : Str} (hn : n.WF)
    (h : n.addChild key c = .ok n') : n'.Extends n := by
  obtain ⟨m, h1, h2, rfl⟩ := addChild_ok h
  exact setAt_extends hn m h1 h2

/-- What is at a path after `add_child`. -/
theorem addChild_find {n n' c : Node τ α} {key : Str} (h : n.addChild key c = .ok n') (r : List Str) :
    n'.find (splitAll key ++ r) = c.find r := by
  obtain ⟨m, h1, h2, rfl⟩ := addChild_ok h
  have e : splitAll key ++ r = (splitAll key).dropLast ++ (splitAll key).getLastD [] :: r := by
    conv_lhs => rw [splitAll_split key]
    simp
  rw [e]
  exact find_setAt_below _ _ _ h1

end Node
end tree

variable {K : Type}

namespace Cons

/-- The two argument trees have the shape of the construction. -/
theorem arg_skel (c : Cons K) (hc : c.WF) (keys : List Str) (params : List (Param K))
    (ha : c.Aligned params) (kt : KeysNode) (pt : ParamsNode K)
    (h1 : rootPrimKeys c keys = .ok kt) (h2 : rootParams c params = .ok pt) :
    Node.skel c = kt.skel ∧ Node.skel c = pt.skel := by
  induction c using Node.induct generalizing keys params kt pt with
  | _ t v cs ih =>
    rw [rootPrimKeys_ok (WF_nodup hc)] at h1
    obtain ⟨kss, ns, h11, h12, rfl⟩ := h1
    rw [rootParams_ok (WF_nodup hc)] at h2
    obtain ⟨pss, ms, h21, h22, rfl⟩ := h2
    obtain ⟨ha1, ha2⟩ := ha
    obtain ⟨ha3, ha4⟩ := ha2 pss h21
    have hlen : kss.length = cs.length := by rw [← ha1]; exact pyMap_length h11
    have hch : ∀ k c, (k, c) ∈ cs → Node.WF c := fun k c hm => hc.child hm
    clear h11 h21 ha1 ha2 hc
    suffices h : cs.map (fun kc => (kc.1, Node.skel kc.2)) = ns.map (fun kc => (kc.1, Node.skel kc.2)) ∧
        cs.map (fun kc => (kc.1, Node.skel kc.2)) = ms.map (fun kc => (kc.1, Node.skel kc.2)) by
      simp only [Node.skel, Node.rmap, Node.rmapL_eq]
      exact ⟨congrArg _ h.1, congrArg _ h.2⟩
    induction cs generalizing kss pss ns ms with
    | nil =>
      cases kss <;> cases pss <;> simp_all [rootPrimKeysL, rootParamsL]
    | cons kc cs ihc =>
      obtain ⟨k, c⟩ := kc
      cases kss with
      | nil => simp at hlen
      | cons ks kss =>
        cases pss with
        | nil => simp at ha3
        | cons ps pss =>
          simp only [rootPrimKeysL, rootParamsL, py_bind_ok] at h12 h22
          obtain ⟨n, hn, ns', hns, e⟩ := h12
          cases e
          obtain ⟨m, hm, ms', hms, e⟩ := h22
          cases e
          have h1 := ih k c (by simp) (hch k c (by simp)) ks ps ha4.1 n m hn hm
          have h2 := ihc (fun k c h => ih k c (List.mem_cons_of_mem _ h)) kss ns' hns pss ms' hms
            (by simpa using ha3) ha4.2 (by simpa using hlen)
            (fun k c h => hch k c (List.mem_cons_of_mem _ h))
          simp only [List.map_cons, h2.1, ← h2.2]
          exact ⟨by rw [h1.1], by rw [← h2.1, h1.2]⟩

end Cons

namespace Layout

open Node

/-- The trees of a layout are in step. -/
structure Inv (l : Layout K) : Prop where
  prim : l.prim.WF
  cons : l.cons.WF
  keysWF : l.keys.WF
  paramsWF : l.params.WF
  keys : Node.skel l.cons = l.keys.skel
  params : Node.skel l.cons = l.params.skel

theorem skel_WF {τ σ α β : Type} {n : Node τ α} {m : Node σ β} (h : n.skel = m.skel) (hn : n.WF) :
    m.WF := by
  have h1 : n.skel.WF := Node.rmap_WF _ _ _ hn
  rw [h] at h1
  intro p x hx
  have := h1 p _ (Node.rmap_At.mpr ⟨x, hx, rfl⟩)
  rwa [Node.rmap_keys] at this

theorem Inv.empty (id : Nat) : (Layout.empty id : Layout K).Inv := by
  have h : ∀ {τ α : Type} (t : τ) (v : α), (Node.mk t v [] : Node τ α).WF := by
    intro τ α t v; rw [WF_mk]; simp
  exact ⟨h _ _, h _ _, h _ _, h _ _, rfl, rfl⟩

/-- Outcome of the three stores. -/
theorem store_cases {l : Layout K} (hl : l.Inv) {c : Cons K} {primKeys : List Str}
    {param : List (Param K)} (hf : c.Fits primKeys param) (key : Str) :
    (∃ e, l.cons.addChild key c = .error e ∧ l.store c primKeys param key = (l, .error e)) ∨
    ∃ cons keys params kt pt, l.cons.addChild key c = .ok cons ∧
      c.rootPrimKeys primKeys = .ok kt ∧ c.rootParams param = .ok pt ∧
      l.keys.addChild key kt = .ok keys ∧ l.params.addChild key pt = .ok params ∧
      l.store c primKeys param key = ({ l with cons := cons, keys := keys, params := params }, .ok ()) ∧
      ({ l with cons := cons, keys := keys, params := params } : Layout K).Inv := by
  obtain ⟨kt, hkt⟩ := hf.keys
  obtain ⟨pt, hpt⟩ := hf.params
  obtain ⟨s1, s2⟩ := Cons.arg_skel c hf.wf primKeys param hf.aligned kt pt hkt hpt
  cases h : l.cons.addChild key c with
  | error e => exact .inl ⟨e, rfl, by simp only [store, h]⟩
  | ok cons =>
    obtain ⟨keys, hk, hk'⟩ := addChild_skel hl.keys s1 h
    obtain ⟨params, hp, hp'⟩ := addChild_skel hl.params s2 h
    have hkt' : kt.WF := skel_WF s1 hf.wf
    have hpt' : pt.WF := skel_WF s2 hf.wf
    refine .inr ⟨cons, keys, params, kt, pt, rfl, hkt, hpt, hk, hp, ?_, ?_⟩
    · have e1 : (do let t ← c.rootPrimKeys primKeys; l.keys.addChild key t) = .ok keys := by
        rw [hkt]; exact hk
      have e2 : (do let t ← c.rootParams param; l.params.addChild key t) = .ok params := by
        rw [hpt]; exact hp
      simp only [store, h, storeKeys, e1, storeParams, e2]
    · exact ⟨hl.prim, addChild_WF h hl.cons hf.wf, addChild_WF hk hl.keysWF hkt',
        addChild_WF hp hl.paramsWF hpt', hk', hp'⟩

theorem Inv.counter {l : Layout K} (hl : l.Inv) (ctr : ItemCounter) : ({ l with counter := ctr }).Inv :=
  ⟨hl.prim, hl.cons, hl.keysWF, hl.paramsWF, hl.keys, hl.params⟩

/-- What passing the checks means. -/
theorem check_ok {l : Layout K} {c : Cons K} {primKeys : List Str} {param : List (Param K)} :
    l.check c primKeys param = .ok () ↔
      ∃ prims, List.Forall₂ (fun k p => l.prim.getChild k = .ok p) primKeys prims ∧
        c.Accepts prims param := by
  have hr : ∀ {β : Type} (x : Py β) (b : β), reraiseType x = .ok b ↔ x = .ok b := by
    intro β x b
    cases x with
    | ok a => simp [reraiseType]
    | error e => cases e <;> simp [reraiseType]
  simp only [check, py_bind_ok, hr]
  constructor
  · rintro ⟨⟨⟩, ⟨prims, h1, h2⟩, h3⟩
    exact ⟨prims, pyMap_ok.mp h1, (Cons.validatePrims_ok c prims).1.mp h2,
      (Cons.validateParams_ok c param).1.mp h3⟩
  · rintro ⟨prims, h1, h2, h3⟩
    exact ⟨(), ⟨prims, pyMap_ok.mpr h1, (Cons.validatePrims_ok c prims).1.mpr h2⟩,
      (Cons.validateParams_ok c param).1.mpr h3⟩

/-- The kinds of exceptions that the checks raise. -/
theorem check_error {l : Layout K} {c : Cons K} {primKeys : List Str} {param : List (Param K)}
    {e : Err} (h : l.check c primKeys param = .error e) :
    e = .runtimeError ∨ ∃ k ∈ primKeys, e = .keyError k := by
  have hl : ∀ ks : List Str, ∀ e, Cons.lookupPrims l.prim ks = .error e →
      ∃ k ∈ ks, e = .keyError k := by
    intro ks
    induction ks with
    | nil => intro e h; cases h
    | cons k ks ih =>
      intro e h
      simp only [Cons.lookupPrims, pyMap] at h
      cases hk : l.prim.getChild k with
      | error e' =>
        rw [hk] at h
        cases h
        exact ⟨k, by simp, (Node.getChild_error_iff.mp hk).2⟩
      | ok p =>
        rw [hk] at h
        simp only [bind, Except.bind] at h
        cases hks : pyMap l.prim.getChild ks with
        | error e' =>
          rw [hks] at h
          cases h
          obtain ⟨k', hm, he⟩ := ih e hks
          exact ⟨k', by simp [hm], he⟩
        | ok ps => rw [hks] at h; cases h
  simp only [check] at h
  cases hp : Cons.lookupPrims l.prim primKeys with
  | error e' =>
    obtain ⟨k, hm, rfl⟩ := hl _ _ hp
    rw [hp] at h
    cases h
    exact .inr ⟨k, hm, rfl⟩
  | ok prims =>
    rw [hp] at h
    simp only [bind, Except.bind] at h
    rcases (Cons.validatePrims_ok c prims).2 with h1 | h1
    · rw [h1] at h
      rcases (Cons.validateParams_ok c param).2 with h2 | h2
      · rw [h2] at h; cases h
      · rw [h2] at h; cases h; exact .inl rfl
    · rw [h1] at h; cases h; exact .inl rfl

/-! ### Automatic keys -/

theorem fresh_within (cat : Str) (ks : List Str) (s : Nat) :
    ∃ j ≤ ks.length, cat ++ natStr (s + j) ∉ ks := by
  by_contra hc
  push Not at hc
  have hnd : ((List.range (ks.length + 1)).map fun j => cat ++ natStr (s + j)).Nodup := by
    refine List.nodup_range.map ?_
    intro a b h
    have := natStr_injective (List.append_cancel_left h)
    omega
  have hsub : ((List.range (ks.length + 1)).map fun j => cat ++ natStr (s + j)) ⊆ ks := by
    intro x hx
    obtain ⟨j, hj, rfl⟩ := List.mem_map.mp hx
    exact hc j (by have := List.mem_range.mp hj; omega)
  have := (List.subperm_of_subset hnd hsub).length_le
  simp at this

theorem addItemUntilValid_fresh (cat : Str) (hcat : '/' ∉ cat) (valid : Str → Py Bool)
    (ks : List Str) (hv : ∀ key, '/' ∉ key → valid key = .ok (decide (key ∉ ks))) (j : Nat) :
    ∀ (c : ItemCounter) (fuel : Nat), cat ++ natStr (c.count cat + j) ∉ ks → j + 1 ≤ fuel →
      ∃ c' k, ItemCounter.addItemUntilValid valid cat fuel c = some (c', .ok (cat ++ natStr k)) ∧
        cat ++ natStr k ∉ ks := by
  induction j with
  | zero =>
    intro c fuel h hf
    obtain ⟨fuel, rfl⟩ : ∃ f, fuel = f + 1 := ⟨fuel - 1, by omega⟩
    have hns : '/' ∉ cat ++ natStr (c.count cat) := by simp [hcat, slash_notMem_natStr]
    refine ⟨(c.addItem cat).1, c.count cat, ?_, h⟩
    rw [ItemCounter.addItemUntilValid]
    simp only [ItemCounter.addItem_key, hv _ hns]
    rw [Nat.add_zero] at h
    simp [h]
  | succ j ih =>
    intro c fuel h hf
    obtain ⟨fuel, rfl⟩ : ∃ f, fuel = f + 1 := ⟨fuel - 1, by omega⟩
    have hns : '/' ∉ cat ++ natStr (c.count cat) := by simp [hcat, slash_notMem_natStr]
    rw [ItemCounter.addItemUntilValid]
    simp only [ItemCounter.addItem_key, hv _ hns]
    by_cases hm : cat ++ natStr (c.count cat) ∈ ks
    · simp only [hm, not_true_eq_false, decide_false]
      refine ih _ fuel ?_ (by omega)
      rw [ItemCounter.addItem_count]
      simp only [if_true]
      rwa [Nat.add_assoc, Nat.add_comm 1 j]
    · simp only [hm, not_false_eq_true, decide_true]
      exact ⟨_, _, rfl, hm⟩

theorem contains_keys {τ α : Type} (n : Node τ α) {k : Str} (hk : '/' ∉ k) :
    n.contains k = .ok (decide (k ∈ n.keys)) := Node.contains_noslash n hk

theorem autoKey_eq (l : Layout K) (c : Cons K) (hc : '/' ∉ c.ty.name) :
    ∃ ctr k, l.autoKey c = (ctr, .ok (c.ty.name ++ natStr k)) ∧
      c.ty.name ++ natStr k ∉ l.cons.keys ∧ c.ty.name ++ natStr k ∉ l.keys.keys ∧
      c.ty.name ++ natStr k ∉ l.params.keys := by
  let ks := l.cons.keys ++ (l.keys.keys ++ l.params.keys)
  have hv : ∀ key, '/' ∉ key →
      ItemCounter.validIn [l.cons.contains, l.keys.contains, l.params.contains] key
        = .ok (decide (key ∉ ks)) := by
    intro key hk
    simp only [ItemCounter.validIn, contains_keys _ hk, ks, List.mem_append, not_or]
    by_cases h1 : key ∈ l.cons.keys <;> by_cases h2 : key ∈ l.keys.keys <;>
      by_cases h3 : key ∈ l.params.keys <;> simp [h1, h2, h3]
  obtain ⟨j, hj, hfr⟩ := fresh_within c.ty.name ks (l.counter.count c.ty.name)
  have hlen : ks.length = l.cons.len + (l.keys.len + l.params.len) := by
    simp [ks, Node.keys, Node.len]
  obtain ⟨ctr, k, h1, h2⟩ := addItemUntilValid_fresh c.ty.name hc _ ks hv j l.counter l.counterFuel
    hfr (by unfold counterFuel; omega)
  simp only [ks, List.mem_append, not_or] at h2
  refine ⟨ctr, k, ?_, h2.1, h2.2.1, h2.2.2⟩
  simp only [autoKey, ItemCounter.addItemToNodes]
  rw [h1]

/-- Appending a child at the top level. -/
theorem addChild_top {τ α : Type} (n c : Node τ α) {k : Str} (hk : '/' ∉ k) (hn : k ∉ n.keys) :
    n.addChild k c = .ok (.mk n.ty n.value (n.children ++ [(k, c)])) := by
  have h1 : (splitAll k).dropLast = [] := (noslash_iff_dropLast k).mp hk
  have h2 : (splitAll k).getLastD [] = k := by rw [splitAll_noslash hk]; rfl
  rw [Node.addChild_eq, h1, h2]
  simp only [Node.find, hn, if_false, Node.setAt]
  congr 2
  have : ∀ d : List (Str × Node τ α), k ∉ d.map (·.1) → dictSet d k c = d ++ [(k, c)] := by
    intro d hd
    induction d with
    | nil => rfl
    | cons kc d ih =>
      obtain ⟨a, b⟩ := kc
      simp only [List.map_cons, List.mem_cons, not_or] at hd
      simp only [dictSet]
      rw [if_neg (fun h => hd.1 h.symm), ih hd.2]; rfl
  exact this _ hn

/-! ### Steps -/

/-- What `add_constraint` does with the trees: it stores under some key, or not at all. -/
theorem addConstraint_cases (l : Layout K) {c : Cons K} (hc : '/' ∉ c.ty.name)
    (primKeys : List Str) (param : List (Param K)) (key : Str) :
    ∃ ctr key', (key ≠ [] → key' = key ∧ ctr = l.counter) ∧
      (key = [] → '/' ∉ key' ∧ key' ∉ l.cons.keys ∧ key' ∉ l.keys.keys ∧ key' ∉ l.params.keys) ∧
      l.addConstraint c primKeys param key
        = ({ l with counter := ctr }).checkAndStore c primKeys param key' := by
  by_cases hk : key = []
  · obtain ⟨ctr, k, h1, h2, h3, h4⟩ := l.autoKey_eq c hc
    refine ⟨ctr, c.ty.name ++ natStr k, fun h => absurd hk h, fun _ => ⟨?_, h2, h3, h4⟩, ?_⟩
    · simp [hc, slash_notMem_natStr]
    · simp only [addConstraint, hk, if_true, h1]
  · exact ⟨l.counter, key, fun _ => ⟨rfl, rfl⟩, fun h => absurd h hk, by simp [addConstraint, hk]⟩

theorem Inv.addPrim {l : Layout K} (hl : l.Inv) {prim : Prim K} (hp : prim.WF) (key : Str) :
    (l.addPrim prim key).1.Inv := by
  unfold Layout.addPrim
  cases h : l.prim.addChild key prim with
  | error e => exact hl
  | ok root => exact ⟨addChild_WF h hl.prim hp, hl.cons, hl.keysWF, hl.paramsWF, hl.keys, hl.params⟩

theorem Inv.addPrims {l : Layout K} (hl : l.Inv) {prims : List (Str × Prim K)}
    (hp : ∀ kp ∈ prims, kp.2.WF) : (l.addPrims prims).1.Inv := by
  induction prims generalizing l with
  | nil => exact hl
  | cons kp ps ih =>
    obtain ⟨key, prim⟩ := kp
    have h1 := hl.addPrim (hp (key, prim) (by simp)) key
    unfold Layout.addPrims
    rcases hr : l.addPrim prim key with ⟨l', ⟨e⟩ | ⟨⟩⟩
    · rw [hr] at h1; exact h1
    · rw [hr] at h1; exact ih h1 fun kp h => hp kp (List.mem_cons_of_mem _ h)

theorem accepts_lengths {l : Layout K} {c : Cons K} {primKeys : List Str} {param : List (Param K)}
    (h : l.check c primKeys param = .ok ()) :
    primKeys.length = c.value.sig.primTypes.length ∧ param.length = c.value.sig.paramTypes.length := by
  obtain ⟨prims, h1, h2, h3⟩ := check_ok.mp h
  exact ⟨h1.length_eq.trans h2.length_eq, h3⟩

theorem Inv.addConstraint {l : Layout K} (hl : l.Inv) {c : Cons K} {primKeys : List Str}
    {param : List (Param K)} {key : Str}
    (hr : (LayoutOp.addConstraint c primKeys param key).Regular) :
    (l.addConstraint c primKeys param key).1.Inv := by
  obtain ⟨ctr, key', _, _, h⟩ := l.addConstraint_cases hr.1 primKeys param key
  rw [h]
  have hl' := hl.counter ctr
  unfold checkAndStore
  cases hck : check { l with counter := ctr } c primKeys param with
  | error e => exact hl'
  | ok u =>
    obtain ⟨e1, e2⟩ := accepts_lengths hck
    rcases store_cases hl' (hr.2 e1 e2) key' with ⟨e, _, h⟩ | ⟨_, _, _, _, _, _, _, _, _, _, h, hi⟩
    · simp only [h]; exact hl'
    · simp only [h]; exact hi

theorem Inv.step {l : Layout K} (hl : l.Inv) {op : LayoutOp K} (hr : op.Regular) :
    (l.step op).1.Inv := by
  cases op with
  | addPrim prim key => exact hl.addPrim hr key
  | addPrims prims => exact hl.addPrims hr
  | addConstraint c primKeys param key => exact hl.addConstraint hr

theorem Inv.run {l : Layout K} (hl : l.Inv) {ops : List (LayoutOp K)} (hr : ∀ op ∈ ops, op.Regular) :
    (l.run ops).Inv := by
  induction ops generalizing l with
  | nil => exact hl
  | cons op ops ih =>
    exact ih (hl.step (hr op (by simp))) fun o h => hr o (List.mem_cons_of_mem _ h)

theorem Inv.paired {l : Layout K} (hl : l.Inv) : l.Paired := by
  have e1 := paths_of_skel hl.keys
  have e2 := paths_of_skel hl.params
  have hp : l.cons.paths = [] :: pathsL l.cons.children := by cases l.cons; rfl
  refine ⟨pathsL l.cons.children, ?_, ?_, ?_, ?_, ?_⟩
  · have := paths_nodup _ hl.cons
    rw [hp] at this
    exact (List.nodup_cons.mp this).2
  · intro p
    have := mem_paths l.cons p
    rw [hp, List.mem_cons] at this
    have h0 : [] ∉ pathsL l.cons.children := by
      have := paths_nodup _ hl.cons
      rw [hp] at this
      exact (List.nodup_cons.mp this).1
    constructor
    · intro h
      exact ⟨by rintro rfl; exact h0 h, this.mp (.inr h)⟩
    · rintro ⟨h1, h2⟩
      exact (this.mpr h2).resolve_left h1
  · have := iterFlat_paths₂ l.cons []
    rw [hp] at this
    generalize hI : l.cons.iterFlat [] = I at this
    cases this with
    | cons _ h => simp only [flatConstraints, hI]; simpa [List.forall₂_map_right_iff] using h
  · have := iterFlat_paths₂ l.keys []
    rw [← e1, hp] at this
    generalize hI : l.keys.iterFlat [] = I at this
    cases this with
    | cons _ h =>
      simp only [flatConstraints, hI]
      simp only [List.map_cons, List.drop_succ_cons, List.drop_zero, List.forall₂_map_right_iff]
      exact h.imp fun p kn hk => ⟨_, hk, rfl⟩
  · have := iterFlat_paths₂ l.params []
    rw [← e2, hp] at this
    generalize hI : l.params.iterFlat [] = I at this
    cases this with
    | cons _ h =>
      simp only [flatConstraints, hI]
      simp only [List.map_cons, List.drop_succ_cons, List.drop_zero, List.forall₂_map_right_iff]
      exact h.imp fun p kn hk => ⟨_, hk, rfl⟩

/-! ### Nothing that exists changes -/

/-- The trees of a layout are trees. -/
structure Wf (l : Layout K) : Prop where
  prim : l.prim.WF
  cons : l.cons.WF
  keys : l.keys.WF
  params : l.params.WF

theorem Inv.wf {l : Layout K} (h : l.Inv) : l.Wf := ⟨h.prim, h.cons, h.keysWF, h.paramsWF⟩

/-- All four trees of `l'` extend those of `l`. -/
structure Ext (l' l : Layout K) : Prop where
  prim : l'.prim.Extends l.prim
  cons : Node.Extends l'.cons l.cons
  keys : l'.keys.Extends l.keys
  params : l'.params.Extends l.params

theorem Ext.refl (l : Layout K) : Ext l l := ⟨.refl _, .refl _, .refl _, .refl _⟩
theorem Ext.trans {a b c : Layout K} (h : Ext c b) (h' : Ext b a) : Ext c a :=
  ⟨h.prim.trans h'.prim, h.cons.trans h'.cons, h.keys.trans h'.keys, h.params.trans h'.params⟩

theorem rootPrimKeys_WF {c : Cons K} {ks : List Str} {t : KeysNode} (h : c.rootPrimKeys ks = .ok t) :
    t.WF := by
  induction c using Node.induct generalizing ks t with
  | _ ty v cs ih =>
    simp only [Cons.rootPrimKeys, py_bind_ok] at h
    obtain ⟨kss, h1, ns, h2, h3⟩ := h
    clear h1
    cases h3
    rw [WF_mk]
    refine ⟨dictOfPairs_keys_nodup _, ?_⟩
    intro k n hn
    have hm := mem_dictOfPairs hn
    clear hn
    induction cs generalizing kss ns with
    | nil => cases kss <;> · cases h2; cases hm
    | cons kc cs ihc =>
      obtain ⟨k', c'⟩ := kc
      cases kss with
      | nil => cases h2; cases hm
      | cons ks' kss =>
        simp only [Cons.rootPrimKeysL, py_bind_ok] at h2
        obtain ⟨n', hn', ns', hns', e⟩ := h2
        cases e
        rcases List.mem_cons.mp hm with hm | hm
        · cases hm; exact ih k c' (by simp) hn'
        · exact ihc (fun k c h => ih k c (List.mem_cons_of_mem _ h)) kss ns' hns' hm

theorem rootParams_WF {c : Cons K} {ks : List (Param K)} {t : ParamsNode K}
    (h : c.rootParams ks = .ok t) : t.WF := by
  induction c using Node.induct generalizing ks t with
  | _ ty v cs ih =>
    simp only [Cons.rootParams, py_bind_ok] at h
    obtain ⟨kss, h1, ns, h2, h3⟩ := h
    clear h1
    cases h3
    rw [WF_mk]
    refine ⟨dictOfPairs_keys_nodup _, ?_⟩
    intro k n hn
    have hm := mem_dictOfPairs hn
    clear hn
    induction cs generalizing kss ns with
    | nil => cases kss <;> · cases h2; cases hm
    | cons kc cs ihc =>
      obtain ⟨k', c'⟩ := kc
      cases kss with
      | nil => cases h2; cases hm
      | cons ks' kss =>
        simp only [Cons.rootParamsL, py_bind_ok] at h2
        obtain ⟨n', hn', ns', hns', e⟩ := h2
        cases e
        rcases List.mem_cons.mp hm with hm | hm
        · cases hm; exact ih k c' (by simp) hn'
        · exact ihc (fun k c h => ih k c (List.mem_cons_of_mem _ h)) kss ns' hns' hm

theorem Wf.store {l : Layout K} (hl : l.Wf) {c : Cons K} (hc : c.WF) (primKeys : List Str)
    (param : List (Param K)) (key : Str) :
    (l.store c primKeys param key).1.Wf ∧ Ext (l.store c primKeys param key).1 l ∧
      (l.store c primKeys param key).1.prim = l.prim := by
  unfold Layout.store
  cases h1 : l.cons.addChild key c with
  | error e => exact ⟨hl, .refl l, rfl⟩
  | ok cons =>
    have w1 : ({ l with cons := cons } : Layout K).Wf :=
      ⟨hl.prim, addChild_WF h1 hl.cons hc, hl.keys, hl.params⟩
    have x1 : Ext { l with cons := cons } l :=
      ⟨.refl _, addChild_extends hl.cons h1, .refl _, .refl _⟩
    simp only [storeKeys]
    cases h2 : (do let t ← c.rootPrimKeys primKeys; l.keys.addChild key t) with
    | error e => exact ⟨w1, x1, rfl⟩
    | ok keys =>
      obtain ⟨kt, hkt, hk⟩ := py_bind_ok.mp h2
      have w2 : ({ l with cons := cons, keys := keys } : Layout K).Wf :=
        ⟨hl.prim, w1.cons, addChild_WF hk hl.keys (rootPrimKeys_WF hkt), hl.params⟩
      have x2 : Ext { l with cons := cons, keys := keys } l :=
        ⟨.refl _, x1.cons, addChild_extends hl.keys hk, .refl _⟩
      simp only [storeParams]
      cases h3 : (do let t ← c.rootParams param; l.params.addChild key t) with
      | error e => exact ⟨w2, x2, rfl⟩
      | ok params =>
        obtain ⟨pt, hpt, hp⟩ := py_bind_ok.mp h3
        exact ⟨⟨hl.prim, w1.cons, w2.keys, addChild_WF hp hl.params (rootParams_WF hpt)⟩,
          ⟨.refl _, x1.cons, x2.keys, addChild_extends hl.params hp⟩, rfl⟩

theorem Wf.addConstraint {l : Layout K} (hl : l.Wf) {c : Cons K} (hc : c.WF) (hn : '/' ∉ c.ty.name)
    (primKeys : List Str) (param : List (Param K)) (key : Str) :
    (l.addConstraint c primKeys param key).1.Wf ∧ Ext (l.addConstraint c primKeys param key).1 l ∧
      (l.addConstraint c primKeys param key).1.prim = l.prim := by
  obtain ⟨ctr, key', _, _, h⟩ := l.addConstraint_cases hn primKeys param key
  rw [h]
  have hl' : ({ l with counter := ctr } : Layout K).Wf := ⟨hl.prim, hl.cons, hl.keys, hl.params⟩
  unfold checkAndStore
  cases check { l with counter := ctr } c primKeys param with
  | error e => exact ⟨hl', ⟨.refl _, .refl _, .refl _, .refl _⟩, rfl⟩
  | ok u =>
    obtain ⟨h1, h2, h3⟩ := hl'.store hc primKeys param key'
    exact ⟨h1, ⟨h2.prim, h2.cons, h2.keys, h2.params⟩, h3⟩

theorem Wf.addPrim {l : Layout K} (hl : l.Wf) {prim : Prim K} (hp : prim.WF) (key : Str) :
    (l.addPrim prim key).1.Wf ∧ Ext (l.addPrim prim key).1 l := by
  unfold Layout.addPrim
  cases h : l.prim.addChild key prim with
  | error e => exact ⟨hl, .refl l⟩
  | ok root =>
    exact ⟨⟨addChild_WF h hl.prim hp, hl.cons, hl.keys, hl.params⟩,
      ⟨addChild_extends hl.prim h, .refl _, .refl _, .refl _⟩⟩

theorem Wf.addPrims {l : Layout K} (hl : l.Wf) {prims : List (Str × Prim K)}
    (hp : ∀ kp ∈ prims, kp.2.WF) : (l.addPrims prims).1.Wf ∧ Ext (l.addPrims prims).1 l := by
  induction prims generalizing l with
  | nil => exact ⟨hl, .refl l⟩
  | cons kp ps ih =>
    obtain ⟨key, prim⟩ := kp
    have h1 := hl.addPrim (hp (key, prim) (by simp)) key
    unfold Layout.addPrims
    rcases hr : l.addPrim prim key with ⟨l', ⟨e⟩ | ⟨⟩⟩
    · rw [hr] at h1; exact h1
    · rw [hr] at h1
      have := ih h1.1 fun kp h => hp kp (List.mem_cons_of_mem _ h)
      exact ⟨this.1, this.2.trans h1.2⟩

theorem Wf.step {l : Layout K} (hl : l.Wf) {op : LayoutOp K} (hr : op.Trees) :
    (l.step op).1.Wf ∧ Ext (l.step op).1 l := by
  cases op with
  | addPrim prim key => exact hl.addPrim hr key
  | addPrims prims => exact hl.addPrims hr
  | addConstraint c primKeys param key =>
    have := hl.addConstraint hr.1 hr.2 primKeys param key
    exact ⟨this.1, this.2.1⟩

theorem Wf.run {l : Layout K} (hl : l.Wf) {ops : List (LayoutOp K)} (hr : ∀ op ∈ ops, op.Trees) :
    (l.run ops).Wf ∧ Ext (l.run ops) l := by
  induction ops generalizing l with
  | nil => exact ⟨hl, .refl l⟩
  | cons op ops ih =>
    have h1 := hl.step (hr op (by simp))
    have h2 := ih h1.1 fun o h => hr o (List.mem_cons_of_mem _ h)
    exact ⟨h2.1, h2.2.trans h1.2⟩

end Layout

end MplLayout
