import Verif.Spec.ConsHeap
import Verif.Lemmas.NodeHeap
import Verif.Lemmas.Layout
import Verif.Lemmas.LayoutSolve

/-!
# Reading trees from the heap
-/

namespace MplLayout

variable {τ α K : Type}

namespace Heap

theorem obj_ok {h : Heap τ α} {a : Nat} {o : Obj τ α} : h.obj a = .ok o ↔ h[a]? = some o := by
  unfold obj
  split <;> simp_all

theorem read_succ {h : Heap τ α} {f a : Nat} {t : Node τ α} :
    h.read (f + 1) a = .ok t ↔ ∃ o cs, h[a]? = some o ∧
      List.Forall₂ (fun (kc : Str × Nat) (kn : Str × Node τ α) =>
        kc.1 = kn.1 ∧ h.read f kc.2 = .ok kn.2) o.children cs ∧ t = .mk o.ty o.value cs := by
  simp only [read, py_bind_ok, obj_ok, pyMap_ok]
  constructor
  · rintro ⟨o, ho, cs, hc, e⟩
    cases e
    refine ⟨o, cs, ho, hc.imp fun kc kn hk => ?_, rfl⟩
    obtain ⟨n, hn, e⟩ := hk
    cases e
    exact ⟨rfl, hn⟩
  · rintro ⟨o, cs, ho, hc, rfl⟩
    refine ⟨o, ho, cs, hc.imp fun kc kn hk => ?_, rfl⟩
    exact ⟨kn.2, hk.2, by rw [hk.1]⟩

/-- References point to earlier objects, and never to object 0. -/
def Low (h : Heap τ α) : Prop :=
  ∀ (i : Nat) o, 1 ≤ i → h[i]? = some o → ∀ kc ∈ o.children, 1 ≤ kc.2 ∧ kc.2 < i

theorem forall₂_left {β γ : Type} {R S : β → γ → Prop} {xs : List β} {ys : List γ}
    (h : List.Forall₂ R xs ys) (hs : ∀ x ∈ xs, ∀ y, R x y → S x y) : List.Forall₂ S xs ys := by
  induction h with
  | nil => exact .nil
  | cons h1 _ ih =>
    exact .cons (hs _ List.mem_cons_self _ h1) (ih fun x hx => hs x (List.mem_cons_of_mem _ hx))

theorem read_mono {h h' : Heap τ α} (hl : h.Low) :
    ∀ (a f f' : Nat) (t : Node τ α), 1 ≤ a → (∀ i, 1 ≤ i → i ≤ a → h'[i]? = h[i]?) → a < f' →
      h.read f a = .ok t → h'.read f' a = .ok t := by
  intro a
  induction a using Nat.strong_induction_on with
  | _ a ih =>
    intro f f' t ha he hf hr
    cases f with
    | zero => simp [read] at hr
    | succ f =>
      obtain ⟨o, cs, ho, hc, rfl⟩ := read_succ.1 hr
      obtain ⟨f', rfl⟩ : ∃ g, f' = g + 1 := ⟨f' - 1, by omega⟩
      refine read_succ.2 ⟨o, cs, (he a ha (Nat.le_refl a)).trans ho, ?_, rfl⟩
      refine forall₂_left hc fun kc hkc kn hk => ⟨hk.1, ?_⟩
      obtain ⟨h1, h2⟩ := hl a o ha ho kc hkc
      exact ih kc.2 h2 f f' kn.2 h1 (fun i hi hi' => he i hi (by omega)) (by omega) hk.2

theorem forall₂_exists {β γ : Type} {R : β → γ → Prop} {xs : List β}
    (h : ∀ x ∈ xs, ∃ y, R x y) : ∃ ys, List.Forall₂ R xs ys := by
  induction xs with
  | nil => exact ⟨[], .nil⟩
  | cons x xs ih =>
    obtain ⟨y, hy⟩ := h x List.mem_cons_self
    obtain ⟨ys, hys⟩ := ih fun x hx => h x (List.mem_cons_of_mem _ hx)
    exact ⟨y :: ys, .cons hy hys⟩

/-- The objects of a constructor call: their trees, and the same trees after the objects are moved
to the end of another heap. -/
theorem read_shift {h objs : Heap τ α}
    (hf : ∀ (i : Nat) o, objs[i]? = some o → ∀ kc ∈ o.children, kc.2 < i) :
    ∀ (i f f' : Nat), i < objs.length → i < f → h.length + i < f' →
      ∃ t, objs.read f i = .ok t ∧
        (h ++ objs.map fun o =>
          ({ o with children := o.children.map fun kc => (kc.1, h.length + kc.2) } : Obj τ α)).read f'
            (h.length + i) = .ok t := by
  intro i
  induction i using Nat.strong_induction_on with
  | _ i ih =>
    intro f f' hi hf1 hf2
    obtain ⟨f, rfl⟩ : ∃ g, f = g + 1 := ⟨f - 1, by omega⟩
    obtain ⟨f', rfl⟩ : ∃ g, f' = g + 1 := ⟨f' - 1, by omega⟩
    have ho : objs[i]? = some objs[i] := List.getElem?_eq_getElem hi
    have : ∃ cs, List.Forall₂ (fun (kc : Str × Nat) (kn : Str × Node τ α) =>
        (kc.1 = kn.1 ∧ objs.read f kc.2 = .ok kn.2) ∧ (h ++ objs.map fun o =>
          ({ o with children := o.children.map fun kc => (kc.1, h.length + kc.2) } : Obj τ α)).read f'
            (h.length + kc.2) = .ok kn.2) objs[i].children cs := by
      refine forall₂_exists fun kc hkc => ?_
      have hlt := hf i _ ho kc hkc
      obtain ⟨t, h1, h2⟩ := ih kc.2 hlt f f' (by omega) (by omega) (by omega)
      exact ⟨(kc.1, t), ⟨rfl, h1⟩, h2⟩
    obtain ⟨cs, hcs⟩ := this
    refine ⟨.mk objs[i].ty objs[i].value cs, read_succ.2 ⟨_, cs, ho, hcs.imp fun _ _ x => x.1, rfl⟩,
      read_succ.2 ⟨{ objs[i] with
        children := objs[i].children.map fun kc => (kc.1, h.length + kc.2) }, cs, ?_, ?_, rfl⟩⟩
    · rw [List.getElem?_append_right (by omega), Nat.add_sub_cancel_left, List.getElem?_map, ho]
      rfl
    · simp only [List.forall₂_map_left_iff]
      exact hcs.imp fun _ _ x => ⟨x.1.1, x.2⟩

theorem forall₂_dictGet {β γ : Type} {R : β → γ → Prop} {xs : List (Str × β)} {ys : List (Str × γ)}
    (h : List.Forall₂ (fun x y => x.1 = y.1 ∧ R x.2 y.2) xs ys) (k : Str) :
    dictHas xs k = dictHas ys k ∧
    ((dictGet xs k = none ∧ dictGet ys k = none) ∨
      ∃ x y, dictGet xs k = some x ∧ dictGet ys k = some y ∧ R x y) := by
  have key : (dictGet xs k = none ∧ dictGet ys k = none) ∨
      ∃ x y, dictGet xs k = some x ∧ dictGet ys k = some y ∧ R x y := by
    induction h with
    | nil => exact .inl ⟨rfl, rfl⟩
    | @cons x y xs ys h1 _ ih =>
      obtain ⟨kx, x⟩ := x
      obtain ⟨ky, y⟩ := y
      obtain ⟨e, hr⟩ := h1
      simp only at e hr
      subst e
      simp only [dictGet]
      by_cases hk : kx = k
      · simp only [hk, if_true]
        exact .inr ⟨x, y, rfl, rfl, hr⟩
      · simp only [hk, if_false]
        exact ih
  refine ⟨?_, key⟩
  rcases key with ⟨h1, h2⟩ | ⟨x, y, h1, h2, _⟩ <;> simp [dictHas, h1, h2]

theorem read_contains {h : Heap τ α} : ∀ (ks : List Str) (f a : Nat) (t : Node τ α),
    h.read f a = .ok t → h.containsPath a ks = t.containsPath ks := by
  intro ks
  induction ks with
  | nil => intros; rfl
  | cons k ks ih =>
    intro f a t hr
    cases f with
    | zero => simp [read] at hr
    | succ f =>
      obtain ⟨o, cs, ho, hc, rfl⟩ := read_succ.1 hr
      obtain ⟨hh, hg⟩ := forall₂_dictGet (R := fun b n => h.read f b = .ok n) hc k
      simp only [containsPath, Node.containsPath, Node.children_mk, obj_ok.2 ho, bind, Except.bind, hh]
      by_cases hj : joinSlash ks = []
      · simp [hj]
      · simp only [hj, if_false]
        rcases hg with ⟨h1, h2⟩ | ⟨b, n, h1, h2, h3⟩
        · rw [h1, h2]
        · rw [h1, h2]
          exact ih f b n h3

/-- What `read` finds is what the objects show. -/
theorem read_denotes {h : Heap τ α} : ∀ (f a : Nat) (t : Node τ α), h.read f a = .ok t →
    h.Denotes a t := by
  intro f
  induction f with
  | zero => intro a t hr; simp [read] at hr
  | succ f ih =>
    intro a t hr
    obtain ⟨o, cs, ho, hc, rfl⟩ := read_succ.1 hr
    have : ∃ ps : List (Str × Picture τ α),
        o.children = ps.map (fun kc => (kc.1, kc.2.addr)) ∧
        cs = ps.map (fun kc => (kc.1, kc.2.seen)) ∧ ∀ kp ∈ ps, Pictured h kp.2 := by
      clear hr ho
      generalize o.children = os at hc ⊢
      induction hc with
      | nil => exact ⟨[], rfl, rfl, by simp⟩
      | @cons x y xs ys h1 _ ih2 =>
        obtain ⟨ps, e1, e2, hp⟩ := ih2
        obtain ⟨p, hp1, hp2, hp3⟩ := ih _ _ h1.2
        refine ⟨(x.1, p) :: ps, ?_, ?_, ?_⟩
        · simp [← e1, hp2]
        · rw [List.map_cons, ← e2, hp3, h1.1]
        · intro kp hkp
          rcases List.mem_cons.1 hkp with rfl | hkp
          · exact hp1
          · exact hp kp hkp
    obtain ⟨ps, e1, e2, hp⟩ := this
    refine ⟨.mk o.ty (a, o.value) ps, ?_, rfl, ?_⟩
    · rw [Pictured_mk]
      refine ⟨?_, fun k c hk => hp (k, c) hk⟩
      rw [ho]
      change o.children = refs ps at e1
      rw [← e1]
    · simp only [Node.seen, Node.mapV_mk, e2]

end Heap

/-! ## The simulation -/

/-- The object at `a` is a tree that does not contain object 0. -/
def Heap.Has (h : Heap τ α) (a : Nat) (t : Node τ α) : Prop :=
  1 ≤ a ∧ a < h.length ∧ h.tree a = .ok t

theorem Heap.Has.of_agree {h h' : Heap τ α} {a : Nat} {t : Node τ α} (ht : h.Has a t) (hl : h.Low)
    (hn : h.length ≤ h'.length) (he : ∀ i, 1 ≤ i → i < h.length → h'[i]? = h[i]?) : h'.Has a t := by
  obtain ⟨h1, h2, h3⟩ := ht
  exact ⟨h1, by omega, Heap.read_mono hl a _ _ t h1 (fun i hi hi' => he i hi (by omega))
    (by omega) h3⟩

/-- The program on objects is in the same situation as the program on values. -/
structure CShows (s : CSession K) (v : CopySession K) : Prop where
  root : s.root = 0
  low : s.heap.Low
  obj : ∃ cs ds, s.heap[0]? = some ⟨rootClass, rootVal, cs⟩ ∧
    List.Forall₂ (fun (x : Str × Nat) (y : Str × Cons K) => x.1 = y.1 ∧ s.heap.Has x.2 y.2) cs ds ∧
    v.layout = { s.rest with cons := .mk rootClass rootVal ds }
  vars : List.Forall₂ (fun a c => s.heap.Has a c ∧ '/' ∉ c.ty.name) s.vars v.vars

theorem CShows.start : CShows (CSession.start (K := K)) CopySession.start where
  root := rfl
  low := by
    intro i o hi ho
    simp [CSession.start, List.getElem?_cons] at ho
    omega
  obj := ⟨[], [], rfl, .nil, rfl⟩
  vars := .nil

theorem CShows.tree {s : CSession K} {v : CopySession K} (h : CShows s v) :
    s.heap.tree s.root = .ok v.layout.cons := by
  obtain ⟨cs, ds, ho, hc, hl⟩ := h.obj
  rw [h.root, hl]
  refine Heap.read_succ.2 ⟨_, ds, ho, hc.imp fun x y hxy => ⟨hxy.1, ?_⟩, rfl⟩
  exact Heap.read_mono h.low _ _ _ _ hxy.2.1 (fun _ _ _ => rfl) hxy.2.2.1 hxy.2.2.2

theorem CShows.autoKey {s : CSession K} {v : CopySession K} (h : CShows s v) {c : Cons K} {n : Str}
    (hn : n = c.ty.name) : s.autoKey n = v.layout.autoKey c := by
  have ht := h.tree
  obtain ⟨cs, ds, ho, hc, hl⟩ := h.obj
  have h1 : s.heap.contains s.root = v.layout.cons.contains := by
    funext key
    exact Heap.read_contains _ _ _ _ ht
  have h2 : s.heap.obj s.root = .ok ⟨rootClass, rootVal, cs⟩ := by
    rw [h.root]; exact Heap.obj_ok.2 ho
  have h3 : v.layout.cons.len = cs.length := by
    rw [hl]
    exact hc.length_eq.symm
  unfold CSession.autoKey Layout.autoKey Layout.counterFuel
  rw [h1, h2, h3, hn, hl]
  rfl

theorem storeKeys_withCons (l : Layout K) (d c : Cons K) (primKeys : List Str)
    (param : List (Param K)) (key : Str) :
    ({ l with cons := d }).storeKeys c primKeys param key =
      ({ (l.storeKeys c primKeys param key).1 with cons := d },
        (l.storeKeys c primKeys param key).2) := by
  unfold Layout.storeKeys Layout.storeParams
  simp only
  split
  · split <;> rfl
  · rfl

theorem CShows.checkAndStore {s : CSession K} {v : CopySession K} (h : CShows s v) {a : Nat}
    {c : Cons K} (hc : s.heap.Has a c) (primKeys : List Str) (param : List (Param K)) {key : Str}
    (hk : '/' ∉ key) :
    CShows (s.checkAndStore a primKeys param key).1
        { v with layout := (v.layout.checkAndStore c primKeys param key).1 } ∧
      (s.checkAndStore a primKeys param key).2 =
        (v.layout.checkAndStore c primKeys param key).2 := by
  obtain ⟨cs, ds, ho, hcs, hl⟩ := h.obj
  obtain ⟨o, es, hoa, _, rfl⟩ := Heap.read_succ.1 hc.2.2
  have hck : (do
      let o ← s.heap.obj a
      s.rest.check (.mk o.ty o.value []) primKeys param) =
        v.layout.check (.mk o.ty o.value es) primKeys param := by
    rw [Heap.obj_ok.2 hoa, hl]
    rfl
  unfold CSession.checkAndStore Layout.checkAndStore
  rw [hck]
  cases v.layout.check (.mk o.ty o.value es) primKeys param with
  | error e => exact ⟨h, rfl⟩
  | ok _ =>
    simp only
    unfold CSession.store Layout.store
    have h1 : (s.heap.addChild s.root key a) = if dictHas cs key then .error (.keyError key)
        else .ok (s.heap.set 0 ⟨rootClass, rootVal, cs ++ [(key, a)]⟩) := by
      unfold Heap.addChild
      rw [splitAll_noslash hk, h.root]
      simp only [Heap.addPath, Heap.obj_ok.2 ho, bind, Except.bind]
      by_cases hd : dictHas cs key = true
      · simp [hd, reraiseKey]
      · have hd' : key ∉ cs.map (·.1) := by
          rw [Bool.not_eq_true] at hd
          exact dictHas_false_iff.1 hd
        simp [hd, reraiseKey, dictSet_of_notMem _ hd']
    have h2 : (v.layout.cons.addChild key (.mk o.ty o.value es)) =
        if dictHas cs key then .error (.keyError key)
        else .ok (.mk rootClass rootVal (ds ++ [(key, .mk o.ty o.value es)])) := by
      unfold Node.addChild
      rw [splitAll_noslash hk, hl]
      simp only [Node.addPath, Node.children_mk, Node.ty_mk, Node.value_mk,
        (Heap.forall₂_dictGet hcs key).1]
      by_cases hd : dictHas ds key = true
      · simp [hd, reraiseKey]
      · have hd' : key ∉ ds.map (·.1) := by
          rw [Bool.not_eq_true] at hd
          exact dictHas_false_iff.1 hd
        simp [hd, reraiseKey, dictSet_of_notMem _ hd']
    rw [h1, h2]
    by_cases hd : dictHas cs key = true
    · rw [if_pos hd, if_pos hd]
      exact ⟨h, rfl⟩
    · rw [if_neg hd, if_neg hd]
      have hlow : Heap.Low (s.heap.set 0 ⟨rootClass, rootVal, cs ++ [(key, a)]⟩) := by
        intro i o hi ho
        rw [List.getElem?_set_ne (by omega)] at ho
        exact h.low i o hi ho
      have hag : ∀ (b : Nat) (t : Cons K), s.heap.Has b t →
          Heap.Has (s.heap.set 0 ⟨rootClass, rootVal, cs ++ [(key, a)]⟩) b t := fun b t hb =>
        hb.of_agree h.low (by simp) fun i hi _ => List.getElem?_set_ne (by omega)
      have hc' := hag _ _ hc
      unfold CSession.storeRest
      simp only
      rw [hc'.2.2]
      simp only
      have hl2 : ({ v.layout with cons := .mk rootClass rootVal (ds ++ [(key, .mk o.ty o.value es)]) } :
          Layout K) = { s.rest with
            cons := .mk rootClass rootVal (ds ++ [(key, .mk o.ty o.value es)]) } := by
        rw [hl]
      rw [hl2]
      dsimp only
      have hsk := storeKeys_withCons s.rest
        (.mk rootClass rootVal (ds ++ [(key, (.mk o.ty o.value es : Cons K))]))
        (.mk o.ty o.value es) primKeys param key
      rw [hsk]
      refine ⟨⟨h.root, hlow, ⟨cs ++ [(key, a)], ds ++ [(key, .mk o.ty o.value es)], ?_, ?_, rfl⟩, ?_⟩,
        rfl⟩
      · have : 0 < s.heap.length := by have := hc.1; have := hc.2.1; omega
        simp [this]
      · exact List.rel_append (hcs.imp fun x y hxy => ⟨hxy.1, hag _ _ hxy.2⟩)
          (.cons ⟨rfl, hc'⟩ .nil)
      · exact h.vars.imp fun b t hbt => ⟨hag _ _ hbt.1, hbt.2⟩

theorem forall₂_var {β γ : Type} {R : β → γ → Prop} {xs : List β} {ys : List γ}
    (h : List.Forall₂ R xs ys) (i : Nat) :
    (Session.var xs i = .error .runtimeError ∧ Session.var ys i = .error .runtimeError) ∨
      ∃ x y, Session.var xs i = .ok x ∧ Session.var ys i = .ok y ∧ R x y := by
  induction h generalizing i with
  | nil => exact .inl ⟨rfl, rfl⟩
  | cons h1 _ ih =>
    cases i with
    | zero => exact .inr ⟨_, _, rfl, rfl, h1⟩
    | succ i => exact ih i

theorem CShows.addConstraint {s : CSession K} {v : CopySession K} (h : CShows s v) {a : Nat}
    {c : Cons K} (hc : s.heap.Has a c) (hn : '/' ∉ c.ty.name) (primKeys : List Str)
    (param : List (Param K)) {key : Str} (hk : '/' ∉ key) :
    CShows (s.addConstraint a primKeys param key).1
        { v with layout := (v.layout.addConstraint c primKeys param key).1 } ∧
      (s.addConstraint a primKeys param key).2 =
        (v.layout.addConstraint c primKeys param key).2 := by
  unfold CSession.addConstraint Layout.addConstraint
  by_cases he : key = []
  · simp only [he, if_true]
    obtain ⟨o, es, hoa, _, e⟩ := Heap.read_succ.1 hc.2.2
    rw [Heap.obj_ok.2 hoa]
    simp only
    rw [h.autoKey (c := c) (by rw [e]; rfl)]
    obtain ⟨ctr, k, hak, _⟩ := Layout.autoKey_eq v.layout c hn
    rw [hak]
    simp only
    have h' : CShows ({ s with rest := { s.rest with counter := ctr } })
        { v with layout := { v.layout with counter := ctr } } := by
      obtain ⟨cs, ds, ho, hcs, hl⟩ := h.obj
      refine ⟨h.root, h.low, ⟨cs, ds, ho, hcs, ?_⟩, h.vars⟩
      rw [hl]
    exact h'.checkAndStore hc primKeys param (by simp [hn, slash_notMem_natStr])
  · simp only [he, if_false]
    exact h.checkAndStore hc primKeys param hk

theorem CShows.step {s : CSession K} {v : CopySession K} (h : CShows s v) {st : CStmt K}
    (hf : st.Formed) (hk : st.Flat) :
    CShows (s.step st).1 (v.step st).1 ∧ (s.step st).2 = (v.step st).2 := by
  cases st with
  | addPrim prim key =>
    obtain ⟨cs, ds, ho, hcs, hl⟩ := h.obj
    simp only [CSession.step, CopySession.step]
    have e : v.layout.addPrim prim key =
        ({ (s.rest.addPrim prim key).1 with cons := .mk rootClass rootVal ds },
          (s.rest.addPrim prim key).2) := by
      rw [hl]
      unfold Layout.addPrim
      simp only
      split <;> rfl
    rw [e]
    exact ⟨⟨h.root, h.low, ⟨cs, ds, ho, hcs, rfl⟩, h.vars⟩, rfl⟩
  | addConstraint i primKeys param key =>
    simp only [CSession.step, CopySession.step]
    rcases forall₂_var h.vars i with ⟨h1, h2⟩ | ⟨a, c, h1, h2, h3⟩
    · rw [h1, h2]
      exact ⟨h, rfl⟩
    · rw [h1, h2]
      exact h.addConstraint h3.1 h3.2 primKeys param hk
  | make objs =>
    obtain ⟨hne, hf⟩ := hf
    have hlen : 0 < objs.length := List.length_pos_iff.2 hne
    have hpos : 0 < s.heap.length := by
      obtain ⟨cs, ds, ho, _, _⟩ := h.obj
      by_contra hz
      rw [List.getElem?_eq_none (by omega)] at ho
      cases ho
    obtain ⟨t, h1, h2⟩ := Heap.read_shift (h := s.heap) (fun i o ho => (hf i o ho).2)
      (objs.length - 1) (objs.length + 1) ((s.heap ++ objs.map fun o =>
          ({ o with children := o.children.map fun kc => (kc.1, s.heap.length + kc.2) } :
            Obj (ConsClass K) (ConsVal K))).length + 1) (by omega) (by omega) (by simp)
    simp only [CSession.step, CopySession.step]
    have h1' : Heap.tree objs (objs.length - 1) = .ok t := h1
    rw [h1']
    simp only
    have hag : ∀ (b : Nat) (t : Cons K), s.heap.Has b t →
        (s.heap ++ objs.map fun o =>
          ({ o with children := o.children.map fun kc => (kc.1, s.heap.length + kc.2) } :
            Obj (ConsClass K) (ConsVal K))).Has b t := fun b t hb =>
      hb.of_agree h.low (by simp) fun i _ hi => List.getElem?_append_left hi
    have hname : '/' ∉ t.ty.name := by
      obtain ⟨o, es, ho, _, rfl⟩ := Heap.read_succ.1 h1
      exact (hf _ _ ho).1
    obtain ⟨cs, ds, ho, hcs, hl⟩ := h.obj
    refine ⟨⟨h.root, ?_, ⟨cs, ds, ?_, hcs.imp fun x y hxy => ⟨hxy.1, hag _ _ hxy.2⟩, hl⟩, ?_⟩, trivial⟩
    · intro i o hi ho
      by_cases hlt : i < s.heap.length
      · rw [List.getElem?_append_left hlt] at ho
        exact h.low i o hi ho
      · rw [List.getElem?_append_right (by omega), List.getElem?_map, Option.map_eq_some_iff] at ho
        obtain ⟨o', ho', rfl⟩ := ho
        intro kc hkc
        obtain ⟨kc', hkc', rfl⟩ := List.mem_map.1 hkc
        have := (hf _ _ ho').2 kc' hkc'
        simp only
        omega
    · rw [List.getElem?_append_left hpos]
      exact ho
    · refine List.rel_append (h.vars.imp fun b t hbt => ⟨hag _ _ hbt.1, hbt.2⟩) (.cons ⟨?_, hname⟩ .nil)
      exact ⟨by omega, by simp; omega, h2⟩

theorem CShows.run {s : CSession K} {v : CopySession K} (h : CShows s v) {prog : List (CStmt K)}
    (hp : ∀ st ∈ prog, st.Formed ∧ st.Flat) :
    CShows (s.run prog) (v.run prog) ∧ s.outcomes prog = v.outcomes prog := by
  induction prog generalizing s v with
  | nil => exact ⟨h, rfl⟩
  | cons st prog ih =>
    obtain ⟨h1, h2⟩ := h.step (hp st List.mem_cons_self).1 (hp st List.mem_cons_self).2
    obtain ⟨h3, h4⟩ := ih h1 fun st' hst => hp st' (List.mem_cons_of_mem _ hst)
    exact ⟨h3, by simp only [CSession.outcomes, CopySession.outcomes, h2, h4]⟩

end MplLayout
