import Verif.Lemmas.HeapProgram

/-!
# C79: primitives held in several places

A child of a node is a reference to an object.  These theorems say what `add_child`/`add_prim` do to
objects that are held in several places, and that programs which add primitives at the top level
only cannot tell objects from values, so that all theorems about `Session` are about them.
-/

namespace MplLayout.Props

variable {τ α K : Type}

/-- C79, look-ups: what one sees of an object is determined by the heap, and `get_child` finds the
object shown at the key, or raises as it does for a tree of values. -/
theorem C79_lookup {h : Heap τ α} {t : Picture τ α} (ht : Pictured h t) (key : Str) :
    (∀ u, Pictured h u → u.addr = t.addr → u = t) ∧
    (∀ m, t.seen.getChild key = .ok m → ∃ x, t.At (splitAll key) x ∧ x.seen = m ∧
      h.getChild t.addr key = .ok x.addr) ∧
    (∀ e, t.seen.getChild key = .error e ↔ h.getChild t.addr key = .error e) := by
  refine ⟨fun u hu e => hu.unique ht e, ?_, ?_⟩
  · intro m hm
    rw [Node.seen, Node.getChild_mapV] at hm
    cases hg : t.getChild key with
    | error e => rw [hg] at hm; cases hm
    | ok x =>
      rw [hg] at hm
      refine ⟨x, Node.At_of_find (Node.getChild_ok_iff.1 hg), ?_, ?_⟩
      · have : Except.ok (x.mapV (·.2)) = (Except.ok m : Py (Node τ α)) := hm
        exact Except.ok.inj this
      · rw [ht.getChild, hg]; rfl
  · intro e
    rw [ht.getChild, Node.seen, Node.getChild_mapV]
    cases t.getChild key <;> simp [Except.map]

/-- The places of a tree after the child `(k, c)` was added at every place of the object `b`: the
old places, and below every place of `b`, at `k`, the places of `c`. -/
theorem C79_places {u c x : Picture τ α} {b : Nat} {k : Str} {p : List Str} :
    (u.plant b k c).At p x ↔ (∃ y, u.At p y ∧ x = y.plant b k c) ∨
      ∃ p1 p2 y, p = p1 ++ k :: p2 ∧ u.At p1 y ∧ y.addr = b ∧ c.At p2 x := by
  induction p generalizing u with
  | nil =>
    constructor
    · intro h
      cases h
      exact .inl ⟨u, .here _, rfl⟩
    · rintro (⟨y, h, rfl⟩ | ⟨p1, p2, y, e, _⟩)
      · cases h; exact .here _
      · exact absurd e.symm (by simp)
  | cons q p ih =>
    cases u with
    | mk ty v cs =>
      constructor
      · intro h
        generalize hw : (Node.mk ty v cs : Picture τ α).plant b k c = w at h
        cases h with
        | @down _ d _ _ _ hc hx =>
          rw [← hw, Node.plant_mk, Node.children_mk] at hc
          rcases List.mem_append.1 hc with hc | hc
          · obtain ⟨kc, hkc, e⟩ := List.mem_map.1 hc
            cases e
            rcases ih.1 hx with ⟨y, hy, rfl⟩ | ⟨p1, p2, y, rfl, hy, e, hcx⟩
            · exact .inl ⟨y, .down hkc hy, rfl⟩
            · exact .inr ⟨kc.1 :: p1, p2, y, rfl, .down hkc hy, e, hcx⟩
          · by_cases e : v.1 = b
            · rw [if_pos e] at hc
              simp only [List.mem_singleton, Prod.mk.injEq] at hc
              obtain ⟨rfl, rfl⟩ := hc
              exact .inr ⟨[], p, _, rfl, .here _, e, hx⟩
            · rw [if_neg e] at hc; cases hc
      · rintro (⟨y, h, rfl⟩ | ⟨p1, p2, y, e, hy, hb, hx⟩)
        · cases h with
          | @down _ d _ _ _ hc hy =>
            refine .down (c := d.plant b k c) ?_ (ih.2 (.inl ⟨y, hy, rfl⟩))
            rw [Node.plant_mk, Node.children_mk]
            exact List.mem_append_left _ (List.mem_map.2 ⟨_, hc, rfl⟩)
        · cases hy with
          | here =>
            simp only [List.nil_append, List.cons.injEq] at e
            obtain ⟨rfl, rfl⟩ := e
            refine .down (c := c) ?_ hx
            rw [Node.plant_mk, Node.children_mk, if_pos (show v.1 = b from hb)]
            simp
          | @down _ d _ k' p' hc hy =>
            simp only [List.cons_append, List.cons.injEq] at e
            obtain ⟨rfl, rfl⟩ := e
            refine .down (c := d.plant b k c) ?_ (ih.2 (.inr ⟨p', p2, y, rfl, hy, hb, hx⟩))
            rw [Node.plant_mk, Node.children_mk]
            exact List.mem_append_left _ (List.mem_map.2 ⟨_, hc, rfl⟩)

/-- C79, adding: `add_child(key, c)` raises the exception that it raises for trees of values; if it
succeeds and `c` does not contain the object it is added to, then every object `u` (the tree itself,
any variable) shows `c` as an additional last child at each place that holds that object, and
nothing else changes. -/
theorem C79_add {h : Heap τ α} {t c : Picture τ α} (ht : Pictured h t) (hc : Pictured h c) (key : Str) :
    (∀ e, h.addChild t.addr key c.addr = .error e ↔ t.seen.addChild key c.seen = .error e) ∧
    ∀ h', h.addChild t.addr key c.addr = .ok h' →
      ∃ m, t.At (splitAll key).dropLast m ∧ (splitAll key).getLastD [] ∉ m.keys ∧
        (¬ c.Holds m.addr → ∀ u, Pictured h u →
          Pictured h' (u.plant m.addr ((splitAll key).getLastD []) c)) := by
  have e1 := ht.addChild c.addr key
  have e2 := Node.addChild_eq t.seen c.seen key
  rw [Node.seen, Node.find_mapV, ← Node.seen] at e2
  cases hf : t.find (splitAll key).dropLast with
  | none =>
    rw [hf] at e1 e2
    simp only [Option.map_none] at e1 e2
    rw [e1, e2]
    exact ⟨fun e => by simp, fun h' hh => by cases hh⟩
  | some m =>
    rw [hf] at e1 e2
    simp only [Option.map_some, Node.keys_mapV] at e1 e2
    rw [e1, e2]
    by_cases hk : (splitAll key).getLastD [] ∈ m.keys
    · rw [if_pos hk, if_pos hk]
      exact ⟨fun e => by simp, fun h' hh => by cases hh⟩
    · rw [if_neg hk, if_neg hk]
      refine ⟨fun e => by simp, fun h' hh => ?_⟩
      cases hh
      have hm := Node.At_of_find hf
      exact ⟨m, hm, hk, fun hn u hu => (ht.at hm).plant hc hn _ hu⟩

/-- C79, one place: if the object found is held at this place of the tree only, the result is what
`add_child` does to a tree of values. -/
theorem C79_once {h h' : Heap τ α} {t c m : Picture τ α} (ht : Pictured h t) (hw : t.WF)
    (hc : Pictured h c) (key : Str) (hadd : h.addChild t.addr key c.addr = .ok h')
    (hm : t.At (splitAll key).dropLast m) (hn : ¬ c.Holds m.addr)
    (h1 : ∀ q x, t.At q x → x.addr = m.addr → q = (splitAll key).dropLast) :
    ∃ t', Pictured h' t' ∧ t'.addr = t.addr ∧ t.seen.addChild key c.seen = .ok t'.seen := by
  obtain ⟨_, hok⟩ := C79_add ht hc key
  obtain ⟨m', hm', hk, hp⟩ := hok h' hadd
  have : m' = m := Option.some.inj
    (((Node.find_of_At hw hm').symm).trans (Node.find_of_At hw hm))
  subst this
  refine ⟨_, hp hn t ht, Node.addr_plant _ _ _ _, ?_⟩
  rw [plant_setAt hw hm hk h1]
  show (t.mapV _).addChild key (c.mapV _) = _
  rw [Node.addChild_mapV, Node.addChild_eq, Node.find_of_At hw hm]
  simp only [if_neg hk]
  rfl

/-- C79, cycles: if `c` contains the object it is added to, the call succeeds, and from then on no
finite tree shows that object or anything that holds it: every walk through the layout (`iter_flat`,
`solve`, drawing) recurses without end. -/
theorem C79_cycle {h h' : Heap τ α} {t c m : Picture τ α} (ht : Pictured h t) (hw : t.WF)
    (hc : Pictured h c) (key : Str) (hadd : h.addChild t.addr key c.addr = .ok h')
    (hm : t.At (splitAll key).dropLast m) (hn : c.Holds m.addr) :
    ∀ u, Pictured h' u → ¬ u.Holds m.addr := by
  have e1 := ht.addChild c.addr key
  rw [Node.find_of_At hw hm, hadd] at e1
  simp only at e1
  split at e1
  · cases e1
  simp only [Except.ok.injEq] at e1
  have hmo := (ht.at hm).obj
  have hlt : m.addr < h.length := by
    by_contra hge
    rw [List.getElem?_eq_none (by omega)] at hmo
    cases hmo
  -- old references remain
  have keep : ∀ (a : Nat) (o o' : Obj τ α), h[a]? = some o → h'[a]? = some o' → ∀ kc ∈ o.children, kc ∈ o'.children := by
    intro a o o' ho ho' kc hkc
    by_cases ea : a = m.addr
    · subst ea
      rw [e1, List.getElem?_set_self hlt] at ho'
      rw [hmo] at ho
      cases ho; cases ho'
      exact List.mem_append_left _ hkc
    · rw [e1, List.getElem?_set_ne (fun e => ea e.symm), ho] at ho'
      cases ho'; exact hkc
  have follow : ∀ (p : List Str) (y x : Picture τ α), Pictured h y → Pictured h' x → x.addr = y.addr →
      ∀ z, y.At p z → ∃ z', x.At p z' ∧ z'.addr = z.addr := by
    intro p
    induction p with
    | nil => intro y x hy hx e z hz; cases hz; exact ⟨x, .here _, e⟩
    | cons k p ih =>
      intro y x hy hx e z hz
      cases hz with
      | @down _ d _ _ _ hd hz =>
        have o1 := hy.obj
        have o2 := hx.obj
        rw [e] at o2
        have := keep _ _ _ o1 o2 (k, d.addr) (List.mem_map.2 ⟨_, hd, rfl⟩)
        obtain ⟨kc, hkc, e2⟩ := List.mem_map.1 this
        simp only [Prod.mk.injEq] at e2
        obtain ⟨rfl, e3⟩ := e2
        obtain ⟨z', h1, h2⟩ := ih d kc.2 (hy.at (.down hd (.here _))) (hx.at (.down hkc (.here _))) e3 z hz
        exact ⟨z', .down hkc h1, h2⟩
  rintro u hu ⟨p, w, hw', hwa⟩
  have hwp := hu.at hw'
  have o := hwp.obj
  rw [hwa, e1, List.getElem?_set_self hlt] at o
  simp only [Option.some.injEq, Obj.mk.injEq] at o
  have : ((splitAll key).getLastD [], c.addr) ∈ refs w.children := by rw [← o.2.2]; simp
  obtain ⟨kc, hkc, e2⟩ := List.mem_map.1 this
  simp only [Prod.mk.injEq] at e2
  obtain ⟨q, z, hz, hza⟩ := hn
  obtain ⟨z', h1, h2⟩ := follow q c kc.2 hc (hwp.at (.down hkc (.here _))) e2.2 z hz
  have hat : w.At (kc.1 :: q) z' := .down hkc h1
  have : z' = w := (hwp.at hat).unique hwp (by rw [h2, hza, hwa])
  subst this
  -- a tree does not contain itself below its root
  have rep : ∀ n : Nat, ∃ p', n ≤ p'.length ∧ z'.At p' z' := by
    intro n
    induction n with
    | zero => exact ⟨[], by simp, .here _⟩
    | succ n ih =>
      obtain ⟨p', h3, h4⟩ := ih
      exact ⟨(kc.1 :: q) ++ p', by simp; omega, hat.trans h4⟩
  obtain ⟨p', h3, h4⟩ := rep (z'.nodeHeight + 1)
  have := Node.height_bound h4
  omega

/-- C79, programs: a program that adds primitives at the top level only shows the same layout, and
has the same outcomes, as if primitives were values. -/
theorem C79_program [PyNum K] (prog : List (Stmt K)) (ht : ∀ st ∈ prog, st.TopLevel) :
    (∀ l, (HSession.start.run prog).Sees l ↔ l = (Session.start.run prog).layout) ∧
    HSession.start.outcomes prog = Session.start.outcomes prog := by
  obtain ⟨h1, h2⟩ := (Shows.start (K := K)).run ht
  refine ⟨fun l => ?_, h2⟩
  obtain ⟨t, ht, ha, hs, _⟩ := h1.tree
  constructor
  · rintro ⟨u, hu, hua, rfl⟩
    have : u = t := hu.unique ht (by rw [hua, ha, h1.root])
    subst this
    rw [← hs]
    exact h1.layout.symm
  · rintro rfl
    exact ⟨t, ht, by rw [ha, h1.root], by rw [← hs]; exact h1.layout⟩

/-- C79, nested keys: whatever was done before, `layout.add_prim(c, key)` below another primitive
adds `c` to that primitive object, at every place of the layout and of the variables that holds it. -/
theorem C79_add_prim (s : HSession K) {t c : Picture PrimType (PVal K)}
    (ht : Pictured s.store.heap t) (hr : t.addr = s.root) (hc : Pictured s.store.heap c) (key : Str)
    (hok : (s.addPrim c.addr key).2 = .ok ()) :
    ∃ m, t.At (splitAll key).dropLast m ∧ (splitAll key).getLastD [] ∉ m.keys ∧
      (¬ c.Holds m.addr → ∀ u, Pictured s.store.heap u →
        Pictured (s.addPrim c.addr key).1.store.heap (u.plant m.addr ((splitAll key).getLastD []) c)) := by
  unfold HSession.addPrim at hok ⊢
  rw [← hr] at hok ⊢
  cases hh : s.store.heap.addChild t.addr key c.addr with
  | error e => rw [hh] at hok; cases hok
  | ok h' => exact (C79_add ht hc key).2 h' hh

/-! ## Examples -/

/-- Four objects: the first refers to the second under `A` and `B`, and to the third under `C`. -/
def tinyHeap : Heap Unit Nat :=
  [⟨(), 10, [(k!"A", 1), (k!"B", 1), (k!"C", 2)]⟩, ⟨(), 11, []⟩, ⟨(), 12, []⟩, ⟨(), 13, []⟩]

/-- What the first of them shows. -/
def tinyTree : Picture Unit Nat :=
  .mk () (0, 10) [(k!"A", .mk () (1, 11) []), (k!"B", .mk () (1, 11) []), (k!"C", .mk () (2, 12) [])]

/-- What the last of them shows. -/
def tinyLeaf : Picture Unit Nat := .mk () (3, 13) []

theorem tiny_pictured : Pictured tinyHeap tinyTree ∧ Pictured tinyHeap tinyLeaf := by
  have leaf : ∀ a v, tinyHeap[a]? = some ⟨(), v, []⟩ → Pictured tinyHeap (.mk () (a, v) []) := by
    intro a v h
    rw [Pictured_mk]
    exact ⟨h, by simp⟩
  refine ⟨?_, leaf 3 13 rfl⟩
  rw [tinyTree, Pictured_mk]
  refine ⟨rfl, ?_⟩
  intro k c hc
  simp only [List.mem_cons, Prod.mk.injEq, List.not_mem_nil, or_false] at hc
  rcases hc with ⟨_, rfl⟩ | ⟨_, rfl⟩ | ⟨_, rfl⟩
  · exact leaf 1 11 rfl
  · exact leaf 1 11 rfl
  · exact leaf 2 12 rfl

theorem tiny_leaf_holds (b : Nat) : tinyLeaf.Holds b ↔ b = 3 := by
  rw [tinyLeaf, Holds_mk]; simp [eq_comm]

/-- The case of `C79_add`: adding the leaf as `A/X` also shows it as `B/X`. -/
example : ∃ h', tinyHeap.addChild tinyTree.addr k!"A/X" tinyLeaf.addr = .ok h' ∧
    Pictured h' (.mk () (0, 10) [(k!"A", .mk () (1, 11) [(k!"X", tinyLeaf)]),
      (k!"B", .mk () (1, 11) [(k!"X", tinyLeaf)]), (k!"C", .mk () (2, 12) [])]) := by
  refine ⟨_, rfl, ?_⟩
  obtain ⟨m, hm, _, hp⟩ := (C79_add tiny_pictured.1 tiny_pictured.2 k!"A/X").2 _ rfl
  have hmA : m = .mk () (1, 11) [] := by
    have : tinyTree.At [k!"A"] m := hm
    cases this with
    | down hc hm =>
      cases hm
      simp only [tinyTree, Node.children_mk, List.mem_cons, Prod.mk.injEq, List.not_mem_nil, or_false] at hc
      rcases hc with ⟨_, rfl⟩ | ⟨h, _⟩ | ⟨h, _⟩
      · rfl
      · exact absurd h (by decide)
      · exact absurd h (by decide)
  subst hmA
  exact hp (by rw [tiny_leaf_holds]; decide) tinyTree tiny_pictured.1

/-- The hypotheses of `C79_once` are met by adding the leaf as `C/X`. -/
example : ∃ h' m, tinyHeap.addChild tinyTree.addr k!"C/X" tinyLeaf.addr = .ok h' ∧ tinyTree.WF ∧
    tinyTree.At (splitAll k!"C/X").dropLast m ∧ ¬ tinyLeaf.Holds m.addr ∧
    ∀ q x, tinyTree.At q x → x.addr = m.addr → q = (splitAll k!"C/X").dropLast := by
  refine ⟨_, .mk () (2, 12) [], rfl, ((Node.goodB_iff _).1 (by decide)).1,
    .down (c := .mk () (2, 12) []) (by simp [tinyTree]) (.here _), by rw [tiny_leaf_holds]; decide, ?_⟩
  intro q x hx e
  have end' : ∀ {a v} {q : List Str} {x : Picture Unit Nat},
      (Node.mk () (a, v) [] : Picture Unit Nat).At q x → q = [] ∧ x.addr = a := by
    intro a v q x h
    cases h with
    | here => exact ⟨rfl, rfl⟩
    | down hc _ => cases hc
  cases hx with
  | here => exact absurd e (by decide)
  | down hc hx =>
    simp only [tinyTree, Node.children_mk, List.mem_cons, Prod.mk.injEq, List.not_mem_nil, or_false] at hc
    rcases hc with ⟨rfl, rfl⟩ | ⟨rfl, rfl⟩ | ⟨rfl, rfl⟩
    · obtain ⟨rfl, e2⟩ := end' hx
      rw [e2] at e; exact absurd e (by decide)
    · obtain ⟨rfl, e2⟩ := end' hx
      rw [e2] at e; exact absurd e (by decide)
    · obtain ⟨rfl, _⟩ := end' hx
      decide

/-- Exact rational numbers, to run examples. -/
local instance heapNum : PyNum Rat where
  natCast n := n
  sqrt x := x
  pow x _ := x
  atan2 _ _ := 0
  cos _ := 0
  sin _ := 0
  acos _ := 0
  pi := 3
  truthy x := x != 0
  lt x y := x < y
  le x y := x ≤ y

/-- `q = Quadrilateral(); p = Point(); layout.add_prim(q, 'Q')`. -/
def sharedProg : List (Stmt Rat) :=
  [.make (.quadrilateral .default none), .make (.point .default), .addPrim 0 k!"Q"]

theorem sharedProg_top : ∀ st ∈ sharedProg, st.TopLevel := by
  intro st hst
  simp only [sharedProg, List.mem_cons, List.not_mem_nil, or_false] at hst
  rcases hst with rfl | rfl | rfl <;> simp [Stmt.TopLevel]

/-- The hypotheses of `C79_program` are met, and all calls succeed. -/
example : (∀ st ∈ sharedProg, st.TopLevel) ∧
    HSession.start.outcomes sharedProg = [.ok (), .ok (), .ok ()] :=
  ⟨sharedProg_top, by decide +kernel⟩

/-- C79: adding a point below a corner of a quadrilateral, `layout.add_prim(p, 'Q/Line0/Point1/X')`,
also adds it at the other place of that corner, `'Q/Line1/Point0/X'`: a call changes keys that it
was not given. -/
theorem C79_shared_corner :
    let before := HSession.start.run sharedProg
    let after := HSession.start.run (sharedProg ++ [.addPrim 1 k!"Q/Line0/Point1/X"])
    before.store.heap.getChild before.root k!"Q/Line1/Point0/X"
      = .error (.keyError k!"Q/Line1/Point0/X") ∧
    (∃ a, after.store.heap.getChild after.root k!"Q/Line0/Point1/X" = .ok a ∧
      after.store.heap.getChild after.root k!"Q/Line1/Point0/X" = .ok a) := by
  refine ⟨by decide +kernel, 10, by decide +kernel, by decide +kernel⟩

/-- C79: `layout.add_prim(q, 'Q/Self')` succeeds and leaves a layout that cannot be walked through. -/
theorem C79_self :
    let after := HSession.start.run (sharedProg ++ [.addPrim 0 k!"Q/Self"])
    HSession.start.outcomes (sharedProg ++ [.addPrim 0 k!"Q/Self"])
      = [.ok (), .ok (), .ok (), .ok ()] ∧ ∀ l, ¬ after.Sees l := by
  refine ⟨by decide +kernel, ?_⟩
  rintro l ⟨t, ht, hr, _⟩
  have hq := ht.getChild k!"Q"
  have hs := ht.getChild k!"Q/Self"
  rw [hr] at hq hs
  rw [show Heap.getChild _ _ k!"Q" = .ok 9 by decide +kernel] at hq
  rw [show Heap.getChild _ _ k!"Q/Self" = .ok 9 by decide +kernel] at hs
  cases h1 : t.getChild k!"Q" with
  | error e => rw [h1] at hq; cases hq
  | ok x =>
    cases h2 : t.getChild k!"Q/Self" with
    | error e => rw [h2] at hs; cases hs
    | ok y =>
      rw [h1] at hq
      rw [h2] at hs
      have e1 : 9 = x.addr := Except.ok.inj hq
      have e2 : 9 = y.addr := Except.ok.inj hs
      have a1 : t.At [k!"Q"] x := Node.At_of_find (Node.getChild_ok_iff.1 h1)
      have a2 : t.find ([k!"Q"] ++ [k!"Self"]) = some y := Node.getChild_ok_iff.1 h2
      rw [Node.find_append, show t.find [k!"Q"] = some x from Node.getChild_ok_iff.1 h1] at a2
      have a3 : x.At [k!"Self"] y := Node.At_of_find a2
      have e : y = x := (ht.at (a1.trans a3)).unique (ht.at a1) (by rw [← e1, ← e2])
      subst e
      have rep : ∀ n : Nat, ∃ p', n ≤ p'.length ∧ y.At p' y := by
        intro n
        induction n with
        | zero => exact ⟨[], by simp, .here _⟩
        | succ n ih =>
          obtain ⟨p', h3, h4⟩ := ih
          exact ⟨[k!"Self"] ++ p', by simp; omega, a3.trans h4⟩
      obtain ⟨p', h3, h4⟩ := rep (y.nodeHeight + 1)
      have := Node.height_bound h4
      omega

end MplLayout.Props
