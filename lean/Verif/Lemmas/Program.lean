import Verif.Spec.Program
import Verif.Lemmas.Made
import Verif.Lemmas.Layout
import Verif.Lemmas.Rebuild
import Verif.Lemmas.LayoutSolve

/-! Programs keep one array per identity, and polygons closed. -/

namespace MplLayout

variable {K : Type}

/-- A tree whose arrays are those of the heap, with closed polygons. -/
structure Sane (heap : List (List K)) (p : Prim K) : Prop where
  wf : p.WF
  slashFree : p.SlashFree
  vals : ∀ path m, p.At path m → heap[m.value.id]? = some m.value.arr
  loops : ∀ path m, p.At path m → m.ty.IsA .polygon → ∃ pts, ClosedLoop m pts

theorem Sane.mono {heap ext : List (List K)} {p : Prim K} (h : Sane heap p) : Sane (heap ++ ext) p where
  wf := h.wf
  slashFree := h.slashFree
  vals path m hm := by
    have := h.vals path m hm
    rw [List.getElem?_append_left (List.getElem?_eq_some_iff.mp this).1]
    exact this
  loops := h.loops

theorem Sane.mk' {heap : List (List K)} {t : PrimType} {v : PVal K} {cs : List (Str × Prim K)}
    (hnd : (cs.map (·.1)).Nodup) (hs : ∀ k ∈ cs.map (·.1), '/' ∉ k)
    (hc : ∀ kc ∈ cs, Sane heap kc.2) (hv : heap[v.id]? = some v.arr)
    (hl : t.IsA .polygon → ∃ pts, ClosedLoop (.mk t v cs : Prim K) pts) :
    Sane heap (.mk t v cs) where
  wf := by rw [Node.WF_mk]; exact ⟨hnd, fun k c hm => (hc (k, c) hm).wf⟩
  slashFree := by
    intro path m hm
    generalize hN : (Node.mk t v cs : Prim K) = N at hm
    cases hm with
    | here => subst hN; exact hs
    | @down _ c _ k p hk hrest => subst hN; exact (hc (k, c) hk).slashFree p m hrest
  vals := by
    intro path m hm
    generalize hN : (Node.mk t v cs : Prim K) = N at hm
    cases hm with
    | here => subst hN; exact hv
    | @down _ c _ k p hk hrest => subst hN; exact (hc (k, c) hk).vals p m hrest
  loops := by
    intro path m hm
    generalize hN : (Node.mk t v cs : Prim K) = N at hm
    cases hm with
    | here => subst hN; exact hl
    | @down _ c _ k p hk hrest => subst hN; exact (hc (k, c) hk).loops p m hrest

theorem Sane.ident {heap : List (List K)} {p : Prim K} (h : Sane heap p) : PrimOK p :=
  ⟨h.wf, h.slashFree, fun p1 p2 a b ha hb e => by
    have h1 := h.vals p1 a ha
    have h2 := h.vals p2 b hb
    rw [e, h2] at h1
    revert h1 e
    cases a.value
    cases b.value
    rintro e h1
    cases e
    simp only [Option.some.injEq] at h1
    rw [h1]⟩

/-- `x` only adds arrays with entries in `Q` to the heap, and its results have property `P`. -/
def Grows (Q : K → Prop) {α : Type} (x : Alloc α) (P : List (List K) → α → Prop)
    (heap : List (List K)) : Prop :=
  ∀ a n', x heap.length = .ok (a, n') → ∃ ext, n' = (heap ++ ext).length ∧
    (∀ arr ∈ ext, ∀ x ∈ arr, Q x) ∧ P (heap ++ ext) a

variable {Q : K → Prop} {α β : Type} {heap : List (List K)}

theorem Grows.bind {x : Alloc α} {f : α → Alloc β} {P : List (List K) → α → Prop}
    {R : List (List K) → β → Prop} (hx : Grows Q x P heap)
    (hf : ∀ a ext, P (heap ++ ext) a → Grows Q (f a) R (heap ++ ext)) : Grows Q (x >>= f) R heap := by
  intro b n' h
  obtain ⟨a, m, h1, h2⟩ := bind_ok.mp h
  obtain ⟨ext, rfl, hq, hp⟩ := hx a m h1
  obtain ⟨ext', rfl, hq', hp'⟩ := hf a ext hp b n' h2
  refine ⟨ext ++ ext', by simp, ?_, by rw [← List.append_assoc]; exact hp'⟩
  intro arr ha
  rcases List.mem_append.mp ha with ha | ha
  · exact hq arr ha
  · exact hq' arr ha

theorem Grows.pure {a : α} {P : List (List K) → α → Prop} (h : P heap a) :
    Grows Q (Pure.pure a : Alloc α) P heap := by
  intro b n' e
  obtain ⟨rfl, rfl⟩ := pure_ok.mp e
  exact ⟨[], by simp, by simp, by simpa using h⟩

theorem Grows.lift {x : Py α} {P : List (List K) → α → Prop} (h : ∀ a, x = .ok a → P heap a) :
    Grows Q (liftPy x : Alloc α) P heap := by
  intro b n' e
  obtain ⟨e', rfl⟩ := liftPy_ok.mp e
  exact ⟨[], by simp, by simp, by simpa using h b e'⟩

theorem Grows.imp {x : Alloc α} {P R : List (List K) → α → Prop} (hx : Grows Q x P heap)
    (h : ∀ ext a, P (heap ++ ext) a → R (heap ++ ext) a) : Grows Q x R heap := by
  intro b n' e
  obtain ⟨ext, h1, h2, h3⟩ := hx b n' e
  exact ⟨ext, h1, h2, h _ _ h3⟩

/-- The array is on the heap. -/
def OnHeap (heap : List (List K)) (v : PVal K) : Prop := heap[v.id]? = some v.arr

theorem OnHeap.mono {ext : List (List K)} {v : PVal K} (h : OnHeap heap v) : OnHeap (heap ++ ext) v := by
  unfold OnHeap at h ⊢
  rw [List.getElem?_append_left (List.getElem?_eq_some_iff.mp h).1]
  exact h

theorem grows_newArray {arr : List K} (hq : ∀ x ∈ arr, Q x) : Grows Q (newArray arr) OnHeap heap := by
  intro v n' h
  obtain ⟨rfl, rfl⟩ := newArray_ok.mp h
  exact ⟨[arr], by simp, by simpa using hq, by simp [OnHeap]⟩

theorem grows_orDefault {d : List K} {v : Option (PVal K)} (hq : ∀ x ∈ d, Q x)
    (hv : ∀ w, v = some w → OnHeap heap w) : Grows Q (orDefault d v) OnHeap heap := by
  cases v with
  | none => exact grows_newArray hq
  | some w => exact Grows.pure (hv w rfl)

variable [PyNum K]

/-- The numbers that the constructors put into arrays. -/
structure Consts (Q : K → Prop) : Prop where
  zero : Q 0
  one : Q 1
  circle : ∀ size i : Nat, size ≠ 0 →
    Q (PyNum.cos (((2 : Nat) : K) * PyNum.pi / ((size : Nat) : K) * ((i : Nat) : K))) ∧
    Q (PyNum.sin (((2 : Nat) : K) * PyNum.pi / ((size : Nat) : K) * ((i : Nat) : K)))

theorem not_polygon {t : PrimType} (h : t = .point ∨ t = .line ∨ t = .axes ∨ t = .primitiveNode) :
    ¬ t.IsA .polygon := by
  intro hi
  have := (PrimType.sub_iff _ _).mpr hi
  rcases h with rfl | rfl | rfl | rfl <;> revert this <;> decide

theorem grows_newPoint (C : Consts Q) {v : Option (PVal K)} (hv : ∀ w, v = some w → OnHeap heap w) :
    Grows Q (newPoint v) Sane heap := by
  refine (grows_orDefault (by simpa using C.zero) hv).bind fun w ext hw => ?_
  refine Grows.lift fun q hq => ?_
  rw [primInit_ok List.nodup_nil] at hq
  obtain ⟨_, _, rfl⟩ := hq
  exact Sane.mk' (by simp) (by simp) (by simp) hw fun h => absurd h (not_polygon (.inl rfl))

/-- All trees of a list are good. -/
def SaneL (heap : List (List K)) (ps : List (Prim K)) : Prop := ∀ p ∈ ps, Sane heap p

omit [PyNum K] in
theorem SaneL.mono {ext : List (List K)} {ps : List (Prim K)} (h : SaneL heap ps) :
    SaneL (heap ++ ext) ps := fun p hp => (h p hp).mono

omit [PyNum K] in
theorem fst_zip_prefix {γ δ : Type} : ∀ (a : List γ) (b : List δ), (a.zip b).map (·.1) <+: a
  | [], _ => by simp
  | _ :: _, [] => by simp
  | x :: a, y :: b => by
    simp only [List.zip_cons_cons, List.map_cons, List.cons_prefix_cons, true_and]
    exact fst_zip_prefix a b

omit [PyNum K] in
theorem grows_init {t : PrimType} (ht : ¬ t.IsA .polygon) {w : PVal K} {keys : List Str}
    (hk : keys.Nodup) (hs : ∀ k ∈ keys, '/' ∉ k) {l : List (Prim K)} (hw : OnHeap heap w)
    (hl : SaneL heap l) : Grows Q (liftPy (primInit t w keys l)) Sane heap := by
  refine Grows.lift fun q hq => ?_
  rw [primInit_ok hk] at hq
  obtain ⟨_, _, rfl⟩ := hq
  refine Sane.mk' ?_ ?_ ?_ hw fun h => absurd h ht
  · exact hk.sublist (fst_zip_prefix _ _).sublist
  · intro k hm
    exact hs k ((fst_zip_prefix _ _).subset hm)
  · intro kc hkc
    exact hl _ (List.of_mem_zip (a := kc.1) (b := kc.2) hkc).2

theorem grows_newLine (C : Consts Q) {v : Option (PVal K)} {ps : Option (List (Prim K))}
    (hv : ∀ w, v = some w → OnHeap heap w) (hp : ∀ l, ps = some l → SaneL heap l) :
    Grows Q (newLine v ps) Sane heap := by
  have hk : [k!"Point0", k!"Point1"].Nodup := by decide
  have hs : ∀ k ∈ [k!"Point0", k!"Point1"], '/' ∉ k := by decide
  have ht : ¬ PrimType.line.IsA .polygon := not_polygon (.inr (.inl rfl))
  cases ps with
  | some l =>
    refine (grows_orDefault (by simp) hv).bind fun w ext hw => ?_
    refine (Grows.pure (P := fun h l => SaneL h l) (hp l rfl).mono).bind fun l e hl => ?_
    exact grows_init ht hk hs hw.mono hl
  | none =>
    refine (grows_orDefault (by simp) hv).bind fun w ext hw => ?_
    refine (grows_newArray (by simpa using C.zero)).bind fun a e1 ha => ?_
    refine (grows_newPoint C (fun w h => by cases h; exact ha)).bind fun p0 e2 h0 => ?_
    refine (grows_newArray (by simpa using ⟨C.zero, C.one⟩)).bind fun b e3 hb => ?_
    refine (grows_newPoint C (fun w h => by cases h; exact hb)).bind fun p1 e4 h1 => ?_
    refine grows_init ht hk hs hw.mono.mono.mono.mono ?_
    intro p hm
    simp only [List.mem_cons, List.not_mem_nil, or_false] at hm
    rcases hm with rfl | rfl
    · exact h0.mono.mono
    · exact h1

theorem grows_newPoints (C : Consts Q) : ∀ (xs : List (K × K)) (heap : List (List K)),
    (∀ p ∈ xs, Q p.1 ∧ Q p.2) → Grows Q (newPoints xs) SaneL heap
  | [], _, _ => Grows.pure (by intro p hp; cases hp)
  | (x, y) :: xs, heap, h => by
    refine (grows_newArray (by simpa using h (x, y) (by simp))).bind fun a e1 ha => ?_
    refine (grows_newPoint C (fun w h => by cases h; exact ha)).bind fun p e2 hp => ?_
    refine (grows_newPoints C xs _ fun p hm => h p (by simp [hm])).bind fun ps e3 hps => ?_
    refine Grows.pure ?_
    intro q hq
    rcases List.mem_cons.mp hq with rfl | hq
    · exact hp.mono
    · exact hps q hq

theorem grows_polygonLines (C : Consts Q) : ∀ (xs : List (Prim K × Prim K)) (heap : List (List K)),
    (∀ p ∈ xs, Sane heap p.1 ∧ Sane heap p.2) → Grows Q (polygonLines xs) SaneL heap
  | [], _, _ => Grows.pure (by intro p hp; cases hp)
  | (x, y) :: xs, heap, h => by
    refine (grows_newArray (by simp)).bind fun a e1 ha => ?_
    refine (grows_newLine C (fun w h => by cases h; exact ha) (fun l hl => ?_)).bind fun p e2 hp => ?_
    · cases hl
      intro p hm
      simp only [List.mem_cons, List.not_mem_nil, or_false] at hm
      rcases hm with rfl | rfl
      · exact (h (p, y) (by simp)).1.mono
      · exact (h (x, p) (by simp)).2.mono
    refine (grows_polygonLines C xs _ fun p hm =>
      ⟨(h p (by simp [hm])).1.mono.mono, (h p (by simp [hm])).2.mono.mono⟩).bind fun ps e3 hps => ?_
    refine Grows.pure ?_
    intro q hq
    rcases List.mem_cons.mp hq with rfl | hq
    · exact hp.mono
    · exact hps q hq

theorem grows_polygonChildren (C : Consts Q) {pts : List (Prim K)} (h : SaneL heap pts) :
    Grows Q (polygonChildren pts) (fun h r => SaneL h r.2 ∧
      ∃ n, r = ((List.range pts.length).map lineKey, loopLines pts n)) heap := by
  intro r n' e
  obtain ⟨_, h2, h3⟩ := polygonChildren_ok.mp e
  have : Grows Q (polygonChildren pts) (fun h r => SaneL h r.2) heap := by
    refine (grows_polygonLines C _ _ fun p hm => ?_).bind fun ls e1 hl => Grows.pure hl
    obtain ⟨a1, a2⟩ := List.of_mem_zip (a := p.1) (b := p.2) hm
    refine ⟨h _ a1, h _ ?_⟩
    rcases List.mem_append.mp a2 with a2 | a2
    · exact List.mem_of_mem_drop a2
    · exact List.mem_of_mem_take a2
  obtain ⟨ext, e1, e2, e3⟩ := this r n' e
  exact ⟨ext, e1, e2, e3, _, h2⟩

omit [PyNum K] in
theorem lineKey_noslash (n : Nat) : '/' ∉ lineKey n := by
  unfold lineKey
  rw [List.mem_append, not_or]
  exact ⟨by decide, slash_notMem_natStr n⟩

theorem grows_loop (C : Consts Q) {t : PrimType} {w : PVal K} {pts : List (Prim K)} (hw : OnHeap heap w)
    (h : SaneL heap pts) :
    Grows Q (do let (keys, lines) ← polygonChildren pts
                liftPy (primInit t w keys lines)) Sane heap := by
  refine (grows_polygonChildren C h).bind fun r ext hr => ?_
  obtain ⟨hs, n, rfl⟩ := hr
  refine Grows.lift fun q hq => ?_
  obtain ⟨_, _, rfl⟩ := (loop_init_ok w pts).mp hq
  unfold mkLoop
  have hkeys : (((List.range pts.length).map lineKey).zip (loopLines pts n)).map (·.1)
      = (List.range pts.length).map lineKey := List.map_fst_zip (by simp [loopLines_length])
  refine Sane.mk' ?_ ?_ ?_ hw.mono fun _ => ⟨pts, loop_children pts n t w⟩
  · rw [hkeys]; exact lineKeys_nodup _
  · rw [hkeys]
    intro k hk
    obtain ⟨i, _, rfl⟩ := List.mem_map.mp hk
    exact lineKey_noslash i
  · intro kc hkc
    exact hs _ (List.of_mem_zip (a := kc.1) (b := kc.2) hkc).2

theorem grows_newPolygon (C : Consts Q) {v : Option (PVal K)} {ps : Option (List (Prim K))} {size : Nat}
    (hv : ∀ w, v = some w → OnHeap heap w) (hp : ∀ l, ps = some l → SaneL heap l) :
    Grows Q (newPolygon v ps size) Sane heap := by
  cases ps with
  | some l =>
    refine (grows_orDefault (by simp) hv).bind fun w ext hw => ?_
    refine (Grows.pure (P := fun h l => SaneL h l) (hp l rfl).mono).bind fun l e hl => ?_
    exact grows_loop C hw.mono hl
  | none =>
    refine (grows_orDefault (by simp) hv).bind fun w ext hw => ?_
    refine Grows.bind (P := fun h l => SaneL h l) ?_ fun l e hl => grows_loop C hw.mono hl
    unfold polygonDefault
    split
    · exact Grows.lift fun a h => by cases h
    · rename_i hsz
      refine grows_newPoints C _ _ fun p hm => ?_
      obtain ⟨i, _, rfl⟩ := List.mem_map.mp hm
      exact C.circle size i hsz

theorem grows_newQuad (C : Consts Q) {v : Option (PVal K)} {ps : Option (List (Prim K))}
    (hv : ∀ w, v = some w → OnHeap heap w) (hp : ∀ l, ps = some l → SaneL heap l) :
    Grows Q (newQuadrilateral v ps) Sane heap := by
  cases ps with
  | some l =>
    refine (grows_orDefault (by simp) hv).bind fun w ext hw => ?_
    refine (Grows.pure (P := fun h l => SaneL h l) (hp l rfl).mono).bind fun l e hl => ?_
    exact grows_loop C hw.mono hl
  | none =>
    refine (grows_orDefault (by simp) hv).bind fun w ext hw => ?_
    refine Grows.bind (P := fun h l => SaneL h l) ?_ fun l e hl => grows_loop C hw.mono hl
    refine grows_newPoints C _ _ fun p hm => ?_
    simp only [List.mem_cons, List.not_mem_nil, or_false] at hm
    rcases hm with rfl | rfl | rfl | rfl <;> exact ⟨by first | exact C.zero | exact C.one,
      by first | exact C.zero | exact C.one⟩

theorem grows_axisPrims (C : Consts Q) {b : Bool} : Grows Q (axisPrims (K := K) b) SaneL heap := by
  cases b with
  | false => exact Grows.pure (by intro p hp; cases hp)
  | true =>
    refine (grows_newQuad C (by rintro w ⟨⟩) (by rintro w ⟨⟩)).bind fun q e1 hq => ?_
    refine (grows_newPoint C (by rintro w ⟨⟩)).bind fun p e2 hp => Grows.pure ?_
    intro r hr
    simp only [List.mem_cons, List.not_mem_nil, or_false] at hr
    rcases hr with rfl | rfl
    · exact hq.mono
    · exact hp

theorem grows_axesDefault (C : Consts Q) {x y tx ty : Bool} :
    Grows Q (axesDefault (K := K) x y tx ty) SaneL heap := by
  refine (grows_axisPrims C).bind fun a e1 ha => ?_
  refine (grows_axisPrims C).bind fun b e2 hb => ?_
  refine (grows_axisPrims C).bind fun c e3 hc => ?_
  refine (grows_axisPrims C).bind fun d e4 hd => ?_
  refine (grows_newQuad C (by rintro w ⟨⟩) (by rintro w ⟨⟩)).bind fun q e5 hq => ?_
  refine Grows.pure ?_
  intro p hp
  simp only [List.mem_append, List.mem_cons, List.not_mem_nil, or_false] at hp
  rcases hp with ((rfl | (hp | hp)) | (hp | hp))
  · exact hq
  · exact ha.mono.mono.mono.mono p hp
  · exact hc.mono.mono p hp
  · exact hb.mono.mono.mono p hp
  · exact hd.mono p hp

theorem grows_newAxes (C : Consts Q) {v : Option (PVal K)} {ps : Option (List (Prim K))}
    {x y tx ty : Bool} (hv : ∀ w, v = some w → OnHeap heap w) (hp : ∀ l, ps = some l → SaneL heap l) :
    Grows Q (newAxes v ps x y tx ty) Sane heap := by
  have hk := axesKeys_nodup' x y tx ty
  have hs : ∀ k ∈ axesKeys x y tx ty, '/' ∉ k := by
    intro k hk
    exact axesParts_noslash x y tx ty (k, _) (List.mem_map.mpr ⟨k, hk, rfl⟩)
  have ht : ¬ PrimType.axes.IsA .polygon := not_polygon (.inr (.inr (.inl rfl)))
  cases ps with
  | some l =>
    refine (grows_orDefault (by simp) hv).bind fun w ext hw => ?_
    refine (Grows.pure (P := fun h l => SaneL h l) (hp l rfl).mono).bind fun l e hl => ?_
    exact grows_init ht hk hs hw.mono hl
  | none =>
    refine (grows_orDefault (by simp) hv).bind fun w ext hw => ?_
    refine (grows_axesDefault C).bind fun l e hl => ?_
    exact grows_init ht hk hs hw.mono hl

/-! ## Programs -/

/-- The invariant of programs. -/
structure SessionOK (Q : K → Prop) (heap : List (List K)) (s : Session K) : Prop where
  next : s.next = heap.length
  consts : ∀ arr ∈ heap, ∀ x ∈ arr, Q x
  arrays : ∀ v ∈ s.arrays, OnHeap heap v
  prims : SaneL heap s.prims
  layout : Sane heap s.layout.prim

/-- The numbers of a value argument. -/
def ValueArg.All (Q : K → Prop) : ValueArg K → Prop
  | .literal xs => ∀ x ∈ xs, Q x
  | _ => True

/-- The numbers of a constructor call. -/
def PrimExpr.All (Q : K → Prop) : PrimExpr K → Prop
  | .point v | .line v _ | .polygon v _ _ | .quadrilateral v _ | .axes v _ _ _ _ _ => v.All Q

/-- The numbers of a statement. -/
def Stmt.All (Q : K → Prop) : Stmt K → Prop
  | .array xs => ∀ x ∈ xs, Q x
  | .make e => e.All Q
  | _ => True

omit [PyNum K] in
theorem var_ok {xs : List α} {i : Nat} {a : α} (h : Session.var xs i = .ok a) : a ∈ xs := by
  unfold Session.var at h
  cases e : xs[i]? with
  | none => rw [e] at h; cases h
  | some b => rw [e] at h; cases h; exact List.mem_of_getElem? e

omit [PyNum K] in
theorem vars_ok {xs : List α} : ∀ {is : List Nat} {as : List α},
    pyMap (Session.var xs) is = .ok as → ∀ a ∈ as, a ∈ xs
  | [], as, h, a, ha => by cases h; cases ha
  | i :: is, as, h, a, ha => by
    simp only [pyMap, py_bind_ok] at h
    obtain ⟨b, h1, bs, h2, h3⟩ := h
    cases h3
    rcases List.mem_cons.mp ha with rfl | ha
    · exact var_ok h1
    · exact vars_ok h2 a ha

omit [PyNum K] in
theorem grows_value {s : Session K} (hs : SessionOK Q heap s) {v : ValueArg K} (hv : v.All Q) :
    Grows Q (s.value v) (fun h o => ∀ w, o = some w → OnHeap h w) heap := by
  cases v with
  | default => exact Grows.pure (by rintro w ⟨⟩)
  | literal xs =>
    refine (grows_newArray hv).bind fun a e ha => Grows.pure ?_
    rintro w ⟨⟩
    exact ha
  | var i =>
    refine (Grows.lift (P := OnHeap) fun a ha => hs.arrays a (var_ok ha)).bind
      fun a e ha => Grows.pure ?_
    rintro w ⟨⟩
    exact ha

omit [PyNum K] in
theorem grows_args {s : Session K} (hs : SaneL heap s.prims) {ps : Option (List Nat)} :
    Grows Q (s.args ps) (fun h o => ∀ l, o = some l → SaneL h l) heap := by
  cases ps with
  | none => exact Grows.pure (by rintro w ⟨⟩)
  | some is =>
    refine (Grows.lift (P := SaneL) fun a ha p hp => hs p (vars_ok ha p hp)).bind
      fun a e ha => Grows.pure ?_
    rintro w ⟨⟩
    exact ha

theorem grows_eval (C : Consts Q) {s : Session K} (hs : SessionOK Q heap s) {e : PrimExpr K}
    (he : e.All Q) : Grows Q (s.eval e) Sane heap := by
  cases e with
  | point v => exact (grows_value hs he).bind fun v e hv => grows_newPoint C hv
  | line v ps =>
    exact (grows_value hs he).bind fun v e hv => (grows_args hs.prims.mono).bind fun l e' hl =>
      grows_newLine C (fun w h => (hv w h).mono) hl
  | polygon v ps size =>
    exact (grows_value hs he).bind fun v e hv => (grows_args hs.prims.mono).bind fun l e' hl =>
      grows_newPolygon C (fun w h => (hv w h).mono) hl
  | quadrilateral v ps =>
    exact (grows_value hs he).bind fun v e hv => (grows_args hs.prims.mono).bind fun l e' hl =>
      grows_newQuad C (fun w h => (hv w h).mono) hl
  | axes v ps x y tx ty =>
    exact (grows_value hs he).bind fun v e hv => (grows_args hs.prims.mono).bind fun l e' hl =>
      grows_newAxes C (fun w h => (hv w h).mono) hl

/-! ### Calls of layout methods -/

omit [PyNum K] in
theorem sane_addPrim {l : Layout K} {p : Prim K} {key : Str} (hk : '/' ∉ key) (hl : Sane heap l.prim)
    (hp : Sane heap p) (ht : l.prim.ty = .primitiveNode) : Sane heap (l.addPrim p key).1.prim ∧
      (l.addPrim p key).1.prim.ty = .primitiveNode := by
  unfold Layout.addPrim
  by_cases h : key ∈ l.prim.keys
  · have : l.prim.addChild key p = .error (.keyError key) := by
      rw [Node.addChild_eq, (noslash_iff_dropLast key).mp hk]
      simp only [Node.find]
      rw [show (splitAll key).getLastD [] = key by rw [splitAll_noslash hk]; rfl, if_pos h]
    rw [this]
    exact ⟨hl, ht⟩
  · rw [Layout.addChild_top l.prim p hk h]
    refine ⟨?_, ht⟩
    obtain ⟨t, v, cs, e⟩ : ∃ t v cs, l.prim = .mk t v cs := by
      cases l.prim; exact ⟨_, _, _, rfl⟩
    have hw := hl.wf
    have hsl := hl.slashFree
    have hv := hl.vals [] _ (.here _)
    rw [e] at hw hsl hv ht h ⊢
    simp only [Node.ty_mk, Node.value_mk, Node.children_mk] at ht hv ⊢
    have hkeys : (Node.mk t v cs : Prim K).keys = cs.map (·.1) := rfl
    rw [hkeys] at h
    refine Sane.mk' ?_ ?_ ?_ hv fun hi => absurd (ht ▸ hi) (not_polygon (.inr (.inr (.inr rfl))))
    · rw [List.map_append, List.nodup_append]
      refine ⟨((Node.WF_mk).mp hw).1, by simp, ?_⟩
      intro a ha b hb
      simp only [List.map_cons, List.map_nil, List.mem_singleton] at hb
      rintro rfl
      exact h (hb ▸ ha)
    · intro k hm
      rw [List.map_append, List.mem_append] at hm
      rcases hm with hm | hm
      · exact hsl [] _ (.here _) k hm
      · simp only [List.map_cons, List.map_nil, List.mem_singleton] at hm
        exact hm ▸ hk
    · intro kc hm
      rw [List.mem_append] at hm
      rcases hm with hm | hm
      · have hat : ∀ q m, kc.2.At q m → l.prim.At (kc.1 :: q) m := fun q m hq => by
          rw [e]; exact .down (by simpa using hm) hq
        exact ⟨fun q m hq => hl.wf _ m (hat q m hq), fun q m hq => hl.slashFree _ m (hat q m hq),
          fun q m hq => hl.vals _ m (hat q m hq), fun q m hq => hl.loops _ m (hat q m hq)⟩
      · simp only [List.mem_singleton] at hm
        rw [hm]; exact hp

omit [PyNum K] in
theorem sane_addPrims {heap : List (List K)} : ∀ (ps : List (Str × Prim K)) (l : Layout K),
    (∀ kp ∈ ps, '/' ∉ kp.1 ∧ Sane heap kp.2) → Sane heap l.prim → l.prim.ty = .primitiveNode →
    Sane heap (l.addPrims ps).1.prim ∧ (l.addPrims ps).1.prim.ty = .primitiveNode
  | [], l, _, hl, ht => ⟨hl, ht⟩
  | (key, p) :: ps, l, h, hl, ht => by
    have h0 := h (key, p) (by simp)
    obtain ⟨h1, h2⟩ := sane_addPrim h0.1 hl h0.2 ht
    unfold Layout.addPrims
    split
    · next l' e =>
      rw [e] at h1 h2
      exact sane_addPrims ps l' (fun kp hm => h kp (by simp [hm])) h1 h2
    · next l' _ e =>
      rw [e] at h1 h2
      exact ⟨h1, h2⟩

omit [PyNum K] in
theorem addConstraint_prim (l : Layout K) (c : Cons K) (ks : List Str) (ps : List (Param K))
    (key : Str) : (l.addConstraint c ks ps key).1.prim = l.prim := by
  have h1 : ∀ (l : Layout K) key, (l.checkAndStore c ks ps key).1.prim = l.prim := by
    intro l key
    unfold Layout.checkAndStore Layout.store Layout.storeKeys Layout.storeParams
    repeat' split
    all_goals rfl
  unfold Layout.addConstraint
  split
  · split
    · rw [h1]
    · rfl
  · exact h1 l key

/-- The invariant of programs that add primitives at the top level. -/
structure ProgOK (Q : K → Prop) (s : Session K) : Prop where
  heap : ∃ heap, SessionOK Q heap s
  root : s.layout.prim.ty = .primitiveNode

omit [PyNum K] in
theorem ProgOK.start : ProgOK Q (Session.start : Session K) where
  heap := by
    refine ⟨[[]], rfl, by simp, by simp [Session.start], ?_, ?_⟩
    · intro p hp; simp [Session.start] at hp
    · exact Sane.mk' (by simp) (by simp) (by simp) rfl
        fun hi => absurd hi (not_polygon (.inr (.inr (.inr rfl))))
  root := rfl

theorem ProgOK.step (C : Consts Q) {s : Session K} (hs : ProgOK Q s) {st : Stmt K} (ht : st.TopLevel)
    (hq : st.All Q) : ProgOK Q (s.step st).1 := by
  obtain ⟨⟨heap, h⟩, hroot⟩ := hs
  cases st with
  | array xs =>
    refine ⟨⟨heap ++ [xs], ?_⟩, hroot⟩
    refine ⟨by simp [Session.step, h.next], ?_, ?_, h.prims.mono, h.layout.mono⟩
    · intro arr ha
      rcases List.mem_append.mp ha with ha | ha
      · exact h.consts arr ha
      · rw [List.mem_singleton.mp ha]; exact hq
    · intro v hv
      simp only [Session.step, List.mem_append, List.mem_singleton] at hv
      rcases hv with hv | rfl
      · exact (h.arrays v hv).mono
      · simp [OnHeap, h.next]
  | make e =>
    unfold Session.step
    dsimp only
    split
    · next p n he =>
      rw [h.next] at he
      obtain ⟨ext, e1, e2, e3⟩ := grows_eval C h hq p n he
      refine ⟨⟨heap ++ ext, ?_⟩, hroot⟩
      refine ⟨e1, ?_, fun v hv => (h.arrays v hv).mono, ?_, h.layout.mono⟩
      · intro arr ha
        rcases List.mem_append.mp ha with ha | ha
        · exact h.consts arr ha
        · exact e2 arr ha
      · intro q hq
        rcases List.mem_append.mp hq with hq | hq
        · exact (h.prims q hq).mono
        · rw [List.mem_singleton.mp hq]; exact e3
    · exact ⟨⟨heap, h⟩, hroot⟩
  | addPrim i key =>
    simp only [Session.step]
    cases e : s.call (.addPrim i key) with
    | error err => exact ⟨⟨heap, h⟩, hroot⟩
    | ok op =>
      simp only [Session.call, py_bind_ok] at e
      obtain ⟨p, e1, e2⟩ := e
      cases e2
      obtain ⟨h1, h2⟩ := sane_addPrim ht h.layout (h.prims p (var_ok e1)) hroot
      exact ⟨⟨heap, h.next, h.consts, h.arrays, h.prims, h1⟩, h2⟩
  | addPrims ps =>
    simp only [Session.step]
    cases e : s.call (.addPrims ps) with
    | error err => exact ⟨⟨heap, h⟩, hroot⟩
    | ok op =>
      simp only [Session.call, py_bind_ok] at e
      obtain ⟨qs, e1, e2⟩ := e
      cases e2
      have : ∀ kp ∈ qs, '/' ∉ kp.1 ∧ Sane heap kp.2 := by
        clear hq
        induction ps generalizing qs with
        | nil => cases e1; simp
        | cons a ps ih =>
          simp only [pyMap, py_bind_ok] at e1
          obtain ⟨b, ⟨p, f1, f2⟩, bs, f3, f4⟩ := e1
          cases f4
          cases f2
          intro kp hm
          rcases List.mem_cons.mp hm with rfl | hm
          · exact ⟨ht a (by simp), h.prims p (var_ok f1)⟩
          · exact ih (fun kp hm => ht kp (by simp [hm])) bs f3 kp hm
      obtain ⟨h1, h2⟩ := sane_addPrims qs s.layout this h.layout hroot
      exact ⟨⟨heap, h.next, h.consts, h.arrays, h.prims, h1⟩, h2⟩
  | addConstraint c ks ps key =>
    have : (s.layout.addConstraint c ks ps key).1.prim = s.layout.prim := addConstraint_prim ..
    refine ⟨⟨heap, h.next, h.consts, h.arrays, h.prims, ?_⟩, ?_⟩
    · show Sane heap (s.layout.addConstraint c ks ps key).1.prim
      rw [this]; exact h.layout
    · show (s.layout.addConstraint c ks ps key).1.prim.ty = _
      rw [this]; exact hroot

theorem ProgOK.run (C : Consts Q) {s : Session K} (hs : ProgOK Q s) : ∀ {prog : List (Stmt K)},
    (∀ st ∈ prog, st.TopLevel) → (∀ st ∈ prog, st.All Q) → ProgOK Q (s.run prog) := by
  intro prog
  induction prog generalizing s with
  | nil => intro _ _; exact hs
  | cons st prog ih =>
    intro ht hq
    exact ih (hs.step C (ht st (by simp)) (hq st (by simp))) (fun st hm => ht st (by simp [hm]))
      fun st hm => hq st (by simp [hm])

omit [PyNum K] in
theorem ProgOK.primOK {s : Session K} (h : ProgOK Q s) : PrimOK s.layout.prim := by
  obtain ⟨heap, h⟩ := h.heap
  exact h.layout.ident

end MplLayout
