import Verif.Lemmas.NodeHeap
import Verif.Lemmas.Program

/-!
# Programs on the heap agree with programs on values
-/

namespace MplLayout

variable {K : Type}

theorem st_bind {σ β γ : Type} (x : StateT σ Py β) (f : β → StateT σ Py γ) (s : σ) :
    (x >>= f) s = match x s with | .ok (a, s') => f a s' | .error e => .error e := by
  show (StateT.bind x f) s = _
  unfold StateT.bind
  show Except.bind (x s) _ = _
  cases x s <;> rfl

/-- A picture of an object that does not hold the root of the layout. -/
def Own (h : Heap PrimType (PVal K)) (t : Picture PrimType (PVal K)) : Prop :=
  Pictured h t ∧ ¬ t.Holds 0

/-- The objects at the addresses `as` show the primitives `ps`. -/
def RefL (h : Heap PrimType (PVal K)) (as : List Nat) (ps : List (Prim K)) : Prop :=
  ∃ ts : List (Picture PrimType (PVal K)), as = ts.map Node.addr ∧ ps = ts.map Node.seen ∧
    ∀ t ∈ ts, Own h t

/-- The object at the address `a` shows the primitive `p`. -/
def Ref (h : Heap PrimType (PVal K)) (a : Nat) (p : Prim K) : Prop :=
  ∃ t : Picture PrimType (PVal K), a = t.addr ∧ p = t.seen ∧ Own h t

theorem Own.mono {h ext : Heap PrimType (PVal K)} {t : Picture PrimType (PVal K)} (H : Own h t) :
    Own (h ++ ext) t := by
  refine ⟨fun p m hm => ?_, H.2⟩
  have := H.1 p m hm
  have hlt : m.addr < h.length := by
    by_contra hge
    rw [List.getElem?_eq_none (by omega)] at this
    cases this
  rw [List.getElem?_append_left hlt]
  exact this

theorem RefL.mono {h ext : Heap PrimType (PVal K)} {as : List Nat} {ps : List (Prim K)}
    (H : RefL h as ps) : RefL (h ++ ext) as ps := by
  obtain ⟨ts, e1, e2, e3⟩ := H
  exact ⟨ts, e1, e2, fun t ht => (e3 t ht).mono⟩

theorem Ref.mono {h ext : Heap PrimType (PVal K)} {a : Nat} {p : Prim K} (H : Ref h a p) :
    Ref (h ++ ext) a p := by
  obtain ⟨t, e1, e2, e3⟩ := H
  exact ⟨t, e1, e2, e3.mono⟩

theorem RefL.nil {h : Heap PrimType (PVal K)} : RefL h [] [] := ⟨[], rfl, rfl, by simp⟩

theorem RefL.cons {h : Heap PrimType (PVal K)} {a : Nat} {p : Prim K} {as : List Nat}
    {ps : List (Prim K)} (H : Ref h a p) (H' : RefL h as ps) : RefL h (a :: as) (p :: ps) := by
  obtain ⟨t, rfl, rfl, ht⟩ := H
  obtain ⟨ts, rfl, rfl, hts⟩ := H'
  exact ⟨t :: ts, rfl, rfl, by simpa using ⟨ht, hts⟩⟩

theorem RefL.append {h : Heap PrimType (PVal K)} {as bs : List Nat}
    {ps qs : List (Prim K)} (H : RefL h as ps) (H' : RefL h bs qs) : RefL h (as ++ bs) (ps ++ qs) := by
  obtain ⟨ts, rfl, rfl, hts⟩ := H
  obtain ⟨us, rfl, rfl, hus⟩ := H'
  refine ⟨ts ++ us, by simp, by simp, ?_⟩
  intro t ht
  rcases List.mem_append.1 ht with ht | ht
  · exact hts t ht
  · exact hus t ht

/-- The heap has grown. -/
def Store.Le (s s' : Store K) : Prop := ∃ ext, s'.heap = s.heap ++ ext

theorem Store.Le.refl (s : Store K) : s.Le s := ⟨[], by simp⟩

theorem Store.Le.trans {s s' s'' : Store K} (h : s.Le s') (h' : s'.Le s'') : s.Le s'' := by
  obtain ⟨e, he⟩ := h
  obtain ⟨e', he'⟩ := h'
  exact ⟨e ++ e', by rw [he', he, List.append_assoc]⟩

theorem Store.Le.refL {s s' : Store K} (h : s.Le s') {as ps} (H : RefL s.heap as ps) :
    RefL s'.heap as ps := by
  obtain ⟨e, he⟩ := h
  rw [he]; exact H.mono

theorem Store.Le.ref {s s' : Store K} (h : s.Le s') {a p} (H : Ref s.heap a p) :
    Ref s'.heap a p := by
  obtain ⟨e, he⟩ := h
  rw [he]; exact H.mono

/-- Related outcomes of a computation on the heap (from the store `s`) and one on values. -/
inductive Match {β γ : Type} (s : Store K) (R : Store K → β → γ → Prop) :
    Py (β × Store K) → Py (γ × Nat) → Prop
  | ok {a : β} {b : γ} {s' : Store K} (hle : s.Le s') (hR : R s' a b) :
      Match s R (.ok (a, s')) (.ok (b, s'.next))
  | error (e : Err) : Match s R (.error e) (.error e)

/-- Simulation: started in the store `s`, both computations have related outcomes. -/
def HSim {β γ : Type} (s : Store K) (x : HAlloc K β) (y : Alloc γ) (R : Store K → β → γ → Prop) : Prop :=
  0 < s.heap.length → Match s R (x s) (y s.next)

theorem HSim.bind {β γ β' γ' : Type} {s : Store K} {x : HAlloc K β} {y : Alloc γ}
    {R : Store K → β → γ → Prop} {f : β → HAlloc K β'} {g : γ → Alloc γ'}
    {R' : Store K → β' → γ' → Prop} (h : HSim s x y R)
    (h' : ∀ s' a b, s.Le s' → R s' a b → HSim s' (f a) (g b) R') :
    HSim s (x >>= f) (y >>= g) R' := by
  intro hs
  have h0 := h hs
  rw [st_bind, st_bind]
  revert h0
  generalize x s = xs
  generalize y s.next = ys
  intro h0
  cases h0 with
  | error e => exact .error e
  | @ok a b s' hle hR =>
    have hs' : 0 < s'.heap.length := by
      obtain ⟨e, he⟩ := hle
      rw [he, List.length_append]; omega
    have h2 := h' s' a b hle hR hs'
    simp only
    revert h2
    generalize f a s' = xs
    generalize g b s'.next = ys
    intro h2
    cases h2 with
    | error e => exact .error e
    | ok hle' hR' => exact .ok (hle.trans hle') hR'

theorem HSim.pure {β γ : Type} {s : Store K} {a : β} {b : γ} {R : Store K → β → γ → Prop}
    (h : R s a b) : HSim s (Pure.pure a) (Pure.pure b) R := fun _ => .ok (.refl s) h

theorem HSim.array {s : Store K} (arr : List K) :
    HSim s (HAlloc.newArray arr) (newArray arr) (fun _ a b => a = b) := by
  intro _
  refine .ok (s' := { s with next := s.next + 1 }) ⟨[], by simp⟩ rfl

theorem HSim.lift {β γ : Type} {s : Store K} {x : Store K → Py β} {y : Py γ} {R : Store K → β → γ → Prop}
    (h : (∃ e, x s = .error e ∧ y = .error e) ∨ ∃ a b, x s = .ok a ∧ y = .ok b ∧ R s a b) :
    HSim s (HAlloc.lift x) (liftPy y) R := by
  intro _
  rcases h with ⟨e, h1, h2⟩ | ⟨a, b, h1, h2, h3⟩
  · simp only [HAlloc.lift, liftPy, h1, h2]; exact .error e
  · simp only [HAlloc.lift, liftPy, h1, h2]; exact .ok (.refl s) h3

theorem HSim.orDefault {s : Store K} (d : List K) (v : Option (PVal K)) :
    HSim s (HAlloc.orDefault d v) (orDefault d v) (fun _ a b => a = b) := by
  cases v with
  | none => exact HSim.array d
  | some v => exact HSim.pure rfl

/-- What constructors return. -/
def RRef (s : Store K) (a : Nat) (p : Prim K) : Prop := Ref s.heap a p
/-- What functions that return several primitives return. -/
def RRefL (s : Store K) (as : List Nat) (ps : List (Prim K)) : Prop := RefL s.heap as ps

theorem types_eq {s : Store K} : ∀ {ts : List (Picture PrimType (PVal K))},
    (∀ t ∈ ts, Own s.heap t) → HAlloc.types (ts.map Node.addr) s = .ok (ts.map Node.ty)
  | [], _ => rfl
  | t :: ts, h => by
    have h1 := (h t (by simp)).1.obj'
    have h2 := types_eq (ts := ts) fun t ht => h t (by simp [ht])
    simp only [HAlloc.types] at h2
    simp only [HAlloc.types, List.map_cons, pyMap, h1]
    rw [h2]
    rfl

theorem dictOfZip_snd_mem {β : Type} {ks : List Str} {vs : List β} {k : Str} {v : β}
    (h : (k, v) ∈ dictOfZip ks vs) : v ∈ vs := by
  have aux : ∀ (ps : List (Str × β)) (d : List (Str × β)),
      (k, v) ∈ ps.foldl (fun d p => dictSet d p.1 p.2) d → (k, v) ∈ d ∨ v ∈ ps.map (·.2) := by
    intro ps
    induction ps with
    | nil => intro d h; exact .inl h
    | cons p ps ih =>
      intro d h
      rcases ih _ h with h | h
      · have : ∀ (d : List (Str × β)), (k, v) ∈ dictSet d p.1 p.2 → (k, v) ∈ d ∨ v = p.2 := by
          intro d
          induction d with
          | nil => intro h; simp only [dictSet, List.mem_singleton, Prod.mk.injEq] at h; exact .inr h.2
          | cons q d ihd =>
            intro h
            simp only [dictSet] at h
            split at h
            · rcases List.mem_cons.1 h with h | h
              · exact .inr (by simpa using (congrArg Prod.snd h))
              · exact .inl (by simp [h])
            · rcases List.mem_cons.1 h with h | h
              · exact .inl (by simp [h])
              · rcases ihd h with h | h
                · exact .inl (by simp [h])
                · exact .inr h
        rcases this d h with h | h
        · exact .inl h
        · exact .inr (by simp [h])
      · exact .inr (by simp at h ⊢; exact .inr h)
  rcases aux _ _ h with h | h
  · cases h
  · obtain ⟨p, hp, e⟩ := List.mem_map.1 h
    have := (List.of_mem_zip hp).2
    rw [e] at this
    exact this

theorem seen_mk (t : PrimType) (v : Nat × PVal K) (cs : List (Str × Picture PrimType (PVal K))) :
    (Node.mk t v cs : Picture PrimType (PVal K)).seen = .mk t v.2 (cs.map fun kc => (kc.1, kc.2.seen)) := by
  rw [Node.seen, Node.mapV_mk]; rfl

theorem seen_ty (t : Picture PrimType (PVal K)) : t.seen.ty = t.ty := Node.ty_mapV _ _

theorem primInit_eq (t : PrimType) (v : PVal K) (keys : List Str) (ps : List (Prim K)) :
    primInit t v keys ps = (do
      let _ ← HAlloc.check t v ((dictOfZip keys ps).map (·.2.ty))
      .ok (.mk t v (dictOfZip keys ps))) := by
  unfold primInit primNodeInit HAlloc.check
  by_cases h : v.arr.length ≠ PrimType.table.size t
  · rw [if_pos h, if_pos h]; rfl
  · rw [if_neg h, if_neg h]
    simp only
    cases PrimType.table.sig t with
    | tuple sig => rfl
    | anyOf alts =>
      simp only [bind, Except.bind]
      cases anyMatch PrimType.table ((dictOfZip keys ps).map (·.2.ty)) alts with
      | error e => rfl
      | ok b => cases b <;> rfl

theorem HSim.init {s : Store K} {t : PrimType} {v w : PVal K} (hv : v = w) {keys : List Str}
    {as : List Nat} {ps : List (Prim K)} (h : RefL s.heap as ps) :
    HSim s (HAlloc.init t v keys as) (liftPy (primInit t w keys ps)) RRef := by
  subst hv
  obtain ⟨ts, rfl, rfl, hts⟩ := h
  intro hs
  set cs := dictOfZip keys ts with hcs
  have hown : ∀ kc ∈ cs, Own s.heap kc.2 := fun kc hkc =>
    hts _ (dictOfZip_snd_mem (k := kc.1) (v := kc.2) hkc)
  have e1 : dictOfZip keys (ts.map Node.addr) = refs cs := (dictOfZip_map _ _ _).trans rfl
  have e2 : dictOfZip keys (ts.map Node.seen) = cs.map fun kc => (kc.1, kc.2.seen) :=
    dictOfZip_map _ _ _
  have e3 : HAlloc.types ((refs cs).map (·.2)) s = .ok (cs.map (·.2.ty)) := by
    have := types_eq (s := s) (ts := cs.map (·.2)) (by
      intro t ht
      obtain ⟨kc, hkc, rfl⟩ := List.mem_map.1 ht
      exact hown kc hkc)
    simpa [refs, List.map_map, Function.comp_def] using this
  rw [primInit_eq, e2]
  have e4 : (cs.map fun kc => (kc.1, kc.2.seen)).map (·.2.ty) = cs.map (·.2.ty) := by
    simp [List.map_map, Function.comp_def, seen_ty]
  rw [e4]
  rw [HAlloc.init]
  simp only [st_bind, e1, HAlloc.lift, e3]
  cases hc : HAlloc.check t v (cs.map (·.2.ty)) with
  | error e => exact .error e
  | ok u =>
    refine .ok (s' := { s with heap := s.heap ++ [⟨t, v, refs cs⟩] }) ⟨_, rfl⟩ ?_
    refine ⟨.mk t (s.heap.length, v) cs, rfl, (seen_mk t (s.heap.length, v) cs).symm, ?_, ?_⟩
    · rw [Pictured_mk]
      refine ⟨?_, fun k c hc => (hown (k, c) hc).mono.1⟩
      simp
    · rw [Holds_mk]
      rintro (e | ⟨k, c, hc, hb⟩)
      · simp only at e; omega
      · exact (hown (k, c) hc).2 hb

variable [PyNum K]

theorem HSim.newPoint {s : Store K} {v w : Option (PVal K)} (h : v = w) :
    HSim s (HAlloc.newPoint v) (newPoint w) RRef := by
  subst h
  exact (HSim.orDefault _ _).bind fun s' a b _ e => HSim.init e .nil

theorem HSim.newLine {s : Store K} {v w : Option (PVal K)} (h : v = w) {as : Option (List Nat)}
    {ps : Option (List (Prim K))}
    (h' : (as = none ∧ ps = none) ∨ ∃ a p, as = some a ∧ ps = some p ∧ RefL s.heap a p) :
    HSim s (HAlloc.newLine v as) (newLine w ps) RRef := by
  subst h
  refine (HSim.orDefault _ _).bind fun s1 a b hle e => ?_
  rcases h' with ⟨rfl, rfl⟩ | ⟨a, p, rfl, rfl, hr⟩
  · refine (HSim.array _).bind fun s2 a b _ e2 => ?_
    refine (HSim.newPoint (by rw [e2])).bind fun s3 a b _ h3 => ?_
    refine (HSim.array _).bind fun s4 a b l4 e4 => ?_
    refine (HSim.newPoint (by rw [e4])).bind fun s5 a b l5 h5 => ?_
    exact (HSim.pure (R := RRefL) (.cons ((l4.trans l5).ref h3) (.cons h5 .nil))).bind
      fun s' a b _ h => HSim.init e h
  · exact (HSim.pure (R := RRefL) (hle.refL hr)).bind fun s' a b _ h => HSim.init e h

/-- Pairs of objects that show pairs of primitives. -/
def RefP (h : Heap PrimType (PVal K)) : List (Nat × Nat) → List (Prim K × Prim K) → Prop :=
  List.Forall₂ fun a p => Ref h a.1 p.1 ∧ Ref h a.2 p.2

theorem HSim.polygonLines : ∀ {as : List (Nat × Nat)} {ps : List (Prim K × Prim K)} {s : Store K},
    RefP s.heap as ps → HSim s (HAlloc.polygonLines as) (polygonLines ps) RRefL
  | _, _, s, .nil => HSim.pure .nil
  | _, _, s, .cons (a := a) (b := b) (l₁ := as) (l₂ := ps) h h' => by
    refine (HSim.array _).bind fun s1 v w l1 e => ?_
    refine (HSim.newLine (by rw [e]) (.inr ⟨_, _, rfl, rfl,
      .cons (l1.ref h.1) (.cons (l1.ref h.2) .nil)⟩)).bind fun s2 l l' l2 h2 => ?_
    have h3 : RefP s2.heap as ps := h'.imp fun _ _ h =>
      ⟨(l1.trans l2).ref h.1, (l1.trans l2).ref h.2⟩
    exact (HSim.polygonLines h3).bind fun s4 ls ls' l4 h4 => HSim.pure (.cons (l4.ref h2) h4)

omit [PyNum K] in
theorem RefL.pairs {h : Heap PrimType (PVal K)} {as : List Nat} {ps : List (Prim K)}
    (H : RefL h as ps) :
    RefP h (as.zip (as.drop 1 ++ as.take 1)) (ps.zip (ps.drop 1 ++ ps.take 1)) := by
  obtain ⟨ts, rfl, rfl, hts⟩ := H
  have e : ∀ f : Picture PrimType (PVal K) → Nat,
      (ts.map f).zip ((ts.map f).drop 1 ++ (ts.map f).take 1)
        = (ts.zip (ts.drop 1 ++ ts.take 1)).map fun t => (f t.1, f t.2) := by
    intro f
    rw [← List.map_drop, ← List.map_take, ← List.map_append, List.zip_map]
    rfl
  have e' : ∀ f : Picture PrimType (PVal K) → Prim K,
      (ts.map f).zip ((ts.map f).drop 1 ++ (ts.map f).take 1)
        = (ts.zip (ts.drop 1 ++ ts.take 1)).map fun t => (f t.1, f t.2) := by
    intro f
    rw [← List.map_drop, ← List.map_take, ← List.map_append, List.zip_map]
    rfl
  rw [e, e', RefP, List.forall₂_map_left_iff, List.forall₂_map_right_iff, List.forall₂_same]
  intro t ht
  have h1 := (List.of_mem_zip ht).1
  have h2 : t.2 ∈ ts := by
    rcases List.mem_append.1 (List.of_mem_zip ht).2 with h | h
    · exact List.mem_of_mem_drop h
    · exact List.mem_of_mem_take h
  exact ⟨⟨t.1, rfl, rfl, hts _ h1⟩, ⟨t.2, rfl, rfl, hts _ h2⟩⟩

omit [PyNum K] in
theorem RefL.length {h : Heap PrimType (PVal K)} {as : List Nat} {ps : List (Prim K)}
    (H : RefL h as ps) : as.length = ps.length := by
  obtain ⟨ts, rfl, rfl, _⟩ := H; simp

theorem HSim.polygonChildren {s : Store K} {as : List Nat} {ps : List (Prim K)}
    (h : RefL s.heap as ps) : HSim s (HAlloc.polygonChildren as) (polygonChildren ps)
      (fun s a p => a.1 = p.1 ∧ RefL s.heap a.2 p.2) := by
  refine (HSim.polygonLines h.pairs).bind fun s1 ls ls' l1 h1 => ?_
  exact HSim.pure ⟨by rw [RefL.length h1], h1⟩

theorem HSim.newPoints : ∀ (xs : List (K × K)) (s : Store K),
    HSim s (HAlloc.newPoints xs) (newPoints xs) RRefL
  | [], _ => HSim.pure .nil
  | (x, y) :: rest, s => by
    refine (HSim.array _).bind fun s1 v w l1 e => ?_
    refine (HSim.newPoint (by rw [e])).bind fun s2 a b l2 h2 => ?_
    exact (HSim.newPoints rest s2).bind fun s3 as bs l3 h3 => HSim.pure (.cons (l3.ref h2) h3)

theorem HSim.polygonDefault (size : Nat) (s : Store K) :
    HSim s (HAlloc.polygonDefault (K := K) size) (polygonDefault size) RRefL := by
  unfold HAlloc.polygonDefault MplLayout.polygonDefault
  split
  · exact HSim.lift (.inl ⟨_, rfl, rfl⟩)
  · exact HSim.newPoints _ _

theorem HSim.loop {s : Store K} {t : PrimType} {v w : PVal K} (e : v = w) {as : List Nat}
    {ps : List (Prim K)} (h : RefL s.heap as ps) :
    HSim s (HAlloc.polygonChildren as >>= fun kl => HAlloc.init t v kl.1 kl.2)
      (MplLayout.polygonChildren ps >>= fun kl => liftPy (primInit t w kl.1 kl.2)) RRef := by
  refine (HSim.polygonChildren h).bind fun s1 a b _ h1 => ?_
  rw [h1.1]
  exact HSim.init e h1.2

/-- Related optional arguments. -/
def RArg (s : Store K) (as : Option (List Nat)) (ps : Option (List (Prim K))) : Prop :=
  (as = none ∧ ps = none) ∨ ∃ a p, as = some a ∧ ps = some p ∧ RefL s.heap a p

theorem HSim.newPolygon {s : Store K} {v w : Option (PVal K)} (h : v = w) {as : Option (List Nat)}
    {ps : Option (List (Prim K))} (h' : RArg s as ps) (size : Nat) :
    HSim s (HAlloc.newPolygon v as size) (newPolygon w ps size) RRef := by
  subst h
  refine (HSim.orDefault _ _).bind fun s1 a b hle e => ?_
  rcases h' with ⟨rfl, rfl⟩ | ⟨a, p, rfl, rfl, hr⟩
  · exact (HSim.polygonDefault _ _).bind fun s' a b _ h => HSim.loop e h
  · exact (HSim.pure (R := RRefL) (hle.refL hr)).bind fun s' a b _ h => HSim.loop e h

theorem HSim.newQuadrilateral {s : Store K} {v w : Option (PVal K)} (h : v = w)
    {as : Option (List Nat)} {ps : Option (List (Prim K))} (h' : RArg s as ps) :
    HSim s (HAlloc.newQuadrilateral v as) (newQuadrilateral w ps) RRef := by
  subst h
  refine (HSim.orDefault _ _).bind fun s1 a b hle e => ?_
  rcases h' with ⟨rfl, rfl⟩ | ⟨a, p, rfl, rfl, hr⟩
  · exact (HSim.newPoints _ _).bind fun s' a b _ h => HSim.loop e h
  · exact (HSim.pure (R := RRefL) (hle.refL hr)).bind fun s' a b _ h => HSim.loop e h

theorem HSim.axisPrims (b : Bool) (s : Store K) :
    HSim s (HAlloc.axisPrims (K := K) b) (axisPrims b) RRefL := by
  unfold HAlloc.axisPrims MplLayout.axisPrims
  split
  · refine (HSim.newQuadrilateral rfl (.inl ⟨rfl, rfl⟩)).bind fun s1 a b _ h1 => ?_
    refine (HSim.newPoint rfl).bind fun s2 a b l2 h2 => ?_
    exact HSim.pure (.cons (l2.ref h1) (.cons h2 .nil))
  · exact HSim.pure .nil

theorem HSim.axesDefault (x y tx ty : Bool) (s : Store K) :
    HSim s (HAlloc.axesDefault (K := K) x y tx ty) (axesDefault x y tx ty) RRefL := by
  refine (HSim.axisPrims _ _).bind fun s1 a b _ h1 => ?_
  refine (HSim.axisPrims _ _).bind fun s2 a b l2 h2 => ?_
  refine (HSim.axisPrims _ _).bind fun s3 a b l3 h3 => ?_
  refine (HSim.axisPrims _ _).bind fun s4 a b l4 h4 => ?_
  refine (HSim.newQuadrilateral rfl (.inl ⟨rfl, rfl⟩)).bind fun s5 a b l5 h5 => ?_
  have m1 := (((l2.trans l3).trans l4).trans l5).refL h1
  have m2 := ((l3.trans l4).trans l5).refL h2
  have m3 := (l4.trans l5).refL h3
  have m4 := l5.refL h4
  exact HSim.pure (((RefL.cons h5 .nil).append (m1.append m3)).append (m2.append m4))

theorem HSim.newAxes {s : Store K} {v w : Option (PVal K)} (h : v = w)
    {as : Option (List Nat)} {ps : Option (List (Prim K))} (h' : RArg s as ps) (x y tx ty : Bool) :
    HSim s (HAlloc.newAxes v as x y tx ty) (newAxes w ps x y tx ty) RRef := by
  subst h
  refine (HSim.orDefault _ _).bind fun s1 a b hle e => ?_
  rcases h' with ⟨rfl, rfl⟩ | ⟨a, p, rfl, rfl, hr⟩
  · exact (HSim.axesDefault _ _ _ _ _).bind fun s' a b _ h => HSim.init e h
  · exact (HSim.pure (R := RRefL) (hle.refL hr)).bind fun s' a b _ h => HSim.init e h

/-! ## Sessions -/

/-- A heap session that shows a value session. -/
structure Shows (h : HSession K) (s : Session K) : Prop where
  root : h.root = 0
  next : h.store.next = s.next
  arrays : h.arrays = s.arrays
  prims : RefL h.store.heap h.prims s.prims
  layout : s.layout = { h.rest with prim := s.layout.prim }
  tree : ∃ t : Picture PrimType (PVal K), Pictured h.store.heap t ∧ t.addr = 0 ∧
    s.layout.prim = t.seen ∧ ∀ kc ∈ t.children, ¬ kc.2.Holds 0

omit [PyNum K] in
theorem Shows.start : Shows (HSession.start : HSession K) Session.start where
  root := rfl
  next := rfl
  arrays := rfl
  prims := .nil
  layout := rfl
  tree := by
    refine ⟨.mk .primitiveNode (0, ⟨0, []⟩) [], ?_, rfl, ?_, by simp⟩
    · rw [Pictured_mk]; exact ⟨rfl, by simp⟩
    · rw [seen_mk]; rfl

omit [PyNum K] in
theorem Shows.pos {h : HSession K} {s : Session K} (H : Shows h s) : 0 < h.store.heap.length := by
  obtain ⟨t, ht, e, _⟩ := H.tree
  have := ht.obj
  rw [e] at this
  by_contra hc
  rw [List.getElem?_eq_none (by omega)] at this
  cases this

omit [PyNum K] in
theorem Pictured.mono {h ext : Heap PrimType (PVal K)} {t : Picture PrimType (PVal K)}
    (H : Pictured h t) : Pictured (h ++ ext) t := by
  intro p m hm
  have := H p m hm
  have hlt : m.addr < h.length := by
    by_contra hge
    rw [List.getElem?_eq_none (by omega)] at this
    cases this
  rw [List.getElem?_append_left hlt]
  exact this

omit [PyNum K] in
theorem var_rel {h : Heap PrimType (PVal K)} {as : List Nat} {ps : List (Prim K)} (H : RefL h as ps)
    (i : Nat) : (∃ e, Session.var as i = .error e ∧ Session.var ps i = .error e) ∨
      ∃ a p, Session.var as i = .ok a ∧ Session.var ps i = .ok p ∧ Ref h a p := by
  obtain ⟨ts, rfl, rfl, hts⟩ := H
  simp only [Session.var, List.getElem?_map]
  cases hi : ts[i]? with
  | none => exact .inl ⟨_, rfl, rfl⟩
  | some t =>
    exact .inr ⟨_, _, rfl, rfl, t, rfl, rfl, hts t (List.mem_of_getElem? hi)⟩

omit [PyNum K] in
theorem vars_rel {h : Heap PrimType (PVal K)} {as : List Nat} {ps : List (Prim K)} (H : RefL h as ps) :
    ∀ is : List Nat,
      (∃ e, pyMap (Session.var as) is = .error e ∧ pyMap (Session.var ps) is = .error e) ∨
      ∃ a p, pyMap (Session.var as) is = .ok a ∧ pyMap (Session.var ps) is = .ok p ∧ RefL h a p
  | [] => .inr ⟨_, _, rfl, rfl, .nil⟩
  | i :: is => by
    rcases var_rel H i with ⟨e, h1, h2⟩ | ⟨a, p, h1, h2, h3⟩
    · exact .inl ⟨e, by simp only [pyMap, h1]; rfl, by simp only [pyMap, h2]; rfl⟩
    · rcases vars_rel H is with ⟨e, h4, h5⟩ | ⟨as', ps', h4, h5, h6⟩
      · exact .inl ⟨e, by simp only [pyMap, h1, h4]; rfl, by simp only [pyMap, h2, h5]; rfl⟩
      · exact .inr ⟨_, _, by simp only [pyMap, h1, h4]; rfl, by simp only [pyMap, h2, h5]; rfl,
          .cons h3 h6⟩

omit [PyNum K] in
theorem HSim.value {h : HSession K} {s : Session K} (H : h.arrays = s.arrays) (v : ValueArg K)
    (st : Store K) : HSim st (h.value v) (s.value v) (fun _ a b => a = b) := by
  cases v with
  | default => exact HSim.pure rfl
  | literal xs => exact (HSim.array _).bind fun _ a b _ e => HSim.pure (by rw [e])
  | var i =>
    refine HSim.bind (R := fun _ a b => a = b) (HSim.lift ?_) fun _ a b _ e => HSim.pure (by rw [e])
    rw [H]
    cases hv : Session.var s.arrays i with
    | error e => exact .inl ⟨e, rfl, rfl⟩
    | ok a => exact .inr ⟨a, a, rfl, rfl, rfl⟩

omit [PyNum K] in
theorem HSim.args {h : HSession K} {s : Session K} {st : Store K} (H : RefL st.heap h.prims s.prims)
    (ps : Option (List Nat)) : HSim st (h.args ps) (s.args ps) RArg := by
  cases ps with
  | none => exact HSim.pure (.inl ⟨rfl, rfl⟩)
  | some is =>
    refine HSim.bind (R := RRefL) (HSim.lift (vars_rel H is)) fun _ a b _ e => ?_
    exact HSim.pure (.inr ⟨_, _, rfl, rfl, e⟩)

theorem HSim.eval {h : HSession K} {s : Session K} (H : Shows h s) (e : PrimExpr K) :
    HSim h.store (h.eval e) (s.eval e) RRef := by
  cases e with
  | point v => exact (HSim.value H.arrays v _).bind fun _ a b _ e => HSim.newPoint e
  | line v ps =>
    exact (HSim.value H.arrays v _).bind fun _ a b l e =>
      (HSim.args (l.refL H.prims) ps).bind fun _ as bs l' e' => HSim.newLine e e'
  | polygon v ps size =>
    exact (HSim.value H.arrays v _).bind fun _ a b l e =>
      (HSim.args (l.refL H.prims) ps).bind fun _ as bs l' e' => HSim.newPolygon e e' size
  | quadrilateral v ps =>
    exact (HSim.value H.arrays v _).bind fun _ a b l e =>
      (HSim.args (l.refL H.prims) ps).bind fun _ as bs l' e' => HSim.newQuadrilateral e e'
  | axes v ps x y tx ty =>
    exact (HSim.value H.arrays v _).bind fun _ a b l e =>
      (HSim.args (l.refL H.prims) ps).bind fun _ as bs l' e' => HSim.newAxes e e' x y tx ty

omit [PyNum K] in
theorem seen_keys (t : Picture PrimType (PVal K)) : t.seen.keys = t.keys := Node.keys_mapV _ _

omit [PyNum K] in
/-- Adding at the top level. -/
theorem Shows.addPrim {h : HSession K} {s : Session K} (H : Shows h s) {a : Nat} {p : Prim K}
    (hp : Ref h.store.heap a p) {key : Str} (hk : '/' ∉ key) :
    Shows (h.addPrim a key).1 { s with layout := (s.layout.addPrim p key).1 } ∧
    (h.addPrim a key).2 = (s.layout.addPrim p key).2 ∧
    ∀ b q, Ref h.store.heap b q → Ref (h.addPrim a key).1.store.heap b q := by
  obtain ⟨t, ht, ha, hs, hn⟩ := H.tree
  obtain ⟨c, rfl, rfl, hc⟩ := hp
  have e1 : (splitAll key).dropLast = [] := (noslash_iff_dropLast key).1 hk
  have e2 := ht.addChild c.addr key
  have e3 := Node.addChild_eq t.seen c.seen key
  rw [e1] at e2 e3
  simp only [Node.find, seen_keys] at e2 e3
  rw [ha] at e2
  unfold HSession.addPrim Layout.addPrim
  rw [H.root, e2, hs, e3]
  by_cases hm : (splitAll key).getLastD [] ∈ t.keys
  · simp only [if_pos hm]
    exact ⟨H, trivial, fun _ _ h => h⟩
  · simp only [if_neg hm]
    set k := (splitAll key).getLastD [] with hkdef
    have keep : ∀ w, Own h.store.heap w →
        Own (h.store.heap.set 0 ⟨t.ty, t.value.2, refs t.children ++ [(k, c.addr)]⟩) w := by
      intro w hw
      refine ⟨fun q x hx => ?_, hw.2⟩
      rw [List.getElem?_set_ne (fun e => hw.2 ⟨q, x, hx, e.symm⟩)]
      exact hw.1 q x hx
    have hpl := ht.plant hc.1 (ha ▸ hc.2) k ht
    rw [ha] at hpl
    refine ⟨⟨rfl, H.next, H.arrays, ?_, ?_, ?_⟩, trivial, ?_⟩
    · obtain ⟨ts, q1, q2, q3⟩ := H.prims
      exact ⟨ts, q1, q2, fun w hw => keep w (q3 w hw)⟩
    · exact congrArg (fun l : Layout K => { l with prim := t.seen.setAt [] k c.seen }) H.layout
    · refine ⟨t.plant 0 k c, hpl, by rw [Node.addr_plant, ha], ?_, ?_⟩
      · show t.seen.setAt [] k c.seen = (t.plant 0 k c).seen
        rw [Node.seen, Node.seen, Node.seen, Node.setAt_mapV]
        congr 1
        cases t with
        | mk ty v cs =>
          simp only [addr_mk] at ha
          rw [Node.plant_mk, if_pos ha, Node.setAt, Node.children_mk,
            dictSet_of_notMem _ (show k ∉ cs.map (·.1) from hm)]
          congr 2
          conv_lhs => rw [← List.map_id cs]
          exact List.map_congr_left fun kc hkc => Prod.ext rfl (Node.plant_self (hn kc hkc)).symm
      · cases t with
        | mk ty v cs =>
          simp only [addr_mk] at ha
          rw [Node.plant_mk, if_pos ha, Node.children_mk]
          intro kc hkc
          rcases List.mem_append.1 hkc with hkc | hkc
          · obtain ⟨kc', hkc', rfl⟩ := List.mem_map.1 hkc
            show ¬ (kc'.2.plant 0 k c).Holds 0
            rw [Node.plant_self (hn kc' hkc')]
            exact hn kc' hkc'
          · simp only [List.mem_singleton] at hkc
            rw [hkc]; exact hc.2
    · rintro b q ⟨w, rfl, rfl, hw⟩
      exact ⟨w, rfl, rfl, keep w hw⟩

omit [PyNum K] in
theorem Shows.addPrims {s : Session K} : ∀ {as : List (Str × Nat)} {ps : List (Str × Prim K)}
    {h : HSession K} {l : Layout K}, Shows h { s with layout := l } →
    List.Forall₂ (fun a p => a.1 = p.1 ∧ '/' ∉ a.1 ∧ Ref h.store.heap a.2 p.2) as ps →
    Shows (h.addPrims as).1 { s with layout := (l.addPrims ps).1 } ∧
    (h.addPrims as).2 = (l.addPrims ps).2
  | _, _, h, l, H, .nil => ⟨H, rfl⟩
  | _, _, h, l, H, .cons (a := a) (b := p) (l₁ := as) (l₂ := ps) h1 h2 => by
    obtain ⟨k, a⟩ := a
    obtain ⟨k', p⟩ := p
    obtain ⟨e, hk, hr⟩ := h1
    simp only at e hk hr
    subst e
    obtain ⟨q1, q2, q3⟩ := H.addPrim hr hk
    unfold HSession.addPrims Layout.addPrims
    simp only at q1 q2
    rcases ha : h.addPrim a k with ⟨h', r⟩
    rcases hb : l.addPrim p k with ⟨l', r'⟩
    rw [ha] at q1 q2 q3
    rw [hb] at q1 q2
    simp only at q1 q2 q3
    subst q2
    cases r with
    | error e => exact ⟨q1, rfl⟩
    | ok u => exact Shows.addPrims q1 (h2.imp fun _ _ h => ⟨h.1, h.2.1, q3 _ _ h.2.2⟩)

omit [PyNum K] in
theorem store_prim (l : Layout K) (p : Prim K) (c : Cons K) (ks : List Str) (ps : List (Param K))
    (key : Str) : ({ l with prim := p }).store c ks ps key
      = ({ (l.store c ks ps key).1 with prim := p }, (l.store c ks ps key).2) := by
  simp only [Layout.store]
  cases l.cons.addChild key c with
  | error e => rfl
  | ok cons =>
    simp only [Layout.storeKeys]
    cases (c.rootPrimKeys ks >>= fun t => l.keys.addChild key t) with
    | error e => rfl
    | ok keys =>
      simp only [Layout.storeParams]
      cases (c.rootParams ps >>= fun t => l.params.addChild key t) <;> rfl

/-- A primitive without its children. -/
def bare (p : Prim K) : Prim K := .mk p.ty p.value []

omit [PyNum K] in
theorem lookup_eq {h : HSession K} {t : Picture PrimType (PVal K)} (ht : Pictured h.store.heap t)
    (hr : t.addr = h.root) (ks : List Str) :
    h.lookup ks = (Cons.lookupPrims t.seen ks).map (List.map bare) := by
  refine pyMap_map_comm _ _ _ (fun key => ?_) ks
  rw [← hr, ht.getChild, Node.seen, Node.getChild_mapV]
  cases hg : t.getChild key with
  | error e => rfl
  | ok m =>
    have hm : t.At (splitAll key) m := Node.At_of_find (Node.getChild_ok_iff.1 hg)
    simp only [Except.map, bind, Except.bind, (ht.at hm).obj', bare, Node.ty_mapV, Node.value_mapV]

omit [PyNum K] in
theorem validatePrims_bare (c : Cons K) (ps : List (Prim K)) :
    c.validatePrims (ps.map bare) = c.validatePrims ps := by
  have hz : ∀ (ps : List (Prim K)) (ts : List PrimType),
      List.zipWith (fun (p : Prim K) t => !p.ty.sub t) (ps.map bare) ts
        = List.zipWith (fun (p : Prim K) t => !p.ty.sub t) ps ts := by
    intro ps
    induction ps with
    | nil => intro ts; simp
    | cons p ps ih => intro ts; cases ts <;> simp [ih, bare]
  simp only [Cons.validatePrims, List.length_map, hz]

omit [PyNum K] in
theorem check_eq {h : HSession K} {t : Picture PrimType (PVal K)} (ht : Pictured h.store.heap t)
    (hr : t.addr = h.root) {l : Layout K} (hl : l.prim = t.seen) (c : Cons K) (ks : List Str)
    (ps : List (Param K)) : h.check c ks ps = l.check c ks ps := by
  simp only [HSession.check, Layout.check, lookup_eq ht hr, hl]
  cases Cons.lookupPrims t.seen ks with
  | error e => rfl
  | ok prims => simp only [Except.map, bind, Except.bind, validatePrims_bare]

omit [PyNum K] in
/-- Constraints: only the constraint trees change. -/
theorem addConstraint_eq {h : HSession K} {t : Picture PrimType (PVal K)}
    (ht : Pictured h.store.heap t) (hr : t.addr = h.root) {l : Layout K}
    (hl : l = { h.rest with prim := t.seen }) (c : Cons K) (ks : List Str) (ps : List (Param K))
    (key : Str) :
    (h.addConstraint c ks ps key).1 = { h with rest := (h.addConstraint c ks ps key).1.rest } ∧
    l.addConstraint c ks ps key = ({ (h.addConstraint c ks ps key).1.rest with prim := t.seen },
      (h.addConstraint c ks ps key).2) := by
  have aux : ∀ (h' : HSession K) (l' : Layout K) (key : Str), h'.store = h.store → h'.root = h.root →
      l' = { h'.rest with prim := t.seen } →
      (h'.checkAndStore c ks ps key).1 = { h' with rest := (h'.checkAndStore c ks ps key).1.rest } ∧
      l'.checkAndStore c ks ps key = ({ (h'.checkAndStore c ks ps key).1.rest with prim := t.seen },
        (h'.checkAndStore c ks ps key).2) := by
    intro h' l' key e1 e2 e3
    have hc := check_eq (h := h') (t := t) (e1 ▸ ht) (hr.trans e2.symm) (l := l') (by rw [e3]) c ks ps
    unfold HSession.checkAndStore Layout.checkAndStore
    rw [hc]
    cases l'.check c ks ps with
    | error e => exact ⟨rfl, by rw [e3]⟩
    | ok u => exact ⟨rfl, by rw [e3, store_prim]⟩
  unfold HSession.addConstraint Layout.addConstraint
  split
  · have : l.autoKey c = h.rest.autoKey c := by rw [hl]; rfl
    rw [this]
    rcases h.rest.autoKey c with ⟨ctr, r⟩
    cases r with
    | error e => exact ⟨rfl, by rw [hl]⟩
    | ok key =>
      have := aux { h with rest := { h.rest with counter := ctr } } { l with counter := ctr } key
        rfl rfl (by rw [hl])
      refine ⟨?_, this.2⟩
      simp only
      rw [this.1]
  · exact aux h l key rfl rfl hl

theorem Shows.step {h : HSession K} {s : Session K} (H : Shows h s) {st : Stmt K} (ht : st.TopLevel) :
    Shows (h.step st).1 (s.step st).1 ∧ (h.step st).2 = (s.step st).2 := by
  cases st with
  | array xs =>
    refine ⟨⟨H.root, ?_, ?_, H.prims, H.layout, H.tree⟩, rfl⟩
    · show h.store.next + 1 = s.next + 1
      rw [H.next]
    · show h.arrays ++ [⟨h.store.next, xs⟩] = s.arrays ++ [⟨s.next, xs⟩]
      rw [H.arrays, H.next]
  | make e =>
    have := HSim.eval H e H.pos
    rw [H.next] at this
    simp only [HSession.step, Session.step]
    revert this
    generalize h.eval e h.store = x
    generalize s.eval e s.next = y
    intro M
    cases M with
    | error e => exact ⟨H, rfl⟩
    | @ok a p s' hle hR =>
      refine ⟨⟨H.root, rfl, H.arrays, ?_, H.layout, ?_⟩, rfl⟩
      · exact (hle.refL H.prims).append (.cons hR .nil)
      · obtain ⟨t, h1, h2⟩ := H.tree
        obtain ⟨ext, he⟩ := hle
        exact ⟨t, by simp only [he]; exact h1.mono, h2⟩
  | addPrim i key =>
    simp only [HSession.step, Session.step, Session.call]
    rcases var_rel H.prims i with ⟨e, h1, h2⟩ | ⟨a, p, h1, h2, h3⟩
    · rw [h1, h2]; exact ⟨H, rfl⟩
    · rw [h1, h2]
      exact ⟨(H.addPrim h3 ht).1, (H.addPrim h3 ht).2.1⟩
  | addPrims ps =>
    simp only [HSession.step, Session.step, Session.call]
    have key : ∀ ps : List (Str × Nat), (∀ kp ∈ ps, '/' ∉ kp.1) →
        (∃ e, pyMap (fun kp : Str × Nat => do let a ← Session.var h.prims kp.2; .ok (kp.1, a)) ps = .error e ∧
          pyMap (fun kp : Str × Nat => do let a ← Session.var s.prims kp.2; .ok (kp.1, a)) ps = .error e) ∨
        ∃ as qs, pyMap (fun kp : Str × Nat => do let a ← Session.var h.prims kp.2; .ok (kp.1, a)) ps = .ok as ∧
          pyMap (fun kp : Str × Nat => do let a ← Session.var s.prims kp.2; .ok (kp.1, a)) ps = .ok qs ∧
          List.Forall₂ (fun a p => a.1 = p.1 ∧ '/' ∉ a.1 ∧ Ref h.store.heap a.2 p.2) as qs := by
      intro ps
      induction ps with
      | nil => intro _; exact .inr ⟨_, _, rfl, rfl, .nil⟩
      | cons kp ps ih =>
        intro hk
        rcases var_rel H.prims kp.2 with ⟨e, h1, h2⟩ | ⟨a, p, h1, h2, h3⟩
        · exact .inl ⟨e, by simp only [pyMap, h1]; rfl, by simp only [pyMap, h2]; rfl⟩
        · rcases ih (fun kp' h' => hk kp' (by simp [h'])) with ⟨e, h4, h5⟩ | ⟨as', ps', h4, h5, h6⟩
          · exact .inl ⟨e, by simp only [pyMap, h1, h4]; rfl, by simp only [pyMap, h2, h5]; rfl⟩
          · exact .inr ⟨(kp.1, a) :: as', (kp.1, p) :: ps', by simp only [pyMap, h1, h4]; rfl,
              by simp only [pyMap, h2, h5]; rfl, .cons ⟨rfl, hk kp (by simp), h3⟩ h6⟩
    rcases key ps ht with ⟨e, h1, h2⟩ | ⟨as, qs, h1, h2, h3⟩
    · rw [h1, h2]; exact ⟨H, rfl⟩
    · rw [h1, h2]
      exact Shows.addPrims (s := s) (l := s.layout) H h3
  | addConstraint c ks ps key =>
    obtain ⟨t, h1, h2, h3, h4⟩ := H.tree
    obtain ⟨q1, q2⟩ := addConstraint_eq h1 (h2.trans H.root.symm) (l := s.layout)
      (by rw [← h3]; exact H.layout) c ks ps key
    simp only [HSession.step, Session.step, Session.call, Session.stepCall, Layout.step]
    rw [q2, q1]
    exact ⟨⟨H.root, H.next, H.arrays, H.prims, rfl, t, h1, h2, rfl, h4⟩, rfl⟩

theorem Shows.run {h : HSession K} {s : Session K} (H : Shows h s) : ∀ {prog : List (Stmt K)},
    (∀ st ∈ prog, st.TopLevel) → Shows (h.run prog) (s.run prog) ∧ h.outcomes prog = s.outcomes prog := by
  intro prog
  induction prog generalizing h s with
  | nil => intro _; exact ⟨H, rfl⟩
  | cons st prog ih =>
    intro ht
    obtain ⟨h1, h2⟩ := H.step (ht st (by simp))
    obtain ⟨h3, h4⟩ := ih h1 (fun st' h' => ht st' (by simp [h']))
    exact ⟨h3, by simp only [HSession.outcomes, Session.outcomes, h2, h4]⟩

end MplLayout
