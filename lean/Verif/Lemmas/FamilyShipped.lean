import Verif.Lemmas.Family
import Verif.Lemmas.ShippedFits
import Verif.Spec.Scale

/-!
# The shipped constraints with parameters that depend on `x`
-/

namespace MplLayout

open Flt Cons

section
variable {X α : Type}

/-- A parameter whose numbers are functions of class `A`.  `True` counts as 1 and `False` as 0. -/
inductive ParF (A : (X → Flt) → Prop) : (X → Param Flt) → Prop
  | num (q : X → Param Flt) (g : X → Flt) (hg : A g)
      (h : ∀ x, q x = .num (g x) ∨ ∃ b, q x = .bool b ∧ g x = if b then 1 else 0) : ParF A q
  | arr (gs : List (X → Flt)) (hg : ∀ g ∈ gs, A g) : ParF A fun x => .arr (gs.map (· x))
  | none : ParF A fun _ => .none
  | seq (qs : List (X → Param Flt)) (h : ∀ q ∈ qs, ParF A q) : ParF A fun x => .seq (qs.map (· x))
  | axis (a : MplAxis Flt) (w h : X → Flt) (hw : A w) (hh : A h) :
      ParF A fun x => .axis { a with figWidth := w x, figHeight := h x }

variable {A : (X → Flt) → Prop} {f : X → α → PVal Flt} {G : Node PrimType α → Prop}

theorem ParF.toArr {q : X → Param Flt} (h : ParF A q) : Tame A (fun x => (q x).toArr) := by
  cases h with
  | num q g hg h =>
    refine Tame.congr (fun x => ?_) (Tame.ok (a := .scalar g) (InA.scalar.mpr hg))
    rcases h x with e | ⟨b, e, e'⟩
    · rw [e]; rfl
    · rw [e, evA, e']; rfl
  | arr gs hg => exact Tame.ok (a := .vec gs) (InA.vec.mpr hg)
  | none => exact Tame.error _
  | seq qs h => exact Tame.error _
  | axis a w h hw hh => exact Tame.error _

theorem ParF.iter {q : X → Param Flt} (h : ParF A q) : (∃ e, ∀ x, (q x).iter = .error e) ∨
    ∃ qs : List (X → Param Flt), (∀ q ∈ qs, ParF A q) ∧ ∀ x, (q x).iter = .ok (qs.map (· x)) := by
  cases h with
  | num q g hg h =>
    refine .inl ⟨.typeError, fun x => ?_⟩
    rcases h x with e | ⟨b, e, e'⟩ <;> rw [e] <;> rfl
  | arr gs hg =>
    refine .inr ⟨gs.map fun g x => .num (g x), fun q hq => ?_, fun x => ?_⟩
    · obtain ⟨g, hg', rfl⟩ := List.mem_map.mp hq
      exact .num _ g (hg g hg') fun x => .inl rfl
    · simp [Param.iter, Function.comp_def]
  | none => exact .inl ⟨.typeError, fun x => rfl⟩
  | seq qs h => exact .inr ⟨qs, h, fun x => rfl⟩
  | axis a w h hw hh => exact .inl ⟨.typeError, fun x => rfl⟩

theorem Tame.bind2' {F H : X → Py (Arr Flt)} {K : Arr Flt → Arr Flt → Py (Arr Flt)} (hF : Tame A F) (hH : Tame A H)
    (hK : ∀ a b, InA A a → InA A b → Tame A (fun x => K (evA x a) (evA x b))) :
    Tame A (fun x => F x >>= fun a => H x >>= fun b => K a b) := by
  obtain ⟨r, h1, h2⟩ := hF
  obtain ⟨s, h3, h4⟩ := hH
  cases r with
  | error e => exact Tame.congr (fun x => by rw [h1]; rfl) (Tame.error e)
  | ok a =>
    cases s with
    | error e => exact Tame.congr (fun x => by rw [h1, h3]; rfl) (Tame.error e)
    | ok b => exact Tame.congr (fun x => by rw [h1, h3]; rfl) (hK a b (h2 a rfl) (h4 b rfl))

theorem cstr_assem (c : Cons Flt) (prims : List (Prim Flt)) (ps : List (Param Flt)) (q : Param Flt)
    (hl : ps.length = c.value.sig.paramTypes.length) :
    (cstr c).ty.assem prims (ps ++ [q]) =
      c.ty.assem (split2 c.value.sig.primTypes.length 0 prims).1 ps >>= fun x =>
        (q.toArr >>= fun y => (Arr.scalar (-1 : Flt)).mul y) >>= fun y => x.add y := by
  cases c with
  | mk t v cs =>
    have hs : split2 v.sig.paramTypes.length 1 (ps ++ [q]) = (ps, [q]) := split2_append hl rfl
    have e : (cstr (.mk t v cs)).ty.assem prims (ps ++ [q]) =
      t.assem (split2 v.sig.primTypes.length 0 prims).1 (split2 v.sig.paramTypes.length 1 (ps ++ [q])).1 >>= fun x =>
        (negVec (.mk t v cs)).ty.assem (split2 v.sig.primTypes.length 0 prims).2
          (split2 v.sig.paramTypes.length 1 (ps ++ [q])).2 >>= fun y => x.add y := rfl
    rw [e, hs]
    rfl

theorem HP_cstr (L : LinSpace A) {c : Cons Flt} {ps : X → List (Param Flt)} {q : X → Param Flt}
    (hl : ∀ x, (ps x).length = c.value.sig.paramTypes.length) (hc : HP A f G c.ty ps) (hq : ParF A q) :
    HP A f G (cstr c).ty (fun x => ps x ++ [q x]) := by
  intro prims hG
  refine Tame.congr (fun x => cstr_assem c _ _ _ (hl x)) ?_
  have h1 := hc (split2 c.value.sig.primTypes.length 0 prims).1 fun p hp => hG p (split2_mem (.inl hp))
  refine Tame.bind2' (F := fun x => _) (H := fun x => _) ?_ (hq.toArr.bind fun a ha => tame_smul L _ ha)
    fun a b ha hb => tame_add L ha hb
  refine Tame.congr (fun x => ?_) h1
  rw [split2_map]

/-- The parameters that a node gives to its children. -/
theorem HT_leaf {H : FamPred X} {cls : ConsClass Flt} {sig : ConsSig} {ps : X → List (Param Flt)}
    (h : H cls ps) : HT H (leaf cls sig) ps := by
  simp only [leaf, HT]
  exact ⟨h, .inr ⟨[], fun x => rfl, by simp [HTL]⟩⟩

theorem HT_cstr (L : LinSpace A) {cls : ConsClass Flt} {sig : ConsSig} {ps : X → List (Param Flt)}
    {q : X → Param Flt} (hl : ∀ x, (ps x).length = sig.paramTypes.length) (hc : HP A f G cls ps)
    (hq : ParF A q) : HT (HP A f G) (cstr (leaf cls sig)) (fun x => ps x ++ [q x]) := by
  have h1 := HP_cstr (c := leaf cls sig) L hl hc hq
  have h2 : ∀ x, (cstr (leaf cls sig)).value.childParams (ps x ++ [q x]) = .ok [] := by
    intro x
    have hs : split2 sig.paramTypes.length 1 (ps x ++ [q x]) = (ps x, [q x]) := split2_append (hl x) rfl
    have e : (cstr (leaf cls sig)).value.childParams (ps x ++ [q x]) =
      (negVec (leaf cls sig)).value.childParams (split2 sig.paramTypes.length 1 (ps x ++ [q x])).2 >>= fun cb =>
          .ok (List.zipWith (· ++ ·) [] cb) := rfl
    rw [e, hs]
    rfl
  have e : cstr (leaf cls sig) = .mk (cstr (leaf cls sig)).ty (cstr (leaf cls sig)).value [] := rfl
  rw [e]
  simp only [HT]
  exact ⟨h1, .inr ⟨[], h2, by simp [HTL]⟩⟩

mutual
/-- Parameters that do not depend on `x`. -/
theorem HT_const : ∀ {c : Cons Flt} (_ : AllN (TameP A f G) c) (ps : List (Param Flt)),
    HT (HP A f G) c (fun _ => ps)
  | .mk cls v cs, h, ps => by
    obtain ⟨h1, h2⟩ := AllN_mk.mp h
    simp only [HT]
    refine ⟨h1 ps, ?_⟩
    cases v.childParams ps with
    | error e => exact .inl ⟨e, fun _ => rfl⟩
    | ok pss =>
      refine .inr ⟨pss.map fun ps _ => ps, fun _ => by simp [Function.comp_def], HTL_const h2 pss⟩
theorem HTL_const : ∀ {cs : List (Str × Cons Flt)} (_ : ∀ k c, (k, c) ∈ cs → AllN (TameP A f G) c)
    (pss : List (List (Param Flt))), HTL (HP A f G) cs (pss.map fun ps _ => ps)
  | [], _, pss => by cases pss <;> simp [HTL]
  | _ :: _, _, [] => by simp [HTL]
  | (k, c) :: cs, h, ps :: pss => by
    simp only [List.map_cons, HTL]
    exact ⟨HT_const (h k c (by simp)) ps, HTL_const (fun k c hc => h k c (List.mem_cons_of_mem _ hc)) pss⟩
end

/-- A node without own entries. -/
theorem HP_compound (n : Nat) {cls : ConsClass Flt} (h : cls.assem = compoundAssem n) {ps : X → List (Param Flt)}
    (hl : ∀ x y, (ps x).length = (ps y).length) : HP A f G cls ps := by
  intro prims hG
  have hv : Tame A (fun _ => Except.ok (Arr.vec [])) := Tame.ok (a := .vec []) (by intro g hg; cases hg)
  simp only [h, compoundAssem]
  by_cases hx : ∃ x, (ps x).length = n
  · obtain ⟨x, hx⟩ := hx
    exact Tame.congr (fun y => by rw [if_pos (by rw [hl y x, hx])]) hv
  · exact Tame.congr (fun y => by rw [if_neg fun h => hx ⟨y, h⟩]) (Tame.error Err.typeError)

theorem HP_empty {cls : ConsClass Flt} (h : cls.assem = fun _ _ => .ok (.vec [])) {ps : X → List (Param Flt)} :
    HP A f G cls ps := by
  intro prims hG
  simp only [h]
  exact Tame.ok (a := .vec []) (by intro g hg; cases hg)

theorem chunk_map {β γ : Type} (g : β → γ) (xs : List β) (sizes : List Nat) :
    chunk (xs.map g) sizes = (chunk xs sizes).map (List.map g) := by
  simp only [chunk, unpack, List.map_map]
  apply List.map_congr_left
  rintro ⟨a, b⟩ _
  simp only [Function.comp, pySlice_map]

/-- What the vector of a constraint gives to its only child. -/
theorem vectorChildParams_one (L : LinSpace A) {q : X → Param Flt} (hq : ParF A q) (total n : Nat) :
    (∃ e, ∀ x, vectorChildParams total [n] [n] [q x] = .error e) ∨
    ∃ q' : X → Param Flt, ParF A q' ∧ ∀ x, vectorChildParams total [n] [n] [q x] = .ok [[q' x]] := by
  have key : ∀ {β : Type} (xs : List β), ∃ c, (∀ y ∈ c, y ∈ xs) ∧ chunk xs [n] = [c] ∧
      ∀ {γ : Type} (g : β → γ), chunk (xs.map g) [n] = [c.map g] := by
    intro β xs
    refine ⟨pySlice xs (some 0) (some ((0 + n : Nat) : Int)), fun y hy => Solver.mem_pySlice hy, rfl, fun g => ?_⟩
    rw [chunk_map]; rfl
  cases hq with
  | num q g hg h =>
    have hg' : A (fun x => g x * 1) := L.muls 1 hg
    obtain ⟨c, hc, e1, e2⟩ := key (List.replicate total (fun x => g x * 1))
    refine .inr ⟨fun x => .arr ((c.take n).map (· x)), .arr _ fun k hk => ?_, fun x => ?_⟩
    · rw [List.eq_of_mem_replicate (hc k (List.mem_of_mem_take hk))]
      exact hg'
    · have := e2 (· x)
      rw [List.map_replicate] at this
      rcases h x with e | ⟨b, e, e'⟩
      · rw [e]
        simp only [vectorChildParams, List.cons_ne_nil, if_false, this, List.zipWith_cons_cons, List.zipWith_nil_left,
          List.map_take]
      · rw [e]
        simp only [e'] at this
        simp only [vectorChildParams, List.cons_ne_nil, if_false, this, List.zipWith_cons_cons, List.zipWith_nil_left,
          List.map_take]
  | arr gs hg =>
    obtain ⟨c, hc, e1, e2⟩ := key gs
    refine .inr ⟨fun x => .arr ((c.take n).map (· x)), .arr _ fun k hk => hg k (hc k (List.mem_of_mem_take hk)),
      fun x => ?_⟩
    simp only [vectorChildParams, List.cons_ne_nil, if_false, e2 (· x), List.zipWith_cons_cons, List.zipWith_nil_left,
      List.map_take]
  | none => exact .inl ⟨.typeError, fun x => rfl⟩
  | seq qs h =>
    obtain ⟨c, hc, e1, e2⟩ := key qs
    refine .inr ⟨fun x => .seq ((c.take n).map (· x)), .seq _ fun k hk => h k (hc k (List.mem_of_mem_take hk)),
      fun x => ?_⟩
    simp only [vectorChildParams, List.cons_ne_nil, if_false, e2 (· x), List.zipWith_cons_cons, List.zipWith_nil_left,
      List.map_take]
  | axis a w h hw hh => exact .inl ⟨.typeError, fun x => rfl⟩

/-- The constraint of a compound with a single child. -/
theorem HT_oneT (L : LinSpace A) {cls : ConsClass Flt} (hcls : cls.assem = compoundAssem 0) {key cn : Str}
    {ctypes : List PrimType} {F : List (Prim Flt) → Py (Arr Flt)} (hF : TameF A f G F) {ks : List Str}
    {ty : List PrimType} {q : X → Param Flt} (hq : ParF A q) :
    HT (HP A f G) (cstr (oneT cls key (con.leaf0 cn ctypes 1 F) ks ty)) (fun x => [q x]) := by
  set C := oneT cls key (con.leaf0 cn ctypes 1 F) ks ty with hC
  have h1 : HP A f G (cstr C).ty (fun x => [q x]) :=
    HP_cstr (c := C) (ps := fun _ => []) L (fun _ => rfl) (HP_compound 0 hcls fun _ _ => rfl) hq
  have hch : cstr C = .mk (cstr C).ty (cstr C).value [(key, cstr (con.leaf0 cn ctypes 1 F))] := rfl
  have hcp : ∀ x, (cstr C).value.childParams [q x] = vectorChildParams 1 [1] [1] [q x] >>= fun cb =>
      .ok (List.zipWith (· ++ ·) [[]] cb) := by
    intro x
    have e : (cstr C).value.childParams [q x] =
      (vectorChildParams 1 [1] [1] [q x] >>= fun cb => .ok (cb.map (· ++ []))) >>= fun cb =>
        .ok (List.zipWith (· ++ ·) [[]] cb) := rfl
    rw [e]
    cases vectorChildParams (K := Flt) 1 [1] [1] [q x] <;> simp [bind, Except.bind]
  have hlf : HP A f G (con.leaf0 cn ctypes 1 F).ty (fun _ => []) := fun prims hG => hF prims hG
  rw [hch]
  simp only [HT]
  refine ⟨h1, ?_⟩
  rcases vectorChildParams_one L hq 1 1 with ⟨e, he⟩ | ⟨q', hq', he⟩
  · exact .inl ⟨e, fun x => by rw [hcp, he]; rfl⟩
  · refine .inr ⟨[fun x => [q' x]], fun x => ?_, ?_⟩
    · rw [hcp, he]; rfl
    · simp only [HTL, and_true]
      exact HT_cstr (ps := fun _ => []) L (fun _ => rfl) hlf hq'

theorem HT_margin (L : LinSpace A) (V : ValA A f) (outer : Bool) (side : con.Side) {q : X → Param Flt}
    (hq : ParF A q) : HT (HP A f G) (cstr (marginT outer side)) (fun x => [q x]) := by
  cases side <;> exact HT_oneT L rfl (tame_midpointDistance L V _) hq

theorem HT_marginArray (L : LinSpace A) (V : ValA A f) (side : con.Side) (n : Nat) {qs : List (X → Param Flt)}
    (hq : ∀ q ∈ qs, ParF A q) :
    HT (HP A f G) (marginArrayT (cstr (marginT true side)) n) (fun x => qs.map (· x)) := by
  simp only [marginArrayT, HT]
  refine ⟨HP_empty rfl, .inr ⟨qs.map fun q x => [q x], fun x => by simp [Function.comp_def], ?_⟩⟩
  rw [HTL_iff]
  intro i kc ps e1 e2
  rw [(marginArray_child e1).1]
  rw [List.getElem?_map, Option.map_eq_some_iff] at e2
  obtain ⟨q, hq', rfl⟩ := e2
  exact HT_margin L V true side (hq q (List.mem_of_getElem? hq'))

theorem HT_thickness (L : LinSpace A) (V : ValA A f) (kind : AxisKind) {q : X → Param Flt} (hq : ParF A q) :
    HT (HP A f G) (thicknessT kind) (fun x => [q x]) := by
  have hp : (∃ e, ∀ x, ct.axisThicknessParams [q x] = .error e) ∨
      ∃ q' : X → Param Flt, ParF A q' ∧ ∀ x, ct.axisThicknessParams [q x] = .ok [[q' x]] := by
    cases hq with
    | num q g hg h =>
      refine .inl ⟨.attributeError, fun x => ?_⟩
      rcases h x with e | ⟨b, e, _⟩ <;> rw [e] <;> rfl
    | arr gs hg => exact .inl ⟨.attributeError, fun x => rfl⟩
    | none => exact .inr ⟨fun _ => .num 0, .num _ _ L.zero fun _ => .inl rfl, fun x => rfl⟩
    | seq qs h => exact .inl ⟨.attributeError, fun x => rfl⟩
    | axis a w h hw hh =>
      have hd : ∀ x, ct.axisThicknessParams [Param.axis { a with figWidth := w x, figHeight := h x }] =
          (ct.axisDim (ct.setLabelVisible { a with figWidth := w x, figHeight := h x } false)).map
            fun t => [[.num t]] := by
        intro x
        simp only [ct.axisThicknessParams, ct.getAxisThickness]
        cases ct.axisDim (ct.setLabelVisible { a with figWidth := w x, figHeight := h x } false) <;> rfl
      have hx : ∀ x, ct.axisDim (ct.setLabelVisible { a with figWidth := w x, figHeight := h x } false) =
          match a.tightbbox false with
          | none => .ok 0
          | some b =>
            if a.ticksPosition = k!"bottom" then .ok (h x * (a.axesBbox.ymin - b.ymin))
            else if a.ticksPosition = k!"top" then .ok (h x * (b.ymax - a.axesBbox.ymax))
            else if a.ticksPosition = k!"left" then .ok (w x * (a.axesBbox.xmin - b.xmin))
            else if a.ticksPosition = k!"right" then .ok (w x * (b.xmax - a.axesBbox.xmax))
            else .error .valueError := by
        intro x
        unfold ct.axisDim
        simp only [ct.setLabelVisible]
        cases a.tightbbox false <;> rfl
      simp only [hd, hx]
      cases a.tightbbox false with
      | none => exact .inr ⟨fun _ => .num 0, .num _ _ L.zero fun _ => .inl rfl, fun x => rfl⟩
      | some b =>
        by_cases t1 : a.ticksPosition = k!"bottom"
        · exact .inr ⟨fun x => .num (h x * (a.axesBbox.ymin - b.ymin)), .num _ _ (L.muls _ hh) fun _ => .inl rfl,
            fun x => by simp only [if_pos t1]; rfl⟩
        by_cases t2 : a.ticksPosition = k!"top"
        · exact .inr ⟨fun x => .num (h x * (b.ymax - a.axesBbox.ymax)), .num _ _ (L.muls _ hh) fun _ => .inl rfl,
            fun x => by simp only [if_neg t1, if_pos t2]; rfl⟩
        by_cases t3 : a.ticksPosition = k!"left"
        · exact .inr ⟨fun x => .num (w x * (a.axesBbox.xmin - b.xmin)), .num _ _ (L.muls _ hw) fun _ => .inl rfl,
            fun x => by simp only [if_neg t1, if_neg t2, if_pos t3]; rfl⟩
        by_cases t4 : a.ticksPosition = k!"right"
        · exact .inr ⟨fun x => .num (w x * (b.xmax - a.axesBbox.xmax)), .num _ _ (L.muls _ hw) fun _ => .inl rfl,
            fun x => by simp only [if_neg t1, if_neg t2, if_neg t3, if_pos t4]; rfl⟩
        · exact .inl ⟨.valueError, fun x => by simp only [if_neg t1, if_neg t2, if_neg t3, if_neg t4]; rfl⟩
  have main : ∀ (cls : ConsClass Flt) (v : ConsVal Flt) (cn : Str) (d : Arr Flt) (types : List PrimType),
      cls.assem = compoundAssem 1 → v.childParams = ct.axisThicknessParams →
      HT (HP A f G) (.mk cls v [(k!"Height", cstr (con.leaf0 cn types 1 (con.directedLengthA d)))]) (fun x => [q x]) := by
    intro cls v cn d types h1 h2
    simp only [HT, h2]
    refine ⟨HP_compound 1 h1 fun _ _ => rfl, ?_⟩
    rcases hp with ⟨e, he⟩ | ⟨q', hq', he⟩
    · exact .inl ⟨e, he⟩
    · refine .inr ⟨[fun x => [q' x]], he, ?_⟩
      simp only [HTL, and_true]
      exact HT_cstr (ps := fun _ => []) L (fun _ => rfl) (fun prims hG => tame_directedLength L V _ prims hG) hq'
  cases kind
  · exact main _ _ _ _ _ rfl rfl
  · exact main _ _ _ _ _ rfl rfl

/-! ## The affine constraints -/

/-- The parameters of a shipped constraint: the lengths are in the class, the others do not depend on `x`. -/
def ParsF (A : (X → Flt) → Prop) (sh : Shipped) (qs : List (X → Param Flt)) : Prop :=
  ∀ i q, qs[i]? = some q → if sh.lengths i then ParF A q else ∃ p, q = fun _ => p

theorem ParsF.all {sh : Shipped} {qs : List (X → Param Flt)} (h : ParsF A sh qs) (hs : ∀ i, sh.lengths i = true) :
    ∀ q ∈ qs, ParF A q := by
  intro q hq
  obtain ⟨i, hi⟩ := List.mem_iff_getElem?.mp hq
  have := h i q hi
  rwa [if_pos (hs i)] at this

theorem consts_eq {qs : List (X → Param Flt)} (h : ∀ q ∈ qs, ∃ p, q = fun _ => p) :
    ∃ ps : List (Param Flt), (fun x => qs.map (· x)) = fun _ : X => ps := by
  induction qs with
  | nil => exact ⟨[], rfl⟩
  | cons q qs ih =>
    obtain ⟨p, rfl⟩ := h q (by simp)
    obtain ⟨ps, e⟩ := ih fun q hq => h q (List.mem_cons_of_mem _ hq)
    exact ⟨p :: ps, by funext x; simp only [List.map_cons]; rw [congrFun e x]⟩

theorem ParsF.const {sh : Shipped} {qs : List (X → Param Flt)} (h : ParsF A sh qs) (hs : ∀ i, sh.lengths i = false) :
    ∃ ps : List (Param Flt), (fun x => qs.map (· x)) = fun _ : X => ps := by
  refine consts_eq fun q hq => ?_
  obtain ⟨i, hi⟩ := List.mem_iff_getElem?.mp hq
  have := h i q hi
  rw [hs] at this
  simpa using this

theorem ParsF.second {sh : Shipped} {qs : List (X → Param Flt)} (h : ParsF A sh qs) (hs : ∀ i, sh.lengths i = (i == 1))
    (hl : qs.length = 2) : ∃ p q, ParF A q ∧ (fun x => qs.map (· x)) = fun x : X => [p] ++ [q x] := by
  match qs, hl with
  | [p, q], _ =>
    have h0 := h 0 p rfl
    have h1 := h 1 q rfl
    rw [hs] at h0 h1
    obtain ⟨p, rfl⟩ : ∃ p', p = fun _ => p' := by simpa using h0
    exact ⟨p, q, by simpa using h1, rfl⟩

theorem ParsF.one {sh : Shipped} {qs : List (X → Param Flt)} (h : ParsF A sh qs) (hs : ∀ i, sh.lengths i = true)
    (hl : qs.length = 1) : ∃ q, ParF A q ∧ (fun x => qs.map (· x)) = fun x : X => [q x] := by
  match qs, hl with
  | [q], _ =>
    have h0 := h 0 q rfl
    rw [hs] at h0
    exact ⟨q, by simpa using h0, rfl⟩

theorem HT_cstr0 (L : LinSpace A) {name : Str} {types : List PrimType} {size : Nat}
    {F : List (Prim Flt) → Py (Arr Flt)} (hF : TameF A f G F) {sh : Shipped} {qs : List (X → Param Flt)}
    (h : ParsF A sh qs) (hs : ∀ i, sh.lengths i = true) (hl : qs.length = 1) :
    HT (HP A f G) (cstr (con.leaf0 name types size F)) (fun x => qs.map (· x)) := by
  obtain ⟨q, hq, e⟩ := h.one hs hl
  rw [e]
  exact HT_cstr (ps := fun _ => []) L (fun _ => rfl) (fun prims hG => hF prims hG) hq

theorem HT_cstr1 (L : LinSpace A) {name : Str} {types : List PrimType} {pt : ParamType} {size : Nat}
    {F : List (Prim Flt) → Param Flt → Py (Arr Flt)} (hF : ∀ p, TameF A f G fun ps => F ps p) {sh : Shipped}
    {qs : List (X → Param Flt)} (h : ParsF A sh qs) (hs : ∀ i, sh.lengths i = (i == 1)) (hl : qs.length = 2) :
    HT (HP A f G) (cstr (con.leaf1 name types pt size F)) (fun x => qs.map (· x)) := by
  obtain ⟨p, q, hq, e⟩ := h.second hs hl
  rw [e]
  exact HT_cstr (ps := fun _ => [p]) L (fun _ => rfl) (fun prims hG => hF p prims hG) hq

theorem tameP_compound (n : Nat) {cls : ConsClass Flt} {v : ConsVal Flt} (h : cls.assem = compoundAssem n) :
    TameP A f G cls v := fun params => HP_compound (ps := fun _ => params) n h fun _ _ => rfl

theorem tameP_empty {cls : ConsClass Flt} {v : ConsVal Flt} (h : cls.assem = fun _ _ => .ok (.vec [])) :
    TameP A f G cls v := fun params => HP_empty (ps := fun _ => params) h

theorem all_faces (L : LinSpace A) (V : ValA A f) (side : con.Side) : AllN (TameP A f G) (facesT side) := by
  refine AllN_mk.mpr ⟨tameP_compound 0 rfl, ?_⟩
  intro k c hc
  simp only [List.mem_singleton, Prod.mk.injEq] at hc
  rw [hc.2]
  exact tameP_assem1 (tame_coincidentLines L V) _ _ _ _

/-- The affine constraints. -/
theorem HT_affine (L : LinSpace A) (V : ValA A f) {sh : Shipped} (ha : sh.IsAffine) {c : Cons Flt}
    (e : sh.build = .ok c) {qs : List (X → Param Flt)} (h : ParsF A sh qs)
    (hl : qs.length = c.value.sig.paramTypes.length) : HT (HP A f G) c (fun x => qs.map (· x)) := by
  cases sh with
  | fix =>
    rw [eq_of_ok ct_fix_eq e] at hl ⊢
    exact HT_cstr0 L (tame_coordinate V) h (fun _ => rfl) hl
  | xDistance =>
    rw [eq_of_ok ct_xDistance_eq e] at hl ⊢
    exact HT_cstr0 L (tame_directedDistance L V _) h (fun _ => rfl) hl
  | yDistance =>
    rw [eq_of_ok ct_yDistance_eq e] at hl ⊢
    exact HT_cstr0 L (tame_directedDistance L V _) h (fun _ => rfl) hl
  | xLength =>
    rw [eq_of_ok ct_xLength_eq e] at hl ⊢
    exact HT_cstr0 L (tame_directedLength L V _) h (fun _ => rfl) hl
  | yLength =>
    rw [eq_of_ok ct_yLength_eq e] at hl ⊢
    exact HT_cstr0 L (tame_directedLength L V _) h (fun _ => rfl) hl
  | midpointXDistance =>
    rw [eq_of_ok ct_midpointXDistance_eq e] at hl ⊢
    exact HT_cstr0 L (tame_midpointDistance L V _) h (fun _ => rfl) hl
  | midpointYDistance =>
    rw [eq_of_ok ct_midpointYDistance_eq e] at hl ⊢
    exact HT_cstr0 L (tame_midpointDistance L V _) h (fun _ => rfl) hl
  | directedDistance =>
    rw [eq_of_ok ct_directedDistance_eq e] at hl ⊢
    exact HT_cstr1 L (tame_withDirection (tame_directedDistance L V)) h (fun _ => rfl) hl
  | directedLength =>
    rw [eq_of_ok ct_directedLength_eq e] at hl ⊢
    exact HT_cstr1 L (tame_withDirection (tame_directedLength L V)) h (fun _ => rfl) hl
  | coincident =>
    cases e
    obtain ⟨ps, e⟩ := h.const fun _ => rfl
    rw [e]
    exact HT_const (tameP_assem0 (tame_coincident L V) _ _ _) ps
  | vertical =>
    cases e
    obtain ⟨ps, e⟩ := h.const fun _ => rfl
    rw [e]
    exact HT_const (tameP_assem0 (tame_vertical L V) _ _ _) ps
  | horizontal =>
    cases e
    obtain ⟨ps, e⟩ := h.const fun _ => rfl
    rw [e]
    exact HT_const (tameP_assem0 (tame_horizontal L V) _ _ _) ps
  | coincidentLines =>
    cases e
    obtain ⟨ps, e⟩ := h.const fun _ => rfl
    rw [e]
    exact HT_const (tameP_assem1 (tame_coincidentLines L V) _ _ _ _) ps
  | box =>
    obtain ⟨ps, e'⟩ := h.const fun _ => rfl
    rw [e', eq_of_ok box_eq e]
    refine HT_const (AllN_mk.mpr ⟨tameP_compound 0 rfl, ?_⟩) ps
    intro k c hc
    simp only [List.mem_cons, List.not_mem_nil, or_false, Prod.mk.injEq] at hc
    rcases hc with ⟨_, rfl⟩ | ⟨_, rfl⟩ | ⟨_, rfl⟩ | ⟨_, rfl⟩
    · exact tameP_assem0 (tame_horizontal L V) _ _ _
    · exact tameP_assem0 (tame_horizontal L V) _ _ _
    · exact tameP_assem0 (tame_vertical L V) _ _ _
    · exact tameP_assem0 (tame_vertical L V) _ _ _
  | coincidentOutwardFaces side =>
    obtain ⟨ps, e'⟩ := h.const fun _ => rfl
    rw [e', eq_of_ok (faces_eq side) e]
    exact HT_const (all_faces L V side) ps
  | positionAxis axis side twin =>
    obtain ⟨ps, e'⟩ := h.const fun _ => rfl
    rw [e', eq_of_ok (position_eq axis side twin) e]
    refine HT_const ?_ ps
    cases twin
    · refine AllN_mk.mpr ⟨tameP_compound 0 rfl, ?_⟩
      intro k c hc
      simp only [List.mem_cons, List.not_mem_nil, or_false, Prod.mk.injEq] at hc
      rw [hc.2]
      exact all_faces L V _
    · refine AllN_mk.mpr ⟨tameP_compound 0 rfl, ?_⟩
      intro k c hc
      simp only [List.mem_cons, List.not_mem_nil, or_false, Prod.mk.injEq] at hc
      rcases hc with ⟨_, rfl⟩ | ⟨_, rfl⟩ <;> exact all_faces L V _
  | width =>
    rw [eq_of_ok ct_width_eq e] at hl ⊢
    obtain ⟨q, hq, e⟩ := h.one (fun _ => rfl) hl
    rw [e]
    exact HT_oneT L rfl (tame_directedLength L V _) hq
  | height =>
    rw [eq_of_ok ct_height_eq e] at hl ⊢
    obtain ⟨q, hq, e⟩ := h.one (fun _ => rfl) hl
    rw [e]
    exact HT_oneT L rfl (tame_directedLength L V _) hq
  | axisThickness axis =>
    rw [eq_of_ok (thickness_eq axis) e] at hl ⊢
    obtain ⟨q, hq, e⟩ := h.one (fun _ => rfl) (by rw [hl]; cases axis <;> rfl)
    rw [e]
    exact HT_thickness L V axis hq
  | margin outer side =>
    rw [eq_of_ok (ct_margin_eq outer side) e] at hl ⊢
    obtain ⟨q, hq, e⟩ := h.one (fun _ => rfl) (by rw [hl, (margin_sig outer side).2])
    rw [e]
    exact HT_margin L V outer side hq
  | outerMarginArray n side =>
    rw [eq_of_ok (outerMarginArray_eq (ct_margin_eq true side) n) e]
    exact HT_marginArray L V side n (h.all fun _ => rfl)
  | length | relativeLength | orthogonal | parallel | angle | collinear | pointOnLineDistance
  | pointToLineDistance | relativePointOnLineDistance | aspectRatio | align | rectilinearGrid | grid
  | positionAxisLabel => exact ha.elim

mutual
/-- The parameter trees can be built for all `x` alike. -/
theorem HT.transfer {H : FamPred X} : ∀ {c : Cons Flt} {ps : X → List (Param Flt)} (_ : HT H c ps) (x y : X),
    (c.Aligned (ps x) → c.Aligned (ps y)) ∧
      ((∃ t, c.rootParams (ps x) = .ok t) → ∃ t, c.rootParams (ps y) = .ok t)
  | .mk cls v cs, ps, h, x, y => by
    simp only [HT] at h
    rcases h.2 with ⟨e, he⟩ | ⟨pss, he, hL⟩
    · refine ⟨fun ha => ?_, ?_⟩
      · refine ⟨ha.1, fun pss hp => ?_⟩
        rw [he] at hp; cases hp
      · rintro ⟨t, ht⟩
        simp [rootParams, he, bind, Except.bind] at ht
    · obtain ⟨h1, h2⟩ := HTL.transfer hL x y
      refine ⟨fun ha => ?_, ?_⟩
      · obtain ⟨a1, a2⟩ := ha.2 _ (he x)
        refine ⟨ha.1, fun qss hp => ?_⟩
        rw [he] at hp
        cases hp
        exact ⟨by simpa using a1, h1 a2⟩
      · rintro ⟨t, ht⟩
        simp only [rootParams, he, py_bind_ok, Except.ok.injEq, exists_eq_left'] at ht
        obtain ⟨ns, hns, _⟩ := ht
        obtain ⟨ms, hms⟩ := h2 ⟨ns, hns⟩
        exact ⟨_, by simp only [rootParams, he, hms, bind, Except.bind]; rfl⟩
theorem HTL.transfer {H : FamPred X} : ∀ {cs : List (Str × Cons Flt)} {pss : List (X → List (Param Flt))}
    (_ : HTL H cs pss) (x y : X),
    (AlignedL cs (pss.map (· x)) → AlignedL cs (pss.map (· y))) ∧
      ((∃ t, rootParamsL cs (pss.map (· x)) = .ok t) → ∃ t, rootParamsL cs (pss.map (· y)) = .ok t)
  | [], pss, _, x, y => by
    refine ⟨fun _ => ?_, fun _ => ⟨[], ?_⟩⟩
    · cases pss <;> simp [AlignedL]
    · cases pss <;> rfl
  | (k, c) :: cs, [], _, x, y => ⟨fun h => h, fun h => h⟩
  | (k, c) :: cs, ps :: pss, h, x, y => by
    simp only [HTL] at h
    obtain ⟨a1, a2⟩ := HT.transfer h.1 x y
    obtain ⟨b1, b2⟩ := HTL.transfer h.2 x y
    simp only [List.map_cons, AlignedL, rootParamsL, py_bind_ok, Except.ok.injEq]
    refine ⟨fun ⟨h1, h2⟩ => ⟨a1 h1, b1 h2⟩, ?_⟩
    rintro ⟨_, t, ht, ts, hts, _⟩
    obtain ⟨u, hu⟩ := a2 ⟨t, ht⟩
    obtain ⟨us, hus⟩ := b2 ⟨ts, hts⟩
    exact ⟨_, u, hu, us, hus, rfl⟩
end

theorem HT.fits {H : FamPred X} {c : Cons Flt} {ps : X → List (Param Flt)} (h : HT H c ps) {ks : List Str} {x : X}
    (hf : c.Fits ks (ps x)) (y : X) : c.Fits ks (ps y) :=
  ⟨hf.wf, (h.transfer x y).1 hf.aligned, hf.keys, (h.transfer x y).2 hf.params⟩

end

end MplLayout
