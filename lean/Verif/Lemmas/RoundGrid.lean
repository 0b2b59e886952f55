import Verif.Lemmas.Grid
import Verif.Lemmas.Round
import Verif.Lemmas.Drawing

/-! Grids and axis positions in floating point arithmetic. -/

namespace MplLayout

open Flt Cons

variable {f : FloatFormat}

/-! ## Zero residual -/

/-- The tree evaluates, and all entries are zero exactly if `P` holds. -/
def REvS (c : Cons (Rnd f)) (prims : List (Prim (Rnd f))) (params : List (Param (Rnd f))) (P : Prop) : Prop :=
  ∃ v, GEv c prims params v ∧ ((∀ x ∈ v, x.val = fin 0) ↔ P)

theorem REvS.of {c : Cons (Rnd f)} {prims : List (Prim (Rnd f))} {params : List (Param (Rnd f))} {v : List (Rnd f)}
    (h : GEv c prims params v) {P : Prop} (hp : (∀ x ∈ v, x.val = fin 0) ↔ P) : REvS c prims params P :=
  ⟨v, h, hp⟩

theorem REvS.congr {c : Cons (Rnd f)} {prims : List (Prim (Rnd f))} {params : List (Param (Rnd f))} {P Q : Prop}
    (h : REvS c prims params P) (hp : P ↔ Q) : REvS c prims params Q := by
  obtain ⟨v, h1, h2⟩ := h
  exact ⟨v, h1, h2.trans hp⟩

theorem revL_of {prims : List (Prim (Rnd f))} (cs : List (Str × Cons (Rnd f))) :
    ∀ (kss : List (List Str)) (pss : List (List (Param (Rnd f)))) (P : Nat → Prop),
    kss.length = cs.length → cs.length ≤ pss.length →
    (∀ (i : Nat) kc ks ps, cs[i]? = some kc → kss[i]? = some ks → pss[i]? = some ps →
      ∃ cps, pyMap (resolve prims) ks = .ok cps ∧ REvS kc.2 cps ps (P i)) →
    ∃ vs, GEvL prims cs kss pss vs ∧
      ((∀ x ∈ vs.flatten, x.val = fin 0) ↔ ∀ i, i < cs.length → P i) := by
  induction cs with
  | nil =>
    intro kss pss P h1 _ _
    cases kss with
    | nil => exact ⟨[], .nil _, by simp⟩
    | cons => simp at h1
  | cons kc cs ih =>
    intro kss pss P h1 h2 h
    obtain ⟨k, c⟩ := kc
    cases kss with
    | nil => simp at h1
    | cons ks kss =>
      cases pss with
      | nil => simp at h2
      | cons ps pss =>
        obtain ⟨cps, hk, v, hv, hv'⟩ := h 0 (k, c) ks ps rfl rfl rfl
        obtain ⟨vs, hvs, hvs'⟩ := ih kss pss (fun i => P (i + 1)) (by simpa using h1)
          (by simpa using h2) (fun i kc ks ps a b d => h (i + 1) kc ks ps (by simpa using a)
            (by simpa using b) (by simpa using d))
        refine ⟨v :: vs, .cons hk hv hvs, ?_⟩
        simp only [List.flatten_cons, List.mem_append, or_imp, forall_and, hv', hvs',
          List.length_cons]
        constructor
        · rintro ⟨a, b⟩ i hi
          cases i with
          | zero => exact a
          | succ i => exact b i (by omega)
        · intro a
          exact ⟨a 0 (by omega), fun i hi => a (i + 1) (by omega)⟩

theorem REvS.compound {cls : ConsClass (Rnd f)} {kss : List (List Str)}
    {cp : List (Param (Rnd f)) → Py (List (List (Param (Rnd f))))} {sig : ConsSig}
    {cs : List (Str × Cons (Rnd f))} {prims : List (Prim (Rnd f))} {params : List (Param (Rnd f))}
    {pss : List (List (Param (Rnd f)))} {P : Nat → Prop}
    (hn : (cs.map (·.1)).Nodup) (hown : cls.assem prims params = .ok (.vec []))
    (hcp : cp params = .ok pss)
    (hacc : List.Forall₂ (fun (p : Prim (Rnd f)) t => p.ty.IsA t) prims sig.primTypes)
    (hpar : params.length = sig.paramTypes.length)
    (hk : kss.length = cs.length) (hp : cs.length ≤ pss.length)
    (h : ∀ (i : Nat) kc ks ps, cs[i]? = some kc → kss[i]? = some ks → pss[i]? = some ps →
      ∃ cps, pyMap (resolve prims) ks = .ok cps ∧ REvS kc.2 cps ps (P i)) :
    REvS (.mk cls ⟨kss, cp, sig⟩ cs) prims params (∀ i, i < cs.length → P i) := by
  obtain ⟨vs, h1, h2⟩ := revL_of cs kss pss P hk hp h
  exact ⟨_, GEv.compound hn hown hcp hacc hpar h1, h2⟩

theorem rforall₂_replicate {prims : List (Prim (Rnd f))} {n : Nat} (hl : prims.length = n)
    (h : ∀ p ∈ prims, p.ty.IsA .quadrilateral) :
    List.Forall₂ (fun (p : Prim (Rnd f)) t => p.ty.IsA t) prims (List.replicate n .quadrilateral) :=
  forall₂_replicate_take hl h

/-- `transform_map` of a construction of two primitives. -/
theorem REvS.map2 {c : Cons (Rnd f)} {t : PrimType} (ht : c.value.sig.primTypes = [t, t])
    {n : Nat} {prims : List (Prim (Rnd f))} (hl : prims.length = n + 1)
    (hacc : ∀ p ∈ prims, p.ty.IsA t) {params : List (Param (Rnd f))}
    (hpar : params.length = n * c.value.sig.paramTypes.length) {P : Nat → Prop}
    (h : ∀ i p q, i < n → prims[i]? = some p → prims[n]? = some q →
      REvS c [p, q] ((params.drop (i * c.value.sig.paramTypes.length)).take
        c.value.sig.paramTypes.length) (P i)) :
    REvS (mapCons c (n + 1)) prims params (∀ i, i < n → P i) := by
  have hnum : n + 1 + 1 - c.value.sig.primTypes.length = n := by rw [ht]; simp
  unfold mapCons
  simp only [hnum]
  have hlen : (((List.range n).map fun i => c.ty.name ++ natStr i).zip
      (List.replicate n c)).length = n := by simp
  have key := REvS.compound (P := P)
    (cls := { name := k!"Map" ++ c.ty.name, assem := fun _ _ => .ok (.vec []) })
    (kss := (List.range n).map fun i => (k!"arg" ++ natStr i) ::
        (List.range (c.value.sig.primTypes.length - 1)).map fun j => k!"arg" ++ natStr (n + j))
    (cp := fun params => .ok ((List.range n).map fun i =>
      pySlice params (some ((i * c.value.sig.paramTypes.length : Nat) : Int))
        (some (((i + 1) * c.value.sig.paramTypes.length : Nat) : Int))))
    (sig := ⟨(List.replicate n (c.value.sig.primTypes.take 1)).flatten ++
      c.value.sig.primTypes.drop 1, (List.replicate n c.value.sig.paramTypes).flatten, 0⟩)
    (cs := ((List.range n).map fun i => c.ty.name ++ natStr i).zip (List.replicate n c))
    (prims := prims) (params := params) ?_ rfl rfl ?_ ?_ ?_ ?_ ?_
  · rw [hlen] at key
    exact key
  · rw [List.map_fst_zip (by simp)]; exact mapKeys_nodup _ _
  · have : (List.replicate n (c.value.sig.primTypes.take 1)).flatten ++ c.value.sig.primTypes.drop 1
        = List.replicate (n + 1) t := by
      rw [ht]
      simp [List.replicate_succ']
    simp only [this]
    exact forall₂_replicate_take hl hacc
  · simp [hpar]
  · simp
  · simp
  · intro i kc ks ps h1 h2 h3
    have hi : i < n := by
      have := (List.getElem?_eq_some_iff.mp h1).1
      rwa [hlen] at this
    have hkc : kc.2 = c := List.eq_of_mem_replicate
      (List.of_mem_zip (a := kc.1) (b := kc.2) (List.mem_of_getElem? h1)).2
    simp only [List.getElem?_map, List.getElem?_range hi, Option.map_some, Option.some.injEq]
      at h2 h3
    subst h2 h3
    have g1 : prims[i]? = some prims[i] := List.getElem?_eq_getElem (by omega)
    have g2 : prims[n]? = some prims[n] := List.getElem?_eq_getElem (by omega)
    refine ⟨[prims[i], prims[n]], ?_, ?_⟩
    · rw [ht]
      exact pyMap2 (resolve_argKey_ok.mpr g1) (resolve_argKey_ok.mpr g2)
    · have hle : (i + 1) * c.value.sig.paramTypes.length ≤ params.length := by
        rw [hpar]; exact Nat.mul_le_mul_right _ hi
      rw [hkc, pySlice_block _ _ (Nat.mul_le_mul_right _ (by omega)) hle]
      have : (i + 1) * c.value.sig.paramTypes.length - i * c.value.sig.paramTypes.length
        = c.value.sig.paramTypes.length := by rw [Nat.add_mul]; omega
      rw [this]
      exact h i _ _ hi g1 g2


theorem revS_two {cls : ConsClass (Rnd f)} {k1 k2 : Str} {c1 c2 : Cons (Rnd f)} {ks1 ks2 : List Str}
    {prims cps1 cps2 : List (Prim (Rnd f))} {sig : ConsSig} {P1 P2 : Prop} (hne : k1 ≠ k2)
    (hown : cls.assem prims [] = .ok (.vec []))
    (hacc : List.Forall₂ (fun (p : Prim (Rnd f)) t => p.ty.IsA t) prims sig.primTypes)
    (hpar : sig.paramTypes = [])
    (h1 : pyMap (resolve prims) ks1 = .ok cps1) (h2 : pyMap (resolve prims) ks2 = .ok cps2)
    (e1 : REvS c1 cps1 [] P1) (e2 : REvS c2 cps2 [] P2) :
    REvS (.mk cls ⟨[ks1, ks2], fun _ => .ok [[], []], sig⟩ [(k1, c1), (k2, c2)]) prims []
      (P1 ∧ P2) := by
  have := REvS.compound (P := fun i => if i = 0 then P1 else P2) (cls := cls) (kss := [ks1, ks2])
    (cp := fun _ => .ok [[], []]) (sig := sig) (cs := [(k1, c1), (k2, c2)]) (prims := prims)
    (params := []) (by simp [hne]) hown rfl hacc (by simp [hpar]) rfl (by simp) (by
      intro i kc ks ps a b d
      match i with
      | 0 =>
        simp only [List.getElem?_cons_zero, Option.some.injEq] at a b d
        subst a b d
        exact ⟨_, h1, by simpa using e1⟩
      | 1 =>
        simp only [List.getElem?_cons_succ, List.getElem?_cons_zero, Option.some.injEq] at a b d
        subst a b d
        exact ⟨_, h2, by simpa using e2⟩
      | n + 2 => simp at a)
  refine this.congr ⟨fun h => ⟨by simpa using h 0 (by simp), by simpa using h 1 (by simp)⟩, ?_⟩
  rintro ⟨a, b⟩ i hi
  by_cases h0 : i = 0 <;> simp [h0, a, b]



theorem LineAt.getInt0 {K : Type} {l : Prim K} {a b : K × K} (h : LineAt l a b) :
    ∃ p, l.getInt 0 = .ok p ∧ PointAt p a := by
  obtain ⟨_, p, q, hc, hp, hq⟩ := h
  refine ⟨p, ?_, hp⟩
  cases l; simp only [Node.children_mk] at hc; subst hc; rfl

/-- `Collinear`, as computed. -/
theorem gev_collinear {K : Type} [PyNum K] {l l' : Prim K} {a b c d : K × K} (h : LineAt l a b)
    (h' : LineAt l' c d) : GEv ct.collinear [l, l'] []
    [(b.1 - a.1) * (d.2 - c.2) - (b.2 - a.2) * (d.1 - c.1),
     (b.1 - a.1) * (a.2 - c.2) - (b.2 - a.2) * (a.1 - c.1)] := by
  obtain ⟨p, hp, hp'⟩ := LineAt.getInt0 h
  obtain ⟨q, hq, hq'⟩ := LineAt.getInt0 h'
  have hl : primInit (K := K) .line ⟨0, []⟩ [k!"Point0", k!"Point1"] [q, p]
      = .ok (.mk .line ⟨0, []⟩ [(k!"Point0", q), (k!"Point1", p)]) := by
    have h1 := isA_point hp'.1
    have h2 := isA_point hq'.1
    cases p; cases q
    simp only [Node.ty_mk] at h1 h2
    subst h1 h2
    rfl
  have hl2 : LineAt (.mk .line ⟨0, []⟩ [(k!"Point0", q), (k!"Point1", p)]) c a :=
    ⟨.refl _, _, _, rfl, hq', hp'⟩
  refine GEv.leaf0 (.cons h.1 (.cons h'.1 .nil)) (a := .vec _) ?_
  simp only [ct.collinearA, hp, hq, hl, ct.parallelA, h.vec, h'.vec, hl2.vec, bind, Except.bind]
  rfl

/-- `CoincidentLines(reverse=True)`, as computed. -/
theorem gev_coincidentLines {K : Type} [PyNum K] {l l' : Prim K} {a b c d : K × K} (h : LineAt l a b)
    (h' : LineAt l' c d) : GEv ct.coincidentLines [l, l'] [.bool true]
    [b.1 - c.1, b.2 - c.2, a.1 - d.1, a.2 - d.2] := by
  obtain ⟨p0, p1, g0, g1, hp0, hp1⟩ := LineAt.points h
  obtain ⟨p0', p1', g0', g1', hp0', hp1'⟩ := LineAt.points h'
  refine GEv.leaf1 (.cons h.1 (.cons h'.1 .nil)) (a := .vec _) ?_
  simp only [ct.coincidentLinesA, Param.truthy, g0, g1, g0', g1', bind, Except.bind, if_true,
    ct.coincidentA, hp0.2, hp1.2, hp0'.2, hp1'.2]
  rfl

/-- The tree of `CoincidentOutwardFaces(side)`. -/
def gFaces {K : Type} [PyNum K] (side : con.Side) : Cons K :=
  .mk { name := k!"CoincidentOutwardFaces", assem := compoundAssem 0 }
    ⟨[match side with
      | .bottom => [k!"arg0/Line0", k!"arg1/Line2"]
      | .top => [k!"arg0/Line2", k!"arg1/Line0"]
      | .left => [k!"arg0/Line3", k!"arg1/Line1"]
      | .right => [k!"arg0/Line1", k!"arg1/Line3"]],
      fun _ => .ok [[.bool true]], ⟨[.quadrilateral, .quadrilateral], [], 0⟩⟩
    [(k!"CoincidentLines", ct.coincidentLines)]

theorem gFaces_eq {K : Type} [PyNum K] (side : con.Side) :
    (ct.coincidentOutwardFaces side : Py (Cons K)) = .ok (gFaces side) := by
  cases side <;> rfl

/-- The residual of `CoincidentOutwardFaces(side)`. -/
def gFaceVal {K : Type} [PyNum K] (side : con.Side) (a b c d a' b' c' d' : K × K) : List K :=
  let e := edge side a b c d
  let f := edge side.opposite a' b' c' d'
  [e.2.1 - f.1.1, e.2.2 - f.1.2, e.1.1 - f.2.1, e.1.2 - f.2.2]

theorem gev_faces {K : Type} [PyNum K] {q q' : Prim K} {a b c d a' b' c' d' : K × K} (h : QuadAt q a b c d)
    (h' : QuadAt q' a' b' c' d') (side : con.Side) :
    GEv (gFaces side) [q, q'] [] (gFaceVal side a b c d a' b' c' d') := by
  obtain ⟨l0, l1, l2, l3, h0, h1, h2, h3, g0, g1, g2, g3⟩ := gquad_resolve h [q']
  obtain ⟨m0, m1, m2, m3, i0, i1, i2, i3, j0, j1, j2, j3⟩ := gquad_resolve1 (q0 := q) h' []
  have hacc : List.Forall₂ (fun (p : Prim K) t => p.ty.IsA t) [q, q']
    [.quadrilateral, .quadrilateral] := .cons h.1 (.cons h'.1 .nil)
  cases side
  · exact GEv.compound (vs := [_]) (by simp) rfl rfl hacc rfl
      (.cons (pyMap2 g0 j2) (gev_coincidentLines h0 i2) (.nil _))
  · exact GEv.compound (vs := [_]) (by simp) rfl rfl hacc rfl
      (.cons (pyMap2 g2 j0) (gev_coincidentLines h2 i0) (.nil _))
  · exact GEv.compound (vs := [_]) (by simp) rfl rfl hacc rfl
      (.cons (pyMap2 g3 j1) (gev_coincidentLines h3 i1) (.nil _))
  · exact GEv.compound (vs := [_]) (by simp) rfl rfl hacc rfl
      (.cons (pyMap2 g1 j3) (gev_coincidentLines h1 i3) (.nil _))

/-- The tree of `PositionXAxis(side, twin)` / `PositionYAxis(side, twin)`. -/
def gPosition {K : Type} [PyNum K] (kind : AxisKind) (side : con.Side) (twin : Bool) : Cons K :=
  let cls : ConsClass K :=
    { name := positionName kind, assem := compoundAssem 0 }
  if twin then
    .mk cls ⟨[[k!"arg0/Frame", k!"arg0/" ++ axisBoxKey kind],
        [k!"arg0/Frame", k!"arg0/" ++ twinBoxKey kind]], fun _ => .ok [[], []], ⟨[.axes], [], 0⟩⟩
      [(k!"AlignOutside", gFaces side), (k!"TwinAlignOutside", gFaces side.opposite)]
  else
    .mk cls ⟨[[k!"arg0/Frame", k!"arg0/" ++ axisBoxKey kind]], fun _ => .ok [[]],
      ⟨[.axes], [], 0⟩⟩ [(k!"AlignOutside", gFaces side)]

theorem gPosition_eq {K : Type} [PyNum K] (kind : AxisKind) (side : con.Side) (twin : Bool) :
    (ct.positionAxis kind side twin : Py (Cons K)) = .ok (gPosition kind side twin) := by
  cases kind <;> cases side <;> cases twin <;> rfl

variable {K : Type} [PyNum K] {ax q q' : Prim K} {a b c d a' b' c' d' : K × K}

theorem gev_position (hax : ax.ty.IsA .axes) (hF : HasPart ax k!"Frame" q)
    (h : QuadAt q a b c d) {kind : AxisKind} (hA : HasPart ax (axisBoxKey kind) q')
    (h' : QuadAt q' a' b' c' d') (side : con.Side) :
    GEv (gPosition kind side false) [ax] [] (gFaceVal side a b c d a' b' c' d') := by
  have g0 : resolve [ax] k!"arg0/Frame" = .ok q :=
    (resolve_arg0 ax [] k!"Frame").trans (hF.getChild (by decide))
  have g1 : resolve [ax] (k!"arg0/" ++ axisBoxKey kind) = .ok q' :=
    (resolve_arg0 ax [] _).trans (hA.getChild (axisBoxKey_noslash kind))
  have := GEv.compound (cls := { name := positionName kind, assem := compoundAssem 0 })
    (sig := ⟨[.axes], [], 0⟩) (cp := fun _ => .ok [[]])
    (cs := [(k!"AlignOutside", gFaces side)]) (vs := [gFaceVal side a b c d a' b' c' d'])
    (params := []) (by simp) rfl rfl (.cons hax .nil) rfl (.cons (pyMap2 g0 g1) (gev_faces h h' side) (.nil _))
  simpa [gPosition] using this

theorem gev_position_twin (hax : ax.ty.IsA .axes) (hF : HasPart ax k!"Frame" q)
    (h : QuadAt q a b c d) {kind : AxisKind} (hA : HasPart ax (axisBoxKey kind) q')
    (h' : QuadAt q' a' b' c' d') {qt : Prim K} {at' bt ct' dt : K × K}
    (hT : HasPart ax (twinBoxKey kind) qt) (ht : QuadAt qt at' bt ct' dt) (side : con.Side) :
    GEv (gPosition kind side true) [ax] [] (gFaceVal side a b c d a' b' c' d' ++
      gFaceVal side.opposite a b c d at' bt ct' dt) := by
  have g0 : resolve [ax] k!"arg0/Frame" = .ok q :=
    (resolve_arg0 ax [] k!"Frame").trans (hF.getChild (by decide))
  have g1 : resolve [ax] (k!"arg0/" ++ axisBoxKey kind) = .ok q' :=
    (resolve_arg0 ax [] _).trans (hA.getChild (axisBoxKey_noslash kind))
  have g2 : resolve [ax] (k!"arg0/" ++ twinBoxKey kind) = .ok qt :=
    (resolve_arg0 ax [] _).trans (hT.getChild (twinBoxKey_noslash kind))
  have := GEv.compound (cls := { name := positionName kind, assem := compoundAssem 0 })
    (sig := ⟨[.axes], [], 0⟩) (cp := fun _ => .ok [[], []])
    (cs := [(k!"AlignOutside", gFaces side), (k!"TwinAlignOutside", gFaces side.opposite)])
    (vs := [gFaceVal side a b c d a' b' c' d', gFaceVal side.opposite a b c d at' bt ct' dt])
    (params := []) (by simp) rfl rfl (.cons hax .nil) rfl
    (.cons (pyMap2 g0 g1) (gev_faces h h' side)
      (.cons (pyMap2 g0 g2) (gev_faces h ht side.opposite) (.nil _)))
  simpa [gPosition] using this

end MplLayout
