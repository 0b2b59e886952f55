import Verif.Lemmas.Shapes

/-! Grids: rows and columns of quadrilaterals. -/

namespace MplLayout

open Flt Cons

section trees
variable {K : Type} [PyNum K]

/-- The tree of `RelativeLength()`. -/
def relLenT : Cons K :=
  sumTree con.length (mulTree scalarCons (mulTree (numScalar (-1)) con.length))

theorem relativeLength_eq : (ct.relativeLength : Py (Cons K)) = .ok relLenT :=
  rfl

/-- The tree of `Align(row)`. -/
def alignT (row : Bool) : Cons K :=
  let sig : ConsSig := ⟨[.quadrilateral, .quadrilateral], [], 0⟩
  if row then
    .mk { name := k!"AlignRow", assem := compoundAssem 0 }
      ⟨[[k!"arg0/Line0", k!"arg1/Line0"], [k!"arg0/Line2", k!"arg1/Line2"]],
       fun _ => .ok [[], []], sig⟩
      [(k!"AlignBottom", ct.collinear), (k!"AlignTop", ct.collinear)]
  else
    .mk { name := k!"AlignColumn", assem := compoundAssem 0 }
      ⟨[[k!"arg0/Line3", k!"arg1/Line3"], [k!"arg0/Line1", k!"arg1/Line1"]],
       fun _ => .ok [[], []], sig⟩
      [(k!"AlignLeft", ct.collinear), (k!"AlignRight", ct.collinear)]

theorem align_eq (row : Bool) : (ct.align row : Py (Cons K)) = .ok (alignT row) := by
  cases row <;> rfl

/-- Position of row `r`, column `c`. -/
abbrev gidx (numRow numCol r c : Nat) : Nat := ct.idx1d [r, c] [numRow, numCol]

theorem gidx_eq (numRow numCol r c : Nat) : gidx numRow numCol r c = r * numCol + c := by
  simp [gidx, ct.idx1d]

/-- The keys of the children of `RectilinearGrid`. -/
def rectGridKeys (numRow numCol : Nat) : List Str :=
  (List.range numRow).map (fun r => k!"AlignRow" ++ natStr r) ++
    (List.range numCol).map (fun c => k!"AlignColumn" ++ natStr c)

/-- The tree of `RectilinearGrid((num_row, num_col))`. -/
def rectGridT (numRow numCol : Nat) : Cons K :=
  .mk { name := k!"RectilinearGrid", assem := compoundAssem 0 }
    ⟨(List.range numRow).map (fun r => (List.range numCol).map fun c =>
        ct.argKey (gidx numRow numCol r c)) ++
      (List.range numCol).map (fun c => (List.range numRow).map fun r =>
        ct.argKey (gidx numRow numCol r c)),
     fun _ => .ok (List.replicate (4 * numRow * numCol) []),
     ⟨List.replicate (numRow * numCol) .quadrilateral, [], 0⟩⟩
    ((rectGridKeys numRow numCol).zip (List.replicate numRow (mapCons (alignT true) numCol) ++
      List.replicate numCol (mapCons (alignT false) numRow)))

theorem rectGridKeys_nodup (numRow numCol : Nat) : (rectGridKeys numRow numCol).Nodup := by
  refine List.Nodup.append (mapKeys_nodup _ _) (mapKeys_nodup _ _) ?_
  intro s h1 h2
  obtain ⟨i, _, rfl⟩ := List.mem_map.mp h1
  obtain ⟨j, _, e⟩ := List.mem_map.mp h2
  have : (k!"AlignColumn" ++ natStr j).take 6 = (k!"AlignRow" ++ natStr i).take 6 := by rw [e]
  simp at this

theorem rectGridKeys_ne (numRow numCol : Nat) : [] ∉ rectGridKeys numRow numCol := by
  intro h
  rcases List.mem_append.mp h with h | h <;> exact mapKeys_ne _ _ h

theorem rectilinearGrid_eq (numRow numCol : Nat) :
    (ct.rectilinearGrid numRow numCol : Py (Cons K)) = .ok (rectGridT numRow numCol) := by
  simp only [ct.rectilinearGrid, align_eq, transformMap_eq, bind, Except.bind]
  exact construction_ok (rectGridKeys_nodup _ _) (rectGridKeys_ne _ _)
    (by simp [rectGridKeys])

/-- The tree of `OuterMarginArray((n,), side)`. -/
def marginArrayT (m : Cons K) (n : Nat) : Cons K :=
  .mk { name := k!"OuterMarginArray", assem := fun _ _ => .ok (.vec []) }
    ⟨(List.range (n - 1)).map (fun i => [ct.argKey i, ct.argKey (i + 1)]),
     fun params => .ok (params.map fun p => [p]),
     ⟨List.replicate n .quadrilateral, List.replicate (n - 1) .float, 0⟩⟩
    (((List.range n).map fun i => k!"OuterMargin" ++ natStr i).zip (List.replicate (n - 1) m))

theorem outerMarginArray_eq {m : Cons K} {side : con.Side} (hm : ct.margin true side = .ok m)
    (n : Nat) : ct.outerMarginArray n side = .ok (marginArrayT m n) := by
  simp only [ct.outerMarginArray, hm, bind, Except.bind]
  exact construction_ok (mapKeys_nodup _ _) (mapKeys_ne _ _) (by simp)

/-- `idx[1:] + idx[:1]`. -/
abbrev rot1 (xs : List Nat) : List Nat := xs.drop 1 ++ xs.take 1

/-- The tree of `Grid((num_row, num_col))`, with the margin constraints `mr` and `mb`. -/
def gridT (mr mb : Cons K) (numRow numCol : Nat) : Cons K :=
  .mk { name := k!"Grid", assem := compoundAssem 4 }
    ⟨[(List.range (numRow * numCol)).map ct.argKey,
      (rot1 (List.range numCol)).map (fun c => ct.argKey (gidx numRow numCol 0 c) ++ k!"/Line0"),
      (rot1 (List.range numRow)).map (fun r => ct.argKey (gidx numRow numCol r 0) ++ k!"/Line1"),
      (List.range numCol).map (fun c => ct.argKey (gidx numRow numCol 0 c)),
      (List.range numRow).map (fun r => ct.argKey (gidx numRow numCol r 0))],
     ct.gridParams,
     ⟨List.replicate (numRow * numCol) .quadrilateral, [.ndarray, .ndarray, .ndarray, .ndarray],
      0⟩⟩
    [(k!"RectilinearGrid", rectGridT numRow numCol), (k!"ColWidths", mapCons relLenT numCol),
     (k!"RowHeights", mapCons relLenT numRow), (k!"ColMargins", marginArrayT mr numCol),
     (k!"RowMargins", marginArrayT mb numRow)]

theorem grid_eq {mr mb : Cons K} (hr : ct.margin true .right = .ok mr)
    (hb : ct.margin true .bottom = .ok mb) (numRow numCol : Nat) :
    ct.grid numRow numCol = .ok (gridT mr mb numRow numCol) := by
  simp only [ct.grid, rectilinearGrid_eq, relativeLength_eq, transformMap_eq,
    outerMarginArray_eq hr, outerMarginArray_eq hb, bind, Except.bind]
  exact construction_ok (by decide) (by decide) rfl

end trees

/-! ## Zero residual -/

/-- The tree evaluates, and all entries are zero exactly if `P` holds. -/
def EvS (c : Cons Flt) (prims : List (Prim Flt)) (params : List (Param Flt)) (P : Prop) : Prop :=
  ∃ v, Ev c prims params v ∧ ((∀ x ∈ v, x = 0) ↔ P)

theorem EvS.satisfied {c : Cons Flt} {r : Py (Cons Flt)} (e : r = .ok c) {prims : List (Prim Flt)}
    {params : List (Param Flt)} {P : Prop} (h : EvS c prims params P) :
    SatisfiedPy r prims params ↔ P := by
  obtain ⟨v, h1, h2⟩ := h
  rw [satisfiedPy_iff (h1.returnsPy e), h2]

theorem EvS.of {c : Cons Flt} {prims : List (Prim Flt)} {params : List (Param Flt)} {v : List ℝ}
    (h : Ev c prims params v) {P : Prop} (hp : (∀ x ∈ v, x = 0) ↔ P) : EvS c prims params P :=
  ⟨v, h, hp⟩

theorem EvS.congr {c : Cons Flt} {prims : List (Prim Flt)} {params : List (Param Flt)} {P Q : Prop}
    (h : EvS c prims params P) (hp : P ↔ Q) : EvS c prims params Q := by
  obtain ⟨v, h1, h2⟩ := h
  exact ⟨v, h1, h2.trans hp⟩

theorem evL_of {prims : List (Prim Flt)} (cs : List (Str × Cons Flt)) :
    ∀ (kss : List (List Str)) (pss : List (List (Param Flt))) (P : Nat → Prop),
    kss.length = cs.length → cs.length ≤ pss.length →
    (∀ (i : Nat) kc ks ps, cs[i]? = some kc → kss[i]? = some ks → pss[i]? = some ps →
      ∃ cps, pyMap (resolve prims) ks = .ok cps ∧ EvS kc.2 cps ps (P i)) →
    ∃ vs, EvL prims cs kss pss vs ∧
      ((∀ x ∈ vs.flatten, x = 0) ↔ ∀ i, i < cs.length → P i) := by
  induction cs with
  | nil =>
    intro kss pss P h1 _ _
    cases kss with
    | nil => exact ⟨[], .nil _, by simp⟩
    | cons => simp at h1
  | cons kc cs ih =>
    intro kss pss P h1 h2 h
    obtain ⟨k, c⟩ := kc
    cases kss with
    | nil => simp at h1
    | cons ks kss =>
      cases pss with
      | nil => simp at h2
      | cons ps pss =>
        obtain ⟨cps, hk, v, hv, hv'⟩ := h 0 (k, c) ks ps rfl rfl rfl
        obtain ⟨vs, hvs, hvs'⟩ := ih kss pss (fun i => P (i + 1)) (by simpa using h1)
          (by simpa using h2) (fun i kc ks ps a b d => h (i + 1) kc ks ps (by simpa using a)
            (by simpa using b) (by simpa using d))
        refine ⟨v :: vs, .cons hk hv hvs, ?_⟩
        simp only [List.flatten_cons, List.mem_append, or_imp, forall_and, hv', hvs',
          List.length_cons]
        constructor
        · rintro ⟨a, b⟩ i hi
          cases i with
          | zero => exact a
          | succ i => exact b i (by omega)
        · intro a
          exact ⟨a 0 (by omega), fun i hi => a (i + 1) (by omega)⟩

theorem EvS.compound {cls : ConsClass Flt} {kss : List (List Str)}
    {cp : List (Param Flt) → Py (List (List (Param Flt)))} {sig : ConsSig}
    {cs : List (Str × Cons Flt)} {prims : List (Prim Flt)} {params : List (Param Flt)}
    {pss : List (List (Param Flt))} {P : Nat → Prop}
    (hn : (cs.map (·.1)).Nodup) (hown : cls.assem prims params = .ok (.vec []))
    (hcp : cp params = .ok pss)
    (hacc : List.Forall₂ (fun (p : Prim Flt) t => p.ty.IsA t) prims sig.primTypes)
    (hpar : params.length = sig.paramTypes.length)
    (hk : kss.length = cs.length) (hp : cs.length ≤ pss.length)
    (h : ∀ (i : Nat) kc ks ps, cs[i]? = some kc → kss[i]? = some ks → pss[i]? = some ps →
      ∃ cps, pyMap (resolve prims) ks = .ok cps ∧ EvS kc.2 cps ps (P i)) :
    EvS (.mk cls ⟨kss, cp, sig⟩ cs) prims params (∀ i, i < cs.length → P i) := by
  obtain ⟨vs, h1, h2⟩ := evL_of cs kss pss P hk hp h
  exact ⟨_, Ev.compound hn hown hcp hacc hpar h1, h2⟩

theorem forall₂_replicate {prims : List (Prim Flt)} {n : Nat} (hl : prims.length = n)
    (h : ∀ p ∈ prims, p.ty.IsA .quadrilateral) :
    List.Forall₂ (fun (p : Prim Flt) t => p.ty.IsA t) prims (List.replicate n .quadrilateral) :=
  forall₂_replicate_take hl h

/-- `transform_map` of a construction of two primitives. -/
theorem EvS.map2 {c : Cons Flt} {t : PrimType} (ht : c.value.sig.primTypes = [t, t])
    {n : Nat} {prims : List (Prim Flt)} (hl : prims.length = n + 1)
    (hacc : ∀ p ∈ prims, p.ty.IsA t) {params : List (Param Flt)}
    (hpar : params.length = n * c.value.sig.paramTypes.length) {P : Nat → Prop}
    (h : ∀ i p q, i < n → prims[i]? = some p → prims[n]? = some q →
      EvS c [p, q] ((params.drop (i * c.value.sig.paramTypes.length)).take
        c.value.sig.paramTypes.length) (P i)) :
    EvS (mapCons c (n + 1)) prims params (∀ i, i < n → P i) := by
  have hnum : n + 1 + 1 - c.value.sig.primTypes.length = n := by rw [ht]; simp
  unfold mapCons
  simp only [hnum]
  have hlen : (((List.range n).map fun i => c.ty.name ++ natStr i).zip
      (List.replicate n c)).length = n := by simp
  have key := EvS.compound (P := P)
    (cls := { name := k!"Map" ++ c.ty.name, assem := fun _ _ => .ok (.vec []) })
    (kss := (List.range n).map fun i => (k!"arg" ++ natStr i) ::
        (List.range (c.value.sig.primTypes.length - 1)).map fun j => k!"arg" ++ natStr (n + j))
    (cp := fun params => .ok ((List.range n).map fun i =>
      pySlice params (some ((i * c.value.sig.paramTypes.length : Nat) : Int))
        (some (((i + 1) * c.value.sig.paramTypes.length : Nat) : Int))))
    (sig := ⟨(List.replicate n (c.value.sig.primTypes.take 1)).flatten ++
      c.value.sig.primTypes.drop 1, (List.replicate n c.value.sig.paramTypes).flatten, 0⟩)
    (cs := ((List.range n).map fun i => c.ty.name ++ natStr i).zip (List.replicate n c))
    (prims := prims) (params := params) ?_ rfl rfl ?_ ?_ ?_ ?_ ?_
  · rw [hlen] at key
    exact key
  · rw [List.map_fst_zip (by simp)]; exact mapKeys_nodup _ _
  · have : (List.replicate n (c.value.sig.primTypes.take 1)).flatten ++ c.value.sig.primTypes.drop 1
        = List.replicate (n + 1) t := by
      rw [ht]
      simp [List.replicate_succ']
    simp only [this]
    exact forall₂_replicate_take hl hacc
  · simp [hpar]
  · simp
  · simp
  · intro i kc ks ps h1 h2 h3
    have hi : i < n := by
      have := (List.getElem?_eq_some_iff.mp h1).1
      rwa [hlen] at this
    have hkc : kc.2 = c := List.eq_of_mem_replicate
      (List.of_mem_zip (a := kc.1) (b := kc.2) (List.mem_of_getElem? h1)).2
    simp only [List.getElem?_map, List.getElem?_range hi, Option.map_some, Option.some.injEq]
      at h2 h3
    subst h2 h3
    have g1 : prims[i]? = some prims[i] := List.getElem?_eq_getElem (by omega)
    have g2 : prims[n]? = some prims[n] := List.getElem?_eq_getElem (by omega)
    refine ⟨[prims[i], prims[n]], ?_, ?_⟩
    · rw [ht]
      exact pyMap2 (resolve_argKey_ok.mpr g1) (resolve_argKey_ok.mpr g2)
    · have hle : (i + 1) * c.value.sig.paramTypes.length ≤ params.length := by
        rw [hpar]; exact Nat.mul_le_mul_right _ hi
      rw [hkc, pySlice_block _ _ (Nat.mul_le_mul_right _ (by omega)) hle]
      have : (i + 1) * c.value.sig.paramTypes.length - i * c.value.sig.paramTypes.length
        = c.value.sig.paramTypes.length := by rw [Nat.add_mul]; omega
      rw [this]
      exact h i _ _ hi g1 g2

end MplLayout
