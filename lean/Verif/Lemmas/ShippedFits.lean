import Verif.Lemmas.LayoutRefs
import Verif.Lemmas.Drawing
import Verif.Lemmas.Grid

/-! Static facts about the shipped constraints: argument keys are well typed, and the argument trees
can be built. -/

namespace MplLayout

open Cons

section generic
variable {K : Type}

/-- The parameter tree can be built and has one node for each constraint node. -/
structure PFits (c : Cons K) (ps : List (Param K)) : Prop where
  aligned : c.Aligned ps
  params : ∃ t, c.rootParams ps = .ok t

theorem PFits.leaf {c : Cons K} (hc : c.children = []) (hk : c.value.childPrimKeys = [])
    {ps : List (Param K)} {pss : List (List (Param K))} (h : c.value.childParams ps = .ok pss) :
    PFits c ps := by
  cases c with
  | mk t v cs =>
    simp only [Node.children_mk] at hc
    subst hc
    simp only [Node.value_mk] at hk h
    refine ⟨?_, ?_⟩
    · simp [Aligned, AlignedL, hk]
    · exact ⟨_, by simp only [rootParams, h, rootParamsL, bind, Except.bind]; rfl⟩

theorem rootParamsL_total (cs : List (Str × Cons K)) : ∀ (pss : List (List (Param K))),
    (∀ (i : Nat) kc ps, cs[i]? = some kc → pss[i]? = some ps → ∃ t, rootParams kc.2 ps = .ok t) →
    ∃ ns, rootParamsL cs pss = .ok ns := by
  induction cs with
  | nil => intro pss _; exact ⟨[], by cases pss <;> rfl⟩
  | cons kc cs ih =>
    obtain ⟨k, c⟩ := kc
    intro pss h
    cases pss with
    | nil => exact ⟨[], rfl⟩
    | cons ps pss =>
      obtain ⟨t, ht⟩ := h 0 (k, c) ps rfl rfl
      obtain ⟨ns, hns⟩ := ih pss fun i kc ps e1 e2 =>
        h (i + 1) kc ps (by simpa using e1) (by simpa using e2)
      exact ⟨(k, t) :: ns, by simp only [rootParamsL, ht, hns]; rfl⟩

theorem PFits.compound {cls : ConsClass K} {v : ConsVal K} {cs : List (Str × Cons K)}
    {ps : List (Param K)} {pss : List (List (Param K))} (hk : v.childPrimKeys.length = cs.length)
    (h : v.childParams ps = .ok pss) (hl : cs.length ≤ pss.length)
    (hc : ∀ (i : Nat) kc q, cs[i]? = some kc → pss[i]? = some q → PFits kc.2 q) :
    PFits (.mk cls v cs) ps := by
  refine ⟨⟨hk, ?_⟩, ?_⟩
  · intro pss' h'
    rw [h] at h'
    cases h'
    exact ⟨hl, AlignedL_iff cs pss fun i kc q e1 e2 => (hc i kc q e1 e2).aligned⟩
  · obtain ⟨ns, hns⟩ := rootParamsL_total cs pss fun i kc q e1 e2 => (hc i kc q e1 e2).params
    exact ⟨_, by simp only [rootParams, h, hns, bind, Except.bind]; rfl⟩

/-- Children given as two lists of equal length. -/
theorem PFits.one {cls : ConsClass K} {v : ConsVal K} {k : Str} {c : Cons K} {ps q : List (Param K)}
    (hk : v.childPrimKeys.length = 1) (h : v.childParams ps = .ok [q]) (hc : PFits c q) :
    PFits (.mk cls v [(k, c)]) ps :=
  PFits.compound (by simpa using hk) h (by simp) fun i kc q' e1 e2 => by
    match i with
    | 0 => simp only [List.getElem?_cons_zero, Option.some.injEq] at e1 e2; subst e1 e2; exact hc
    | i + 1 => simp at e1

theorem PFits.two {cls : ConsClass K} {v : ConsVal K} {k k' : Str} {c c' : Cons K}
    {ps q q' : List (Param K)} (hk : v.childPrimKeys.length = 2)
    (h : v.childParams ps = .ok [q, q']) (hc : PFits c q) (hc' : PFits c' q') :
    PFits (.mk cls v [(k, c), (k', c')]) ps :=
  PFits.compound (by simpa using hk) h (by simp) fun i kc r e1 e2 => by
    match i with
    | 0 => simp only [List.getElem?_cons_zero, Option.some.injEq] at e1 e2; subst e1 e2; exact hc
    | 1 => simp only [List.getElem?_cons_succ, List.getElem?_cons_zero, Option.some.injEq] at e1 e2
           subst e1 e2; exact hc'
    | i + 2 => simp at e1

theorem mapCons_pfits {c : Cons K} (hc : ∀ ps : List (Param K), PFits c ps) (n : Nat)
    (ps : List (Param K)) : PFits (mapCons c n) ps := by
  unfold mapCons
  refine PFits.compound (by simp) rfl (by simp) ?_
  intro i kc q e1 _
  have h := List.mem_of_getElem? e1
  rw [List.eq_of_mem_replicate (List.of_mem_zip (a := kc.1) (b := kc.2) h).2]
  exact hc q

/-! ## Typing -/

variable {parts : List (Str × PrimType)}

theorem refType_argKey (parts : List (Str × PrimType)) (ts : List PrimType) (i : Nat) :
    refType parts ts (k!"arg" ++ natStr i) = ts[i]? := by
  unfold refType
  rw [splitAll_noslash (Cons.argKey_noslash i)]
  simp only [argnum_argKey]
  cases ts[i]? <;> rfl

theorem refType_argKey_path (parts : List (Str × PrimType)) (ts : List PrimType) (i : Nat)
    (s : Str) (hs : '/' ∉ s) :
    refType parts ts ((k!"arg" ++ natStr i) ++ '/' :: s) =
      match ts[i]? with
      | some t => childType parts t s
      | none => none := by
  unfold refType
  rw [splitAll_append_slash, splitAll_noslash (Cons.argKey_noslash i), splitAll_noslash hs]
  simp only [List.singleton_append, argnum_argKey]
  cases ts[i]? with
  | none => rfl
  | some t =>
    simp only [pathType]
    cases childType parts t s <;> rfl

theorem KTyped.leaf {c : Cons K} (hc : c.children = []) (hk : c.value.childPrimKeys = []) :
    c.KTyped parts := by
  cases c with
  | mk t v cs =>
    simp only [Node.children_mk] at hc
    subst hc
    simp only [Node.value_mk] at hk
    simp [KTyped, KTypedL, hk]

theorem KTyped.mapCons {c : Cons K} (hc : c.KTyped parts) (hne : c.value.sig.primTypes ≠ [])
    (n : Nat) : (mapCons c n).KTyped parts := by
  unfold MplLayout.mapCons
  simp only [KTyped]
  refine ⟨by simp, KTypedL_iff _ _ ?_⟩
  intro i kc ks e1 e2
  have h := List.mem_of_getElem? e1
  have hkc := List.eq_of_mem_replicate (List.of_mem_zip (a := kc.1) (b := kc.2) h).2
  rw [hkc]
  refine ⟨?_, hc⟩
  obtain ⟨t, ts, hts⟩ : ∃ t ts, c.value.sig.primTypes = t :: ts := by
    cases h : c.value.sig.primTypes with
    | nil => exact absurd h hne
    | cons t ts => exact ⟨t, ts, rfl⟩
  rw [hts] at e2 ⊢
  simp only [List.take_succ_cons, List.take_zero, List.drop_succ_cons, List.drop_zero,
    List.length_cons, List.getElem?_map, Option.map_eq_some_iff] at e2 ⊢
  obtain ⟨j, e2, rfl⟩ := e2
  rw [List.getElem?_eq_some_iff] at e2
  obtain ⟨hj, e⟩ := e2
  simp only [List.getElem_range] at e
  subst e
  simp only [List.length_range] at hj
  have hflat : (List.replicate (n + 1 - (ts.length + 1)) [t]).flatten
      = List.replicate (n + 1 - (ts.length + 1)) t := by
    generalize n + 1 - (ts.length + 1) = m
    induction m with
    | zero => rfl
    | succ m ih => simp [List.replicate_succ, ih]
  rw [hflat]
  refine .cons ?_ ?_
  · rw [refType_argKey, List.getElem?_append_left (by rw [List.length_replicate]; exact hj),
      List.getElem?_replicate, if_pos hj]
  · rw [List.forall₂_iff_get]
    refine ⟨by simp, ?_⟩
    intro k h1 h2
    simp only [List.get_eq_getElem, List.getElem_map, List.getElem_range]
    rw [refType_argKey, List.getElem?_append_right (by simp)]
    simp only [List.length_replicate, Nat.add_sub_cancel_left]
    exact List.getElem?_eq_getElem h2

end generic

section shipped

variable {parts : List (Str × PrimType)}

/-- Static facts about a constraint. -/
structure Static (parts : List (Str × PrimType)) (c : Cons Flt) : Prop where
  wf : c.WF
  name : '/' ∉ c.ty.name
  typed : c.KTyped parts

theorem Static.leaf {c : Cons Flt} (hc : c.children = []) (hk : c.value.childPrimKeys = [])
    (hn : '/' ∉ c.ty.name) : Static parts c := by
  refine ⟨?_, hn, KTyped.leaf hc hk⟩
  cases c with
  | mk t v cs =>
    simp only [Node.children_mk] at hc
    subst hc
    rw [Node.WF_mk]; simp

theorem cstr_leaf_pfits {c : Cons Flt} (hc : c.children = []) (hk : c.value.childPrimKeys = [])
    (hp : ∀ qs, c.value.childParams qs = .ok []) (ps : List (Param Flt))
    (hl : ps.length = c.value.sig.paramTypes.length + 1) : PFits (cstr c) ps := by
  cases c with
  | mk t v cs =>
    simp only [Node.children_mk] at hc
    subst hc
    simp only [Node.value_mk] at hk hp hl
    obtain ⟨qs, p, rfl⟩ : ∃ qs p, ps = qs ++ [p] := by
      rcases List.eq_nil_or_concat ps with rfl | ⟨qs, p, rfl⟩
      · simp at hl
      · exact ⟨qs, p, by simp⟩
    have hl' : qs.length = v.sig.paramTypes.length := by simpa using hl
    have hs : split2 v.sig.paramTypes.length 1 (qs ++ [p]) = (qs, [p]) := split2_append hl' rfl
    refine PFits.leaf (pss := []) rfl ?_ ?_
    · simp [sumTree, sumVal, hk]
    · have e : (cstr (.mk t v [])).value.childParams (qs ++ [p]) = (do
          let ca ← v.childParams (split2 v.sig.paramTypes.length 1 (qs ++ [p])).1
          let cb ← (negVec (.mk t v [])).value.childParams
            (split2 v.sig.paramTypes.length 1 (qs ++ [p])).2
          .ok (List.zipWith (· ++ ·) ca cb)) := rfl
      rw [e, hs, hp]
      rfl

theorem cstr_leaf_static {c : Cons Flt} (hc : c.children = []) (hk : c.value.childPrimKeys = []) :
    Static parts (cstr c) := by
  cases c with
  | mk t v cs =>
    simp only [Node.children_mk] at hc
    subst hc
    simp only [Node.value_mk] at hk
    exact Static.leaf rfl (by simp [sumTree, sumVal, hk])
      (show '/' ∉ k!"SumConstruction" by decide)


theorem static_mk {cls : ConsClass Flt} {v : ConsVal Flt} {cs : List (Str × Cons Flt)}
    (hn : '/' ∉ cls.name) (hk : (cs.map (·.1)).Nodup) (hw : ∀ kc ∈ cs, Node.WF kc.2)
    (hl : v.childPrimKeys.length = cs.length)
    (ht : KTypedL parts v.sig.primTypes cs v.childPrimKeys) : Static parts (.mk cls v cs) := by
  refine ⟨?_, hn, by simp only [KTyped]; exact ⟨hl, ht⟩⟩
  rw [Node.WF_mk]
  exact ⟨hk, fun k c hc => hw (k, c) hc⟩

theorem oneT_form (cls : ConsClass Flt) (key cn : Str) (ctypes : List PrimType)
    (f : List (Prim Flt) → Py (Arr Flt)) (ks : List Str) (ty : List PrimType) :
    ∃ cls' v' child, cstr (oneT cls key (con.leaf0 cn ctypes 1 f) ks ty) = .mk cls' v' [(key, child)] ∧
      cls'.name = k!"SumConstruction" ∧ v'.childPrimKeys = [ks ++ []] ∧
      v'.sig.primTypes = ty ++ [] ∧ child.children = [] ∧ child.value.childPrimKeys = [] ∧
      child.value.sig.primTypes = ctypes ++ [] ∧ v'.sig.paramTypes.length = 1 ∧
      (∀ p : Param Flt, p.ArrayLike → ∃ q, v'.childParams [p] = .ok [[q]]) ∧
      ∀ q, child.value.childParams [q] = .ok [] := by
  refine ⟨_, _, _, rfl, rfl, rfl, rfl, rfl, rfl, rfl, rfl, ?_, fun q => rfl⟩
  intro p hp
  cases p with
  | num x => exact ⟨_, rfl⟩
  | arr xs => exact ⟨_, rfl⟩
  | bool b => exact ⟨_, rfl⟩
  | seq ps => exact ⟨_, rfl⟩
  | none => exact hp.elim
  | axis a => exact hp.elim

theorem oneT_static {cls : ConsClass Flt} {key cn : Str} {ctypes : List PrimType}
    {f : List (Prim Flt) → Py (Arr Flt)} {ks : List Str} {ty : List PrimType}
    (ht : List.Forall₂ (fun key t => refType parts ty key = some t) ks ctypes) :
    Static parts (cstr (oneT cls key (con.leaf0 cn ctypes 1 f) ks ty)) ∧
    (∀ p : Param Flt, p.ArrayLike → PFits (cstr (oneT cls key (con.leaf0 cn ctypes 1 f) ks ty)) [p]) ∧
    (cstr (oneT cls key (con.leaf0 cn ctypes 1 f) ks ty)).value.sig.primTypes = ty ∧
    (cstr (oneT cls key (con.leaf0 cn ctypes 1 f) ks ty)).value.sig.paramTypes.length = 1 := by
  obtain ⟨cls', v', child, e, h1, h2, h3, h4, h5, h6, h7, h8, h9⟩ := oneT_form cls key cn ctypes f ks ty
  rw [e]
  rw [List.append_nil] at h2 h3 h6
  have hs : Static parts child ∨ True := Or.inr trivial
  have hw : child.WF := by
    cases child with
    | mk t v cs =>
      simp only [Node.children_mk] at h4
      subst h4
      rw [Node.WF_mk]; simp
  refine ⟨static_mk (by rw [h1]; decide) (by simp) (by simpa using hw) (by simp [h2]) ?_, ?_, h3, h7⟩
  · rw [h2, h3]
    simp only [KTypedL, h6]
    exact ⟨ht, KTyped.leaf h4 h5, trivial⟩
  · intro p hp
    obtain ⟨q, hq⟩ := h8 p hp
    exact PFits.one (by simp [h2]) hq (PFits.leaf h4 h5 (h9 q))

theorem leaf0_static {name : Str} {types : List PrimType} {size : Nat}
    {f : List (Prim Flt) → Py (Arr Flt)} (hn : '/' ∉ name) :
    Static parts (con.leaf0 name types size f) := Static.leaf rfl rfl hn

theorem leaf1_static {name : Str} {types : List PrimType} {pt : ParamType} {size : Nat}
    {f : List (Prim Flt) → Param Flt → Py (Arr Flt)} (hn : '/' ∉ name) :
    Static parts (con.leaf1 name types pt size f) := Static.leaf rfl rfl hn

theorem leaf_pfits (cls : ConsClass Flt) (sig : ConsSig) (ps : List (Param Flt)) :
    PFits (leaf cls sig) ps := PFits.leaf rfl rfl rfl

/-- Everything about one shipped constraint. -/
structure Good (parts : List (Str × PrimType)) (c : Cons Flt) (ok : List (Param Flt) → Prop) : Prop where
  static : Static parts c
  pfits : ∀ ps, ps.length = c.value.sig.paramTypes.length → ok ps → PFits c ps

theorem good_leaf0 {name : Str} {types : List PrimType} {size : Nat}
    {f : List (Prim Flt) → Py (Arr Flt)} (hn : '/' ∉ name) (ok : List (Param Flt) → Prop) :
    Good parts (con.leaf0 name types size f) ok :=
  ⟨leaf0_static hn, fun ps _ _ => leaf_pfits _ _ ps⟩

theorem good_leaf1 {name : Str} {types : List PrimType} {pt : ParamType} {size : Nat}
    {f : List (Prim Flt) → Param Flt → Py (Arr Flt)} (hn : '/' ∉ name)
    (ok : List (Param Flt) → Prop) : Good parts (con.leaf1 name types pt size f) ok :=
  ⟨leaf1_static hn, fun ps _ _ => leaf_pfits _ _ ps⟩

theorem good_cstr {c : Cons Flt} (hc : c.children = []) (hk : c.value.childPrimKeys = [])
    (hp : ∀ qs, c.value.childParams qs = .ok []) (ok : List (Param Flt) → Prop) :
    Good parts (cstr c) ok := by
  refine ⟨cstr_leaf_static hc hk, fun ps hl _ => cstr_leaf_pfits hc hk hp ps ?_⟩
  rw [hl]
  cases c
  simp [sumTree, sumVal, ConsSig.concat]; rfl

theorem good_oneT {cls : ConsClass Flt} {key cn : Str} {ctypes : List PrimType}
    {f : List (Prim Flt) → Py (Arr Flt)} {ks : List Str} {ty : List PrimType}
    (ht : List.Forall₂ (fun key t => refType parts ty key = some t) ks ctypes) :
    Good parts (cstr (oneT cls key (con.leaf0 cn ctypes 1 f) ks ty)) (∀ p ∈ ·, p.ArrayLike) := by
  obtain ⟨h1, h2, h3, h4⟩ := oneT_static (cls := cls) (key := key) (cn := cn) (f := f) ht
  refine ⟨h1, fun ps hl hp => ?_⟩
  rw [h4] at hl
  match ps, hl with
  | [p], _ => exact h2 p (hp p (by simp))

theorem f2one {ts : List PrimType} {a : Str} {t : PrimType} (h : refType parts ts a = some t) :
    List.Forall₂ (fun key t => refType parts ts key = some t) [a] [t] := .cons h .nil

theorem f2two {ts : List PrimType} {a b : Str} {t u : PrimType} (h : refType parts ts a = some t)
    (h' : refType parts ts b = some u) :
    List.Forall₂ (fun key t => refType parts ts key = some t) [a, b] [t, u] := .cons h (.cons h' .nil)

theorem good_margin (outer : Bool) (side : con.Side) :
    Good parts (cstr (marginT outer side)) (∀ p ∈ ·, p.ArrayLike) := by
  cases outer <;> cases side <;> exact good_oneT (f2two rfl rfl)

theorem margin_sig (outer : Bool) (side : con.Side) :
    (cstr (marginT outer side)).value.sig.primTypes = [.quadrilateral, .quadrilateral] ∧
    (cstr (marginT outer side)).value.sig.paramTypes.length = 1 := by
  cases outer <;> cases side <;> exact ⟨rfl, rfl⟩

theorem good_box (ok : List (Param Flt) → Prop) : Good parts boxT ok := by
  refine ⟨static_mk (by decide) (by decide) ?_ rfl ?_, fun ps _ _ => ?_⟩
  · intro kc hkc
    simp only [List.mem_cons, List.not_mem_nil, or_false] at hkc
    rcases hkc with rfl | rfl | rfl | rfl <;> exact leaf_WF _ _
  · exact ⟨f2one rfl, KTyped.leaf rfl rfl, f2one rfl, KTyped.leaf rfl rfl, f2one rfl,
      KTyped.leaf rfl rfl, f2one rfl, KTyped.leaf rfl rfl, trivial⟩
  · refine PFits.compound rfl rfl (by simp) ?_
    intro i kc q e1 _
    have := List.mem_of_getElem? e1
    simp only [List.mem_cons, List.not_mem_nil, or_false] at this
    rcases this with rfl | rfl | rfl | rfl <;> exact leaf_pfits _ _ _

theorem good_align (row : Bool) (ok : List (Param Flt) → Prop) :
    Good parts (alignT (K := Flt) row) ok ∧ ∀ ps, PFits (alignT (K := Flt) row) ps := by
  have h : ∀ ps, PFits (alignT (K := Flt) row) ps := by
    intro ps
    cases row
    · exact PFits.two rfl rfl (leaf_pfits _ _ _) (leaf_pfits _ _ _)
    · exact PFits.two rfl rfl (leaf_pfits _ _ _) (leaf_pfits _ _ _)
  refine ⟨⟨?_, fun ps _ _ => h ps⟩, h⟩
  cases row
  · refine static_mk (by decide) (by decide) ?_ rfl
      ⟨f2two rfl rfl, KTyped.leaf rfl rfl, f2two rfl rfl, KTyped.leaf rfl rfl, trivial⟩
    intro kc hkc
    simp only [List.mem_cons, List.not_mem_nil, or_false] at hkc
    rcases hkc with rfl | rfl <;> exact leaf_WF _ _
  · refine static_mk (by decide) (by decide) ?_ rfl
      ⟨f2two rfl rfl, KTyped.leaf rfl rfl, f2two rfl rfl, KTyped.leaf rfl rfl, trivial⟩
    intro kc hkc
    simp only [List.mem_cons, List.not_mem_nil, or_false] at hkc
    rcases hkc with rfl | rfl <;> exact leaf_WF _ _

theorem good_faces (side : con.Side) (ok : List (Param Flt) → Prop) :
    Good parts (facesT side) ok ∧ ∀ ps, PFits (facesT side) ps := by
  have h : ∀ ps, PFits (facesT side) ps := fun ps => PFits.one rfl rfl (leaf_pfits _ _ _)
  refine ⟨⟨?_, fun ps _ _ => h ps⟩, h⟩
  refine static_mk (by decide) (by decide) ?_ rfl ?_
  · intro kc hkc
    simp only [List.mem_cons, List.not_mem_nil, or_false] at hkc
    subst hkc; exact leaf_WF _ _
  cases side <;> exact ⟨f2two rfl rfl, KTyped.leaf rfl rfl, trivial⟩

theorem good_relLen : (relLenT (K := Flt)).children = [] ∧
    (relLenT (K := Flt)).value.childPrimKeys = [] ∧
    (relLenT (K := Flt)).value.sig.primTypes = [.line, .line] ∧
    (relLenT (K := Flt)).ty.name = k!"SumConstruction" ∧
    ∀ ps, PFits (relLenT (K := Flt)) ps := by
  refine ⟨rfl, rfl, rfl, rfl, fun ps => PFits.leaf (pss := []) rfl rfl ?_⟩
  rfl

theorem map_quads (n : Nat) (hn : 1 ≤ n) (row : Bool) :
    (mapCons (alignT (K := Flt) row) n).value.sig.primTypes = List.replicate n .quadrilateral := by
  have hs : (alignT (K := Flt) row).value.sig.primTypes = [.quadrilateral, .quadrilateral] := by
    cases row <;> rfl
  simp only [mapCons, Node.value_mk, hs]
  have : ∀ m, (List.replicate m [PrimType.quadrilateral]).flatten ++ [.quadrilateral]
      = List.replicate (m + 1) .quadrilateral := by
    intro m
    induction m with
    | zero => rfl
    | succ m ih => rw [List.replicate_succ, List.flatten_cons, List.append_assoc, ih]; rfl
  have h2 := this (n + 1 - 2)
  rw [show n + 1 - 2 + 1 = n by omega] at h2
  exact h2

theorem map_lines (n : Nat) (hn : 1 ≤ n) :
    (mapCons (relLenT (K := Flt)) n).value.sig.primTypes = List.replicate n .line := by
  simp only [mapCons, Node.value_mk, good_relLen.2.2.1]
  have : ∀ m, (List.replicate m [PrimType.line]).flatten ++ [.line]
      = List.replicate (m + 1) .line := by
    intro m
    induction m with
    | zero => rfl
    | succ m ih => rw [List.replicate_succ, List.flatten_cons, List.append_assoc, ih]; rfl
  have h2 := this (n + 1 - 2)
  rw [show n + 1 - 2 + 1 = n by omega] at h2
  exact h2

theorem forall₂_map_replicate {α β γ : Type} {R : β → γ → Prop} {xs : List α} {f : α → β} {t : γ}
    {n : Nat} (hn : xs.length = n) (h : ∀ x ∈ xs, R (f x) t) :
    List.Forall₂ R (xs.map f) (List.replicate n t) := by
  subst hn
  induction xs with
  | nil => exact .nil
  | cons x xs ih =>
    exact .cons (h x (by simp)) (ih fun y hy => h y (List.mem_cons_of_mem _ hy))

theorem gidx_lt {rows cols r c : Nat} (hr : r < rows) (hc : c < cols) :
    gidx rows cols r c < rows * cols := by
  rw [gidx_eq]
  calc r * cols + c < r * cols + cols := by omega
    _ = (r + 1) * cols := by ring
    _ ≤ rows * cols := Nat.mul_le_mul_right _ hr

theorem refType_quad {n i : Nat} (h : i < n) :
    refType parts (List.replicate n .quadrilateral) (ct.argKey i) = some .quadrilateral := by
  unfold ct.argKey
  rw [refType_argKey, List.getElem?_replicate, if_pos h]

theorem refType_quad_line {n i : Nat} (h : i < n) {s : Str}
    (hs : s ∈ [k!"Line0", k!"Line1", k!"Line2", k!"Line3"]) :
    refType parts (List.replicate n .quadrilateral) (ct.argKey i ++ '/' :: s) = some .line := by
  unfold ct.argKey
  rw [refType_argKey_path _ _ _ _ ?_, List.getElem?_replicate, if_pos h]
  · simp only [childType, if_pos hs]
  · simp only [List.mem_cons, List.not_mem_nil, or_false] at hs
    rcases hs with rfl | rfl | rfl | rfl <;> decide

theorem good_rectGrid {rows cols : Nat} (hr : 1 ≤ rows) (hc : 1 ≤ cols)
    (ok : List (Param Flt) → Prop) :
    Good parts (rectGridT (K := Flt) rows cols) ok ∧ ∀ ps, PFits (rectGridT (K := Flt) rows cols) ps := by
  have hchild : ∀ (i : Nat) (kc : Str × Cons Flt), ((rectGridKeys rows cols).zip
      (List.replicate rows (mapCons (alignT true) cols) ++
        List.replicate cols (mapCons (alignT false) rows)))[i]? = some kc →
      (i < rows ∧ kc.2 = mapCons (alignT true) cols) ∨
      (rows ≤ i ∧ i < rows + cols ∧ kc.2 = mapCons (alignT false) rows) := by
    intro i kc e
    rw [List.getElem?_zip_eq_some] at e
    have e := e.2
    by_cases hi : i < rows
    · rw [List.getElem?_append_left (by simpa using hi), List.getElem?_replicate, if_pos hi] at e
      exact .inl ⟨hi, (Option.some.inj e).symm⟩
    · rw [List.getElem?_append_right (by simpa using Nat.le_of_not_lt hi),
        List.getElem?_replicate] at e
      simp only [List.length_replicate] at e
      split at e
      · exact .inr ⟨by omega, by omega, (Option.some.inj e).symm⟩
      · cases e
  have h : ∀ ps, PFits (rectGridT (K := Flt) rows cols) ps := by
    intro ps
    refine PFits.compound ?_ rfl ?_ ?_
    · simp [rectGridKeys]
    · simp only [rectGridKeys, List.length_zip, List.length_append, List.length_map,
        List.length_range, List.length_replicate]
      have : rows + cols ≤ 4 * rows * cols := by nlinarith
      omega
    · intro i kc q e1 _
      rcases hchild i kc e1 with ⟨_, e⟩ | ⟨_, _, e⟩
      · rw [e]; exact mapCons_pfits (good_align true ok (parts := parts)).2 _ _
      · rw [e]; exact mapCons_pfits (good_align false ok (parts := parts)).2 _ _
  refine ⟨⟨static_mk (by decide) ?_ ?_ (by simp [rectGridKeys]) ?_, fun ps _ _ => h ps⟩, h⟩
  · rw [List.map_fst_zip (by simp [rectGridKeys])]
    exact rectGridKeys_nodup rows cols
  · intro kc hkc
    obtain ⟨i, hi⟩ := List.mem_iff_getElem?.mp hkc
    rcases hchild i kc hi with ⟨_, e⟩ | ⟨_, _, e⟩
    · rw [e]; exact mapCons_WF (good_align true ok (parts := parts)).1.static.wf _
    · rw [e]; exact mapCons_WF (good_align false ok (parts := parts)).1.static.wf _
  · refine KTypedL_iff _ _ ?_
    intro i kc ks e1 e2
    have hne : ∀ row, (alignT (K := Flt) row).value.sig.primTypes ≠ [] := by
      intro row; cases row <;> exact List.cons_ne_nil _ _
    rcases hchild i kc e1 with ⟨hi, e⟩ | ⟨hi, hi', e⟩
    · rw [e]
      refine ⟨?_, KTyped.mapCons (good_align true ok).1.static.typed (hne _) _⟩
      rw [map_quads cols hc]
      rw [List.getElem?_append_left (by simpa using hi), List.getElem?_map,
        List.getElem?_range hi] at e2
      cases e2
      refine forall₂_map_replicate (by simp) ?_
      intro c hc'
      exact refType_quad (gidx_lt hi (List.mem_range.mp hc'))
    · rw [e]
      refine ⟨?_, KTyped.mapCons (good_align false ok).1.static.typed (hne _) _⟩
      rw [map_quads rows hr]
      rw [List.getElem?_append_right (by simpa using hi), List.getElem?_map,
        List.length_map, List.length_range, List.getElem?_range (by omega)] at e2
      cases e2
      refine forall₂_map_replicate (by simp) ?_
      intro r hr'
      exact refType_quad (gidx_lt (List.mem_range.mp hr') (by omega))

theorem zip_fst_sublist {α β : Type} (xs : List α) (ys : List β) :
    List.Sublist ((xs.zip ys).map (·.1)) xs := by
  induction xs generalizing ys with
  | nil => exact .slnil
  | cons x xs ih =>
    cases ys with
    | nil => exact List.nil_sublist _
    | cons y ys => exact (ih ys).cons_cons x

theorem marginArray_child {m : Cons Flt} {n i : Nat} {kc : Str × Cons Flt}
    (h : (((List.range n).map fun i => k!"OuterMargin" ++ natStr i).zip
      (List.replicate (n - 1) m))[i]? = some kc) : kc.2 = m ∧ i < n - 1 := by
  rw [List.getElem?_zip_eq_some] at h
  have h := h.2
  rw [List.getElem?_replicate] at h
  split at h
  · next hi => cases h; exact ⟨rfl, hi⟩
  · cases h

theorem marginArray_good (n : Nat) (side : con.Side) :
    Static parts (marginArrayT (cstr (marginT true side)) n) ∧
    ∀ ps, n - 1 ≤ ps.length → (∀ p ∈ ps, p.ArrayLike) →
      PFits (marginArrayT (cstr (marginT true side)) n) ps := by
  have hm := good_margin (parts := parts) true side
  refine ⟨static_mk (show '/' ∉ k!"OuterMarginArray" by decide) ?_ ?_ ?_ ?_, ?_⟩
  · refine List.Nodup.sublist ?_ (mapKeys_nodup k!"OuterMargin" n)
    exact zip_fst_sublist _ _
  · intro kc hkc
    obtain ⟨i, hi⟩ := List.mem_iff_getElem?.mp hkc
    rw [(marginArray_child hi).1]; exact hm.static.wf
  · simp
  · refine KTypedL_iff _ _ ?_
    intro i kc ks e1 e2
    obtain ⟨e, hi⟩ := marginArray_child e1
    rw [e]
    refine ⟨?_, hm.static.typed⟩
    rw [(margin_sig true side).1]
    rw [List.getElem?_map, List.getElem?_range hi] at e2
    cases e2
    exact f2two (refType_quad (by omega)) (refType_quad (by omega))
  · intro ps hl hp
    refine PFits.compound (by simp) rfl ?_ ?_
    · simp; omega
    · intro i kc q e1 e2
      rw [(marginArray_child e1).1]
      rw [List.getElem?_map, Option.map_eq_some_iff] at e2
      obtain ⟨p, hp', rfl⟩ := e2
      have := hp p (List.mem_of_getElem? hp')
      exact hm.pfits [p] (by rw [(margin_sig true side).2]; rfl) (by simpa using this)

theorem good_grid {rows cols : Nat} (hr : 1 ≤ rows) (hc : 1 ≤ cols) :
    Good parts (gridT (cstr (marginT true .right)) (cstr (marginT true .bottom)) rows cols)
      (Shipped.ParamsOK (.grid rows cols)) := by
  obtain ⟨l1, l2, l3, l4, l5⟩ := good_relLen
  have lty : (relLenT (K := Flt)).KTyped parts := KTyped.leaf l1 l2
  have lne : (relLenT (K := Flt)).value.sig.primTypes ≠ [] := by rw [l3]; exact List.cons_ne_nil _ _
  have lwf : (relLenT (K := Flt)).WF := (Static.leaf (parts := []) l1 l2 (by rw [l4]; decide)).wf
  have hrect := good_rectGrid (parts := parts) hr hc fun _ => True
  have m1 := marginArray_good (parts := parts) cols .right
  have m2 := marginArray_good (parts := parts) rows .bottom
  have hrot : ∀ n, (rot1 (List.range n)).length = n := by
    intro n; simp [rot1]; omega
  have hrotm : ∀ n x, x ∈ rot1 (List.range n) → x < n := by
    intro n x hx
    rcases List.mem_append.mp hx with h | h
    · exact List.mem_range.mp (List.mem_of_mem_drop h)
    · exact List.mem_range.mp (List.mem_of_mem_take h)
  refine ⟨static_mk (by decide) (show [k!"RectilinearGrid", k!"ColWidths", k!"RowHeights",
    k!"ColMargins", k!"RowMargins"].Nodup by decide) ?_ rfl ?_, ?_⟩
  · intro kc hkc
    simp only [List.mem_cons, List.not_mem_nil, or_false] at hkc
    rcases hkc with rfl | rfl | rfl | rfl | rfl
    · exact hrect.1.static.wf
    · exact mapCons_WF lwf _
    · exact mapCons_WF lwf _
    · exact m1.1.wf
    · exact m2.1.wf
  · refine ⟨?_, hrect.1.static.typed, ?_, KTyped.mapCons lty lne _, ?_, KTyped.mapCons lty lne _,
      ?_, m1.1.typed, ?_, m2.1.typed, trivial⟩
    · show List.Forall₂ _ _ (List.replicate (rows * cols) PrimType.quadrilateral)
      exact forall₂_map_replicate (by simp) fun x hx => refType_quad (List.mem_range.mp hx)
    · rw [map_lines cols hc]
      refine forall₂_map_replicate (hrot cols) fun x hx => ?_
      exact refType_quad_line (gidx_lt (by omega) (hrotm _ _ hx)) (by simp)
    · rw [map_lines rows hr]
      refine forall₂_map_replicate (hrot rows) fun x hx => ?_
      exact refType_quad_line (gidx_lt (hrotm _ _ hx) (by omega)) (by simp)
    · show List.Forall₂ _ _ (List.replicate cols PrimType.quadrilateral)
      exact forall₂_map_replicate (by simp) fun x hx =>
        refType_quad (gidx_lt (by omega) (List.mem_range.mp hx))
    · show List.Forall₂ _ _ (List.replicate rows PrimType.quadrilateral)
      exact forall₂_map_replicate (by simp) fun x hx =>
        refType_quad (gidx_lt (List.mem_range.mp hx) (by omega))
  · rintro ps _ ⟨_, _, a, b, c, d, as, bs, cs, ds, rfl, ha, hb, hc', hd, hl1, hl2, hp1, hp2⟩
    refine PFits.compound (pss := [[], as, bs, cs, ds]) rfl ?_ (by simp) ?_
    · simp only [ct.gridParams, ha, hb, hc', hd]; rfl
    · intro i kc q e1 e2
      match i with
      | 0 => simp only [List.getElem?_cons_zero, Option.some.injEq] at e1 e2
             subst e1 e2; exact hrect.2 _
      | 1 => simp only [List.getElem?_cons_succ, List.getElem?_cons_zero, Option.some.injEq] at e1 e2
             subst e1 e2; exact mapCons_pfits l5 _ _
      | 2 => simp only [List.getElem?_cons_succ, List.getElem?_cons_zero, Option.some.injEq] at e1 e2
             subst e1 e2; exact mapCons_pfits l5 _ _
      | 3 => simp only [List.getElem?_cons_succ, List.getElem?_cons_zero, Option.some.injEq] at e1 e2
             subst e1 e2; exact m1.2 _ hl1 hp1
      | 4 => simp only [List.getElem?_cons_succ, List.getElem?_cons_zero, Option.some.injEq] at e1 e2
             subst e1 e2; exact m2.2 _ hl2 hp2
      | i + 5 => simp at e1

theorem refType_axes {k : Str} {t : PrimType} (hk : '/' ∉ k)
    (h : dictGet parts k = some t) : refType parts [.axes] (k!"arg0/" ++ k) = some t := by
  have := refType_argKey_path parts [.axes] 0 k hk
  rw [show (k!"arg" ++ natStr 0) ++ '/' :: k = k!"arg0/" ++ k from rfl] at this
  rw [this]
  exact h

theorem good_position {kind : AxisKind} {side : con.Side} {twin : Bool}
    (hp : ∀ kt ∈ (Shipped.positionAxis kind side twin).parts, dictGet parts kt.1 = some kt.2)
    (ok : List (Param Flt) → Prop) : Good parts (positionT kind side twin) ok := by
  have hF : refType parts [.axes] k!"arg0/Frame" = some .quadrilateral :=
    refType_axes (k := k!"Frame") (by decide)
      (hp (k!"Frame", .quadrilateral) (by simp [Shipped.parts]))
  have hA : refType parts [.axes] (k!"arg0/" ++ axisBoxKey kind) = some .quadrilateral :=
    refType_axes (axisBoxKey_noslash kind)
      (hp (axisBoxKey kind, .quadrilateral) (by simp [Shipped.parts]))
  have f1 := good_faces (parts := parts) side ok
  have f2 := good_faces (parts := parts) side.opposite ok
  have hn : '/' ∉ positionName kind := by cases kind <;> decide
  cases twin with
  | false =>
    refine ⟨static_mk hn (show [k!"AlignOutside"].Nodup by decide) ?_ rfl ?_, fun ps _ _ => ?_⟩
    · intro kc hkc
      simp only [List.mem_cons, List.not_mem_nil, or_false] at hkc
      subst hkc; exact f1.1.static.wf
    · exact ⟨f2two hF hA, f1.1.static.typed, trivial⟩
    · exact PFits.one rfl rfl (f1.2 _)
  | true =>
    have hT : refType parts [.axes] (k!"arg0/" ++ twinBoxKey kind) = some .quadrilateral :=
      refType_axes (twinBoxKey_noslash kind)
        (hp (twinBoxKey kind, .quadrilateral) (by simp [Shipped.parts]))
    refine ⟨static_mk hn (show [k!"AlignOutside", k!"TwinAlignOutside"].Nodup by decide) ?_ rfl ?_,
      fun ps _ _ => ?_⟩
    · intro kc hkc
      simp only [List.mem_cons, List.not_mem_nil, or_false] at hkc
      rcases hkc with rfl | rfl
      · exact f1.1.static.wf
      · exact f2.1.static.wf
    · exact ⟨f2two hF hA, f1.1.static.typed, f2two hF hT, f2.1.static.typed, trivial⟩
    · exact PFits.two rfl rfl (f1.2 _) (f2.2 _)

theorem good_label {kind : AxisKind} {twin : Bool}
    (hp : ∀ kt ∈ (Shipped.positionAxisLabel kind twin).parts, dictGet parts kt.1 = some kt.2)
    (ok : List (Param Flt) → Prop) : Good parts (labelT kind twin) ok := by
  have hF : dictGet parts k!"Frame" = some .quadrilateral :=
    hp (k!"Frame", .quadrilateral) (by simp [Shipped.parts])
  have hA : refType parts [.axes] (k!"arg0/" ++ axisLabelKey kind twin) = some .point :=
    refType_axes (axisLabelKey_noslash kind twin)
      (hp (axisLabelKey kind twin, .point) (by simp [Shipped.parts]))
  have hL : refType parts [.axes] (k!"arg0/Frame/" ++ labelLine kind) = some .line := by
    have e : splitAll (k!"arg0/Frame/" ++ labelLine kind)
        = [k!"arg0", k!"Frame", labelLine kind] := by cases kind <;> rfl
    unfold refType
    rw [e]
    show (match dictGet parts k!"Frame" with
      | some t' => pathType parts t' [labelLine kind]
      | none => none) = some .line
    rw [hF]
    cases kind <;> rfl
  have hc : Good parts (cstr con.relativePointOnLineDistance) fun _ => True :=
    good_cstr (c := con.relativePointOnLineDistance) rfl rfl (fun _ => rfl) _
  have hn : '/' ∉ labelName kind := by cases kind <;> decide
  refine ⟨static_mk hn (show [k!"RelativePointOnLineDistance"].Nodup by decide) ?_ rfl ?_, ?_⟩
  · intro kc hkc
    simp only [List.mem_cons, List.not_mem_nil, or_false] at hkc
    subst hkc; exact hc.static.wf
  · exact ⟨f2two hA hL, hc.static.typed, trivial⟩
  · intro ps hl _
    match ps, hl with
    | [p], _ => exact PFits.one rfl rfl (hc.pfits _ rfl trivial)

theorem good_thickness (kind : AxisKind) :
    Good parts (thicknessT kind) (Shipped.ParamsOK (.axisThickness kind)) := by
  have hx : Good parts (cstr con.xLength) fun _ => True :=
    good_cstr (c := con.xLength) rfl rfl (fun _ => rfl) _
  have hy : Good parts (cstr con.yLength) fun _ => True :=
    good_cstr (c := con.yLength) rfl rfl (fun _ => rfl) _
  have hpar : ∀ p : Param Flt, Shipped.ParamsOK (.axisThickness kind) [p] →
      ∃ q, ct.axisThicknessParams [p] = .ok [[q]] := by
    intro p hp
    rcases hp p (by simp) with rfl | ⟨a, t, rfl, ht⟩
    · exact ⟨_, rfl⟩
    · exact ⟨_, by simp only [ct.axisThicknessParams, ht, bind, Except.bind]; rfl⟩
  cases kind with
  | x =>
    refine ⟨static_mk (by decide) (show [k!"Height"].Nodup by decide) ?_ rfl ?_, ?_⟩
    · intro kc hkc
      simp only [List.mem_cons, List.not_mem_nil, or_false] at hkc
      subst hkc; exact hy.static.wf
    · exact ⟨f2one rfl, hy.static.typed, trivial⟩
    · intro ps hl hp
      match ps, hl with
      | [p], _ =>
        obtain ⟨q, hq⟩ := hpar p hp
        exact PFits.one rfl hq (hy.pfits _ rfl trivial)
  | y =>
    refine ⟨static_mk (by decide) (show [k!"Height"].Nodup by decide) ?_ rfl ?_, ?_⟩
    · intro kc hkc
      simp only [List.mem_cons, List.not_mem_nil, or_false] at hkc
      subst hkc; exact hx.static.wf
    · exact ⟨f2one rfl, hx.static.typed, trivial⟩
    · intro ps hl hp
      match ps, hl with
      | [p], _ =>
        obtain ⟨q, hq⟩ := hpar p hp
        exact PFits.one rfl hq (hx.pfits _ rfl trivial)

theorem eq_of_ok {a b : Cons Flt} {x : Py (Cons Flt)} (h : x = .ok a) (h' : x = .ok b) : b = a := by
  rw [h] at h'; cases h'; rfl

/-- Every shipped constraint is well formed, well typed, and its argument trees can be built. -/
theorem shipped_good (s : Shipped) (hsz : s.SizeOK)
    (hparts : ∀ kt ∈ s.parts, dictGet parts kt.1 = some kt.2) {c : Cons Flt}
    (e : s.build = .ok c) : Good parts c s.ParamsOK := by
  cases s with
  | fix => rw [eq_of_ok ct_fix_eq e]; exact good_cstr rfl rfl (fun _ => rfl) _
  | directedDistance =>
    rw [eq_of_ok ct_directedDistance_eq e]; exact good_cstr rfl rfl (fun _ => rfl) _
  | xDistance => rw [eq_of_ok ct_xDistance_eq e]; exact good_cstr rfl rfl (fun _ => rfl) _
  | yDistance => rw [eq_of_ok ct_yDistance_eq e]; exact good_cstr rfl rfl (fun _ => rfl) _
  | coincident => cases e; exact good_leaf0 (by decide) _
  | length => rw [eq_of_ok ct_length_eq e]; exact good_cstr rfl rfl (fun _ => rfl) _
  | directedLength =>
    rw [eq_of_ok ct_directedLength_eq e]; exact good_cstr rfl rfl (fun _ => rfl) _
  | xLength => rw [eq_of_ok ct_xLength_eq e]; exact good_cstr rfl rfl (fun _ => rfl) _
  | yLength => rw [eq_of_ok ct_yLength_eq e]; exact good_cstr rfl rfl (fun _ => rfl) _
  | vertical => cases e; exact good_leaf0 (by decide) _
  | horizontal => cases e; exact good_leaf0 (by decide) _
  | relativeLength =>
    rw [eq_of_ok relativeLength_eq e]
    obtain ⟨l1, l2, _, l4, l5⟩ := good_relLen
    exact ⟨Static.leaf l1 l2 (by rw [l4]; decide), fun ps _ _ => l5 ps⟩
  | midpointXDistance =>
    rw [eq_of_ok ct_midpointXDistance_eq e]; exact good_cstr rfl rfl (fun _ => rfl) _
  | midpointYDistance =>
    rw [eq_of_ok ct_midpointYDistance_eq e]; exact good_cstr rfl rfl (fun _ => rfl) _
  | orthogonal => cases e; exact good_leaf0 (by decide) _
  | parallel => cases e; exact good_leaf0 (by decide) _
  | angle => rw [eq_of_ok ct_angle_eq e]; exact good_cstr rfl rfl (fun _ => rfl) _
  | collinear => cases e; exact good_leaf0 (by decide) _
  | coincidentLines => cases e; exact good_leaf1 (by decide) _
  | pointOnLineDistance =>
    rw [eq_of_ok ct_pointOnLineDistance_eq e]; exact good_cstr rfl rfl (fun _ => rfl) _
  | pointToLineDistance =>
    rw [eq_of_ok ct_pointToLineDistance_eq e]; exact good_cstr rfl rfl (fun _ => rfl) _
  | relativePointOnLineDistance =>
    rw [eq_of_ok ct_relativePointOnLineDistance_eq e]; exact good_cstr rfl rfl (fun _ => rfl) _
  | box => rw [eq_of_ok box_eq e]; exact good_box _
  | width => rw [eq_of_ok ct_width_eq e]; exact good_oneT (f2one rfl)
  | height => rw [eq_of_ok ct_height_eq e]; exact good_oneT (f2one rfl)
  | aspectRatio => rw [eq_of_ok ct_aspectRatio_eq e]; exact good_cstr rfl rfl (fun _ => rfl) _
  | axisThickness axis => rw [eq_of_ok (thickness_eq axis) e]; exact good_thickness axis
  | margin outer side => rw [eq_of_ok (ct_margin_eq outer side) e]; exact good_margin outer side
  | outerMarginArray n side =>
    rw [eq_of_ok (outerMarginArray_eq (ct_margin_eq true side) n) e]
    obtain ⟨h1, h2⟩ := marginArray_good (parts := parts) n side
    refine ⟨h1, fun ps hl hp => h2 ps ?_ hp⟩
    rw [hl]
    simp [marginArrayT]
  | align row => rw [eq_of_ok (align_eq row) e]; exact (good_align row _).1
  | coincidentOutwardFaces side => rw [eq_of_ok (faces_eq side) e]; exact (good_faces side _).1
  | rectilinearGrid rows cols =>
    rw [eq_of_ok (rectilinearGrid_eq rows cols) e]; exact (good_rectGrid hsz.1 hsz.2 _).1
  | grid rows cols =>
    rw [eq_of_ok (grid_eq (ct_margin_eq true .right) (ct_margin_eq true .bottom) rows cols) e]
    exact good_grid hsz.1 hsz.2
  | positionAxis axis side twin =>
    rw [eq_of_ok (position_eq axis side twin) e]; exact good_position hparts _
  | positionAxisLabel axis twin =>
    rw [eq_of_ok (label_eq axis twin) e]; exact good_label hparts _

theorem shipped_parts_self (s : Shipped) : ∀ kt ∈ s.parts, dictGet s.parts kt.1 = some kt.2 := by
  cases s with
  | positionAxis axis side twin => cases axis <;> cases twin <;> (try cases side) <;> decide
  | positionAxisLabel axis twin => cases axis <;> cases twin <;> decide
  | _ => intro kt h; cases h

theorem shipped_fits (s : Shipped) (hsz : s.SizeOK) {c : Cons Flt} (e : s.build = .ok c)
    {ks : List Str} {ps : List (Param Flt)} (hk : ks.length = c.value.sig.primTypes.length)
    (hl : ps.length = c.value.sig.paramTypes.length) (hp : s.ParamsOK ps) :
    '/' ∉ c.ty.name ∧ c.Fits ks ps := by
  have h := shipped_good (parts := s.parts) s hsz (shipped_parts_self s) e
  obtain ⟨h1, h2⟩ := h.pfits ps hl hp
  exact ⟨h.static.name, h.static.wf, h1, KTyped.keys c h.static.typed hk, h2⟩

end shipped

end MplLayout
