import Verif.Lemmas.LayoutResidual
import Verif.Lemmas.Map

/-! References of constraints to primitives. -/

namespace MplLayout

variable {K : Type}

/-! ## What is in a tree after `add_child` -/

theorem Node.addChild_find_cases {τ α : Type} {n n' c : Node τ α} {key : Str}
    (h : n.addChild key c = .ok n') {p : List Str} {m : Node τ α} (hm : n'.find p = some m) :
    (∃ r, p = splitAll key ++ r ∧ c.find r = some m) ∨
    (¬ splitAll key <+: p ∧ ∃ m0, n.find p = some m0 ∧ m.ty = m0.ty ∧ m.value = m0.value) := by
  by_cases hp : splitAll key <+: p
  · obtain ⟨r, rfl⟩ := hp
    exact .inl ⟨r, rfl, by rw [← addChild_find h]; exact hm⟩
  · refine .inr ⟨hp, ?_⟩
    obtain ⟨d, h1, h2, rfl⟩ := addChild_ok h
    have e : splitAll key = (splitAll key).dropLast ++ [(splitAll key).getLastD []] :=
      splitAll_split key
    by_cases hq : p <+: (splitAll key).dropLast
    · obtain ⟨r, hr⟩ := hq
      rw [← hr] at h1 hm
      obtain ⟨m', e1, e2, e3⟩ := find_setAt_prefix ((splitAll key).getLastD []) c h1
      rw [e3] at hm
      cases hm
      refine ⟨m', e1, ?_⟩
      cases r with
      | nil => simp [setAt]
      | cons a r => simp only [setAt]; split <;> simp
    · rw [find_setAt_other _ _ (by rw [← e]; exact hp) hq] at hm
      exact ⟨m, hm, rfl, rfl⟩

/-! ## Keys of a constraint tree -/

namespace Cons

/-- Every key in the tree of primitive keys resolves to a primitive of the class its node
declares. -/
theorem refs_keys (c : Cons K) (root : Prim K) (keys : List Str) (prims : List (Prim K))
    (hk : List.Forall₂ (fun k p => root.getChild k = .ok p) keys prims) (hr : c.RefsOK prims)
    (ht : List.Forall₂ (fun (p : Prim K) t => p.ty.IsA t) prims c.value.sig.primTypes)
    (hw : c.WF) {kt : KeysNode} (h : c.rootPrimKeys keys = .ok kt) (r : List Str) (m : Cons K)
    (ks : KeysNode) (hm : Node.find c r = some m) (hks : kt.find r = some ks) :
    List.Forall₂ (fun key t => ∃ prim, root.getChild key = .ok prim ∧ prim.ty.IsA t)
      ks.value m.value.sig.primTypes := by
  induction c using Node.induct generalizing keys prims kt r m ks with
  | _ t v cs ih =>
    rw [rootPrimKeys_ok (WF_nodup hw)] at h
    obtain ⟨kss, ns, h1, h2, rfl⟩ := h
    cases r with
    | nil =>
      simp only [Node.find, Option.some.injEq] at hm hks
      subst hm; subst hks
      simp only [Node.value_mk] at ht ⊢
      clear ih h1 h2 hr
      generalize v.sig.primTypes = ts at ht ⊢
      induction hk generalizing ts with
      | nil => cases ht; exact .nil
      | cons hk _ ihk =>
        cases ht with
        | cons h1 h2 => exact .cons ⟨_, hk, h1⟩ (ihk _ h2)
    | cons k r =>
      simp only [Node.find, Node.children_mk] at hm hks
      have hnd := WF_nodup hw
      have hw' := (Node.WF_mk.mp hw).2
      have hlen : v.childPrimKeys.length = kss.length := (pyMap_length h1).symm
      simp only [RefsOK] at hr
      unfold ConsVal.childKeys at h1
      rw [pyMap_ok] at h1
      generalize v.childPrimKeys = vks at hr h1
      clear hlen ht hw
      induction h1 generalizing cs ns with
      | nil => cases cs <;> (simp only [rootPrimKeysL] at h2; cases h2; simp [dictGet] at hks)
      | cons ha hb ih2 =>
        rename_i ak bk ksl kssl
        cases cs with
        | nil => simp [dictGet] at hm
        | cons kc cs =>
          obtain ⟨k', d⟩ := kc
          simp only [rootPrimKeysL, py_bind_ok] at h2
          obtain ⟨n, hn, ns', hns, e⟩ := h2
          cases e
          simp only [RefsOKL] at hr
          obtain ⟨⟨cps, hc1, hc2, hc3⟩, hr⟩ := hr
          simp only [dictGet] at hm hks
          by_cases hkk : k' = k
          · rw [if_pos hkk] at hm hks
            obtain ⟨ks', e1, e2⟩ := (resolve_replaces hk ak cps).mpr hc1
            have e3 : ks' = bk := by
              rw [ha] at e1; cases e1; rfl
            subst e3
            exact ih k' d (by simp) ks' cps e2 hc3 hc2 (hw' k' d (by simp)) hn r m ks hm hks
          · rw [if_neg hkk] at hm hks
            refine ih2 cs (fun k c hc => ih k c (List.mem_cons_of_mem _ hc)) ns' hns hm hks ?_ ?_ hr
            · exact (List.nodup_cons.mp hnd).2
            · exact fun k c hc => hw' k c (List.mem_cons_of_mem _ hc)

end Cons

/-! ## Static types of argument keys -/

/-- The class of the child `k` of a primitive of class `t`. -/
def childType (parts : List (Str × PrimType)) (t : PrimType) (k : Str) : Option PrimType :=
  match t with
  | .line => if k ∈ [k!"Point0", k!"Point1"] then some .point else none
  | .quadrilateral => if k ∈ [k!"Line0", k!"Line1", k!"Line2", k!"Line3"] then some .line else none
  | .axes => dictGet parts k
  | _ => none

/-- The class of the descendant at a path. -/
def pathType (parts : List (Str × PrimType)) : PrimType → List Str → Option PrimType
  | t, [] => some t
  | t, k :: ks => match childType parts t k with
    | some t' => pathType parts t' ks
    | none => none

/-- The class of the primitive that an argument key names, for arguments of the given classes. -/
def refType (parts : List (Str × PrimType)) (ts : List PrimType) (key : Str) : Option PrimType :=
  match splitAll key with
  | [] => none
  | w :: ws => match argnum w with
    | .error _ => none
    | .ok i => match ts[i]? with
      | none => none
      | some t => pathType parts t ws

theorem IsA_trans {a b c : PrimType} (h : a.IsA b) (h' : b.IsA c) : a.IsA c := by
  induction h with
  | refl => exact h'
  | step e _ ih => exact .step e (ih h')

theorem Prim.Shaped.child {parts : List (Str × PrimType)} {p q : Prim K} (h : p.Shaped parts)
    {path : List Str} (hq : p.At path q) : q.Shaped parts := by
  intro path' n hn
  exact h (path ++ path') n (hq.trans hn)

theorem shaped_childType {parts : List (Str × PrimType)} (hs : ∀ kt ∈ parts, '/' ∉ kt.1)
    {p : Prim K} (h : p.Shaped parts) {t t' : PrimType} (hp : p.ty.IsA t) {k : Str}
    (hk : childType parts t k = some t') :
    ∃ q, dictGet p.children k = some q ∧ q.ty.IsA t' ∧ Prim.Shaped parts q := by
  obtain ⟨h1, h2, h3⟩ := h [] p (.here p)
  have main : '/' ∉ k → p.HasChild k t' →
      ∃ q, dictGet p.children k = some q ∧ q.ty.IsA t' ∧ Prim.Shaped parts q := by
    rintro hk ⟨q, hq, hty⟩
    rw [Node.getChild_ok_iff, splitAll_noslash hk] at hq
    have ha := Node.At_of_find hq
    simp only [Node.find] at hq
    cases hd : dictGet p.children k with
    | none => simp [hd] at hq
    | some q' =>
      simp only [hd, Option.some.injEq] at hq
      subst hq
      exact ⟨q', rfl, hty, h.child ha⟩
  cases t with
  | line =>
    simp only [childType] at hk
    split at hk
    · next hm =>
      cases hk
      refine main ?_ (h1 hp k hm)
      simp only [List.mem_cons, List.not_mem_nil, or_false] at hm
      rcases hm with rfl | rfl <;> decide
    · cases hk
  | quadrilateral =>
    simp only [childType] at hk
    split at hk
    · next hm =>
      cases hk
      refine main ?_ (h2 hp k hm)
      simp only [List.mem_cons, List.not_mem_nil, or_false] at hm
      rcases hm with rfl | rfl | rfl | rfl <;> decide
    · cases hk
  | axes =>
    simp only [childType] at hk
    have hm := dictGet_eq_some_mem hk
    exact main (hs _ hm) (h3 hp _ hm)
  | _ => simp [childType] at hk

theorem shaped_pathType {parts : List (Str × PrimType)} (hs : ∀ kt ∈ parts, '/' ∉ kt.1)
    {p : Prim K} (h : p.Shaped parts) {t t' : PrimType} (hp : p.ty.IsA t) {ws : List Str}
    (hk : pathType parts t ws = some t') :
    ∃ q, p.find ws = some q ∧ q.ty.IsA t' ∧ Prim.Shaped parts q := by
  induction ws generalizing p t with
  | nil => simp only [pathType, Option.some.injEq] at hk; subst hk; exact ⟨p, rfl, hp, h⟩
  | cons k ws ih =>
    simp only [pathType] at hk
    cases hc : childType parts t k with
    | none => simp [hc] at hk
    | some t1 =>
      simp only [hc] at hk
      obtain ⟨q, e1, e2, e3⟩ := shaped_childType hs h hp hc
      obtain ⟨q', e4, e5, e6⟩ := ih e3 e2 hk
      exact ⟨q', by simp [Node.find, e1, e4], e5, e6⟩

theorem shaped_refType {parts : List (Str × PrimType)} (hs : ∀ kt ∈ parts, '/' ∉ kt.1)
    {prims : List (Prim K)} {ts : List PrimType}
    (hp : List.Forall₂ (fun (p : Prim K) t => p.ty.IsA t) prims ts)
    (h : ∀ p ∈ prims, Prim.Shaped parts p) {key : Str} {t : PrimType}
    (hk : refType parts ts key = some t) :
    ∃ q, resolve prims key = .ok q ∧ q.ty.IsA t ∧ Prim.Shaped parts q := by
  unfold refType at hk
  unfold resolve
  have hsl := fun w hw => mem_splitAll_noslash (s := key) (w := w) hw
  cases hsp : splitAll key with
  | nil => rw [hsp] at hk; cases hk
  | cons w ws =>
    rw [hsp] at hk hsl
    simp only [← argnum_eq] at hk ⊢
    cases ha : argnum w with
    | error e => rw [ha] at hk; cases hk
    | ok i =>
      rw [ha] at hk
      simp only at hk ⊢
      rcases forall₂_getElem? hp i with ⟨_, e⟩ | ⟨p, t0, e1, e2, e3⟩
      · rw [e] at hk; cases hk
      · rw [e2] at hk
        simp only [e1] at hk ⊢
        obtain ⟨q, f1, f2, f3⟩ := shaped_pathType hs (h p (List.mem_of_getElem? e1)) e3 hk
        refine ⟨q, ?_, f2, f3⟩
        by_cases hw : ws = []
        · subst hw
          simp only [Node.find, Option.some.injEq] at f1
          simp [f1]
        · rw [if_neg hw, Node.getChild_ok_iff,
            splitAll_joinSlash hw fun x hx => hsl x (List.mem_cons_of_mem _ hx)]
          exact f1

namespace Cons

mutual
/-- The argument keys of all descendants are well typed. -/
def KTyped (parts : List (Str × PrimType)) : Cons K → Prop
  | .mk _ v cs => v.childPrimKeys.length = cs.length ∧ KTypedL parts v.sig.primTypes cs v.childPrimKeys
/-- `KTyped` for a list of children. -/
def KTypedL (parts : List (Str × PrimType)) (ts : List PrimType) :
    List (Str × Cons K) → List (List Str) → Prop
  | (_, c) :: cs, ks :: kss =>
    List.Forall₂ (fun key t => refType parts ts key = some t) ks c.value.sig.primTypes ∧
    KTyped parts c ∧ KTypedL parts ts cs kss
  | _, _ => True
end

theorem KTypedL_iff {parts : List (Str × PrimType)} {ts : List PrimType} (cs : List (Str × Cons K)) :
    ∀ (kss : List (List Str)),
    (∀ (i : Nat) kc ks, cs[i]? = some kc → kss[i]? = some ks →
      List.Forall₂ (fun key t => refType parts ts key = some t) ks kc.2.value.sig.primTypes ∧
        KTyped parts kc.2) → KTypedL parts ts cs kss := by
  induction cs with
  | nil => intro pss _; simp [Cons.KTypedL]
  | cons kc cs ih =>
    obtain ⟨k, c⟩ := kc
    intro pss h
    cases pss with
    | nil => simp [Cons.KTypedL]
    | cons ps pss =>
      have h0 := h 0 (k, c) ps rfl rfl
      exact ⟨h0.1, h0.2,
        ih pss fun i kc ps e1 e2 => h (i + 1) kc ps (by simpa using e1) (by simpa using e2)⟩

theorem KTyped.refs {parts : List (Str × PrimType)} (hs : ∀ kt ∈ parts, '/' ∉ kt.1) (c : Cons K)
    (hc : c.KTyped parts) {prims : List (Prim K)}
    (hp : List.Forall₂ (fun (p : Prim K) t => p.ty.IsA t) prims c.value.sig.primTypes)
    (h : ∀ p ∈ prims, Prim.Shaped parts p) : c.RefsOK prims := by
  induction c using Node.induct generalizing prims with
  | _ t v cs ih =>
    simp only [KTyped] at hc
    replace hc := hc.2
    simp only [RefsOK]
    simp only [Node.value_mk] at hp
    generalize v.childPrimKeys = vks at hc
    induction cs generalizing vks with
    | nil => simp [RefsOKL]
    | cons kc cs ih2 =>
      obtain ⟨k, d⟩ := kc
      cases vks with
      | nil => simp [RefsOKL]
      | cons ks vks =>
        simp only [KTypedL] at hc
        obtain ⟨h1, h2, h3⟩ := hc
        simp only [RefsOKL]
        refine ⟨?_, ih2 (fun k c hc => ih k c (List.mem_cons_of_mem _ hc)) vks h3⟩
        have : ∃ cps, pyMap (resolve prims) ks = .ok cps ∧
            List.Forall₂ (fun (p : Prim K) t => p.ty.IsA t) cps d.value.sig.primTypes ∧
            ∀ p ∈ cps, Prim.Shaped parts p := by
          generalize d.value.sig.primTypes = us at h1
          clear h2 ih2 h3 ih
          induction h1 with
          | nil => exact ⟨[], rfl, .nil, by simp⟩
          | cons h1 _ ih3 =>
            obtain ⟨cps, e1, e2, e3⟩ := ih3
            obtain ⟨q, f1, f2, f3⟩ := shaped_refType hs hp h h1
            refine ⟨q :: cps, ?_, .cons f2 e2, ?_⟩
            · simp only [pyMap, f1, e1]; rfl
            · intro p hp
              rcases List.mem_cons.mp hp with rfl | hp
              · exact f3
              · exact e3 p hp
        obtain ⟨cps, e1, e2, e3⟩ := this
        exact ⟨cps, e1, e2, ih k d (by simp) h2 e2 e3⟩

theorem KTyped.aligned {parts : List (Str × PrimType)} {t : ConsClass K} {v : ConsVal K}
    {cs : List (Str × Cons K)} (h : KTyped parts (.mk t v cs)) :
    v.childPrimKeys.length = cs.length := by
  simp only [KTyped] at h; exact h.1

theorem replacePrefix_total {parts : List (Str × PrimType)} {ts : List PrimType} {keys : List Str}
    (hl : keys.length = ts.length) {key : Str} {t : PrimType} (h : refType parts ts key = some t) :
    ∃ k, replacePrefix keys key = .ok k := by
  unfold refType at h
  unfold replacePrefix
  rw [split1_eq]
  cases hsp : splitAll key with
  | nil => rw [hsp] at h; cases h
  | cons w ws =>
    rw [hsp] at h
    simp only at h
    cases ha : argnum w with
    | error e => rw [ha] at h; cases h
    | ok i =>
      rw [ha] at h
      simp only at h
      cases hi : ts[i]? with
      | none => rw [hi] at h; cases h
      | some u =>
        have : i < keys.length := by
          rw [hl]; exact (List.getElem?_eq_some_iff.mp hi).1
        simp only [List.headD_cons, ha, pyIndex_nat, List.getElem?_eq_getElem this, bind, Except.bind]
        exact ⟨_, rfl⟩

/-- The tree of primitive keys of a well-typed constraint can be built. -/
theorem KTyped.keys {parts : List (Str × PrimType)} (c : Cons K)
    (hc : c.KTyped parts) {keys : List Str} (hl : keys.length = c.value.sig.primTypes.length) :
    ∃ kt, c.rootPrimKeys keys = .ok kt := by
  induction c using Node.induct generalizing keys with
  | _ t v cs ih =>
    simp only [KTyped] at hc
    obtain ⟨hlen, hc⟩ := hc
    simp only [Node.value_mk] at hl
    have : ∃ kss ns, v.childKeys keys = .ok kss ∧ rootPrimKeysL cs kss = .ok ns := by
      unfold ConsVal.childKeys
      generalize v.childPrimKeys = vks at hc hlen
      induction cs generalizing vks with
      | nil =>
        obtain rfl : vks = [] := List.length_eq_zero_iff.mp hlen
        exact ⟨[], [], rfl, rfl⟩
      | cons kc cs ih2 =>
        obtain ⟨k, d⟩ := kc
        cases vks with
        | nil => simp at hlen
        | cons ks vks =>
          simp only [KTypedL] at hc
          obtain ⟨h1, h2, h3⟩ := hc
          obtain ⟨kss, ns, e1, e2⟩ := ih2 (fun k c hc => ih k c (List.mem_cons_of_mem _ hc)) vks h3
            (by simpa using hlen)
          have : ∃ ks', pyMap (replacePrefix keys) ks = .ok ks' ∧ ks'.length = ks.length := by
            clear h2 ih2 h3 ih e1 e2 hlen
            generalize d.value.sig.primTypes = us at h1
            induction h1 with
            | nil => exact ⟨[], rfl, rfl⟩
            | cons h1 _ ih3 =>
              obtain ⟨ks', f1, f2⟩ := ih3
              obtain ⟨k, f3⟩ := replacePrefix_total hl h1
              exact ⟨k :: ks', by simp only [pyMap, f1, f3]; rfl, by simp [f2]⟩
          obtain ⟨ks', f1, f2⟩ := this
          obtain ⟨n, hn⟩ := ih k d (by simp) h2 (keys := ks') (by rw [f2]; exact h1.length_eq)
          refine ⟨ks' :: kss, (k, n) :: ns, ?_, ?_⟩
          · simp only [pyMap, f1, e1]; rfl
          · simp only [rootPrimKeysL, hn, e2]; rfl
    obtain ⟨kss, ns, e1, e2⟩ := this
    exact ⟨_, by simp only [rootPrimKeys, e1, e2, bind, Except.bind]; rfl⟩

end Cons

/-! ## Histories -/

theorem Cons.rootPrimKeys_sub {c : Cons K} (hw : c.WF) {keys : List Str} {kt : KeysNode}
    (h : c.rootPrimKeys keys = .ok kt) {r : List Str} {ks : KeysNode} (hks : kt.find r = some ks) :
    ∃ m, Node.find c r = some m := by
  induction c using Node.induct generalizing keys kt r ks with
  | _ t v cs ih =>
    rw [rootPrimKeys_ok (WF_nodup hw)] at h
    obtain ⟨kss, ns, h1, h2, rfl⟩ := h
    cases r with
    | nil => exact ⟨_, rfl⟩
    | cons k r =>
      simp only [Node.find, Node.children_mk] at hks ⊢
      have hw' := (Node.WF_mk.mp hw).2
      clear hw h1
      induction cs generalizing kss ns with
      | nil => simp only [rootPrimKeysL] at h2; cases h2; simp [dictGet] at hks
      | cons kc cs ih2 =>
        obtain ⟨k', d⟩ := kc
        cases kss with
        | nil => simp only [rootPrimKeysL] at h2; cases h2; simp [dictGet] at hks
        | cons ks' kss =>
          simp only [rootPrimKeysL, py_bind_ok] at h2
          obtain ⟨n, hn, ns', hns, e⟩ := h2
          cases e
          simp only [dictGet] at hks ⊢
          by_cases hkk : k' = k
          · rw [if_pos hkk] at hks ⊢
            exact ih k' d (by simp) (hw' k' d (by simp)) hn hks
          · rw [if_neg hkk] at hks ⊢
            exact ih2 (fun k c hc => ih k c (List.mem_cons_of_mem _ hc)) kss ns' hns hks
              fun k c hc => hw' k c (List.mem_cons_of_mem _ hc)

namespace Layout

/-- Inductive invariant behind `NoDangling`. -/
structure Refs (l : Layout K) : Prop where
  wf : l.Wf
  sub : ∀ p ks, l.keys.find p = some ks → ∃ c, Node.find l.cons p = some c
  nodangling : ∀ p (c : Cons K) (ks : KeysNode), p ≠ [] → Node.find l.cons p = some c →
    l.keys.find p = some ks →
    List.Forall₂ (fun key t => ∃ prim, l.prim.getChild key = .ok prim ∧ prim.ty.IsA t)
      ks.value c.value.sig.primTypes

theorem Refs.noDangling {l : Layout K} (h : l.Refs) : l.NoDangling := by
  intro p c ks hp hc hk
  exact h.nodangling p c ks hp ((Node.find_iff_At h.wf.cons).mpr hc)
    ((Node.find_iff_At h.wf.keys).mpr hk)

theorem Refs.empty (id : Nat) : (Layout.empty id : Layout K).Refs := by
  refine ⟨(Inv.empty id).wf, ?_, ?_⟩
  · intro p ks h
    cases p with
    | nil => exact ⟨_, rfl⟩
    | cons a p => simp [Layout.empty, Node.find, dictGet] at h
  · intro p c ks hp h
    cases p with
    | nil => exact absurd rfl hp
    | cons a p => simp [Layout.empty, Node.find, dictGet] at h

theorem forall₂_getChild_mono {l l' : Prim K} (he : ∀ k p, l.getChild k = .ok p →
      ∃ p', l'.getChild k = .ok p' ∧ p'.ty = p.ty) {ks : List Str} {ts : List PrimType}
    (h : List.Forall₂ (fun key t => ∃ prim, l.getChild key = .ok prim ∧ prim.ty.IsA t) ks ts) :
    List.Forall₂ (fun key t => ∃ prim, l'.getChild key = .ok prim ∧ prim.ty.IsA t) ks ts := by
  refine h.imp ?_
  rintro k t ⟨p, h1, h2⟩
  obtain ⟨p', h3, h4⟩ := he k p h1
  exact ⟨p', h3, h4 ▸ h2⟩

theorem Refs.prim {l l' : Layout K} (h : l.Refs) (hw : l'.Wf) (he : l'.prim.Extends l.prim)
    (hc : l'.cons = l.cons) (hk : l'.keys = l.keys) : l'.Refs := by
  refine ⟨hw, by rw [hc, hk]; exact h.sub, ?_⟩
  rw [hc, hk]
  intro p c ks hp h1 h2
  refine forall₂_getChild_mono ?_ (h.nodangling p c ks hp h1 h2)
  intro k q hq
  obtain ⟨q', e1, e2, _⟩ := getChild_extends h.wf.prim hw.prim he hq
  exact ⟨q', e1, e2⟩

theorem Refs.store {l : Layout K} (h : l.Refs) {c : Cons K} (hc : c.WF) {primKeys : List Str}
    {prims : List (Prim K)} (param : List (Param K)) (key : Str)
    (hp : List.Forall₂ (fun k p => l.prim.getChild k = .ok p) primKeys prims)
    (ht : List.Forall₂ (fun (p : Prim K) t => p.ty.IsA t) prims c.value.sig.primTypes)
    (hr : c.RefsOK prims) : (l.store c primKeys param key).1.Refs := by
  have hW := h.wf.store hc primKeys param key
  unfold Layout.store at hW ⊢
  cases h1 : l.cons.addChild key c with
  | error e => exact h
  | ok cons =>
    simp only [h1] at hW ⊢
    have hnone : ∀ r ks, l.keys.find (splitAll key ++ r) ≠ some ks := by
      intro r ks hks
      obtain ⟨d, hd⟩ := h.sub _ _ hks
      obtain ⟨m, e1, e2, _⟩ := Node.addChild_ok h1
      rw [splitAll_split key, List.append_assoc, Node.find_append, e1] at hd
      simp only [Option.bind_some, List.singleton_append, Node.find] at hd
      rw [dictGet_eq_none.mpr e2] at hd
      cases hd
    have hcons : ∀ p m, Node.find cons p = some m → ¬ splitAll key <+: p →
        ∃ m0, Node.find l.cons p = some m0 ∧ m.ty = m0.ty ∧ m.value = m0.value := by
      intro p m hm hpre
      rcases Node.addChild_find_cases h1 hm with ⟨r, rfl, _⟩ | ⟨_, h3⟩
      · exact absurd (List.prefix_append _ _) hpre
      · exact h3
    have hsub : ∀ p d, Node.find l.cons p = some d → ∃ d', Node.find cons p = some d' := by
      intro p d hd
      obtain ⟨m', e1, _⟩ := Node.addChild_extends h.wf.cons h1 p d (Node.At_of_find hd)
      exact ⟨m', (Node.find_iff_At (Node.addChild_WF h1 h.wf.cons hc)).mpr e1⟩
    have h0 : ({ l with cons := cons } : Layout K).Refs := by
      refine ⟨⟨h.wf.prim, Node.addChild_WF h1 h.wf.cons hc, h.wf.keys, h.wf.params⟩, ?_, ?_⟩
      · intro p ks hks
        obtain ⟨d, hd⟩ := h.sub p ks hks
        exact hsub p d hd
      · intro p d ks hpn hd hks
        have hnp : ¬ splitAll key <+: p := by
          rintro ⟨r, rfl⟩; exact hnone _ _ hks
        obtain ⟨m0, e1, e2, e3⟩ := hcons p d hd hnp
        rw [e3]
        exact h.nodangling p m0 ks hpn e1 hks
    unfold Layout.storeKeys at hW ⊢
    cases h2 : (do let t ← c.rootPrimKeys primKeys; l.keys.addChild key t) with
    | error e => exact h0
    | ok keys =>
      simp only [h2] at hW ⊢
      obtain ⟨kt, e1, e2⟩ := py_bind_ok.mp h2
      have hkt := rootPrimKeys_WF e1
      have h3 : ({ l with cons := cons, keys := keys } : Layout K).Refs := by
        refine ⟨⟨h.wf.prim, h0.wf.cons, Node.addChild_WF e2 h.wf.keys hkt, h.wf.params⟩, ?_, ?_⟩
        · intro p ks hks
          rcases Node.addChild_find_cases e2 hks with ⟨r, rfl, hr'⟩ | ⟨_, k0, hk0, _⟩
          · obtain ⟨m, hm⟩ := Cons.rootPrimKeys_sub hc e1 hr'
            exact ⟨m, by rw [show Node.find cons _ = _ from Node.addChild_find h1 r]; exact hm⟩
          · obtain ⟨d, hd⟩ := h.sub p k0 hk0
            exact hsub p d hd
        · intro p d ks hpn hd hks
          rcases Node.addChild_find_cases e2 hks with ⟨r, rfl, hr'⟩ | ⟨hnp, k0, hk0, _, f3⟩
          · have hd' : Node.find c r = some d := by
              rw [← show Node.find cons _ = _ from Node.addChild_find h1 r]; exact hd
            exact Cons.refs_keys c l.prim primKeys prims hp hr ht hc e1 r d ks hd' hr'
          · obtain ⟨m0, g1, g2, g3⟩ := hcons p d hd hnp
            rw [g3, f3]
            exact h.nodangling p m0 k0 hpn g1 hk0
      unfold Layout.storeParams at hW ⊢
      split
      · next h4 =>
        simp only [h4] at hW
        exact h3.prim hW.1 (.refl _) rfl rfl
      · exact h3

theorem Refs.addConstraint {l : Layout K} (h : l.Refs) {c : Cons K} (hc : c.WF)
    (hn : '/' ∉ c.ty.name) {primKeys : List Str} {param : List (Param K)} {key : Str}
    (hr : ∀ prims, List.Forall₂ (fun k p => l.prim.getChild k = .ok p) primKeys prims →
      c.Accepts prims param → c.RefsOK prims) :
    (l.addConstraint c primKeys param key).1.Refs := by
  obtain ⟨ctr, key', _, _, e⟩ := l.addConstraint_cases hn primKeys param key
  rw [e]
  have h' : ({ l with counter := ctr } : Layout K).Refs :=
    h.prim ⟨h.wf.prim, h.wf.cons, h.wf.keys, h.wf.params⟩ (.refl _) rfl rfl
  unfold checkAndStore
  cases hck : check { l with counter := ctr } c primKeys param with
  | error e => exact h'
  | ok u =>
    obtain ⟨prims, e1, e2⟩ := check_ok.mp hck
    exact h'.store hc param key' e1 e2.1 (hr prims e1 e2)

/-- Primitives that are added are well shaped, and constraints use only parts that well-shaped
primitives have. -/
def _root_.MplLayout.LayoutOp.RefsTyped (parts : List (Str × PrimType)) : LayoutOp K → Prop
  | .addPrim prim _ => prim.WF ∧ prim.Shaped parts
  | .addPrims prims => ∀ kp ∈ prims, kp.2.WF ∧ Prim.Shaped parts kp.2
  | .addConstraint c _ _ _ => c.WF ∧ '/' ∉ c.ty.name ∧ c.KTyped parts

theorem HasChild_extends {l l' : Prim K} (hl : l.WF) (hl' : l'.WF) (he : l'.Extends l) {k : Str}
    {t : PrimType} (h : l.HasChild k t) : l'.HasChild k t := by
  obtain ⟨q, h1, h2⟩ := h
  obtain ⟨q', e1, e2, _⟩ := getChild_extends hl hl' he h1
  exact ⟨q', e1, e2 ▸ h2⟩

theorem Shaped_addChild {parts : List (Str × PrimType)} {n n' c : Prim K} {key : Str}
    (h : n.addChild key c = .ok n') (hn : n.WF) (hc : c.WF) (hs : n.Shaped parts)
    (hcs : c.Shaped parts) : n'.Shaped parts := by
  have hn' := Node.addChild_WF h hn hc
  intro path m hm
  rw [← Node.find_iff_At hn'] at hm
  rcases Node.addChild_find_cases h hm with ⟨r, rfl, hr⟩ | ⟨hnp, m0, hm0, hty, hv⟩
  · exact hcs r m (Node.At_of_find hr)
  · have hA := Node.At_of_find hm0
    obtain ⟨h1, h2, h3⟩ := hs path m0 hA
    have hW : ∀ {x : Prim K} {q : List Str} {y : Prim K}, x.WF → x.At q y → y.WF :=
      fun hx hxy p z hz => hx _ z (hxy.trans hz)
    have hE : m.Extends m0 := by
      intro q z hz
      obtain ⟨z', g1, g2, g3⟩ := Node.addChild_extends hn h _ z (hA.trans hz)
      refine ⟨z', ?_, g2, g3⟩
      rw [← Node.find_iff_At hn', Node.find_append, hm] at g1
      exact Node.At_of_find g1
    have hm0W := hW hn hA
    have hmW := hW hn' (Node.At_of_find hm)
    rw [hty]
    exact ⟨fun hl k hk => HasChild_extends hm0W hmW hE (h1 hl k hk),
      fun hl k hk => HasChild_extends hm0W hmW hE (h2 hl k hk),
      fun hl k hk => HasChild_extends hm0W hmW hE (h3 hl k hk)⟩

theorem addPrim_shaped {parts : List (Str × PrimType)} {l : Layout K} (hl : l.Wf)
    (hs : l.prim.Shaped parts) {prim : Prim K} (hp : prim.WF ∧ prim.Shaped parts) (key : Str) :
    (l.addPrim prim key).1.prim.Shaped parts := by
  unfold Layout.addPrim
  cases h : l.prim.addChild key prim with
  | error e => exact hs
  | ok root => exact Shaped_addChild h hl.prim hp.1 hs hp.2

theorem addPrims_shaped {parts : List (Str × PrimType)} {l : Layout K} (hl : l.Wf)
    (hs : l.prim.Shaped parts) {prims : List (Str × Prim K)}
    (hp : ∀ kp ∈ prims, kp.2.WF ∧ Prim.Shaped parts kp.2) :
    (l.addPrims prims).1.prim.Shaped parts := by
  induction prims generalizing l with
  | nil => exact hs
  | cons kp ps ih =>
    obtain ⟨key, prim⟩ := kp
    have h0 := hp (key, prim) (by simp)
    have h1 := hl.addPrim h0.1 key
    have h2 := addPrim_shaped hl hs h0 key
    simp only [Layout.addPrims]
    split
    · next e =>
      rw [e] at h1 h2
      exact ih h1.1 h2 fun kp h => hp kp (List.mem_cons_of_mem _ h)
    · next e => rw [e] at h2; exact h2

theorem Refs.run {parts : List (Str × PrimType)} (hs : ∀ kt ∈ parts, '/' ∉ kt.1) {l : Layout K}
    (h : l.Refs) (hsh : l.prim.Shaped parts) {ops : List (LayoutOp K)}
    (hr : ∀ op ∈ ops, op.RefsTyped parts) : (l.run ops).Refs ∧ (l.run ops).prim.Shaped parts := by
  induction ops generalizing l with
  | nil => exact ⟨h, hsh⟩
  | cons op ops ih =>
    have h0 := hr op (by simp)
    refine ih (l := (l.step op).1) ?_ ?_ fun o ho => hr o (List.mem_cons_of_mem _ ho)
    · cases op with
      | addPrim prim key =>
        have e := addPrim_rest l prim key
        have e' := h.wf.addPrim h0.1 key
        exact h.prim e'.1 e'.2.prim e.1 e.2.1
      | addPrims prims =>
        have e := addPrims_rest l prims
        have e' := h.wf.addPrims fun kp hk => (h0 kp hk).1
        exact h.prim e'.1 e'.2.prim e.1 e.2.1
      | addConstraint c primKeys param key =>
        refine h.addConstraint h0.1 h0.2.1 ?_
        intro prims hp ha
        refine Cons.KTyped.refs hs c h0.2.2 ha.1 ?_
        intro p hpm
        obtain ⟨i, hi⟩ := List.mem_iff_getElem?.mp hpm
        rcases forall₂_getElem? hp i with ⟨_, e⟩ | ⟨k, p', _, e2, e3⟩
        · rw [e] at hi; cases hi
        · rw [e2] at hi
          cases hi
          exact hsh.child (Node.At_of_find (Node.getChild_ok_iff.mp e3))
    · cases op with
      | addPrim prim key => exact addPrim_shaped h.wf hsh h0 key
      | addPrims prims => exact addPrims_shaped h.wf hsh h0
      | addConstraint c primKeys param key =>
        have := (h.wf.addConstraint h0.1 h0.2.1 primKeys param key).2.2
        show (l.addConstraint c primKeys param key).1.prim.Shaped parts
        rw [this]; exact hsh

end Layout

end MplLayout
