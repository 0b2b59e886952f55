import Verif.Lemmas.ShippedFits
import Verif.Lemmas.Layout

/-! `update_layout_constraints`. -/

namespace MplLayout

open Node

section trees
variable {τ σ α β : Type}

namespace Node

theorem setItem_ok {n x m : Node τ α} {p : List Str} {k : Str} (hs : ∀ w ∈ p ++ [k], '/' ∉ w)
    (hne : ∀ w ∈ p ++ [k], w ≠ []) (hm : n.find (p ++ [k]) = some m) :
    n.setItem (joinSlash (p ++ [k])) x = .ok (n.setAt p k x) := by
  have hsp : splitAll (joinSlash (p ++ [k])) = p ++ [k] := splitAll_joinSlash (by simp) hs
  have hc := containsPath_eq n p k hne
  rw [find_snoc] at hm
  cases hf : n.find p with
  | none => rw [hf] at hm; simp at hm
  | some par =>
    rw [hf] at hm hc
    simp only [Option.bind_some] at hm
    have hh : dictHas par.children k = true := by simp [dictHas, hm]
    simp only [hh] at hc
    unfold setItem
    simp only [contains, hsp, hc, bind, Except.bind, if_true, List.dropLast_concat]
    have hl : (p ++ [k]).getLastD [] = k := by simp [List.getLastD_eq_getLast?]
    rw [hl]
    by_cases hp : p = []
    · subst hp; simp [joinSlash]
    · have hj : joinSlash p ≠ [] := by
        obtain ⟨b, q, hq⟩ := List.exists_cons_of_ne_nil hp
        have hb : b ≠ [] := hne b (by rw [hq]; simp)
        rw [hq]
        cases q with
        | nil => simpa [joinSlash] using hb
        | cons c q => rw [joinSlash]; simp
      have hws : ∀ w ∈ p, '/' ∉ w := fun w hw => hs w (List.mem_append_left _ hw)
      rw [if_neg hj, splitAll_joinSlash hp hws]
      have hg : n.getChild (joinSlash p) = .ok par := by
        rw [getChild_ok_iff, splitAll_joinSlash hp hws]; exact hf
      rw [hg]

theorem setItem_err {n x : Node τ α} {p : List Str} {k : Str} (hs : ∀ w ∈ p ++ [k], '/' ∉ w)
    (hne : ∀ w ∈ p ++ [k], w ≠ []) (hm : n.find (p ++ [k]) = none) {n' : Node τ α} :
    n.setItem (joinSlash (p ++ [k])) x ≠ .ok n' := by
  have hsp : splitAll (joinSlash (p ++ [k])) = p ++ [k] := splitAll_joinSlash (by simp) hs
  have hc := containsPath_eq n p k hne
  rw [find_snoc] at hm
  unfold setItem
  cases hf : n.find p with
  | none =>
    rw [hf] at hc
    obtain ⟨k', hc⟩ := hc
    simp [contains, hsp, hc, bind, Except.bind]
  | some par =>
    rw [hf] at hm hc
    simp only [Option.bind_some] at hm
    have hh : dictHas par.children k = false := by simp [dictHas, hm]
    simp only [hh] at hc
    simp [contains, hsp, hc, bind, Except.bind]

theorem setAt_self {n m : Node τ α} {p : List Str} {k : Str} (h : n.find (p ++ [k]) = some m) :
    n.setAt p k m = n := by
  induction p generalizing n with
  | nil =>
    cases n with
    | mk t v cs =>
      simp only [List.nil_append, find, children_mk] at h
      simp only [setAt, ty_mk, value_mk, children_mk]
      cases hd : dictGet cs k with
      | none => rw [hd] at h; exact nomatch h
      | some c => rw [hd] at h; cases h; rw [dictSet_self hd]
  | cons a p ih =>
    cases n with
    | mk t v cs =>
      simp only [List.cons_append, find, children_mk] at h
      simp only [setAt, ty_mk, value_mk, children_mk]
      cases hd : dictGet cs a with
      | none => rfl
      | some c =>
        rw [hd] at h
        simp only [ih h, dictSet_self hd]

theorem rmap_unit_id (n : Node Unit α) : n.rmap () id = n := by
  induction n using induct with
  | _ t v cs ih =>
    rw [rmap, rmapL_eq]
    congr 1
    conv_rhs => rw [← List.map_id cs]
    refine List.map_congr_left ?_
    rintro ⟨k, c⟩ h
    simp [ih k c h]

theorem copyNode_unit (n : Node Unit α) (h : n.WF) : copyNode () n = .ok n := by
  rw [copyNode, mapNode_eq _ _ _ h, rmap_unit_id]

end Node
end trees

variable {K : Type}

/-- The entry of one thickness constraint. -/
def thicknessEntry (axs : List (Str × MplAxes K)) (kind : AxisKind) (primKeys : List Str)
    (v : List (Param K)) : Prop :=
  ∃ axisKey ax, primKeys = [axisKey] ∧ dictGet axs (split1 axisKey).1 = some ax ∧
    v = [.axis (match kind with | .x => ax.xaxis | .y => ax.yaxis)]

theorem thicknessParam_ok {axs : List (Str × MplAxes K)} {c : Cons K} {ks : List Str}
    {r : Option (List (Param K))} : thicknessParam axs c ks = .ok r ↔
      (c.ty.axisKind = none ∧ r = none) ∨
      ∃ kind v, c.ty.axisKind = some kind ∧ r = some v ∧ thicknessEntry axs kind ks v := by
  unfold thicknessParam
  cases hk : c.ty.axisKind with
  | none => simp [eq_comm]
  | some kind =>
    simp only [reduceCtorEq, false_and, false_or, Option.some.injEq, exists_and_left,
      exists_eq_left', thicknessEntry]
    match ks with
    | [] => simp
    | [a] =>
      simp only [List.cons.injEq, and_true, exists_eq_left']
      cases hd : dictGet axs (split1 a).1 with
      | none => simp [hd]
      | some ax =>
        simp only [Except.ok.injEq]
        constructor
        · rintro rfl; exact ⟨_, rfl, _, rfl, rfl⟩
        · rintro ⟨v, rfl, ax', h', rfl⟩
          cases h'; rfl
    | a :: b :: cs => simp

/-- What the loop of `update_layout_constraints` collects. -/
theorem thicknessLoop_spec {l : Layout K} {axs : List (Str × MplAxes K)} {es : List (Str × Cons K)} :
    ∀ {d d' : List (Str × List (Param K))}, (d.map (·.1)).Nodup →
    thicknessLoop l axs es d = .ok d' →
      (d'.map (·.1)).Nodup ∧
      (∀ k v, (k, v) ∈ d' → (k, v) ∈ d ∨ ∃ key c ks kind, (key, c) ∈ es ∧ key.drop 1 = k ∧ k ≠ [] ∧
        l.keys.getChild k = .ok ks ∧ c.ty.axisKind = some kind ∧
        thicknessEntry axs kind ks.value v) ∧
      (∀ k ∈ d.map (·.1), k ∈ d'.map (·.1)) ∧
      (∀ key c kind, (key, c) ∈ es → key.drop 1 ≠ [] → c.ty.axisKind = some kind →
        key.drop 1 ∈ d'.map (·.1)) := by
  induction es with
  | nil =>
    intro d d' hd h
    simp only [thicknessLoop, Except.ok.injEq] at h
    subst h
    exact ⟨hd, fun k v h => .inl h, fun k h => h, by simp⟩
  | cons e es ih =>
    intro d d' hd h
    obtain ⟨key, c⟩ := e
    simp only [thicknessLoop] at h
    by_cases hk : key.drop 1 = []
    · rw [if_pos hk] at h
      obtain ⟨h1, h2, h3, h4⟩ := ih hd h
      refine ⟨h1, fun k v hm => ?_, h3, ?_⟩
      · rcases h2 k v hm with h | ⟨key', c', ks, kind, hm', r⟩
        · exact .inl h
        · exact .inr ⟨key', c', ks, kind, List.mem_cons_of_mem _ hm', r⟩
      · intro key' c' kind hm hne hkind
        rcases List.mem_cons.mp hm with e | hm
        · cases e; exact absurd hk hne
        · exact h4 key' c' kind hm hne hkind
    · rw [if_neg hk] at h
      obtain ⟨ks, hks, h⟩ := bind_ok' h
      obtain ⟨ps, hps, h⟩ := bind_ok' h
      obtain ⟨r, hr, h⟩ := bind_ok' h
      rcases thicknessParam_ok.mp hr with ⟨hkind, rfl⟩ | ⟨kind, v, hkind, rfl, hv⟩
      · obtain ⟨h1, h2, h3, h4⟩ := ih hd h
        refine ⟨h1, fun k v hm => ?_, h3, ?_⟩
        · rcases h2 k v hm with h | ⟨key', c', ks, kind, hm', r⟩
          · exact .inl h
          · exact .inr ⟨key', c', ks, kind, List.mem_cons_of_mem _ hm', r⟩
        · intro key' c' kind hm hne hkind'
          rcases List.mem_cons.mp hm with e | hm
          · cases e; rw [hkind] at hkind'; cases hkind'
          · exact h4 key' c' kind hm hne hkind'
      · obtain ⟨h1, h2, h3, h4⟩ := ih (dictSet_keys_nodup _ _ hd) h
        refine ⟨h1, fun k v' hm => ?_, fun k hm => ?_, ?_⟩
        · rcases h2 k v' hm with h | ⟨key', c', ks, kind, hm', r⟩
          · rcases mem_dictSet h with ⟨rfl, rfl⟩ | h
            · exact .inr ⟨key, c, ks, kind, by simp, rfl, hk, hks, hkind, hv⟩
            · exact .inl h
          · exact .inr ⟨key', c', ks, kind, List.mem_cons_of_mem _ hm', r⟩
        · refine h3 k ?_
          obtain ⟨⟨k', w⟩, hw, rfl⟩ := List.mem_map.mp hm
          by_cases hkk : k' = key.drop 1
          · subst hkk
            exact List.mem_map.mpr ⟨(_, v), self_mem_dictSet, rfl⟩
          · exact List.mem_map.mpr ⟨_, mem_dictSet_of_ne hw hkk, rfl⟩
        · intro key' c' kind' hm hne hkind'
          rcases List.mem_cons.mp hm with e | hm
          · cases e
            exact h3 _ (List.mem_map.mpr ⟨(_, v), self_mem_dictSet, rfl⟩)
          · exact h4 key' c' kind' hm hne hkind'

/-- Two keys neither of which names something below the other. -/
def Apart (a b : Str) : Prop := ¬ splitAll a <+: splitAll b ∧ ¬ splitAll b <+: splitAll a

theorem find_setAt_value {τ α : Type} {n c m : Node τ α} {p q : List Str} {k : Str}
    (hm : n.find (p ++ [k]) = some m) (h : ¬ (p ++ [k]) <+: q) :
    ((n.setAt p k c).find q).map Node.value = (n.find q).map Node.value := by
  by_cases h2 : q <+: p
  · obtain ⟨r, rfl⟩ := h2
    obtain ⟨par, hpar⟩ : ∃ par, n.find (q ++ r) = some par := by
      rw [find_snoc] at hm
      cases hf : n.find (q ++ r) with
      | none => rw [hf] at hm; simp at hm
      | some par => exact ⟨par, rfl⟩
    obtain ⟨m', h1, _, h3⟩ := find_setAt_prefix k c hpar
    rw [h1, h3]
    simp [setAt_value]
  · rw [find_setAt_other k c h h2]

theorem replaceParams_spec {cons : Cons K} : ∀ {d : List (Str × List (Param K))}
    {t t' : ParamsNode K}, (∀ kv ∈ d, ProperKey kv.1) → d.Pairwise (fun a b => Apart a.1 b.1) →
    t.skel = Node.skel cons →
    (∀ kv ∈ d, ∀ (c : Cons K) pt, cons.getChild kv.1 = .ok c → Cons.rootParams c kv.2 = .ok pt →
      pt.skel = Node.skel c) →
    replaceParams cons d t = .ok t' →
    t'.skel = Node.skel cons ∧
    (∀ kv ∈ d, ∃ (c : Cons K) (pt : ParamsNode K), cons.getChild kv.1 = .ok c ∧
      Cons.rootParams c kv.2 = .ok pt ∧ t'.find (splitAll kv.1) = some pt) ∧
    (∀ q, (∀ kv ∈ d, ¬ splitAll kv.1 <+: q) → (t'.find q).map Node.value = (t.find q).map Node.value) ∧
    (∀ q, (∀ kv ∈ d, ¬ splitAll kv.1 <+: q ∧ ¬ q <+: splitAll kv.1) → t'.find q = t.find q) := by
  intro d
  induction d with
  | nil =>
    intro t t' _ _ hs _ h
    simp only [replaceParams, Except.ok.injEq] at h
    subst h
    exact ⟨hs, by simp, fun _ _ => rfl, fun _ _ => rfl⟩
  | cons e d ih =>
    intro t t' hd hp hs hfit h
    obtain ⟨k, v⟩ := e
    simp only [replaceParams] at h
    obtain ⟨c, hc, h⟩ := bind_ok' h
    obtain ⟨pt, hpt, h⟩ := bind_ok' h
    obtain ⟨t1, ht1, h⟩ := bind_ok' h
    have hsk := hfit (k, v) (by simp) c pt hc hpt
    have hprop := hd (k, v) (by simp)
    have hsplit := splitAll_split k
    generalize hP : (splitAll k).dropLast = P at hsplit
    generalize hL : (splitAll k).getLastD [] = L at hsplit
    have hfc : Node.find cons (P ++ [L]) = some c := by
      have := getChild_ok_iff.mp hc; rwa [hsplit] at this
    have hft : ∃ m, t.find (P ++ [L]) = some m ∧ m.skel = Node.skel c := by
      have h1 := find_rmap () (fun _ => ()) cons (P ++ [L])
      have h2 := find_rmap () (fun _ => ()) t (P ++ [L])
      rw [show t.rmap () (fun _ => ()) = cons.rmap () (fun _ => ()) from hs, h1, hfc] at h2
      cases hm : t.find (P ++ [L]) with
      | none => rw [hm] at h2; cases h2
      | some m => rw [hm] at h2; exact ⟨m, rfl, (Option.some.inj h2).symm⟩
    obtain ⟨m, hm, hms⟩ := hft
    have hset : t.setItem k pt = .ok (t.setAt P L pt) := by
      have := setItem_ok (x := pt) (n := t) (p := P) (k := L)
        (by rw [← hsplit]; exact fun w hw => mem_splitAll_noslash hw)
        (by rw [← hsplit]; exact hprop) hm
      rwa [← hsplit, joinSlash_splitAll] at this
    rw [hset] at ht1
    cases ht1
    have hs1 : (t.setAt P L pt).skel = Node.skel cons := by
      have e1 : (t.setAt P L pt).skel = t.skel.setAt P L pt.skel := setAt_rmap _ _ _ _ _ _
      rw [e1, hsk, ← hms]
      rw [setAt_self (m := m.skel) (by rw [find_rmap, hm]; rfl)]
      exact hs
    rw [List.pairwise_cons] at hp
    obtain ⟨a1, a2, a3, a4⟩ := ih (fun kv h => hd kv (List.mem_cons_of_mem _ h)) hp.2 hs1
      (fun kv h => hfit kv (List.mem_cons_of_mem _ h)) h
    refine ⟨a1, ?_, ?_, ?_⟩
    · intro kv hkv
      rcases List.mem_cons.mp hkv with rfl | hkv
      · refine ⟨c, pt, hc, hpt, ?_⟩
        rw [a4 (splitAll k) fun kv h => ⟨(hp.1 kv h).2, (hp.1 kv h).1⟩, hsplit]
        have hpar : ∃ par, t.find P = some par := by
          rw [find_snoc] at hm
          cases hf : t.find P with
          | none => rw [hf] at hm; simp at hm
          | some par => exact ⟨par, rfl⟩
        obtain ⟨par, hpar⟩ := hpar
        exact find_setAt_below L pt [] hpar
      · exact a2 kv hkv
    · intro q hq
      rw [a3 q fun kv h => hq kv (List.mem_cons_of_mem _ h)]
      refine find_setAt_value hm ?_
      rw [← hsplit]; exact hq (k, v) (by simp)
    · intro q hq
      rw [a4 q fun kv h => hq kv (List.mem_cons_of_mem _ h)]
      have := hq (k, v) (by simp)
      refine find_setAt_other L pt (by rw [← hsplit]; exact this.1) fun hqp => this.2 ?_
      rw [hsplit]; exact hqp.trans (List.prefix_append _ _)

theorem replaceParams_total {cons : Cons K} : ∀ {d : List (Str × List (Param K))}
    {t : ParamsNode K}, (∀ kv ∈ d, ProperKey kv.1) →
    t.skel = Node.skel cons →
    (∀ kv ∈ d, ∃ (c : Cons K) (pt : ParamsNode K), cons.getChild kv.1 = .ok c ∧
      Cons.rootParams c kv.2 = .ok pt ∧ pt.skel = Node.skel c) →
    ∃ t', replaceParams cons d t = .ok t' := by
  intro d
  induction d with
  | nil => intro t _ _ _; exact ⟨t, rfl⟩
  | cons e d ih =>
    intro t hd hs hfit
    obtain ⟨k, v⟩ := e
    obtain ⟨c, pt, hc, hpt, hsk⟩ := hfit (k, v) (by simp)
    have hprop := hd (k, v) (by simp)
    have hsplit := splitAll_split k
    generalize hP : (splitAll k).dropLast = P at hsplit
    generalize hL : (splitAll k).getLastD [] = L at hsplit
    have hfc : Node.find cons (P ++ [L]) = some c := by
      have := getChild_ok_iff.mp hc; rwa [hsplit] at this
    have hft : ∃ m, t.find (P ++ [L]) = some m ∧ m.skel = Node.skel c := by
      have h1 := find_rmap () (fun _ => ()) cons (P ++ [L])
      have h2 := find_rmap () (fun _ => ()) t (P ++ [L])
      rw [show t.rmap () (fun _ => ()) = cons.rmap () (fun _ => ()) from hs, h1, hfc] at h2
      cases hm : t.find (P ++ [L]) with
      | none => rw [hm] at h2; cases h2
      | some m => rw [hm] at h2; exact ⟨m, rfl, (Option.some.inj h2).symm⟩
    obtain ⟨m, hm, hms⟩ := hft
    have hset : t.setItem k pt = .ok (t.setAt P L pt) := by
      have := setItem_ok (x := pt) (n := t) (p := P) (k := L)
        (by rw [← hsplit]; exact fun w hw => mem_splitAll_noslash hw)
        (by rw [← hsplit]; exact hprop) hm
      rwa [← hsplit, joinSlash_splitAll] at this
    have hs1 : (t.setAt P L pt).skel = Node.skel cons := by
      have e1 : (t.setAt P L pt).skel = t.skel.setAt P L pt.skel := setAt_rmap _ _ _ _ _ _
      rw [e1, hsk, ← hms]
      rw [setAt_self (m := m.skel) (by rw [find_rmap, hm]; rfl)]
      exact hs
    obtain ⟨t', h⟩ := ih (t := t.setAt P L pt) (fun kv h => hd kv (List.mem_cons_of_mem _ h)) hs1
      fun kv h => hfit kv (List.mem_cons_of_mem _ h)
    refine ⟨t', ?_⟩
    simp only [replaceParams, hc, hpt, hset, bind, Except.bind]
    exact h

theorem thicknessLoop_total {l : Layout K} {axs : List (Str × MplAxes K)} {es : List (Str × Cons K)} :
    ∀ (d : List (Str × List (Param K))),
    (∀ key c, (key, c) ∈ es → key.drop 1 ≠ [] → ∃ ks ps, l.keys.getChild (key.drop 1) = .ok ks ∧
      l.params.getChild (key.drop 1) = .ok ps ∧
      ∀ kind, c.ty.axisKind = some kind → ∃ v, thicknessEntry axs kind ks.value v) →
    ∃ d', thicknessLoop l axs es d = .ok d' := by
  induction es with
  | nil => intro d _; exact ⟨d, rfl⟩
  | cons e es ih =>
    intro d h
    obtain ⟨key, c⟩ := e
    have ih' := fun d => ih d fun key c hm => h key c (List.mem_cons_of_mem _ hm)
    simp only [thicknessLoop]
    by_cases hk : key.drop 1 = []
    · rw [if_pos hk]; exact ih' d
    · rw [if_neg hk]
      obtain ⟨ks, ps, h1, h2, h3⟩ := h key c (by simp) hk
      simp only [h1, h2, bind, Except.bind]
      cases hkind : c.ty.axisKind with
      | none =>
        rw [(thicknessParam_ok (r := none)).mpr (.inl ⟨hkind, rfl⟩)]
        exact ih' d
      | some kind =>
        obtain ⟨v, hv⟩ := h3 kind hkind
        rw [(thicknessParam_ok (r := some v)).mpr (.inr ⟨kind, v, hkind, rfl, hv⟩)]
        exact ih' _

/-- The layout is in step, its constraint keys are proper, and below the thickness constraints is
just what they were made with. -/
structure ThickOK (l : Layout K) : Prop where
  inv : l.Inv
  keys : ∀ p (c : Cons K), l.cons.At p c → ∀ w ∈ p, '/' ∉ w ∧ w ≠ []
  apart : ∀ p (c : Cons K) q (c' : Cons K), l.cons.At p c → c.ty.axisKind ≠ none → c.At q c' →
    q ≠ [] → c'.ty.axisKind = none
  fit : ∀ p (c : Cons K), p ≠ [] → l.cons.At p c → c.ty.axisKind ≠ none → ∀ a pt,
    Cons.rootParams c [.axis a] = .ok pt → pt.skel = Node.skel c

theorem ThickOK.iterFlat {l : Layout K} (hl : ThickOK l) {key : Str} {c : Cons K}
    (h : (key, c) ∈ l.cons.iterFlat []) (hk : key.drop 1 ≠ []) :
    splitAll (key.drop 1) ≠ [] ∧ l.cons.At (splitAll (key.drop 1)) c ∧ ProperKey (key.drop 1) := by
  obtain ⟨p, e, hp⟩ := (iterFlat_mem _ _ _ _).mp h
  rw [List.nil_append] at e
  have hpne : p ≠ [] := by rintro rfl; exact hk (by rw [e]; rfl)
  rw [e, slashed_eq hpne, List.drop_one, List.tail_cons]
  have hsp : splitAll (joinSlash p) = p := splitAll_joinSlash hpne fun w hw => (hl.keys p c hp w hw).1
  refine ⟨splitAll_ne_nil _, by rw [hsp]; exact hp, ?_⟩
  intro w hw
  rw [hsp] at hw
  exact (hl.keys p c hp w hw).2

theorem ThickOK.mem_iterFlat {l : Layout K} (hl : ThickOK l) {p : List Str} {c : Cons K}
    (h : l.cons.At p c) (hp : p ≠ []) : ∃ key, (key, c) ∈ l.cons.iterFlat [] ∧
      key.drop 1 = joinSlash p ∧ key.drop 1 ≠ [] ∧ splitAll (joinSlash p) = p := by
  have hsp : splitAll (joinSlash p) = p := splitAll_joinSlash hp fun w hw => (hl.keys p c h w hw).1
  have hj : joinSlash p ≠ [] := by
    intro e
    rw [e] at hsp
    have := (hl.keys p c h [] (by rw [← hsp]; simp [splitAll])).2
    exact this rfl
  refine ⟨slashed p, (iterFlat_mem _ _ _ _).mpr ⟨p, rfl, h⟩, ?_, ?_, hsp⟩
  · rw [slashed_eq hp]; rfl
  · rw [slashed_eq hp]; exact hj

theorem Layout.Inv.find {l : Layout K} (hl : l.Inv) {p : List Str} {c : Cons K} (h : l.cons.At p c) :
    ∃ ks ps, l.keys.find p = some ks ∧ l.params.find p = some ps := by
  have h0 := (find_iff_At hl.cons).mpr h
  have h1 := find_rmap () (fun _ => ()) l.cons p
  have h2 := find_rmap () (fun _ => ()) l.keys p
  have h3 := find_rmap () (fun _ => ()) l.params p
  rw [← show l.cons.rmap () (fun _ => ()) = l.keys.rmap () (fun _ => ()) from hl.keys, h1, h0] at h2
  rw [← show l.cons.rmap () (fun _ => ()) = l.params.rmap () (fun _ => ()) from hl.params, h1, h0] at h3
  cases hk : l.keys.find p with
  | none => rw [hk] at h2; cases h2
  | some ks =>
    cases hq : l.params.find p with
    | none => rw [hq] at h3; cases h3
    | some ps => exact ⟨ks, ps, rfl, rfl⟩

theorem ThickOK.update {l : Layout K} (hl : ThickOK l) {axs : List (Str × MplAxes K)}
    {l' : Layout K} (h : updateLayoutConstraints l axs = .ok l') :
    l'.prim = l.prim ∧ l'.cons = l.cons ∧ l'.keys = l.keys ∧ l'.counter = {} ∧ l'.Inv ∧
    (∀ p (c : Cons K) kind, p ≠ [] → l.cons.At p c → c.ty.axisKind = some kind →
      ∃ ks v pt, l.keys.At p ks ∧ thicknessEntry axs kind ks.value v ∧
        Cons.rootParams c v = .ok pt ∧ l'.params.At p pt) ∧
    (∀ p m, l.params.At p m →
      (∀ q (c : Cons K), q ≠ [] → q <+: p → l.cons.At q c → c.ty.axisKind = none) →
      ∃ m', l'.params.At p m' ∧ m'.value = m.value) := by
  unfold updateLayoutConstraints at h
  obtain ⟨d, hd, h⟩ := bind_ok' h
  obtain ⟨params, hp, h⟩ := bind_ok' h
  cases h
  simp only [updateRootParam, copyNode_unit _ hl.inv.paramsWF, bind, Except.bind] at hp
  obtain ⟨n1, n2, _, n4⟩ := thicknessLoop_spec (d := []) (by simp) hd
  have hent : ∀ kv ∈ d, ∃ (c : Cons K) (ks : KeysNode) (kind : AxisKind),
      l.cons.At (splitAll kv.1) c ∧ ProperKey kv.1 ∧ l.keys.getChild kv.1 = .ok ks ∧
      c.ty.axisKind = some kind ∧ thicknessEntry axs kind ks.value kv.2 := by
    rintro ⟨k, v⟩ hkv
    rcases n2 k v hkv with h | ⟨key, c, ks, kind, hm, rfl, hne, hks, hkind, hv⟩
    · cases h
    · obtain ⟨_, b, c'⟩ := hl.iterFlat hm hne
      exact ⟨c, ks, kind, b, c', hks, hkind, hv⟩
  have happ : d.Pairwise (fun a b => Apart a.1 b.1) := by
    have key : ∀ a ∈ d, ∀ b ∈ d, splitAll a.1 <+: splitAll b.1 → a.1 = b.1 := by
      intro a ha b hb hpre
      obtain ⟨ca, _, ka, ha1, _, _, ha4, _⟩ := hent a ha
      obtain ⟨cb, _, kb, hb1, _, _, hb4, _⟩ := hent b hb
      obtain ⟨r, hr⟩ := hpre
      by_cases hr0 : r = []
      · subst hr0
        rw [List.append_nil] at hr
        rw [← joinSlash_splitAll a.1, hr, joinSlash_splitAll]
      · exfalso
        have hfb := (find_iff_At hl.inv.cons).mpr hb1
        rw [← hr, find_append, (find_iff_At hl.inv.cons).mpr ha1] at hfb
        have := hl.apart _ ca r cb ha1 (by rw [ha4]; simp) (At_of_find hfb) hr0
        rw [hb4] at this; cases this
    rw [List.nodup_iff_pairwise_ne, List.pairwise_map] at n1
    have n1' := List.Pairwise.and_mem.mp n1
    refine n1'.imp ?_
    rintro a b ⟨ha, hb, hab⟩
    exact ⟨fun h => hab (key a ha b hb h), fun h => hab (key b hb a ha h).symm⟩
  have hfit : ∀ kv ∈ d, ∀ (c : Cons K) pt, l.cons.getChild kv.1 = .ok c →
      Cons.rootParams c kv.2 = .ok pt → pt.skel = Node.skel c := by
    intro kv hkv c pt hc hpt
    obtain ⟨c', ks, kind, h1, _, _, h4, ax, _, _, _, hv⟩ := hent kv hkv
    have : c = c' := by
      have e1 := getChild_ok_iff.mp hc
      rw [(find_iff_At hl.inv.cons).mpr h1] at e1
      exact (Option.some.inj e1).symm
    subst this
    rw [hv] at hpt
    exact hl.fit _ c (splitAll_ne_nil _) h1 (by rw [h4]; simp) _ _ hpt
  obtain ⟨a1, a2, a3, _⟩ := replaceParams_spec (fun kv h => (hent kv h).choose_spec.choose_spec.choose_spec.2.1)
    happ (show l.params.skel = Node.skel l.cons from hl.inv.params.symm) hfit hp
  have hinv : (⟨l.prim, l.cons, l.keys, params, {}⟩ : Layout K).Inv :=
    ⟨hl.inv.prim, hl.inv.cons, hl.inv.keysWF, Layout.skel_WF (n := l.cons) a1.symm hl.inv.cons,
      hl.inv.keys, a1.symm⟩
  refine ⟨rfl, rfl, rfl, rfl, hinv, ?_, ?_⟩
  · intro p c kind hpne hc hkind
    obtain ⟨key, hm, hk, hkne, hsp⟩ := hl.mem_iterFlat hc hpne
    have := n4 key c kind hm hkne hkind
    obtain ⟨⟨k, v⟩, hkv, hkk⟩ := List.mem_map.mp this
    simp only at hkk
    obtain ⟨c', ks, kind', h1, _, h3, h4, h5⟩ := hent (k, v) hkv
    obtain ⟨c'', pt, e1, e2, e3⟩ := a2 (k, v) hkv
    simp only at h1 h3 e1 e3 h5 e2
    rw [hkk, hk] at h3 e1 h1 e3
    rw [hsp] at h1 e3
    have e1' := getChild_ok_iff.mp e1
    rw [hsp, (find_iff_At hl.inv.cons).mpr hc] at e1'
    cases Option.some.inj e1'
    have : c = c' := by
      have e1 := (find_iff_At hl.inv.cons).mpr h1
      rw [(find_iff_At hl.inv.cons).mpr hc] at e1
      exact Option.some.inj e1
    subst this
    rw [hkind] at h4
    cases h4
    refine ⟨ks, v, pt, At_of_find ?_, h5, e2, At_of_find e3⟩
    have := getChild_ok_iff.mp h3
    rwa [hsp] at this
  · intro p m hm hno
    have hv := a3 p (by
      intro kv hkv hpre
      obtain ⟨c', ks, kind', h1, _, h3, h4, h5⟩ := hent kv hkv
      have := hno _ c' (splitAll_ne_nil _) hpre h1
      rw [h4] at this; cases this)
    rw [(find_iff_At hl.inv.paramsWF).mpr hm] at hv
    cases hf : params.find p with
    | none => rw [hf] at hv; cases hv
    | some m' =>
      rw [hf] at hv
      exact ⟨m', At_of_find hf, Option.some.inj hv⟩

/-- When the update succeeds. -/
theorem ThickOK.update_total {l : Layout K} (hl : ThickOK l) {axs : List (Str × MplAxes K)} 
    (h : ∀ p (c : Cons K) kind ks, p ≠ [] → l.cons.At p c → c.ty.axisKind = some kind → l.keys.At p ks →
      ∃ v pt, thicknessEntry axs kind ks.value v ∧ Cons.rootParams c v = .ok pt) :
    ∃ l', updateLayoutConstraints l axs = .ok l' := by
  have hloop : ∀ key c, (key, c) ∈ l.cons.iterFlat [] → key.drop 1 ≠ [] →
      ∃ ks ps, l.keys.getChild (key.drop 1) = .ok ks ∧ l.params.getChild (key.drop 1) = .ok ps ∧
      ∀ kind, c.ty.axisKind = some kind → ∃ v, thicknessEntry axs kind ks.value v := by
    intro key c hm hne
    obtain ⟨a, b, _⟩ := hl.iterFlat hm hne
    obtain ⟨ks, ps, h1, h2⟩ := hl.inv.find b
    refine ⟨ks, ps, getChild_ok_iff.mpr h1, getChild_ok_iff.mpr h2, fun kind hkind => ?_⟩
    obtain ⟨v, _, hv, _⟩ := h _ c kind ks a b hkind (At_of_find h1)
    exact ⟨v, hv⟩
  obtain ⟨d, hd⟩ := thicknessLoop_total (l := l) [] hloop
  obtain ⟨n1, n2, _, n4⟩ := thicknessLoop_spec (d := []) (by simp) hd
  have hrep : ∃ t', replaceParams l.cons d l.params = .ok t' := by
    have hent : ∀ kv ∈ d, ProperKey kv.1 ∧ ∃ (c : Cons K) (pt : ParamsNode K),
        l.cons.getChild kv.1 = .ok c ∧ Cons.rootParams c kv.2 = .ok pt ∧ pt.skel = Node.skel c := by
      rintro ⟨k, v⟩ hkv
      rcases n2 k v hkv with h' | ⟨key, c, ks, kind, hm, rfl, hne, hks, hkind, hv⟩
      · cases h'
      · obtain ⟨a, b, c'⟩ := hl.iterFlat hm hne
        obtain ⟨v', pt, hv', hpt⟩ := h _ c kind ks a b hkind (At_of_find (getChild_ok_iff.mp hks))
        have : v = v' := by
          obtain ⟨a1, ax1, e1, e2, e3⟩ := hv
          obtain ⟨a2, ax2, f1, f2, f3⟩ := hv'
          rw [e1] at f1; cases f1
          rw [e2] at f2; cases f2
          rw [e3, f3]
        subst this
        refine ⟨c', c, pt, getChild_ok_iff.mpr ((find_iff_At hl.inv.cons).mpr b), hpt, ?_⟩
        obtain ⟨_, ax, _, _, e⟩ := hv
        rw [e] at hpt
        exact hl.fit _ c a b (by rw [hkind]; simp) _ _ hpt
    exact replaceParams_total (fun kv h => (hent kv h).1) hl.inv.params.symm fun kv h => (hent kv h).2
  obtain ⟨t', ht'⟩ := hrep
  refine ⟨⟨l.prim, l.cons, l.keys, t', {}⟩, ?_⟩
  unfold updateLayoutConstraints
  simp only [hd, updateRootParam, copyNode_unit _ hl.inv.paramsWF, bind, Except.bind, ht']

end MplLayout
