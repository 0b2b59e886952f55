import Verif.Lemmas.Py
import Verif.Spec.Containers

/-! # Lemmas about trees -/

namespace MplLayout
namespace Node

variable {τ σ α β : Type}

/-- Tree induction. -/
theorem induct {P : Node τ α → Prop}
    (h : ∀ t v cs, (∀ k c, (k, c) ∈ cs → P c) → P (.mk t v cs)) (n : Node τ α) : P n := by
  refine Node.rec (motive_1 := P) (motive_2 := fun cs => ∀ k c, (k, c) ∈ cs → P c)
    (motive_3 := fun kc => P kc.2) ?_ ?_ ?_ ?_ n
  · intro t v cs ih; exact h t v cs ih
  · intro k c hc; simp at hc
  · intro hd tl ih1 ih2 k c hc
    rcases List.mem_cons.1 hc with hc | hc
    · cases hc; exact ih1
    · exact ih2 k c hc
  · intro k c ih; exact ih

@[simp] theorem ty_mk (t : τ) (v : α) (cs) : (mk t v cs).ty = t := rfl
@[simp] theorem value_mk (t : τ) (v : α) (cs) : (mk t v cs).value = v := rfl
@[simp] theorem children_mk (t : τ) (v : α) (cs) : (mk t v cs).children = cs := rfl
@[simp] theorem keys_mk (t : τ) (v : α) (cs : List (Str × Node τ α)) :
    (mk t v cs).keys = cs.map (·.1) := rfl
theorem eta (n : Node τ α) : mk n.ty n.value n.children = n := by cases n; rfl

/-! ## Following a path -/

/-- Follow child keys. -/
def find (n : Node τ α) : List Str → Option (Node τ α)
  | [] => some n
  | k :: ks => match dictGet n.children k with
    | some c => find c ks
    | none => none

theorem find_append (n : Node τ α) (p q : List Str) :
    n.find (p ++ q) = (n.find p).bind (·.find q) := by
  induction p generalizing n with
  | nil => simp [find]
  | cons k ks ih =>
    simp only [List.cons_append, find]
    cases dictGet n.children k with
    | none => rfl
    | some c => exact ih c

theorem find_snoc (n : Node τ α) (p : List Str) (k : Str) :
    n.find (p ++ [k]) = (n.find p).bind (fun m => dictGet m.children k) := by
  rw [find_append]
  congr 1
  funext m
  simp only [find]
  cases dictGet m.children k <;> rfl

theorem getPath_eq (n : Node τ α) {p : List Str} (hp : p ≠ []) :
    n.getPath p = match n.find p with
      | some m => .ok m
      | none => .error (.keyError (joinSlash p)) := by
  induction p generalizing n with
  | nil => exact absurd rfl hp
  | cons k ks ih =>
    cases ks with
    | nil =>
      simp only [getPath, find]
      cases h : dictGet n.children k <;> simp [reraiseKey, joinSlash]
    | cons k' ks =>
      rw [getPath, find]
      cases h : dictGet n.children k with
      | none => simp [reraiseKey]
      | some c =>
        simp only
        rw [ih c (by simp)]
        cases find c (k' :: ks) <;> simp [reraiseKey]

theorem getChild_eq' (n : Node τ α) (key : Str) :
    n.getChild key = match n.find (splitAll key) with
      | some m => .ok m
      | none => .error (.keyError key) := by
  rw [getChild, getPath_eq n (splitAll_ne_nil key), joinSlash_splitAll]

theorem getChild_ok_iff {n m : Node τ α} {key : Str} :
    n.getChild key = .ok m ↔ n.find (splitAll key) = some m := by
  rw [getChild_eq']; cases n.find (splitAll key) <;> simp

theorem getChild_error_iff {n : Node τ α} {key : Str} {e : Err} :
    n.getChild key = .error e ↔ n.find (splitAll key) = none ∧ e = .keyError key := by
  rw [getChild_eq']; cases n.find (splitAll key) <;> simp [eq_comm]

/-- `containers.py:91-101` verbatim: `getChild` satisfies the code's own recursion on
`key.split("/", 1)`. -/
theorem getChild_eq (n : Node τ α) (key : Str) :
    n.getChild key = reraiseKey key (match split1 key with
      | (parent, none) => (match dictGet n.children parent with
        | some c => .ok c
        | none => .error (.keyError parent))
      | (parent, some rest) => (match dictGet n.children parent with
        | some c => c.getChild rest
        | none => .error (.keyError parent))) := by
  rw [getChild_eq', split1_eq]
  cases h : splitAll key with
  | nil => exact absurd h (splitAll_ne_nil key)
  | cons w ws =>
    simp only [List.headD_cons, List.tail_cons]
    by_cases hw : ws = []
    · subst hw
      simp only [find, if_true]
      cases h2 : dictGet n.children w <;> simp [reraiseKey]
    · simp only [hw, if_false, find]
      have hs : splitAll (joinSlash ws) = ws :=
        splitAll_joinSlash hw fun x hx =>
          mem_splitAll_noslash (s := key) (by rw [h]; exact List.mem_cons_of_mem _ hx)
      cases h2 : dictGet n.children w with
      | none => simp [reraiseKey]
      | some c =>
        simp only [getChild_eq', hs]
        cases c.find ws <;> simp [reraiseKey]

theorem At_of_find {n m : Node τ α} {p : List Str} (h : n.find p = some m) : n.At p m := by
  induction p generalizing n with
  | nil => simp [find] at h; subst h; exact .here _
  | cons k ks ih =>
    simp only [find] at h
    cases hk : dictGet n.children k with
    | none => simp [hk] at h
    | some c =>
      simp only [hk] at h
      exact .down (dictGet_eq_some_mem hk) (ih h)

theorem WF.keys_nodup {n : Node τ α} (h : n.WF) : (n.children.map (·.1)).Nodup := h [] n (.here n)

theorem WF.child {n c : Node τ α} {k : Str} (h : n.WF) (hc : (k, c) ∈ n.children) : c.WF :=
  fun p m hm => h (k :: p) m (.down hc hm)

theorem SlashFree.child {n c : Node τ α} {k : Str} (h : n.SlashFree) (hc : (k, c) ∈ n.children) :
    c.SlashFree := fun p m hm => h (k :: p) m (.down hc hm)

theorem SlashFree.key {n c : Node τ α} {k : Str} (h : n.SlashFree) (hc : (k, c) ∈ n.children) :
    '/' ∉ k := h [] n (.here n) k (List.mem_map.2 ⟨_, hc, rfl⟩)

theorem find_of_At {n m : Node τ α} {p : List Str} (hn : n.WF) (h : n.At p m) :
    n.find p = some m := by
  induction h with
  | here n => rfl
  | down hc _ ih =>
    simp only [find, dictGet_of_mem hn.keys_nodup hc]
    exact ih (hn.child hc)

theorem find_iff_At {n m : Node τ α} {p : List Str} (hn : n.WF) :
    n.find p = some m ↔ n.At p m := ⟨At_of_find, find_of_At hn⟩

theorem At.noslash {n m : Node τ α} {p : List Str} (hn : n.SlashFree) (h : n.At p m) :
    ∀ w ∈ p, '/' ∉ w := by
  induction h with
  | here => simp
  | down hc _ ih =>
    intro w hw
    rcases List.mem_cons.1 hw with hw | hw
    · subst hw; exact hn.key hc
    · exact ih (hn.child hc) w hw

theorem At.trans {n m l : Node τ α} {p q : List Str} (h : n.At p m) (h' : m.At q l) :
    n.At (p ++ q) l := by
  induction h with
  | here => exact h'
  | down hc _ ih => exact .down hc (ih h')

theorem WF.at {n m : Node τ α} {p} (h : n.WF) (hm : n.At p m) : m.WF :=
  fun q l hl => h (p ++ q) l (hm.trans hl)

theorem SlashFree.at {n m : Node τ α} {p} (h : n.SlashFree) (hm : n.At p m) : m.SlashFree :=
  fun q l hl => h (p ++ q) l (hm.trans hl)

theorem WF_mk {t : τ} {v : α} {cs : List (Str × Node τ α)} :
    (mk t v cs).WF ↔ (cs.map (·.1)).Nodup ∧ ∀ k c, (k, c) ∈ cs → c.WF := by
  constructor
  · intro h; exact ⟨h.keys_nodup, fun k c hc => h.child hc⟩
  · rintro ⟨h1, h2⟩ p m hm
    cases hm with
    | here => exact h1
    | down hc hm => exact h2 _ _ hc _ _ hm

theorem SlashFree_mk {t : τ} {v : α} {cs : List (Str × Node τ α)} :
    (mk t v cs).SlashFree ↔ ∀ k c, (k, c) ∈ cs → '/' ∉ k ∧ c.SlashFree := by
  constructor
  · intro h k c hc; exact ⟨h.key hc, h.child hc⟩
  · intro h p m hm
    cases hm with
    | here =>
      intro k hk
      obtain ⟨⟨k', c⟩, hc, rfl⟩ := List.mem_map.1 hk
      exact (h _ _ hc).1
    | down hc hm => exact (h _ _ hc).2 _ _ hm

theorem goodBL_iff (cs : List (Str × Node τ α)) :
    goodBL cs = true ↔ ∀ k c, (k, c) ∈ cs → '/' ∉ k ∧ goodB c = true := by
  induction cs with
  | nil => simp [goodBL]
  | cons p cs ih =>
    obtain ⟨k, c⟩ := p
    simp only [goodBL, Bool.and_eq_true, decide_eq_true_eq, ih, List.mem_cons]
    constructor
    · rintro ⟨⟨h1, h2⟩, h3⟩ k' c' h
      rcases h with h | h
      · cases h; exact ⟨h1, h2⟩
      · exact h3 k' c' h
    · intro h
      exact ⟨h k c (Or.inl rfl), fun k' c' h' => h k' c' (Or.inr h')⟩

theorem goodB_iff (n : Node τ α) : goodB n = true ↔ n.WF ∧ n.SlashFree := by
  induction n using induct with
  | h t v cs ih =>
    simp only [goodB, Bool.and_eq_true, decide_eq_true_eq, goodBL_iff, WF_mk, SlashFree_mk]
    constructor
    · rintro ⟨h1, h2⟩
      exact ⟨⟨h1, fun k c hc => ((ih k c hc).1 (h2 k c hc).2).1⟩,
        fun k c hc => ⟨(h2 k c hc).1, ((ih k c hc).1 (h2 k c hc).2).2⟩⟩
    · rintro ⟨⟨h1, h2⟩, h3⟩
      exact ⟨h1, fun k c hc => ⟨(h3 k c hc).1, (ih k c hc).2 ⟨h2 k c hc, (h3 k c hc).2⟩⟩⟩

/-! ## Writing at a path -/

theorem setAt_keys (n : Node τ α) (p : List Str) (k : Str) (c : Node τ α) :
    (n.setAt p k c).keys = match p with
      | [] => if k ∈ n.keys then n.keys else n.keys ++ [k]
      | _ => n.keys := by
  cases p with
  | nil =>
    simp only [setAt, keys_mk]
    by_cases h : k ∈ n.keys
    · rw [dictSet_keys_of_mem _ h, if_pos h]; rfl
    · rw [dictSet_of_notMem _ h, if_neg h]; simp [keys]
  | cons p ps =>
    simp only [setAt]
    cases h : dictGet n.children p with
    | none => rfl
    | some c' =>
      simp only [keys_mk]
      exact dictSet_keys_of_mem _ (List.mem_map.2 ⟨_, dictGet_eq_some_mem h, rfl⟩)

theorem setAt_ty (n : Node τ α) (p : List Str) (k : Str) (c : Node τ α) :
    (n.setAt p k c).ty = n.ty := by
  cases p with
  | nil => rfl
  | cons p ps => simp only [setAt]; split <;> rfl

theorem setAt_value (n : Node τ α) (p : List Str) (k : Str) (c : Node τ α) :
    (n.setAt p k c).value = n.value := by
  cases p with
  | nil => rfl
  | cons p ps => simp only [setAt]; split <;> rfl

theorem find_setAt_below {n m : Node τ α} {p : List Str} (k : Str) (c : Node τ α) (r : List Str)
    (h : n.find p = some m) : (n.setAt p k c).find (p ++ k :: r) = c.find r := by
  induction p generalizing n with
  | nil => simp [setAt, find, dictGet_dictSet]
  | cons a p ih =>
    simp only [find] at h
    cases ha : dictGet n.children a with
    | none => simp [ha] at h
    | some n' =>
      simp only [ha] at h
      simp only [setAt, ha, List.cons_append, find, children_mk, dictGet_dictSet, if_true]
      exact ih h

theorem find_setAt_prefix {n m : Node τ α} {q r : List Str} (k : Str) (c : Node τ α)
    (h : n.find (q ++ r) = some m) :
    ∃ m', n.find q = some m' ∧ m'.find r = some m ∧
      (n.setAt (q ++ r) k c).find q = some (m'.setAt r k c) := by
  induction q generalizing n with
  | nil => exact ⟨n, rfl, h, rfl⟩
  | cons a q ih =>
    simp only [List.cons_append, find] at h
    cases ha : dictGet n.children a with
    | none => simp [ha] at h
    | some n' =>
      simp only [ha] at h
      obtain ⟨m', h1, h2, h3⟩ := ih h
      refine ⟨m', by simp [find, ha, h1], h2, ?_⟩
      simp only [List.cons_append, setAt, ha, find, children_mk, dictGet_dictSet, if_true]
      exact h3

theorem find_setAt_other {n : Node τ α} {p q : List Str} (k : Str) (c : Node τ α)
    (h1 : ¬ (p ++ [k]) <+: q) (h2 : ¬ q <+: p) : (n.setAt p k c).find q = n.find q := by
  induction p generalizing n q with
  | nil =>
    cases q with
    | nil => exact absurd (List.prefix_refl _) h2
    | cons b q =>
      have hb : b ≠ k := by
        rintro rfl; exact h1 ⟨q, by simp⟩
      simp [setAt, find, dictGet_dictSet, hb]
  | cons a p ih =>
    cases q with
    | nil => exact absurd List.nil_prefix h2
    | cons b q =>
      simp only [setAt]
      cases ha : dictGet n.children a with
      | none => rfl
      | some n' =>
        simp only [find, children_mk, dictGet_dictSet]
        by_cases hb : b = a
        · subst hb
          simp only [if_true, ha]
          apply ih
          · intro h; apply h1; simpa using h
          · intro h; apply h2; simpa using h
        · simp [hb]

theorem addPath_eq (n c : Node τ α) (p : List Str) (k : Str) :
    n.addPath c (p ++ [k]) = match n.find p with
      | some m => if k ∈ m.keys then .error (.keyError (joinSlash (p ++ [k])))
                  else .ok (n.setAt p k c)
      | none => .error (.keyError (joinSlash (p ++ [k]))) := by
  induction p generalizing n with
  | nil =>
    simp only [List.nil_append, addPath, find, setAt, joinSlash]
    by_cases h : k ∈ n.keys
    · have : dictHas n.children k = true := dictHas_iff.2 h
      simp [this, h, reraiseKey]
    · have : dictHas n.children k = false := dictHas_false_iff.2 h
      simp [this, h, reraiseKey]
  | cons a p ih =>
    obtain ⟨b, q, hq⟩ : ∃ b q, p ++ [k] = b :: q := by
      cases p with
      | nil => exact ⟨k, [], rfl⟩
      | cons x xs => exact ⟨x, xs ++ [k], rfl⟩
    rw [List.cons_append, hq, addPath, find, setAt]
    cases ha : dictGet n.children a with
    | none => simp [reraiseKey]
    | some n' =>
      simp only
      rw [← hq, ih]
      cases hf : n'.find p with
      | none => simp [reraiseKey]
      | some m =>
        simp only
        by_cases hk : k ∈ m.keys <;> simp [hk, reraiseKey]

theorem dropLast_append_last {l : List Str} (h : l ≠ []) : l.dropLast ++ [l.getLastD []] = l := by
  cases l with
  | nil => exact absurd rfl h
  | cons a l =>
    have := List.dropLast_concat_getLast (l := a :: l) (by simp)
    rw [List.getLast_eq_getLastD] at this
    rw [List.getLastD_cons]; exact this

theorem addChild_eq (n c : Node τ α) (key : Str) :
    n.addChild key c = match n.find (splitAll key).dropLast with
      | some m => if (splitAll key).getLastD [] ∈ m.keys then .error (.keyError key)
                  else .ok (n.setAt (splitAll key).dropLast ((splitAll key).getLastD []) c)
      | none => .error (.keyError key) := by
  have := addPath_eq n c (splitAll key).dropLast ((splitAll key).getLastD [])
  rw [dropLast_append_last (splitAll_ne_nil key), joinSlash_splitAll] at this
  exact this

theorem dictGet_isSome_iff {n : Node τ α} {k : Str} :
    (∃ c, dictGet n.children k = some c) ↔ k ∈ n.keys := by
  constructor
  · rintro ⟨c, h⟩; exact List.mem_map.2 ⟨_, dictGet_eq_some_mem h, rfl⟩
  · intro h
    cases hd : dictGet n.children k with
    | none => exact absurd h (dictGet_eq_none.1 hd)
    | some c => exact ⟨c, rfl⟩

/-! ## Flattening -/

theorem iterFlatL_eq (key : Str) (cs : List (Str × Node τ α)) :
    iterFlatL key cs = cs.flatMap fun kc => iterFlat (key ++ '/' :: kc.1) kc.2 := by
  induction cs with
  | nil => rfl
  | cons p cs ih => obtain ⟨k, c⟩ := p; simp [iterFlatL, ih]

/-- The paths of a tree with their nodes, depth first. -/
theorem iterFlat_mem (n : Node τ α) (key : Str) (k : Str) (m : Node τ α) :
    (k, m) ∈ n.iterFlat key ↔ ∃ p, k = key ++ slashed p ∧ n.At p m := by
  induction n using induct generalizing key with
  | h t v cs ih =>
    rw [iterFlat, iterFlatL_eq, List.mem_cons, List.mem_flatMap]
    constructor
    · rintro (h | ⟨⟨k', c⟩, hc, h⟩)
      · cases h; exact ⟨[], by simp [slashed], .here _⟩
      · obtain ⟨p, hp, hm⟩ := (ih k' c hc (key ++ '/' :: k')).1 h
        exact ⟨k' :: p, by simp [hp, slashed], .down hc hm⟩
    · rintro ⟨p, hk, hm⟩
      cases hm with
      | here => left; simp [hk, slashed]
      | down hc hm =>
        rename_i c k' p
        exact Or.inr ⟨(k', c), hc, (ih _ _ hc _).2 ⟨p, by simp [hk, slashed], hm⟩⟩

theorem slashed_eq {p : List Str} (h : p ≠ []) : slashed p = '/' :: joinSlash p := by
  induction p with
  | nil => exact absurd rfl h
  | cons a p ih =>
    by_cases hp : p = []
    · subst hp; simp [slashed, joinSlash]
    · have := ih hp
      rw [joinSlash_cons hp, ← this]
      simp [slashed]

theorem slashed_injective {p q : List Str} (hp : ∀ w ∈ p, '/' ∉ w) (hq : ∀ w ∈ q, '/' ∉ w)
    (h : slashed p = slashed q) : p = q := by
  by_cases h1 : p = []
  · by_cases h2 : q = []
    · rw [h1, h2]
    · rw [h1, slashed_eq h2] at h; simp [slashed] at h
  · by_cases h2 : q = []
    · rw [h2, slashed_eq h1] at h; simp [slashed] at h
    · rw [slashed_eq h1, slashed_eq h2] at h
      have := congrArg splitAll (List.cons.inj h).2
      rwa [splitAll_joinSlash h1 hp, splitAll_joinSlash h2 hq] at this

/-- The listing as a list of paths in depth-first order. -/
theorem iterFlat_paths (n : Node τ α) (key : Str) (hn : n.WF) :
    ∃ ps : List (List Str × Node τ α),
      n.iterFlat key = ps.map (fun pm => (key ++ slashed pm.1, pm.2)) ∧
      (∀ pm ∈ ps, n.At pm.1 pm.2) ∧ ps.Pairwise (fun a b => n.Before a.1 b.1) := by
  induction n using induct generalizing key with
  | h t v cs ih =>
    have hl : ∀ (pre suf : List (Str × Node τ α)), cs = pre ++ suf →
        ∃ ps : List (List Str × Node τ α),
          iterFlatL key suf = ps.map (fun pm => (key ++ slashed pm.1, pm.2)) ∧
          (∀ pm ∈ ps, (mk t v cs).At pm.1 pm.2 ∧ ∃ k p, pm.1 = k :: p ∧ k ∈ suf.map (·.1)) ∧
          ps.Pairwise (fun a b => (mk t v cs).Before a.1 b.1) := by
      intro pre suf
      induction suf generalizing pre with
      | nil => intro _; exact ⟨[], by simp [iterFlatL]⟩
      | cons kc suf ihs =>
        obtain ⟨k, c⟩ := kc
        intro hcs
        have hmem : (k, c) ∈ cs := by rw [hcs]; simp
        obtain ⟨ps1, h1, h2, h3⟩ := ih k c hmem (key ++ '/' :: k) (hn.child hmem)
        obtain ⟨ps2, g1, g2, g3⟩ := ihs (pre ++ [(k, c)]) (by simp [hcs])
        refine ⟨ps1.map (fun pm => (k :: pm.1, pm.2)) ++ ps2, ?_, ?_, ?_⟩
        · simp only [iterFlatL, h1, g1, List.map_append, List.map_map]
          congr 1
          apply List.map_congr_left
          intro pm _
          simp [slashed]
        · intro pm hpm
          rcases List.mem_append.1 hpm with hpm | hpm
          · obtain ⟨pm', hpm', rfl⟩ := List.mem_map.1 hpm
            exact ⟨.down hmem (h2 _ hpm'), k, pm'.1, rfl, by simp⟩
          · obtain ⟨ha, k', p', hk, hk'⟩ := g2 pm hpm
            exact ⟨ha, k', p', hk, by simp at hk' ⊢; exact Or.inr hk'⟩
        · rw [List.pairwise_append]
          refine ⟨?_, g3, ?_⟩
          · rw [List.pairwise_map]
            exact h3.imp fun h => .child hmem h
          · intro a ha b hb
            obtain ⟨pm', hpm', rfl⟩ := List.mem_map.1 ha
            obtain ⟨_, k', p', hk, hk'⟩ := g2 b hb
            rw [hk]
            obtain ⟨s1, s2, hs⟩ := List.append_of_mem hk'
            refine .sibling (a := pre.map (·.1)) (b := s1) (c := s2) ?_
            rw [keys_mk, hcs, List.map_append, List.map_cons, hs]
    obtain ⟨ps, h1, h2, h3⟩ := hl [] cs rfl
    refine ⟨([], mk t v cs) :: ps, ?_, ?_, ?_⟩
    · simp [iterFlat, h1, slashed]
    · intro pm hpm
      rcases List.mem_cons.1 hpm with hpm | hpm
      · subst hpm; exact .here _
      · exact (h2 pm hpm).1
    · rw [List.pairwise_cons]
      refine ⟨?_, h3⟩
      intro pm hpm
      obtain ⟨_, k, p, hk, _⟩ := h2 pm hpm
      rw [hk]; exact .root

theorem Before.ne {n : Node τ α} {p q : List Str} (hn : n.WF) (h : n.Before p q) : p ≠ q := by
  induction h with
  | root => simp
  | child hc _ ih => intro h; exact ih (hn.child hc) (by simpa using h)
  | sibling hk =>
    have := hn [] _ (.here _)
    rw [hk] at this
    intro h
    cases h
    simp [List.nodup_append] at this

end Node

variable {τ σ α β : Type}

/-- The flat structures below a list of children. -/
def flattenL (key : Str) (cs : List (Str × Node τ α)) : List (FlatStruct τ α) :=
  (Node.iterFlatL key cs).map fun p => ⟨p.1, p.2.ty, p.2.value, p.2.keys⟩

theorem flatten_mk (key : Str) (t : τ) (v : α) (cs : List (Str × Node τ α)) :
    flatten key (.mk t v cs) = ⟨key, t, v, cs.map (·.1)⟩ :: flattenL key cs := by
  simp [flatten, flattenL, Node.iterFlat]

theorem flattenL_cons (key k : Str) (c : Node τ α) (cs : List (Str × Node τ α)) :
    flattenL key ((k, c) :: cs) = flatten (key ++ '/' :: k) c ++ flattenL key cs := by
  simp [flatten, flattenL, Node.iterFlatL]

theorem unflattenF_flatten (n : Node τ α) (hn : n.WF) :
    ∀ (key : Str) (fuel : Nat) (extra : List (FlatStruct τ α)),
      (flatten key n).length ≤ fuel →
      unflattenF fuel (flatten key n ++ extra) = .ok (n, extra) := by
  induction n using Node.induct with
  | h t v cs ih =>
    intro key fuel extra hfuel
    obtain ⟨hnd, hcs⟩ := Node.WF_mk.1 hn
    have hl : ∀ (suf : List (Str × Node τ α)), (∀ kc ∈ suf, kc ∈ cs) →
        ∀ (fuel : Nat) (extra : List (FlatStruct τ α)), (flattenL key suf).length ≤ fuel →
        unflattenChildren (unflattenF fuel) (suf.map (·.1)) (flattenL key suf ++ extra)
          = .ok (suf.map (·.2), extra) := by
      intro suf
      induction suf with
      | nil => intro _ fuel extra _; simp [unflattenChildren, flattenL, Node.iterFlatL]
      | cons kc suf ihs =>
        obtain ⟨k, c⟩ := kc
        intro hsub fuel extra hf
        rw [flattenL_cons] at hf ⊢
        simp only [List.length_append] at hf
        have hmem := hsub (k, c) (by simp)
        rw [List.append_assoc, List.map_cons, unflattenChildren,
          ih k c hmem (hcs k c hmem) _ fuel _ (by omega)]
        simp only [bind, Except.bind]
        rw [ihs (fun kc h => hsub kc (List.mem_cons_of_mem _ h)) fuel extra (by omega)]
        rfl
    rw [flatten_mk] at hfuel ⊢
    cases fuel with
    | zero => simp at hfuel
    | succ fuel =>
      simp only [List.length_cons, Nat.add_le_add_iff_right] at hfuel
      rw [List.cons_append, unflattenF, hl cs (fun _ h => h) fuel extra hfuel]
      simp only [bind, Except.bind]
      rw [dictOfZip_of_nodup hnd, zip_unzip]

theorem unflatten_flatten (n : Node τ α) (hn : n.WF) (key : Str) (extra : List (FlatStruct τ α)) :
    unflatten (flatten key n ++ extra) = .ok (n, extra) :=
  unflattenF_flatten n hn key _ extra (by simp)

theorem unflattenChildren_spec (rec : List (FlatStruct τ α) → Py (Node τ α × List (FlatStruct τ α)))
    (fuel : Nat) (hrec : ∀ s : List (FlatStruct τ α), s.length ≤ fuel →
      (rec s ≠ .error .outOfFuel ∧ (∀ n r, rec s = .ok (n, r) → r.length ≤ s.length)))
    (ks : List Str) (s : List (FlatStruct τ α)) (h : s.length ≤ fuel) :
    unflattenChildren rec ks s ≠ .error .outOfFuel ∧
      (∀ n r, unflattenChildren rec ks s = .ok (n, r) → r.length ≤ s.length) := by
  induction ks generalizing s with
  | nil =>
    simp only [unflattenChildren]
    refine ⟨by simp, ?_⟩
    intro n r hr
    cases hr
    exact Nat.le_refl _
  | cons k ks ih =>
    obtain ⟨h1, h2⟩ := hrec s h
    rw [unflattenChildren]
    cases hc : rec s with
    | error e =>
      constructor
      · simp only [bind, Except.bind]
        intro he
        rw [hc] at h1
        cases he; exact h1 rfl
      · intro n r hr; simp [bind, Except.bind] at hr
    | ok p =>
      obtain ⟨c, r'⟩ := p
      have hr' := h2 c r' hc
      obtain ⟨g1, g2⟩ := ih r' (by omega)
      simp only [bind, Except.bind]
      cases hd : unflattenChildren rec ks r' with
      | error e =>
        constructor
        · intro he
          rw [hd] at g1
          exact g1 he
        · intro n r hr; simp at hr
      | ok q =>
        obtain ⟨cs, r''⟩ := q
        constructor
        · simp
        · intro n r hr
          simp only [Except.ok.injEq, Prod.mk.injEq] at hr
          have := g2 cs r'' hd
          rw [← hr.2]; omega

theorem unflattenF_spec (fuel : Nat) (s : List (FlatStruct τ α)) (h : s.length ≤ fuel) :
    unflattenF fuel s ≠ .error .outOfFuel ∧
      (∀ n r, unflattenF fuel s = .ok (n, r) → r.length ≤ s.length) := by
  induction fuel generalizing s with
  | zero =>
    cases s with
    | nil => simp [unflattenF]
    | cons => simp at h
  | succ fuel ih =>
    cases s with
    | nil => simp [unflattenF]
    | cons s rest =>
      have h' : rest.length ≤ fuel := by simpa using h
      obtain ⟨h1, h2⟩ := unflattenChildren_spec (unflattenF fuel) fuel ih s.childKeys rest h'
      rw [unflattenF]
      cases hc : unflattenChildren (unflattenF fuel) s.childKeys rest with
      | error e =>
        constructor
        · simp only [bind, Except.bind]
          intro he
          rw [hc] at h1
          cases he; exact h1 rfl
        · intro n r hr; simp [bind, Except.bind] at hr
      | ok p =>
        obtain ⟨cs, r'⟩ := p
        constructor
        · simp [bind, Except.bind]
        · intro n r hr
          simp only [bind, Except.bind, Except.ok.injEq, Prod.mk.injEq] at hr
          have := h2 cs r' hc
          rw [← hr.2]; simp; omega

/-- The fuel of the `unflatten` model is always sufficient. -/
theorem unflatten_never_outOfFuel (s : List (FlatStruct τ α)) :
    unflatten s ≠ .error .outOfFuel := (unflattenF_spec s.length s (Nat.le_refl _)).1

end MplLayout

namespace MplLayout
variable {τ σ α β : Type}

/-! ## Keys and their components -/

theorem splitAll_prefix_iff (a b : Str) :
    splitAll a <+: splitAll b ↔ b = a ∨ ∃ r, b = a ++ '/' :: r := by
  constructor
  · rintro ⟨t, ht⟩
    by_cases h : t = []
    · left
      rw [h, List.append_nil] at ht
      rw [← joinSlash_splitAll a, ht, joinSlash_splitAll]
    · right
      refine ⟨joinSlash t, ?_⟩
      rw [← joinSlash_splitAll b, ← ht, joinSlash_append (splitAll_ne_nil a) h, joinSlash_splitAll]
  · rintro (h | ⟨r, h⟩)
    · rw [h]; exact List.prefix_refl _
    · rw [h, splitAll_append_slash]; exact List.prefix_append _ _

theorem splitAll_split (key : Str) :
    splitAll key = (splitAll key).dropLast ++ [(splitAll key).getLastD []] :=
  (Node.dropLast_append_last (splitAll_ne_nil key)).symm

theorem getLastD_mem_splitAll (key : Str) : (splitAll key).getLastD [] ∈ splitAll key := by
  have h := List.mem_append_right (splitAll key).dropLast
    (List.mem_singleton_self ((splitAll key).getLastD []))
  rwa [← splitAll_split key] at h

theorem noslash_iff_dropLast (key : Str) : '/' ∉ key ↔ (splitAll key).dropLast = [] := by
  constructor
  · intro h; rw [splitAll_noslash h]; rfl
  · intro h hs
    have h1 := splitAll_split key
    rw [h, List.nil_append] at h1
    have h2 := joinSlash_splitAll key
    rw [h1, joinSlash] at h2
    have : (splitAll key).getLastD [] ∈ splitAll key := by rw [h1]; simp
    refine mem_splitAll_noslash this ?_
    rw [h2]; exact hs

theorem splitAll_mk {ws : List Str} {k : Str} (hk : '/' ∉ k) (hne : ws ≠ [])
    (hws : ∀ w ∈ ws, '/' ∉ w) : splitAll (joinSlash ws ++ '/' :: k) = ws ++ [k] := by
  rw [splitAll_append_slash, splitAll_joinSlash hne hws, splitAll_noslash hk]

namespace Node

theorem containsPath_eq (n : Node τ α) (p : List Str) (k : Str) (hp : ∀ w ∈ p ++ [k], w ≠ []) :
    match n.find p with
    | some m => n.containsPath (p ++ [k]) = .ok (dictHas m.children k)
    | none => ∃ k', n.containsPath (p ++ [k]) = .error (.keyError k') := by
  induction p generalizing n with
  | nil => simp [find, containsPath, joinSlash]
  | cons a p ih =>
    have hj : joinSlash (p ++ [k]) ≠ [] := by
      obtain ⟨b, q, hq⟩ : ∃ b q, p ++ [k] = b :: q := by
        cases p with
        | nil => exact ⟨k, [], rfl⟩
        | cons x xs => exact ⟨x, xs ++ [k], rfl⟩
      have hb : b ≠ [] := hp b (by simp [hq])
      rw [hq]
      cases q with
      | nil => simpa [joinSlash] using hb
      | cons c q => rw [joinSlash]; simp
    have hp' : ∀ w ∈ p ++ [k], w ≠ [] := fun w hw => hp w (List.mem_cons_of_mem _ hw)
    simp only [List.cons_append, containsPath, hj, if_false, find]
    cases h : dictGet n.children a with
    | none => exact ⟨a, rfl⟩
    | some c => exact ih c hp'

theorem contains_noslash (n : Node τ α) {k : Str} (hk : '/' ∉ k) :
    n.contains k = .ok (decide (k ∈ n.keys)) := by
  rw [contains, splitAll_noslash hk]
  simp only [containsPath, joinSlash, if_true]
  congr 1
  by_cases h : k ∈ n.keys
  · simp [h, dictHas_iff.2 h]
  · simp [h, dictHas_false_iff.2 h]

theorem setAt_good {n c : Node τ α} {p : List Str} {k : Str} (hn : n.WF) (hc : c.WF) :
    (n.setAt p k c).WF := by
  induction p generalizing n with
  | nil =>
    rw [setAt, WF_mk]
    refine ⟨dictSet_keys_nodup _ _ hn.keys_nodup, ?_⟩
    intro k' c' h
    rcases mem_dictSet h with ⟨_, rfl⟩ | h
    · exact hc
    · exact hn.child h
  | cons a p ih =>
    rw [setAt]
    cases h : dictGet n.children a with
    | none => exact hn
    | some n' =>
      simp only
      rw [WF_mk]
      refine ⟨dictSet_keys_nodup _ _ hn.keys_nodup, ?_⟩
      intro k' c' hm
      rcases mem_dictSet hm with ⟨_, rfl⟩ | hm
      · exact ih (hn.child (dictGet_eq_some_mem h))
      · exact hn.child hm

theorem setAt_slashFree {n c : Node τ α} {p : List Str} {k : Str} (hn : n.SlashFree)
    (hk : '/' ∉ k) (hc : c.SlashFree) : (n.setAt p k c).SlashFree := by
  induction p generalizing n with
  | nil =>
    rw [setAt, SlashFree_mk]
    intro k' c' h
    rcases mem_dictSet h with ⟨rfl, rfl⟩ | h
    · exact ⟨hk, hc⟩
    · exact ⟨hn.key h, hn.child h⟩
  | cons a p ih =>
    rw [setAt]
    cases h : dictGet n.children a with
    | none => exact hn
    | some n' =>
      have hm' := dictGet_eq_some_mem h
      simp only
      rw [SlashFree_mk]
      intro k' c' hm
      rcases mem_dictSet hm with ⟨rfl, rfl⟩ | hm
      · exact ⟨hn.key hm', ih (hn.child hm')⟩
      · exact ⟨hn.key hm, hn.child hm⟩

/-! ## Mapping -/

mutual
/-- Structural map. -/
def rmap (base : σ) (f : α → β) : Node τ α → Node σ β
  | .mk _ v cs => .mk base (f v) (rmapL base f cs)
def rmapL (base : σ) (f : α → β) : List (Str × Node τ α) → List (Str × Node σ β)
  | [] => []
  | (k, c) :: cs => (k, rmap base f c) :: rmapL base f cs
end

theorem rmapL_eq (base : σ) (f : α → β) (cs : List (Str × Node τ α)) :
    rmapL base f cs = cs.map fun kc => (kc.1, rmap base f kc.2) := by
  induction cs with
  | nil => rfl
  | cons p cs ih => obtain ⟨k, c⟩ := p; simp [rmapL, ih]

theorem rmapL_keys (base : σ) (f : α → β) (cs : List (Str × Node τ α)) :
    (rmapL base f cs).map (·.1) = cs.map (·.1) := by
  rw [rmapL_eq, List.map_map]; rfl

theorem rmap_ty (base : σ) (f : α → β) (n : Node τ α) : (rmap base f n).ty = base := by
  cases n; rfl
theorem rmap_value (base : σ) (f : α → β) (n : Node τ α) : (rmap base f n).value = f n.value := by
  cases n; rfl
theorem rmap_keys (base : σ) (f : α → β) (n : Node τ α) : (rmap base f n).keys = n.keys := by
  cases n; simp only [rmap, keys_mk, rmapL_keys]

theorem rmap_WF (base : σ) (f : α → β) (n : Node τ α) (hn : n.WF) : (rmap base f n).WF := by
  induction n using induct with
  | h t v cs ih =>
    rw [rmap, WF_mk, rmapL_keys]
    refine ⟨hn.keys_nodup, ?_⟩
    intro k c hc
    rw [rmapL_eq] at hc
    obtain ⟨⟨k', c'⟩, hc', he⟩ := List.mem_map.1 hc
    cases he
    exact ih _ _ hc' (hn.child hc')

theorem rmap_flatten (base : σ) (f : α → β) (n : Node τ α) (key : Str) :
    flatten key (rmap base f n)
      = (flatten key n).map fun s => (⟨s.key, base, f s.value, s.childKeys⟩ : FlatStruct σ β) := by
  induction n using induct generalizing key with
  | h t v cs ih =>
    rw [rmap, flatten_mk, flatten_mk, rmapL_keys, List.map_cons]
    congr 1
    have : ∀ suf : List (Str × Node τ α), (∀ kc ∈ suf, kc ∈ cs) →
        flattenL key (rmapL base f suf) = (flattenL key suf).map
          fun s => (⟨s.key, base, f s.value, s.childKeys⟩ : FlatStruct σ β) := by
      intro suf
      induction suf with
      | nil => intro _; rfl
      | cons p suf ihs =>
        obtain ⟨k, c⟩ := p
        intro h
        rw [rmapL, flattenL_cons, flattenL_cons, List.map_append,
          ih k c (h _ (by simp)), ihs fun kc hkc => h kc (List.mem_cons_of_mem _ hkc)]
    exact this cs fun _ h => h

theorem mapNode_eq (base : σ) (f : α → β) (n : Node τ α) (hn : n.WF) :
    mapNode base f n = .ok (rmap base f n) := by
  unfold mapNode
  simp only [← rmap_flatten]
  have := unflatten_flatten (rmap base f n) (rmap_WF base f n hn) [] []
  rw [List.append_nil] at this
  rw [this]
  rfl

theorem rmap_At {base : σ} {f : α → β} {n : Node τ α} {p : List Str} {m' : Node σ β} :
    (rmap base f n).At p m' ↔ ∃ m, n.At p m ∧ m' = rmap base f m := by
  constructor
  · intro h
    generalize hn' : rmap base f n = n' at h
    induction h generalizing n with
    | here => exact ⟨n, .here _, hn'.symm⟩
    | down hc _ ih =>
      subst hn'
      cases n with
      | mk t v cs =>
        rw [rmap, children_mk, rmapL_eq] at hc
        obtain ⟨⟨k', c'⟩, hc', he⟩ := List.mem_map.1 hc
        cases he
        obtain ⟨m, hm, he⟩ := ih rfl
        exact ⟨m, .down hc' hm, he⟩
  · rintro ⟨m, h, rfl⟩
    induction h with
    | here => exact .here _
    | @down n c m k p hc _ ih =>
      refine .down (c := rmap base f c) ?_ ih
      cases n with
      | mk t v cs =>
        rw [rmap, children_mk, rmapL_eq]
        exact List.mem_map.2 ⟨_, hc, rfl⟩

theorem rmap_rmap {ρ γ : Type} (b1 : σ) (b2 : ρ) (f : α → β) (g : β → γ) (n : Node τ α) :
    rmap b2 g (rmap b1 f n) = rmap b2 (fun x => g (f x)) n := by
  induction n using induct with
  | h t v cs ih =>
    simp only [rmap, rmapL_eq, List.map_map]
    congr 1
    apply List.map_congr_left
    rintro ⟨k, c⟩ hc
    simp [ih k c hc]

/-! ## Accumulation -/

theorem accumulateL_eq (base : σ) (f : α → α → α) (i : α) (cs : List (Str × Node τ α)) :
    accumulateL base f i cs = cs.map fun kc => (kc.1, accumulate base f i kc.2) := by
  induction cs with
  | nil => rfl
  | cons p cs ih => obtain ⟨k, c⟩ := p; simp [accumulateL, ih]

theorem accumulate_At {base : σ} {f : α → α → α} {i : α} {n : Node τ α} {p : List Str}
    {m' : Node σ α} :
    (accumulate base f i n).At p m' ↔ ∃ m, n.At p m ∧ m' = accumulate base f i m := by
  constructor
  · intro h
    generalize hn' : accumulate base f i n = n' at h
    induction h generalizing n with
    | here => exact ⟨n, .here _, hn'.symm⟩
    | down hc _ ih =>
      subst hn'
      cases n with
      | mk t v cs =>
        rw [accumulate, children_mk, accumulateL_eq] at hc
        obtain ⟨⟨k', c'⟩, hc', he⟩ := List.mem_map.1 hc
        cases he
        obtain ⟨m, hm, he⟩ := ih rfl
        exact ⟨m, .down hc' hm, he⟩
  · rintro ⟨m, h, rfl⟩
    induction h with
    | here => exact .here _
    | @down n c m k p hc _ ih =>
      refine .down (c := accumulate base f i c) ?_ ih
      cases n with
      | mk t v cs =>
        rw [accumulate, children_mk, accumulateL_eq]
        exact List.mem_map.2 ⟨_, hc, rfl⟩

theorem foldl_assoc (f : α → α → α) (hf : ∀ a b c, f (f a b) c = f a (f b c)) (i : α)
    (hi : ∀ a, f a i = a) (a : α) (l : List α) : l.foldl f a = f a (l.foldr f i) := by
  induction l generalizing a with
  | nil => simp [hi]
  | cons b l ih => simp [ih, hf]

theorem foldr_append (f : α → α → α) (hf : ∀ a b c, f (f a b) c = f a (f b c)) (i : α)
    (hi : ∀ a, f a i = a) (hi' : ∀ a, f i a = a) (l l' : List α) :
    (l ++ l').foldr f i = f (l.foldr f i) (l'.foldr f i) := by
  have _ := hi
  induction l with
  | nil => simp [hi']
  | cons b l ih => simp [ih, hf]

theorem accumulate_value (base : σ) (f : α → α → α) (hf : ∀ a b c, f (f a b) c = f a (f b c))
    (i : α) (hi : ∀ a, f a i = a) (hi' : ∀ a, f i a = a) (n : Node τ α) :
    (accumulate base f i n).value = n.allValues.foldr f i := by
  induction n using induct with
  | h t v cs ih =>
    have hl : ∀ suf : List (Str × Node τ α), (∀ kc ∈ suf, kc ∈ cs) →
        ((accumulateL base f i suf).map fun kc => kc.2.value).foldr f i
          = (allValuesL suf).foldr f i := by
      intro suf
      induction suf with
      | nil => intro _; rfl
      | cons p suf ihs =>
        obtain ⟨k, c⟩ := p
        intro h
        simp only [accumulateL, allValuesL, List.map_cons, List.foldr_cons]
        rw [foldr_append f hf i hi hi', ih k c (h _ (by simp)),
          ihs fun kc hkc => h kc (List.mem_cons_of_mem _ hkc)]
    rw [accumulate, value_mk, allValues, List.foldr_cons]
    cases hcs : accumulateL base f i cs with
    | nil =>
      have := hl cs fun _ h => h
      rw [hcs] at this
      simp at this
      simp [← this]
    | cons p ps =>
      simp only
      rw [foldl_assoc f hf i hi, ← hcs, hl cs fun _ h => h]

/-! ## Height -/

theorem maxHeight_le (cs : List (Str × Node τ α)) (k : Str) (c : Node τ α) (h : (k, c) ∈ cs) :
    nodeHeight c ≤ maxHeight cs := by
  induction cs with
  | nil => simp at h
  | cons p cs ih =>
    obtain ⟨k', c'⟩ := p
    simp only [maxHeight]
    rcases List.mem_cons.1 h with h | h
    · cases h; exact Nat.le_max_left _ _
    · exact Nat.le_trans (ih h) (Nat.le_max_right _ _)

theorem maxHeight_attained (cs : List (Str × Node τ α)) (h : cs ≠ []) :
    ∃ k c, (k, c) ∈ cs ∧ nodeHeight c = maxHeight cs := by
  induction cs with
  | nil => exact absurd rfl h
  | cons p cs ih =>
    obtain ⟨k, c⟩ := p
    simp only [maxHeight]
    by_cases hc : maxHeight cs ≤ nodeHeight c
    · exact ⟨k, c, by simp, by omega⟩
    · by_cases h0 : cs = []
      · subst h0; simp [maxHeight] at hc
      · obtain ⟨k', c', hm, he⟩ := ih h0
        exact ⟨k', c', List.mem_cons_of_mem _ hm, by omega⟩

theorem nodeHeight_mk (t : τ) (v : α) (cs : List (Str × Node τ α)) :
    nodeHeight (mk t v cs) = if cs = [] then 0 else 1 + maxHeight cs := by
  cases cs with
  | nil => rfl
  | cons p cs => simp [nodeHeight]

theorem height_bound {n m : Node τ α} {p : List Str} (h : n.At p m) :
    p.length ≤ n.nodeHeight := by
  induction h with
  | here => simp
  | @down n c m k p hc _ ih =>
    cases n with
    | mk t v cs =>
      have hc' : (k, c) ∈ cs := hc
      have := maxHeight_le cs k c hc'
      rw [nodeHeight_mk, if_neg (List.ne_nil_of_mem hc')]
      simp; omega

theorem height_attained (n : Node τ α) : ∃ p m, n.At p m ∧ p.length = n.nodeHeight := by
  induction n using induct with
  | h t v cs ih =>
    rw [nodeHeight_mk]
    by_cases h : cs = []
    · exact ⟨[], _, .here _, by simp [h]⟩
    · obtain ⟨k, c, hc, he⟩ := maxHeight_attained cs h
      obtain ⟨p, m, hm, hp⟩ := ih k c hc
      exact ⟨k :: p, m, .down hc hm, by simp [h]; omega⟩

end Node

/-! ## `ItemCounter` -/

namespace ItemCounter

/-- How many items of a category have been counted. -/
def count (c : ItemCounter) (cat : Str) : Nat := (dictGet c.counts cat).getD 0

theorem addItem_key (c : ItemCounter) (cat : Str) :
    (c.addItem cat).2 = cat ++ natStr (c.count cat) := by
  unfold addItem count
  cases h : dictGet c.counts cat <;> simp [dictGet_dictSet]

theorem addItem_count (c : ItemCounter) (cat cat' : Str) :
    (c.addItem cat).1.count cat' = c.count cat' + if cat' = cat then 1 else 0 := by
  unfold addItem count
  cases h : dictGet c.counts cat with
  | none => by_cases h' : cat' = cat <;> simp [dictGet_dictSet, h', h]
  | some n => by_cases h' : cat' = cat <;> simp [dictGet_dictSet, h', h]

/-- A `key in tree` test for keys without slash is membership in a finite list of keys. -/
def FiniteTest (t : Str → Py Bool) : Prop :=
  ∃ ks : List Str, ∀ key, '/' ∉ key → t key = .ok (decide (key ∈ ks))

theorem validIn_finite {tests : List (Str → Py Bool)} (h : ∀ t ∈ tests, FiniteTest t) :
    ∃ ks : List Str, (∀ key, '/' ∉ key → validIn tests key = .ok (decide (key ∉ ks))) ∧
      ∀ key, '/' ∉ key → key ∉ ks → ∀ t ∈ tests, t key = .ok false := by
  induction tests with
  | nil => exact ⟨[], by simp [validIn]⟩
  | cons t ts ih =>
    obtain ⟨ks1, h1⟩ := h t (by simp)
    obtain ⟨ks2, h2, h3⟩ := ih fun t' ht' => h t' (List.mem_cons_of_mem _ ht')
    refine ⟨ks1 ++ ks2, ?_, ?_⟩
    · intro key hk
      rw [validIn, h1 key hk]
      by_cases hm : key ∈ ks1
      · simp [hm]
      · simp [hm, h2 key hk]
    · intro key hk hn t' ht'
      simp only [List.mem_append, not_or] at hn
      rcases List.mem_cons.1 ht' with ht' | ht'
      · subst ht'; rw [h1 key hk]; simp [hn.1]
      · exact h3 key hk hn.2 t' ht'

theorem fresh_bound (cat : Str) (ks : List Str) : ∃ B, ∀ n, B ≤ n → cat ++ natStr n ∉ ks := by
  induction ks with
  | nil => exact ⟨0, by simp⟩
  | cons k ks ih =>
    obtain ⟨B, hB⟩ := ih
    by_cases h : ∃ n, cat ++ natStr n = k
    · obtain ⟨m, hm⟩ := h
      refine ⟨max B (m + 1), ?_⟩
      intro n hn
      simp only [List.mem_cons, not_or]
      refine ⟨?_, hB n (by omega)⟩
      intro he
      rw [← hm] at he
      have := natStr_injective (List.append_cancel_left he)
      omega
    · refine ⟨B, ?_⟩
      intro n hn
      simp only [List.mem_cons, not_or]
      exact ⟨fun he => h ⟨n, he⟩, hB n hn⟩

theorem addItemUntilValid_terminates (cat : Str) (hcat : '/' ∉ cat) (valid : Str → Py Bool)
    (ks : List Str) (hv : ∀ key, '/' ∉ key → valid key = .ok (decide (key ∉ ks)))
    (B : Nat) (hB : ∀ n, B ≤ n → cat ++ natStr n ∉ ks) :
    ∀ (gap : Nat) (c : ItemCounter), B ≤ c.count cat + gap →
      ∃ c' k, (∀ extra, addItemUntilValid valid cat (gap + 1 + extra) c
          = some (c', .ok (cat ++ natStr k))) ∧
        cat ++ natStr k ∉ ks ∧ c.count cat ≤ k ∧ c'.count cat = k + 1 ∧
        ∀ cat', cat' ≠ cat → c'.count cat' = c.count cat' := by
  intro gap
  induction gap with
  | zero =>
    intro c hc
    have hns : '/' ∉ cat ++ natStr (c.count cat) := by
      simp [hcat, slash_notMem_natStr]
    refine ⟨(c.addItem cat).1, c.count cat, ?_, hB _ (by omega), Nat.le_refl _, ?_, ?_⟩
    · intro extra
      rw [show 0 + 1 + extra = extra + 1 from by omega, addItemUntilValid]
      simp only [addItem_key]
      rw [hv _ hns]
      simp [hB (c.count cat) (by omega)]
    · rw [addItem_count]; simp
    · intro cat' h; rw [addItem_count]; simp [h]
  | succ gap ih =>
    intro c hc
    have hns : '/' ∉ cat ++ natStr (c.count cat) := by
      simp [hcat, slash_notMem_natStr]
    by_cases hin : cat ++ natStr (c.count cat) ∈ ks
    · have h1 : (c.addItem cat).1.count cat = c.count cat + 1 := by rw [addItem_count]; simp
      obtain ⟨c', k, g1, g2, g3, g4, g5⟩ := ih (c.addItem cat).1 (by omega)
      refine ⟨c', k, ?_, g2, by omega, g4, ?_⟩
      · intro extra
        rw [show gap + 1 + 1 + extra = (gap + 1 + extra) + 1 from by omega, addItemUntilValid]
        simp only [addItem_key]
        rw [hv _ hns]
        simp only [hin, not_true_eq_false, decide_false]
        exact g1 extra
      · intro cat' h; rw [g5 cat' h, addItem_count]; simp [h]
    · refine ⟨(c.addItem cat).1, c.count cat, ?_, hin, Nat.le_refl _, ?_, ?_⟩
      · intro extra
        rw [show gap + 1 + 1 + extra = (gap + 1 + extra) + 1 from by omega, addItemUntilValid]
        simp only [addItem_key]
        rw [hv _ hns]
        simp [hin]
      · rw [addItem_count]; simp
      · intro cat' h; rw [addItem_count]; simp [h]

end ItemCounter
end MplLayout
