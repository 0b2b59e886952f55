import Verif.Spec.Repr
import Verif.Lemmas.Containers

/-!
# C98: a printed node shows its tree
-/

namespace MplLayout

open Node
variable {τ α : Type}

theorem split_at {c : Char} : ∀ {x y s t : Str}, c ∉ x → c ∉ y → x ++ c :: s = y ++ c :: t → x = y ∧ s = t
  | [], [], s, t, _, _, h => by simpa using h
  | [], b :: y, s, t, _, hy, h => by
    simp only [List.nil_append, List.cons_append, List.cons.injEq] at h
    exact absurd (List.mem_cons.mpr (.inl h.1)) hy
  | a :: x, [], s, t, hx, _, h => by
    simp only [List.nil_append, List.cons_append, List.cons.injEq] at h
    exact absurd (List.mem_cons.mpr (.inl h.1.symm)) hx
  | a :: x, b :: y, s, t, hx, hy, h => by
    simp only [List.cons_append, List.cons.injEq] at h
    obtain ⟨h1, h2⟩ := split_at (fun h' => hx (List.mem_cons_of_mem _ h')) (fun h' => hy (List.mem_cons_of_mem _ h')) h.2
    exact ⟨by rw [h.1, h1], h2⟩

/-- The printed lists of keys of the same length. -/
theorem keys_split : ∀ {xs ys : List Str} {s t : Str}, xs.length = ys.length → (∀ k ∈ xs, ',' ∉ k ∧ ')' ∉ k) →
    (∀ k ∈ ys, ',' ∉ k ∧ ')' ∉ k) → joinComma xs ++ ')' :: s = joinComma ys ++ ')' :: t → xs = ys ∧ s = t
  | [], [], s, t, _, _, _, h => by simpa [joinComma] using h
  | [x], [y], s, t, _, hx, hy, h => by
    obtain ⟨h1, h2⟩ := split_at (hx x (by simp)).2 (hy y (by simp)).2 h
    exact ⟨by rw [h1], h2⟩
  | x :: x' :: xs, y :: y' :: ys, s, t, hl, hx, hy, h => by
    simp only [joinComma, List.append_assoc] at h
    obtain ⟨h1, h2⟩ := split_at (hx x (by simp)).1 (hy y (by simp)).1 h
    have h2 : (' ' : Char) :: (joinComma (x' :: xs) ++ ')' :: s) = ' ' :: (joinComma (y' :: ys) ++ ')' :: t) := h2
    obtain ⟨h3, h4⟩ := keys_split (by simpa using hl) (fun k hk => hx k (List.mem_cons_of_mem _ hk))
      (fun k hk => hy k (List.mem_cons_of_mem _ hk)) (List.cons.inj h2).2
    exact ⟨by rw [h1, h3], h4⟩
  | [], [_], _, _, hl, _, _, _ => by simp at hl
  | [], _ :: _ :: _, _, _, hl, _, _, _ => by simp at hl
  | [_], [], _, _, hl, _, _, _ => by simp at hl
  | [_], _ :: _ :: _, _, _, hl, _, _, _ => by simp at hl
  | _ :: _ :: _, [], _, _, hl, _, _, _ => by simp at hl
  | _ :: _ :: _, [_], _, _, hl, _, _, _ => by simp at hl

theorem Node.Printable.child {name : τ → Str} {show_ : α → Str} {t : τ} {v : α} {cs : List (Str × Node τ α)}
    (h : (Node.mk t v cs).Printable name show_) {k : Str} {c : Node τ α} (hc : (k, c) ∈ cs) : c.Printable name show_ :=
  ⟨fun p m hm => h.names (k :: p) m (.down hc hm), fun p m hm => h.values (k :: p) m (.down hc hm),
    fun p m hm => h.keys (k :: p) m (.down hc hm)⟩

/-- What is printed of a tree. -/
inductive Looks (name : τ → Str) (show_ : α → Str) : Node τ α → Node τ α → Prop
  | mk {t v cs t' v' cs'} : name t = name t' → show_ v = show_ v' → cs.map (·.1) = cs'.map (·.1) →
      (∀ i : Nat, ∀ c c', cs[i]? = some c → cs'[i]? = some c' → Looks name show_ c.2 c'.2) →
      Looks name show_ (.mk t v cs) (.mk t' v' cs')

variable {name : τ → Str} {show_ : α → Str}

theorem repr_head {n : Node τ α} (h : n.Printable name show_) (s : Str) : ∀ t : Str,
    n.repr name show_ ++ s ≠ ')' :: t := by
  intro t e
  obtain ⟨ty, v, cs⟩ := n
  have h1 := (h.names [] _ (.here _)).2
  simp only [Node.ty] at h1
  simp only [Node.repr, List.append_assoc] at e
  cases hn : name ty with
  | nil =>
    rw [hn] at e
    simp only [List.nil_append, List.cons_append] at e
    cases (List.cons.inj e).1
  | cons c w =>
    rw [hn] at e h1
    exact h1 (by rw [← (List.cons.inj e).1]; simp)

/-- The representation of a node has a definite end. -/
theorem repr_split (a : Node τ α) : ∀ (b : Node τ α), a.Printable name show_ → b.Printable name show_ → ∀ s t,
    a.repr name show_ ++ s = b.repr name show_ ++ t → Looks name show_ a b ∧ s = t := by
  induction a using Node.induct with
  | _ ty v cs ih =>
  rintro ⟨ty', v', cs'⟩ ha hb s t h
  simp only [Node.repr, List.append_assoc] at h
  obtain ⟨h1, h2⟩ := split_at (ha.names [] _ (.here _)).1 (hb.names [] _ (.here _)).1 h
  have hv : ∀ {n : Node τ α}, n.Printable name show_ → '(' ∉ show_ n.value ++ k!", " := by
    intro n hn
    have := hn.values [] _ (.here _)
    simp only [List.mem_append, not_or]
    exact ⟨this, by decide⟩
  have h2 : (show_ v ++ k!", ") ++ '(' :: (joinComma (reprs name show_ cs) ++ (k!"), (" ++ (joinComma (cs.map (·.1)) ++ (k!"))" ++ s))))
      = (show_ v' ++ k!", ") ++ '(' :: (joinComma (reprs name show_ cs') ++ (k!"), (" ++ (joinComma (cs'.map (·.1)) ++ (k!"))" ++ t)))) := by
    rw [List.append_assoc, List.append_assoc]
    exact h2
  obtain ⟨h3, h4⟩ := split_at (hv ha) (hv hb) h2
  have h3 : show_ v = show_ v' := List.append_cancel_right h3
  -- the children
  have key : ∀ (cs cs' : List (Str × Node τ α)), (∀ kc ∈ cs, kc.2.Printable name show_ ∧ ∀ (b : Node τ α),
      b.Printable name show_ → ∀ s t, kc.2.repr name show_ ++ s = b.repr name show_ ++ t → Looks name show_ kc.2 b ∧ s = t) →
      (∀ kc ∈ cs', kc.2.Printable name show_) → ∀ s t,
      joinComma (reprs name show_ cs) ++ ')' :: s = joinComma (reprs name show_ cs') ++ ')' :: t →
      (cs.length = cs'.length ∧ ∀ i : Nat, ∀ c c', cs[i]? = some c → cs'[i]? = some c' → Looks name show_ c.2 c'.2) ∧ s = t := by
    intro cs
    induction cs with
    | nil =>
      intro cs' _ hp s t e
      cases cs' with
      | nil => exact ⟨⟨rfl, by simp⟩, (List.cons.inj e).2⟩
      | cons c cs' =>
        exfalso
        obtain ⟨k, c⟩ := c
        cases cs' with
        | nil => exact repr_head (hp _ (List.mem_cons_self ..)) _ _ e.symm
        | cons c' cs' =>
          simp only [reprs, joinComma, List.append_assoc] at e
          exact repr_head (hp _ (List.mem_cons_self ..)) _ _ e.symm
    | cons c cs ihc =>
      intro cs' hq hp s t e
      obtain ⟨k, c⟩ := c
      have e0 : ∀ (d : Str × Node τ α) (ds : List (Str × Node τ α)) (r : Str), joinComma (reprs name show_ (d :: ds)) ++ ')' :: r =
          d.2.repr name show_ ++ (if ds = [] then ')' :: r else ',' :: ' ' :: (joinComma (reprs name show_ ds) ++ ')' :: r)) := by
        rintro ⟨_, d⟩ ds r
        cases ds with
        | nil => rfl
        | cons _ _ => simp [reprs, joinComma]
      cases cs' with
      | nil =>
        rw [e0] at e
        exact absurd e (repr_head (hq _ (List.mem_cons_self ..)).1 _ _)
      | cons c' cs' =>
        obtain ⟨k', c'⟩ := c'
        rw [e0, e0] at e
        obtain ⟨f1, f2⟩ := (hq _ (List.mem_cons_self ..)).2 _ (hp _ (List.mem_cons_self ..)) _ _ e
        by_cases g : cs = []
        · by_cases g' : cs' = []
          · subst g g'
            simp only [if_true] at f2
            refine ⟨⟨rfl, fun i x x' hx hx' => ?_⟩, (List.cons.inj f2).2⟩
            cases i with
            | zero => cases hx; cases hx'; exact f1
            | succ i => cases hx
          · rw [if_pos g, if_neg g'] at f2
            cases (List.cons.inj f2).1
        · by_cases g' : cs' = []
          · rw [if_neg g, if_pos g'] at f2
            cases (List.cons.inj f2).1
          · rw [if_neg g, if_neg g'] at f2
            obtain ⟨⟨i1, i2⟩, i3⟩ := ihc cs' (fun kc h => hq kc (List.mem_cons_of_mem _ h))
              (fun kc h => hp kc (List.mem_cons_of_mem _ h)) s t (List.cons.inj (List.cons.inj f2).2).2
            refine ⟨⟨by simp [i1], fun i x x' hx hx' => ?_⟩, i3⟩
            cases i with
            | zero => cases hx; cases hx'; exact f1
            | succ i => exact i2 i x x' hx hx'
  obtain ⟨⟨j1, j2⟩, j3⟩ := key cs cs' (fun kc h => ⟨ha.child h, fun b => ih kc.1 kc.2 h b (ha.child h)⟩) (fun kc h => hb.child h) _ _ h4
  have j3 : ',' :: ' ' :: '(' :: (joinComma (cs.map (·.1)) ++ ')' :: ')' :: s)
      = ',' :: ' ' :: '(' :: (joinComma (cs'.map (·.1)) ++ ')' :: ')' :: t) := j3
  obtain ⟨k1, k2⟩ := keys_split (by simp [j1]) (ha.keys [] _ (.here _)) (hb.keys [] _ (.here _))
    (List.cons.inj (List.cons.inj (List.cons.inj j3).2).2).2
  exact ⟨.mk h1 h3 k1 j2, (List.cons.inj k2).2⟩

theorem Looks.repr {a b : Node τ α} (h : Looks name show_ a b) : a.repr name show_ = b.repr name show_ := by
  induction h with
  | @mk t v cs t' v' cs' h1 h2 h3 hl ih =>
    have : reprs name show_ cs = reprs name show_ cs' := by
      clear h1 h2 hl
      induction cs generalizing cs' with
      | nil => cases cs' with
        | nil => rfl
        | cons _ _ => cases h3
      | cons c cs ihc => cases cs' with
        | nil => cases h3
        | cons c' cs' =>
          obtain ⟨k, c⟩ := c
          obtain ⟨k', c'⟩ := c'
          simp only [reprs]
          rw [ih 0 _ _ rfl rfl, ihc (List.cons.inj h3).2 fun i x x' hx hx' => ih (i + 1) x x' hx hx']
    simp only [Node.repr, h1, h2, h3, this]

theorem mem_at {cs cs' : List (Str × Node τ α)} (h : cs.map (·.1) = cs'.map (·.1)) {k : Str} {c : Node τ α}
    (hc : (k, c) ∈ cs) : ∃ (i : Nat) (c' : Node τ α), cs[i]? = some (k, c) ∧ cs'[i]? = some (k, c') ∧ (k, c') ∈ cs' := by
  obtain ⟨i, hi, e⟩ := List.mem_iff_getElem.mp hc
  have hi' : i < cs'.length := by
    have := congrArg List.length h
    simp only [List.length_map] at this
    omega
  have hk : (cs'[i]).1 = k := by
    have : (cs.map (·.1))[i]? = (cs'.map (·.1))[i]? := by rw [h]
    simp only [List.getElem?_map, List.getElem?_eq_getElem hi, List.getElem?_eq_getElem hi', e, Option.map_some,
      Option.some.injEq] at this
    exact this.symm
  refine ⟨i, (cs'[i]).2, by rw [List.getElem?_eq_getElem hi, e], ?_, ?_⟩
  · rw [List.getElem?_eq_getElem hi', ← hk]
  · rw [← hk]; exact List.getElem_mem hi'

theorem Looks.symm' {a b : Node τ α} (h : Looks name show_ a b) : Looks name show_ b a := by
  induction h with
  | mk h1 h2 h3 _ ih => exact .mk h1.symm h2.symm h3.symm fun i c c' hc hc' => ih i c' c hc' hc

theorem Looks.at {a b : Node τ α} (h : Looks name show_ a b) : ∀ p m, a.At p m → ∃ m', b.At p m' := by
  induction h with
  | @mk t v cs t' v' cs' h1 h2 h3 _ ih =>
    intro p m hm
    cases hm with
    | here => exact ⟨_, .here _⟩
    | down hc hm =>
      obtain ⟨i, c', e1, e2, e3⟩ := mem_at h3 hc
      obtain ⟨m', hm'⟩ := ih i _ _ e1 e2 _ _ hm
      exact ⟨m', .down e3 hm'⟩

theorem wf_child {t : τ} {v : α} {cs : List (Str × Node τ α)} (h : (Node.mk t v cs).WF) {k : Str} {c : Node τ α}
    (hc : (k, c) ∈ cs) : c.WF := fun p m hm => h (k :: p) m (.down hc hm)

theorem wf_unique {t : τ} {v : α} {cs : List (Str × Node τ α)} (h : (Node.mk t v cs).WF) {k : Str} {c c' : Node τ α}
    (hc : (k, c) ∈ cs) (hc' : (k, c') ∈ cs) : c = c' := by
  have hn : (cs.map (·.1)).Nodup := h [] _ (.here _)
  clear h
  induction cs with
  | nil => cases hc
  | cons x cs ih =>
    simp only [List.map_cons, List.nodup_cons] at hn
    have nk : ∀ d, (k, d) ∈ cs → k ∈ cs.map (·.1) := fun d hd => List.mem_map.mpr ⟨_, hd, rfl⟩
    rcases List.mem_cons.mp hc with h1 | h1 <;> rcases List.mem_cons.mp hc' with h2 | h2
    · exact (Prod.mk.inj (h1.trans h2.symm)).2
    · exact absurd (h1 ▸ nk _ h2 : x.1 ∈ _) hn.1
    · exact absurd (h2 ▸ nk _ h1 : x.1 ∈ _) hn.1
    · exact ih h1 h2 hn.2

theorem Looks.like {a b : Node τ α} (h : Looks name show_ a b) (ha : a.WF) (hb : b.WF) : LooksLike name show_ a b := by
  refine ⟨fun p => ⟨fun ⟨m, hm⟩ => h.at p m hm, fun ⟨m, hm⟩ => h.symm'.at p m hm⟩, ?_⟩
  induction h with
  | @mk t v cs t' v' cs' h1 h2 h3 _ ih =>
    intro p m m' hm hm'
    cases hm with
    | here => cases hm' with
      | here => exact ⟨h1, h2, h3⟩
    | @down _ c _ k q hc hm => cases hm' with
      | @down _ d _ _ _ hd hm' =>
        obtain ⟨i, c', e1, e2, e3⟩ := mem_at h3 hc
        obtain rfl := wf_unique hb hd e3
        exact ih i _ _ e1 e2 (wf_child ha hc) (wf_child hb hd) _ _ _ hm hm'

theorem LooksLike.looks {a : Node τ α} : ∀ {b : Node τ α}, a.WF → b.WF → LooksLike name show_ a b →
    Looks name show_ a b := by
  induction a using Node.induct with
  | _ t v cs ih =>
  rintro ⟨t', v', cs'⟩ ha hb h
  obtain ⟨h1, h2, h3⟩ := h.2 [] _ _ (.here _) (.here _)
  refine .mk h1 h2 h3 fun i c c' hc hc' => ?_
  obtain ⟨k, c⟩ := c
  obtain ⟨k', c'⟩ := c'
  have hk : k = k' := by
    have : (cs.map (·.1))[i]? = (cs'.map (·.1))[i]? := congrArg (fun l => l[i]?) h3
    simp only [List.getElem?_map, hc, hc', Option.map_some, Option.some.injEq] at this
    exact this
  subst hk
  have mc := List.mem_of_getElem? hc
  have mc' := List.mem_of_getElem? hc'
  refine ih k c mc (wf_child ha mc) (wf_child hb mc') ⟨fun p => ⟨?_, ?_⟩, fun p m m' hm hm' =>
    h.2 (k :: p) m m' (.down mc hm) (.down mc' hm')⟩
  · rintro ⟨m, hm⟩
    obtain ⟨m', hm'⟩ := (h.1 (k :: p)).mp ⟨m, .down mc hm⟩
    cases hm' with
    | down hd hm' => obtain rfl := wf_unique hb hd mc'; exact ⟨_, hm'⟩
  · rintro ⟨m, hm⟩
    obtain ⟨m', hm'⟩ := (h.1 (k :: p)).mpr ⟨m, .down mc' hm⟩
    cases hm' with
    | down hd hm' => obtain rfl := wf_unique ha hd mc; exact ⟨_, hm'⟩

namespace Props

/-- C98: two nodes (whose class names and printed values contain no parentheses, and whose keys contain
neither commas nor closing parentheses) are printed alike exactly if the trees have the same paths, with
nodes of equally named classes, equally printed values and the same child keys in the same order. -/
theorem C98_repr_partial (name : τ → Str) (show_ : α → Str) (a b : Node τ α) (ha : a.WF) (hb : b.WF)
    (pa : a.Printable name show_) (pb : b.Printable name show_) :
    a.repr name show_ = b.repr name show_ ↔ LooksLike name show_ a b :=
  ⟨fun h => ((repr_split a b pa pb [] [] (by rw [h])).1).like ha hb, fun h => (h.looks ha hb).repr⟩

/-- C98 for all nodes: trees that look alike are printed alike. -/
theorem C98_alike (name : τ → Str) (show_ : α → Str) (a b : Node τ α) (ha : a.WF) (hb : b.WF)
    (h : LooksLike name show_ a b) : a.repr name show_ = b.repr name show_ :=
  (h.looks ha hb).repr

/-- C98 as stated fails for keys with commas: two children under the keys `'a, b'` and `'c'` are printed
like children under the keys `'a'` and `'b, c'`. -/
theorem C98_counterexample : ∃ a b : Node Unit Nat, a.WF ∧ b.WF ∧
    a.repr (fun _ => k!"Node") natStr = b.repr (fun _ => k!"Node") natStr ∧ a.keys ≠ b.keys := by
  let n : Node Unit Nat := .mk () 0 []
  have hwf : ∀ x y : Str, x ≠ y → (Node.mk () 0 [(x, n), (y, n)] : Node Unit Nat).WF := by
    intro x y hxy p m hm
    cases hm with
    | here => simpa [keys, children] using hxy
    | down hc hm =>
      have : ∀ q m, n.At q m → m.keys.Nodup := by
        intro q m hm
        cases hm with
        | here => simp [n, keys, children]
        | down hc _ => simp [n, children] at hc
      simp only [children, List.mem_cons, Prod.mk.injEq, List.not_mem_nil, or_false] at hc
      rcases hc with ⟨-, rfl⟩ | ⟨-, rfl⟩ <;> exact this _ _ hm
  exact ⟨.mk () 0 [(k!"a, b", n), (k!"c", n)], .mk () 0 [(k!"a", n), (k!"b, c", n)], hwf _ _ (by decide),
    hwf _ _ (by decide), by decide +kernel, by decide⟩

/-- A line is printed with its class, its value, its points and their keys. -/
example : (Node.mk k!"Line" k!"[]" [(k!"Point0", .mk k!"Point" k!"[0. 0.]" []),
    (k!"Point1", .mk k!"Point" k!"[1. 0.]" [])] : Node Str Str).repr (fun t => t) (fun v => v)
    = k!"Line([], (Point([0. 0.], (), ()), Point([1. 0.], (), ())), (Point0, Point1))" := by
  decide +kernel

end Props

end MplLayout
