import Verif.Model.Py

/-! # Lemmas about strings, numerals and dictionaries -/

namespace MplLayout

/-! ## Splitting and joining -/

theorem splitAll_ne_nil (s : Str) : splitAll s ≠ [] := by
  induction s with
  | nil => simp [splitAll]
  | cons c cs ih =>
    simp only [splitAll]
    split
    · simp
    · split <;> simp

theorem splitAll_noslash {s : Str} (h : '/' ∉ s) : splitAll s = [s] := by
  induction s with
  | nil => rfl
  | cons c cs ih =>
    simp only [List.mem_cons, not_or] at h
    have h1 : c ≠ '/' := fun e => h.1 e.symm
    simp [splitAll, h1, ih h.2]

theorem splitAll_append_slash (a b : Str) :
    splitAll (a ++ '/' :: b) = splitAll a ++ splitAll b := by
  induction a with
  | nil => simp [splitAll]
  | cons c cs ih =>
    simp only [List.cons_append, splitAll]
    split
    · simp [ih]
    · rw [ih]
      cases h : splitAll cs with
      | nil => exact absurd h (splitAll_ne_nil cs)
      | cons w ws => simp

theorem mem_splitAll_noslash {s w : Str} (h : w ∈ splitAll s) : '/' ∉ w := by
  induction s generalizing w with
  | nil => simp [splitAll] at h; simp [h]
  | cons c cs ih =>
    simp only [splitAll] at h
    split at h
    · rcases List.mem_cons.1 h with h | h
      · simp [h]
      · exact ih h
    · rename_i hc
      cases hs : splitAll cs with
      | nil => exact absurd hs (splitAll_ne_nil cs)
      | cons w' ws =>
        rw [hs] at h ih
        rcases List.mem_cons.1 h with h | h
        · subst h
          have := ih (List.mem_cons_self ..)
          simp only [List.mem_cons, not_or]
          exact ⟨fun e => hc e.symm, this⟩
        · exact ih (List.mem_cons_of_mem _ h)

theorem joinSlash_splitAll (s : Str) : joinSlash (splitAll s) = s := by
  induction s with
  | nil => rfl
  | cons c cs ih =>
    simp only [splitAll]
    split
    · rename_i hc
      cases h : splitAll cs with
      | nil => exact absurd h (splitAll_ne_nil cs)
      | cons w ws => rw [h] at ih; simp [joinSlash, ih, hc]
    · cases h : splitAll cs with
      | nil => exact absurd h (splitAll_ne_nil cs)
      | cons w ws =>
        rw [h] at ih
        cases ws with
        | nil => simp [joinSlash] at ih ⊢; exact ih
        | cons w' ws => simp [joinSlash] at ih ⊢; exact ih

theorem joinSlash_cons {w : Str} {ws : List Str} (h : ws ≠ []) :
    joinSlash (w :: ws) = w ++ '/' :: joinSlash ws := by
  cases ws with
  | nil => exact absurd rfl h
  | cons w' ws => rfl

theorem joinSlash_append {u v : List Str} (hu : u ≠ []) (hv : v ≠ []) :
    joinSlash (u ++ v) = joinSlash u ++ '/' :: joinSlash v := by
  induction u with
  | nil => exact absurd rfl hu
  | cons w ws ih =>
    by_cases hw : ws = []
    · subst hw; simp [joinSlash, joinSlash_cons hv]
    · rw [List.cons_append, joinSlash_cons (by simp [hw]), ih hw, joinSlash_cons hw]
      simp

theorem splitAll_joinSlash {ws : List Str} (h : ws ≠ []) (hs : ∀ w ∈ ws, '/' ∉ w) :
    splitAll (joinSlash ws) = ws := by
  induction ws with
  | nil => exact absurd rfl h
  | cons w ws ih =>
    by_cases hw : ws = []
    · subst hw; exact splitAll_noslash (hs w (by simp))
    · rw [joinSlash_cons hw, splitAll_append_slash, splitAll_noslash (hs w (by simp)),
        ih hw (fun x hx => hs x (List.mem_cons_of_mem _ hx))]
      rfl

theorem split1_eq (s : Str) :
    split1 s = ((splitAll s).headD [],
      if (splitAll s).tail = [] then none else some (joinSlash (splitAll s).tail)) := by
  induction s with
  | nil => rfl
  | cons c cs ih =>
    simp only [split1, splitAll]
    split
    · simp [splitAll_ne_nil, joinSlash_splitAll]
    · rw [ih]
      cases h : splitAll cs with
      | nil => exact absurd h (splitAll_ne_nil cs)
      | cons w ws => by_cases hw : ws = [] <;> simp [hw]

theorem split1_none_iff (s : Str) : (split1 s).2 = none ↔ '/' ∉ s := by
  induction s with
  | nil => simp [split1]
  | cons c cs ih =>
    simp only [split1]
    split
    · rename_i h; simp [h]
    · rename_i h
      simp only [List.mem_cons, not_or]
      rw [ih]
      exact ⟨fun x => ⟨fun e => h e.symm, x⟩, fun x => x.2⟩

theorem split1_noslash {s : Str} (h : '/' ∉ s) : split1 s = (s, none) := by
  induction s with
  | nil => rfl
  | cons c cs ih =>
    simp only [List.mem_cons, not_or] at h
    have h1 : c ≠ '/' := fun e => h.1 e.symm
    simp [split1, h1, ih h.2]

theorem split1_append {a b : Str} (h : '/' ∉ a) : split1 (a ++ '/' :: b) = (a, some b) := by
  induction a with
  | nil => simp [split1]
  | cons c cs ih =>
    simp only [List.mem_cons, not_or] at h
    have h1 : c ≠ '/' := fun e => h.1 e.symm
    simp [split1, h1, ih h.2]

/-! ## Numerals -/

theorem natStr_injective {m n : Nat} (h : natStr m = natStr n) : m = n := by
  have := congrArg (fun l => Nat.ofDigitChars 10 l 0) h
  simpa [natStr, Nat.ofDigitChars_ten_toDigits] using this

theorem natStr_ne_nil (n : Nat) : natStr n ≠ [] := Nat.toDigits_ne_nil

theorem natStr_isDigit {n : Nat} {c : Char} (h : c ∈ natStr n) : c.isDigit :=
  Nat.isDigit_of_mem_toDigits (by decide) (by decide) h

theorem slash_notMem_natStr (n : Nat) : '/' ∉ natStr n := fun h => by
  have := natStr_isDigit h
  revert this; decide

theorem parseInt_natStr (n : Nat) : parseInt (natStr n) = .ok n := by
  have h1 : natStr n ≠ [] := natStr_ne_nil n
  have h2 : (natStr n).all Char.isDigit = true := by
    rw [List.all_eq_true]; intro c hc; exact natStr_isDigit hc
  simp [parseInt, h1, h2]
  simp [natStr, Nat.ofDigitChars_ten_toDigits]

/-! ## Dictionaries -/

variable {β γ : Type}

theorem dictGet_eq_some_mem {d : List (Str × β)} {k : Str} {v : β} (h : dictGet d k = some v) :
    (k, v) ∈ d := by
  induction d with
  | nil => simp [dictGet] at h
  | cons p d ih =>
    obtain ⟨k', v'⟩ := p
    simp only [dictGet] at h
    split at h
    · rename_i hk; cases h; simp [hk]
    · exact List.mem_cons_of_mem _ (ih h)

theorem dictGet_of_mem {d : List (Str × β)} (hd : (d.map (·.1)).Nodup) {k : Str} {v : β}
    (h : (k, v) ∈ d) : dictGet d k = some v := by
  induction d with
  | nil => simp at h
  | cons p d ih =>
    obtain ⟨k', v'⟩ := p
    simp only [List.map_cons, List.nodup_cons] at hd
    simp only [dictGet]
    rcases List.mem_cons.1 h with h | h
    · cases h; simp
    · have : k' ≠ k := by
        rintro rfl
        exact hd.1 (List.mem_map.2 ⟨_, h, rfl⟩)
      simp [this, ih hd.2 h]

theorem dictGet_eq_none {d : List (Str × β)} {k : Str} :
    dictGet d k = none ↔ k ∉ d.map (·.1) := by
  induction d with
  | nil => simp [dictGet]
  | cons p d ih =>
    obtain ⟨k', v'⟩ := p
    simp only [dictGet]
    by_cases h : k' = k
    · simp [h]
    · have h' : k ≠ k' := fun e => h e.symm
      simp only [h, if_false, ih, List.map_cons, List.mem_cons, h', false_or]

theorem dictHas_iff {d : List (Str × β)} {k : Str} : dictHas d k = true ↔ k ∈ d.map (·.1) := by
  unfold dictHas
  cases h : dictGet d k with
  | none => simpa using dictGet_eq_none.1 h
  | some v => simpa using ⟨v, dictGet_eq_some_mem h⟩

theorem dictHas_false_iff {d : List (Str × β)} {k : Str} :
    dictHas d k = false ↔ k ∉ d.map (·.1) := by
  rw [← dictHas_iff]; simp

theorem dictSet_of_notMem {d : List (Str × β)} {k : Str} (v : β) (h : k ∉ d.map (·.1)) :
    dictSet d k v = d ++ [(k, v)] := by
  induction d with
  | nil => rfl
  | cons p d ih =>
    obtain ⟨k', v'⟩ := p
    simp only [List.map_cons, List.mem_cons, not_or] at h
    have h1 : k' ≠ k := fun e => h.1 e.symm
    simp [dictSet, h1, ih h.2]

theorem dictSet_keys_of_mem {d : List (Str × β)} {k : Str} (v : β) (h : k ∈ d.map (·.1)) :
    (dictSet d k v).map (·.1) = d.map (·.1) := by
  induction d with
  | nil => simp at h
  | cons p d ih =>
    obtain ⟨k', v'⟩ := p
    simp only [dictSet]
    by_cases h1 : k' = k
    · simp [h1]
    · simp only [List.map_cons, List.mem_cons] at h
      have h2 : k ∈ d.map (·.1) := h.resolve_left (fun e => h1 e.symm)
      simp only [h1, if_false, List.map_cons, ih h2]

theorem dictGet_dictSet (d : List (Str × β)) (k k' : Str) (v : β) :
    dictGet (dictSet d k v) k' = if k' = k then some v else dictGet d k' := by
  induction d with
  | nil =>
    by_cases h : k' = k
    · simp [dictSet, dictGet, h]
    · have : k ≠ k' := fun e => h e.symm
      simp [dictSet, dictGet, h, this]
  | cons p d ih =>
    obtain ⟨a, w⟩ := p
    simp only [dictSet]
    by_cases h1 : a = k
    · subst h1
      simp only [if_true, dictGet]
      by_cases h2 : a = k'
      · simp [h2]
      · have : k' ≠ a := fun e => h2 e.symm
        simp [h2, this]
    · simp only [h1, if_false, dictGet, ih]
      by_cases h2 : a = k'
      · subst h2; simp [h1]
      · simp [h2]

theorem dictSet_keys_nodup {d : List (Str × β)} (k : Str) (v : β) (h : (d.map (·.1)).Nodup) :
    ((dictSet d k v).map (·.1)).Nodup := by
  by_cases hk : k ∈ d.map (·.1)
  · rw [dictSet_keys_of_mem v hk]; exact h
  · rw [dictSet_of_notMem v hk, List.map_append, List.nodup_append]
    refine ⟨h, by simp, ?_⟩
    intro a ha b hb
    simp at hb
    rintro rfl
    exact hk (hb ▸ ha)

theorem mem_dictSet {d : List (Str × β)} {k k' : Str} {v v' : β}
    (h : (k', v') ∈ dictSet d k v) : (k' = k ∧ v' = v) ∨ (k', v') ∈ d := by
  induction d with
  | nil => simp [dictSet] at h; exact Or.inl h
  | cons p d ih =>
    obtain ⟨a, w⟩ := p
    simp only [dictSet] at h
    split at h
    · rename_i ha
      rcases List.mem_cons.1 h with h | h
      · cases h; exact Or.inl ⟨ha, rfl⟩
      · exact Or.inr (List.mem_cons_of_mem _ h)
    · rcases List.mem_cons.1 h with h | h
      · cases h; exact Or.inr (List.mem_cons_self ..)
      · rcases ih h with h | h
        · exact Or.inl h
        · exact Or.inr (List.mem_cons_of_mem _ h)

theorem dictSet_self {d : List (Str × β)} {k : Str} {v : β} (h : dictGet d k = some v) :
    dictSet d k v = d := by
  induction d with
  | nil => simp [dictGet] at h
  | cons p d ih =>
    obtain ⟨a, w⟩ := p
    simp only [dictGet] at h
    simp only [dictSet]
    split
    · rename_i ha; simp [ha] at h; simp [h]
    · rename_i ha; simp [ha] at h; simp [ih h]

theorem foldl_dictSet_append {ps d : List (Str × β)}
    (h : ((d ++ ps).map (·.1)).Nodup) :
    ps.foldl (fun d p => dictSet d p.1 p.2) d = d ++ ps := by
  induction ps generalizing d with
  | nil => simp
  | cons p ps ih =>
    have hp : p.1 ∉ d.map (·.1) := by
      intro hm
      simp only [List.map_append, List.map_cons] at h
      rw [List.nodup_append] at h
      exact h.2.2 p.1 hm p.1 (by simp) rfl
    rw [List.foldl_cons, dictSet_of_notMem _ hp, ih (by simpa using h)]
    simp

theorem dictOfPairs_of_nodup {ps : List (Str × β)} (h : (ps.map (·.1)).Nodup) :
    dictOfPairs ps = ps := by
  have := foldl_dictSet_append (d := []) (ps := ps) (by simpa using h)
  simpa [dictOfPairs] using this

theorem foldl_dictSet_keys_nodup (ps d : List (Str × β)) (h : (d.map (·.1)).Nodup) :
    ((ps.foldl (fun d p => dictSet d p.1 p.2) d).map (·.1)).Nodup := by
  induction ps generalizing d with
  | nil => simpa using h
  | cons p ps ih => exact ih _ (dictSet_keys_nodup _ _ h)

theorem dictOfPairs_keys_nodup (ps : List (Str × β)) : ((dictOfPairs ps).map (·.1)).Nodup :=
  foldl_dictSet_keys_nodup ps [] (by simp)

theorem dictOfZip_keys_nodup (ks : List Str) (vs : List β) :
    ((dictOfZip ks vs).map (·.1)).Nodup := dictOfPairs_keys_nodup _

theorem dictOfZip_of_nodup {ks : List Str} {vs : List β} (h : ks.Nodup) :
    dictOfZip ks vs = ks.zip vs := by
  apply dictOfPairs_of_nodup
  have : (ks.zip vs).map (·.1) = ks.take (min ks.length vs.length) := by
    induction ks generalizing vs with
    | nil => simp
    | cons k ks ih =>
      cases vs with
      | nil => simp
      | cons v vs =>
        simp only [List.zip_cons_cons, List.map_cons, List.length_cons]
        rw [ih (List.nodup_cons.1 h).2, Nat.add_min_add_right, List.take_succ_cons]
  rw [this]
  exact h.sublist (List.take_sublist _ _)

theorem dictGet_map (d : List (Str × β)) (f : β → γ) (k : Str) :
    dictGet (d.map fun p => (p.1, f p.2)) k = (dictGet d k).map f := by
  induction d with
  | nil => rfl
  | cons p d ih =>
    obtain ⟨a, w⟩ := p
    simp only [List.map_cons, dictGet]
    split <;> simp [*]

theorem zip_unzip (ps : List (Str × β)) : (ps.map (·.1)).zip (ps.map (·.2)) = ps := by
  induction ps with
  | nil => rfl
  | cons p ps ih => simp [ih]

end MplLayout
