import Verif.Spec.Values
import Verif.Lemmas.Primitives
import Verif.Lemmas.Shift

/-!
# Values of primitives
-/

namespace MplLayout

variable {K : Type}

theorem shape_spec : (∀ (x : Nested K) s, x.shape = some s ↔ Rectangular x s) ∧
    ∀ xs : List (Nested K), (Nested.shapes xs = some none ↔ xs = []) ∧
      ∀ s, Nested.shapes xs = some (some s) ↔ xs ≠ [] ∧ ∀ x ∈ xs, Rectangular x s := by
  suffices h : ∀ n, (∀ x : Nested K, sizeOf x < n → ∀ s, x.shape = some s ↔ Rectangular x s) ∧
      ∀ xs : List (Nested K), sizeOf xs < n → (Nested.shapes xs = some none ↔ xs = []) ∧
        ∀ s, Nested.shapes xs = some (some s) ↔ xs ≠ [] ∧ ∀ x ∈ xs, Rectangular x s from
    ⟨fun x => (h (sizeOf x + 1)).1 x (by omega), fun xs => (h (sizeOf xs + 1)).2 xs (by omega)⟩
  intro n
  induction n with
  | zero => exact ⟨fun _ h => by omega, fun _ h => by omega⟩
  | succ n ih =>
    constructor
    · intro x hx s
      cases x with
      | num x =>
        rw [Nested.shape]
        constructor
        · intro h; cases h; exact .num x
        · intro h; cases h; rfl
      | seq xs =>
        obtain ⟨h1, h2⟩ := ih.2 xs (by simp at hx; omega)
        rw [Nested.shape]
        constructor
        · intro h
          split at h
          · cases h
          · rename_i e; cases h; rw [h1.mp e]; exact .empty
          · rename_i s' e; cases h
            obtain ⟨k1, k2⟩ := (h2 s').mp e
            exact .seq xs s' k1 k2
        · intro h
          cases h with
          | empty => rw [h1.mpr rfl]
          | seq _ s' hne h => rw [(h2 s').mpr ⟨hne, h⟩]
    · intro xs hxs
      cases xs with
      | nil => rw [Nested.shapes]; simp
      | cons x xs =>
        have k1 := ih.1 x (by simp at hxs; omega)
        obtain ⟨h1, h2⟩ := ih.2 xs (by simp at hxs; omega)
        rw [Nested.shapes]
        constructor
        · constructor
          · intro h
            split at h
            · cases h
            · split at h <;> cases h
            · cases h
          · intro h; cases h
        · intro s
          constructor
          · intro h
            refine ⟨by simp, ?_⟩
            split at h
            · rename_i s' e1 e2
              cases h
              rw [h1.mp e2]
              simpa using (k1 s).mp e1
            · rename_i s1 s2 e1 e2
              split at h
              · rename_i he
                subst he
                cases h
                simpa using ⟨(k1 s).mp e1, ((h2 s).mp e2).2⟩
              · cases h
            · cases h
          · rintro ⟨_, h⟩
            rw [(k1 s).mpr (h x (by simp))]
            by_cases hn : xs = []
            · rw [h1.mpr hn]
            · rw [(h2 s).mpr ⟨hn, fun y hy => h y (by simp [hy])⟩]
              simp

theorem npArray_ok {xs : List (Nested K)} {n n' : Nat} {a : NdArr K} : npArray xs n = .ok (a, n') ↔
    a.id = n ∧ Rectangular (.seq xs) a.shape ∧ a.entries = (Nested.seq xs).entries ∧ n' = n + 1 := by
  rw [npArray]
  constructor
  · intro h
    split at h
    · rename_i s e
      cases h
      exact ⟨rfl, (shape_spec.1 _ _).mp e, by rw [Nested.entries], rfl⟩
    · cases h
  · rintro ⟨rfl, h2, h3, rfl⟩
    rw [(shape_spec.1 _ _).mpr h2]
    obtain ⟨i, s, e⟩ := a
    rw [Nested.entries] at h3
    simp only at h3
    rw [h3]

theorem npArray_ragged {xs : List (Nested K)} (h : Ragged xs) (n : Nat) : npArray xs n = .error .valueError := by
  rw [npArray]
  split
  · rename_i s e; exact absurd ((shape_spec.1 _ _).mp e) (h s)
  · rfl

theorem nums_rect (xs : List K) : Rectangular (.seq (xs.map .num)) [xs.length] ∧
    (Nested.seq (xs.map .num)).entries = xs := by
  constructor
  · cases xs with
    | nil => exact .empty
    | cons x xs =>
      have := Rectangular.seq ((x :: xs).map .num) [] (by simp) (by
        intro y hy
        obtain ⟨z, _, rfl⟩ := List.mem_map.mp hy
        exact .num z)
      rwa [List.length_map] at this
  · rw [Nested.entries]
    induction xs with
    | nil => rw [List.map_nil, Nested.entriesL]
    | cons x xs ih => rw [List.map_cons, Nested.entriesL, ih, Nested.entries]; rfl

theorem rect_unique {x : Nested K} {s s' : List Nat} (h : Rectangular x s) (h' : Rectangular x s') : s = s' := by
  have e := ((shape_spec (K := K)).1 x s).mpr h
  rw [((shape_spec (K := K)).1 x s').mpr h'] at e
  exact (Option.some.inj e).symm

theorem initNd_cases (t : PrimType) (v : NdArr K) (cs : List (Str × Node PrimType (NdArr K))) :
    (∀ rest, v.shape = t.size :: rest → (t.Accepts (cs.map (·.2.ty)) →
      primNodeInitNd PrimType.table t true v cs = .ok (.mk t v cs)) ∧
      (¬ t.Accepts (cs.map (·.2.ty)) → primNodeInitNd PrimType.table t true v cs = .error .valueError)) ∧
    (∀ n rest, v.shape = n :: rest → n ≠ t.size → primNodeInitNd PrimType.table t true v cs = .error .assertionError) ∧
    (v.shape = [] → primNodeInitNd PrimType.table t true v cs = .error .typeError) ∧
    primNodeInitNd PrimType.table t false v cs = .error .assertionError := by
  refine ⟨fun rest h => ?_, fun n rest h hn => ?_, fun h => ?_, rfl⟩
  · have hw := sig_wellFormed t
    have hs := sigOK_iff t (cs.map (·.2.ty))
    have hl : ¬ t.size ≠ PrimType.table.size t := fun h => h rfl
    unfold sigOK at hs
    simp only [primNodeInitNd, NdArr.len, h, Bool.not_true, Bool.false_eq_true, if_false, bind, Except.bind, hl]
    revert hw hs
    generalize PrimType.table.sig t = sg
    intro hw hs
    cases sg with
    | tuple types =>
      simp only at hw hs ⊢
      rcases validatePrims_spec PrimType.table (cs.map (·.2.ty)) types hw with ⟨h1, h2⟩ | ⟨h1, h2⟩
      · exact ⟨fun _ => by simp [h2], fun h => absurd (hs.1 h1) h⟩
      · exact ⟨fun h => absurd (hs.2 h) h1, fun _ => by simp [h2]⟩
    | anyOf alts =>
      simp only at hw hs ⊢
      rcases anyMatch_spec PrimType.table (cs.map (·.2.ty)) alts hw with ⟨h1, h2⟩ | ⟨h1, h2⟩
      · exact ⟨fun _ => by simp [h2], fun h => absurd (hs.1 h1) h⟩
      · exact ⟨fun h => absurd (hs.2 h) h1, fun _ => by simp [h2]⟩
  · have hl : n ≠ PrimType.table.size t := hn
    simp only [primNodeInitNd, NdArr.len, h, Bool.not_true, Bool.false_eq_true, if_false, bind, Except.bind, hl, ne_eq,
      not_false_eq_true, if_true]
  · simp only [primNodeInitNd, NdArr.len, h, Bool.not_true, Bool.false_eq_true, if_false, bind, Except.bind]

theorem initNd_ok {t : PrimType} {v : NdArr K} {cs : List (Str × Node PrimType (NdArr K))} {b : Bool}
    {q : Node PrimType (NdArr K)} : primNodeInitNd PrimType.table t b v cs = .ok q ↔
      b = true ∧ (∃ rest, v.shape = t.size :: rest) ∧ t.Accepts (cs.map (·.2.ty)) ∧ q = .mk t v cs := by
  obtain ⟨h1, h2, h3, h4⟩ := initNd_cases t v cs
  cases b with
  | false => rw [h4]; simp
  | true =>
    cases hs : v.shape with
    | nil => rw [h3 hs]; simp
    | cons n rest =>
      by_cases hn : n = t.size
      · subst hn
        by_cases ha : t.Accepts (cs.map (·.2.ty))
        · rw [(h1 rest hs).1 ha]; simp [ha, eq_comm]
        · rw [(h1 rest hs).2 ha]; simp [ha]
      · rw [h2 n rest hs hn]; simp [hn]

theorem valueOf_ok {dflt : List K} {value : ValueObj K} {n n' : Nat} {b : Bool} {a : NdArr K} :
    (valueOf dflt value n = .ok ((b, a), n') ∧ b = true) ↔ b = true ∧ value.StandsFor dflt n a n' := by
  have key : ∀ xs, ((do let a ← npArray xs; pure (true, a) : Alloc (Bool × NdArr K)) n = .ok ((b, a), n') ∧ b = true) ↔
      b = true ∧ npArray xs n = .ok (a, n') := by
    intro xs
    show (((npArray xs n) >>= fun r => Except.ok ((true, r.1), r.2)) = _ ∧ _) ↔ _
    cases npArray xs n with
    | error e => simp [bind, Except.bind]
    | ok r =>
      simp only [bind, Except.bind, Except.ok.injEq, Prod.mk.injEq]
      constructor
      · rintro ⟨⟨⟨rfl, h1⟩, h2⟩, _⟩; exact ⟨rfl, Prod.ext h1 h2⟩
      · rintro ⟨rfl, rfl⟩; simp
  cases value with
  | none =>
    simp only [valueOf, ValueObj.StandsFor]
    rw [key, npArray_ok]
    obtain ⟨r1, r2⟩ := nums_rect dflt
    constructor
    · rintro ⟨hb, h1, h2, h3, h4⟩
      obtain ⟨i, s, e⟩ := a
      simp only at h1 h2 h3
      rw [h1, rect_unique h2 r1, h3, r2]
      exact ⟨hb, rfl, h4⟩
    · rintro ⟨hb, rfl, h4⟩
      exact ⟨hb, rfl, r1, r2.symm, h4⟩
  | seq xs =>
    simp only [valueOf, ValueObj.StandsFor]
    rw [key, npArray_ok]
  | ndarray c =>
    simp only [valueOf, ValueObj.StandsFor]
    show (Except.ok ((true, c), n) = _ ∧ _) ↔ _
    simp only [Except.ok.injEq, Prod.mk.injEq]
    constructor
    · rintro ⟨⟨⟨rfl, rfl⟩, rfl⟩, _⟩; simp
    · rintro ⟨rfl, rfl, rfl⟩; simp
  | jax c =>
    simp only [valueOf, ValueObj.StandsFor, and_false, iff_false]
    show ¬ (Except.ok ((false, c), n) = _ ∧ _)
    simp only [Except.ok.injEq, Prod.mk.injEq]
    rintro ⟨⟨⟨rfl, _⟩, _⟩, h⟩; cases h
  | other =>
    simp only [valueOf, ValueObj.StandsFor, and_false, iff_false]
    rintro ⟨h, _⟩; cases h

theorem primInitNd_eq {t : PrimType} {dflt : List K} {value : ValueObj K} {keys : List Str}
    {prims : List (Node PrimType (NdArr K))} {n : Nat} : primInitNd t dflt value keys prims n =
      (valueOf dflt value n >>= fun r => (primNodeInitNd PrimType.table t r.1.1 r.1.2 (dictOfZip keys prims)).map
        fun q => (q, r.2)) := by
  show (valueOf dflt value n >>= fun r => liftPy (primNodeInitNd PrimType.table t r.1.1 r.1.2 (dictOfZip keys prims)) r.2) = _
  congr 1
  funext r
  unfold liftPy
  cases primNodeInitNd PrimType.table t r.1.1 r.1.2 (dictOfZip keys prims) <;> rfl

end MplLayout
