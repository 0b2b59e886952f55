import Verif.Model.Pytree
import Verif.Lemmas.LayoutSolve

/-!
# Lemmas on flattening nodes as JAX pytrees
-/

namespace MplLayout

variable {τ α β γ : Type}

theorem strLe_refl (s : Str) : strLe s s = true := by
  induction s with
  | nil => rfl
  | cons a s ih => simp [strLe, ih]

theorem strLe_total (s t : Str) : strLe s t = true ∨ strLe t s = true := by
  induction s generalizing t with
  | nil => exact .inl rfl
  | cons a s ih =>
    cases t with
    | nil => exact .inr rfl
    | cons b t =>
      by_cases h : a = b
      · subst h; simpa [strLe] using ih t
      · have h' : b ≠ a := fun e => h e.symm
        have hn : a.toNat ≠ b.toNat := fun e => h (Char.toNat_inj.mp e)
        simp only [strLe, h, h', if_false, decide_eq_true_eq]
        omega

theorem strLe_trans {s t u : Str} (h1 : strLe s t = true) (h2 : strLe t u = true) :
    strLe s u = true := by
  induction s generalizing t u with
  | nil => rfl
  | cons a s ih =>
    cases t with
    | nil => simp [strLe] at h1
    | cons b t =>
      cases u with
      | nil => simp [strLe] at h2
      | cons c u =>
        simp only [strLe] at h1 h2 ⊢
        by_cases hab : a = b
        · subst hab
          simp only [if_true] at h1
          by_cases hac : a = c
          · simp only [hac, if_true] at h2 ⊢
            exact ih h1 h2
          · simpa [hac] using h2
        · simp only [hab, if_false, decide_eq_true_eq] at h1
          by_cases hbc : b = c
          · subst hbc
            simp [hab, h1]
          · simp only [hbc, if_false, decide_eq_true_eq] at h2
            have hac : a ≠ c := by
              rintro rfl
              omega
            simp only [hac, if_false, decide_eq_true_eq]
            omega

theorem insertKey_perm (kv : Str × β) (cs : List (Str × β)) : (insertKey kv cs).Perm (kv :: cs) := by
  induction cs with
  | nil => exact .refl _
  | cons y ys ih =>
    simp only [insertKey]
    split
    · exact .refl _
    · exact (ih.cons y).trans (.swap ..)

theorem sortKeys_perm (cs : List (Str × β)) : (sortKeys cs).Perm cs := by
  induction cs with
  | nil => exact .refl _
  | cons y ys ih => exact (insertKey_perm _ _).trans (ih.cons y)

theorem insertKey_map (g : β → γ) (kv : Str × β) (cs : List (Str × β)) :
    insertKey (kv.1, g kv.2) (cs.map fun kc => (kc.1, g kc.2))
      = (insertKey kv cs).map fun kc => (kc.1, g kc.2) := by
  induction cs with
  | nil => rfl
  | cons y ys ih =>
    simp only [List.map_cons, insertKey]
    split
    · rfl
    · simp [ih]

theorem sortKeys_map (g : β → γ) (cs : List (Str × β)) :
    sortKeys (cs.map fun kc => (kc.1, g kc.2)) = (sortKeys cs).map fun kc => (kc.1, g kc.2) := by
  induction cs with
  | nil => rfl
  | cons y ys ih =>
    show insertKey (y.1, g y.2) (sortKeys (ys.map fun kc => (kc.1, g kc.2))) = _
    rw [ih, insertKey_map]
    rfl

theorem sortKeys_of_sorted {cs : List (Str × β)}
    (h : (cs.map (·.1)).Pairwise fun a b => strLe a b = true) : sortKeys cs = cs := by
  induction cs with
  | nil => rfl
  | cons y ys ih =>
    simp only [List.map_cons, List.pairwise_cons] at h
    show insertKey y (sortKeys ys) = _
    rw [ih h.2]
    cases ys with
    | nil => rfl
    | cons z zs => simp [insertKey, h.1 z.1 (by simp)]

theorem sortKeys_sorted (cs : List (Str × β)) :
    ((sortKeys cs).map (·.1)).Pairwise fun a b => strLe a b = true := by
  induction cs with
  | nil => exact .nil
  | cons y ys ih =>
    show ((insertKey y (sortKeys ys)).map (·.1)).Pairwise _
    generalize sortKeys ys = zs at ih
    induction zs with
    | nil => simp [insertKey]
    | cons z zs ihz =>
      simp only [insertKey]
      split
      · next h =>
        simp only [List.map_cons, List.pairwise_cons] at ih ⊢
        refine ⟨?_, ih⟩
        intro w hw
        rcases List.mem_cons.mp hw with rfl | hw
        · exact h
        · exact strLe_trans h (ih.1 w hw)
      · next h =>
        simp only [List.map_cons, List.pairwise_cons] at ih ⊢
        refine ⟨?_, ihz ih.2⟩
        intro w hw
        obtain ⟨p, hp, rfl⟩ := List.mem_map.mp hw
        rcases List.mem_cons.mp ((insertKey_perm _ _).mem_iff.mp hp) with rfl | hp
        · exact (strLe_total _ _).resolve_left h
        · exact ih.1 _ (List.mem_map.mpr ⟨p, hp, rfl⟩)

namespace Node

mutual
/-- Apply `f` to all values and sort all dictionaries. -/
def smap (f : α → β) : Node τ α → Node τ β
  | .mk t v cs => .mk t (f v) (sortKeys (smapL f cs))
/-- `smap` in all children. -/
def smapL (f : α → β) : List (Str × Node τ α) → List (Str × Node τ β)
  | [] => []
  | (k, c) :: cs => (k, c.smap f) :: smapL f cs
end

theorem smapL_eq (f : α → β) (cs : List (Str × Node τ α)) :
    smapL f cs = cs.map fun kc => (kc.1, kc.2.smap f) := by
  induction cs with
  | nil => rfl
  | cons y ys ih => obtain ⟨k, c⟩ := y; simp [smapL, ih]

theorem smap_mk (f : α → β) (t : τ) (v : α) (cs : List (Str × Node τ α)) :
    (mk t v cs).smap f = mk t (f v) ((sortKeys cs).map fun kc => (kc.1, kc.2.smap f)) := by
  rw [smap, smapL_eq, sortKeys_map]

theorem treedefL_eq (cs : List (Str × Node τ α)) :
    treedefL cs = cs.map fun kc => (kc.1, kc.2.treedef) := by
  induction cs with
  | nil => rfl
  | cons y ys ih => obtain ⟨k, c⟩ := y; simp [treedefL, ih]

theorem treedef_mk (t : τ) (v : α) (cs : List (Str × Node τ α)) :
    (mk t v cs).treedef = mk t () ((sortKeys cs).map fun kc => (kc.1, kc.2.treedef)) := by
  rw [treedef, treedefL_eq, sortKeys_map]

theorem jaxLeavesL_eq (cs : List (Str × Node τ α)) :
    jaxLeavesL cs = cs.map fun kc => (kc.1, kc.2.jaxLeaves) := by
  induction cs with
  | nil => rfl
  | cons y ys ih => obtain ⟨k, c⟩ := y; simp [jaxLeavesL, ih]

theorem jaxLeaves_mk (t : τ) (v : α) (cs : List (Str × Node τ α)) :
    (mk t v cs).jaxLeaves = v :: (sortKeys cs).flatMap fun kc => kc.2.jaxLeaves := by
  rw [jaxLeaves, jaxLeavesL_eq, sortKeys_map, List.flatMap_map]

theorem jaxBuild_eq (f : α → β) (n : Node τ α) (rest : List β) :
    n.treedef.jaxBuild (n.jaxLeaves.map f ++ rest) = .ok (n.smap f, rest) := by
  induction n using induct generalizing rest with
  | h t v cs ih =>
    have key : ∀ (ds : List (Str × Node τ α)), (∀ kc ∈ ds, kc ∈ cs) → ∀ rest,
        jaxBuildL (ds.map fun kc => (kc.1, kc.2.treedef))
          ((ds.flatMap fun kc => kc.2.jaxLeaves).map f ++ rest)
          = .ok (ds.map fun kc => (kc.1, kc.2.smap f), rest) := by
      intro ds
      induction ds with
      | nil => intro _ rest; simp [jaxBuildL]
      | cons y ys ihy =>
        intro hy rest
        simp only [List.map_cons, List.flatMap_cons, List.map_append, List.append_assoc, jaxBuildL]
        rw [ih y.1 y.2 (hy _ (by simp))]
        simp only [bind, Except.bind]
        rw [ihy fun kc h => hy kc (by simp [h])]
    rw [treedef_mk, jaxLeaves_mk, smap_mk]
    simp only [List.map_cons, List.cons_append, jaxBuild]
    rw [key _ fun kc h => (sortKeys_perm cs).mem_iff.mp h]
    rfl

theorem jaxMap_eq (f : α → β) (n : Node τ α) : n.jaxMap f = .ok (n.smap f) := by
  have := jaxBuild_eq f n []
  rw [List.append_nil] at this
  simp [jaxMap, jaxUnflatten, this, bind, Except.bind]

theorem smap_At (f : α → β) {n : Node τ α} {p : List Str} {m' : Node τ β} :
    (n.smap f).At p m' ↔ ∃ m, n.At p m ∧ m' = m.smap f := by
  induction p generalizing n with
  | nil =>
    constructor
    · intro h; cases h; exact ⟨n, .here _, rfl⟩
    · rintro ⟨m, h, rfl⟩; cases h; exact .here _
  | cons k p ih =>
    cases n with
    | mk t v cs =>
      constructor
      · intro h
        rw [smap_mk] at h
        cases h with
        | down hc hm =>
          obtain ⟨kc, hkc, e⟩ := List.mem_map.mp hc
          cases e
          obtain ⟨m, hm', rfl⟩ := ih.mp hm
          exact ⟨m, .down (n := mk t v cs) ((sortKeys_perm cs).mem_iff.mp hkc) hm', rfl⟩
      · rintro ⟨m, h, rfl⟩
        cases h with
        | @down _ c _ _ _ hc hm =>
          rw [smap_mk]
          exact .down (c := c.smap f)
            (List.mem_map.mpr ⟨(k, c), (sortKeys_perm cs).mem_iff.mpr hc, rfl⟩)
            (ih.mpr ⟨m, hm, rfl⟩)

theorem smap_ty (f : α → β) (n : Node τ α) : (n.smap f).ty = n.ty := by cases n; rfl
theorem smap_value (f : α → β) (n : Node τ α) : (n.smap f).value = f n.value := by cases n; rfl
theorem smap_keys (f : α → β) (n : Node τ α) : (n.smap f).keys.Perm n.keys := by
  cases n with
  | mk t v cs =>
    rw [smap_mk, keys_mk, List.map_map]
    exact (sortKeys_perm cs).map _

theorem smap_WF (f : α → β) {n : Node τ α} (h : n.WF) : (n.smap f).WF := by
  intro p m hm
  obtain ⟨m0, h0, rfl⟩ := (smap_At f).mp hm
  exact (smap_keys f m0).nodup_iff.mpr (h p m0 h0)

theorem jaxLeaves_smap (f : α → β) (n : Node τ α) : (n.smap f).jaxLeaves = n.jaxLeaves.map f := by
  induction n using induct with
  | h t v cs ih =>
    have hs : sortKeys ((sortKeys cs).map fun kc => (kc.1, kc.2.smap f))
        = (sortKeys cs).map fun kc => (kc.1, kc.2.smap f) := by
      apply sortKeys_of_sorted
      rw [List.map_map]
      exact sortKeys_sorted cs
    rw [smap_mk, jaxLeaves_mk, jaxLeaves_mk, hs, List.flatMap_map, List.map_cons, List.map_flatMap]
    congr 1
    apply List.flatMap_congr
    intro kc hkc
    exact ih kc.1 kc.2 ((sortKeys_perm cs).mem_iff.mp hkc)

theorem smap_smap (f : α → β) (g : β → γ) (n : Node τ α) :
    (n.smap f).smap g = n.smap (g ∘ f) := by
  induction n using induct with
  | h t v cs ih =>
    have hs : sortKeys ((sortKeys cs).map fun kc => (kc.1, kc.2.smap f))
        = (sortKeys cs).map fun kc => (kc.1, kc.2.smap f) := by
      apply sortKeys_of_sorted
      rw [List.map_map]
      exact sortKeys_sorted cs
    rw [smap_mk, smap_mk, smap_mk, hs, List.map_map]
    congr 1
    apply List.map_congr_left
    intro kc hkc
    simp only [Function.comp]
    rw [ih kc.1 kc.2 ((sortKeys_perm cs).mem_iff.mp hkc)]

theorem jaxLeaves_perm (n : Node τ α) (key : Str) :
    n.jaxLeaves.Perm ((n.iterFlat key).map (·.2.value)) := by
  induction n using induct generalizing key with
  | h t v cs ih =>
    rw [jaxLeaves_mk, iterFlat, iterFlatL_eq, List.map_cons, List.map_flatMap]
    refine .cons v ?_
    refine ((sortKeys_perm cs).flatMap_right _).trans ?_
    clear * - ih
    induction cs with
    | nil => exact .refl _
    | cons y ys ihy =>
      rw [List.flatMap_cons, List.flatMap_cons]
      exact (ih y.1 y.2 (by simp) _).append (ihy fun k c h => ih k c (by simp [h]))

theorem smap_id_of_sorted {n : Node τ α}
    (h : ∀ p m, n.At p m → m.keys.Pairwise fun a b => strLe a b = true) : n.smap id = n := by
  induction n using induct with
  | h t v cs ih =>
    have hs : sortKeys cs = cs := sortKeys_of_sorted (h [] _ (.here _))
    rw [smap_mk, hs]
    congr 1
    conv_rhs => rw [← List.map_id cs]
    apply List.map_congr_left
    intro kc hkc
    rw [ih kc.1 kc.2 hkc fun p m hm => h (kc.1 :: p) m (.down (n := mk t v cs) hkc hm)]
    rfl

/-- The number of leaves that a `treedef` takes. -/
theorem jaxBuild_count (d : Node τ Unit) (vs : List α) :
    (∀ r, d.jaxBuild vs = .ok r → vs.length = (d.iterFlat []).length + r.2.length) ∧
    ((d.iterFlat []).length ≤ vs.length → ∃ r, d.jaxBuild vs = .ok r) ∧
    ∀ e, d.jaxBuild vs = .error e → e = .valueError := by
  induction d using induct generalizing vs with
  | h t v cs ih =>
    have key : ∀ (ds : List (Str × Node τ Unit)), (∀ kc ∈ ds, kc ∈ cs) → ∀ vs : List α,
        (∀ r, jaxBuildL ds vs = .ok r →
          vs.length = (ds.flatMap fun kc => kc.2.iterFlat []).length + r.2.length) ∧
        ((ds.flatMap fun kc => kc.2.iterFlat []).length ≤ vs.length →
          ∃ r, jaxBuildL ds vs = .ok r) ∧
        ∀ e, jaxBuildL ds vs = .error e → e = .valueError := by
      intro ds
      induction ds with
      | nil => intro _ vs; simp [jaxBuildL]
      | cons y ys ihy =>
        intro hy vs
        obtain ⟨k, c⟩ := y
        obtain ⟨h1, h2, h3⟩ := ih k c (hy _ (by simp)) vs
        have ihy' := ihy fun kc h => hy kc (by simp [h])
        simp only [List.flatMap_cons, List.length_append, jaxBuildL]
        cases hb : c.jaxBuild vs with
        | error e =>
          refine ⟨fun r hr => ?_, fun hl => ?_, fun e' he => ?_⟩
          · simp [bind, Except.bind] at hr
          · obtain ⟨r, hr⟩ := h2 (by omega)
            rw [hb] at hr; cases hr
          · simp only [bind, Except.bind, Except.error.injEq] at he
            exact he ▸ h3 e hb
        | ok r =>
          obtain ⟨n, rest⟩ := r
          have e1 := h1 _ hb
          obtain ⟨g1, g2, g3⟩ := ihy' rest
          simp only [bind, Except.bind]
          simp only at e1
          cases hb' : jaxBuildL ys rest with
          | error e =>
            refine ⟨fun r (hr : Except.error e = _) => (nomatch hr), fun hl => ?_, fun e' he => ?_⟩
            · obtain ⟨r, hr⟩ := g2 (by omega)
              rw [hb'] at hr; cases hr
            · simp only [Except.error.injEq] at he
              exact he ▸ g3 e hb'
          | ok r =>
            have e2 := g1 _ hb'
            refine ⟨fun r' hr => ?_, fun _ => ⟨_, rfl⟩, fun e' he => nomatch he⟩
            cases hr
            simp only
            omega
    have hlen : ((mk t v cs).iterFlat []).length
        = 1 + (cs.flatMap fun kc => kc.2.iterFlat []).length := by
      rw [iterFlat, iterFlatL_eq, List.length_cons, Nat.add_comm]
      congr 1
      rw [List.length_flatMap, List.length_flatMap]
      congr 1
      apply List.map_congr_left
      intro kc _
      have := congrArg List.length (iterFlat_key_irrel kc.2 ([] ++ '/' :: kc.1) [])
      simpa using this
    rw [hlen]
    cases vs with
    | nil => simp [jaxBuild]
    | cons w ws =>
      obtain ⟨h1, h2, h3⟩ := key cs (fun _ h => h) ws
      simp only [jaxBuild, List.length_cons]
      cases hb : jaxBuildL cs ws with
      | error e =>
        refine ⟨fun r (hr : Except.error e = _) => (nomatch hr), fun hl => ?_, fun e' he => ?_⟩
        · obtain ⟨r, hr⟩ := h2 (by omega)
          rw [hb] at hr; cases hr
        · simp only [bind, Except.bind, Except.error.injEq] at he
          exact he ▸ h3 e hb
      | ok r =>
        have e1 := h1 _ hb
        refine ⟨fun r' hr => ?_, fun _ => ⟨_, rfl⟩, fun e' he => nomatch he⟩
        cases hr
        simp only
        omega

end Node

end MplLayout
