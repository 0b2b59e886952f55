import Verif.Lemmas.OneStepDemand

/-!
# The values of single constraints as functions of the coordinates
-/

namespace MplLayout

open Flt Cons

section call
variable {X α : Type} {A : (X → Flt) → Prop} {f : X → α → PVal Flt} {G : Node PrimType α → Prop}

theorem residuals_famG (zs : List (Both X)) :
    ∀ (_ : ∀ z ∈ zs, HP A f G z.ty z.value.2) (pss : List (List (Node PrimType α)))
      (_ : ∀ ps ∈ pss, ∀ p ∈ ps, G p),
    ∃ r : Py (List (List (X → Flt))),
      (∀ x, residuals (zs.map Both.cons) (pss.map (List.map (Node.mapV (f x)))) (zs.map fun z => z.value.2 x)
        = r.map (List.map (List.map (· x)))) ∧ ∀ gss, r = .ok gss → ∀ gs ∈ gss, ∀ g ∈ gs, A g := by
  induction zs with
  | nil => exact fun _ pss _ => ⟨.ok [], fun x => by cases pss <;> rfl, by rintro _ ⟨⟩; simp⟩
  | cons z zs ih =>
    intro h pss hG
    cases pss with
    | nil => exact ⟨.ok [], fun x => rfl, by rintro _ ⟨⟩; simp⟩
    | cons ps pss =>
      obtain ⟨r, h1, h2⟩ := ih (fun z hz => h z (List.mem_cons_of_mem _ hz)) pss
        (fun ps hps => hG ps (List.mem_cons_of_mem _ hps))
      obtain ⟨r0, h3, h4⟩ := h z (by simp) ps (hG ps (by simp))
      simp only [List.map_cons, residuals, assemAtleast1d, Both.cons, Node.ty_mapV, h3, h1]
      cases r0 with
      | error e => exact ⟨.error e, fun x => rfl, by simp⟩
      | ok a =>
        cases r with
        | error e => exact ⟨.error e, fun x => rfl, by simp⟩
        | ok gss =>
          refine ⟨.ok (a.atleast1d :: gss), fun x => ?_, ?_⟩
          · simp only [Except.map, bind, Except.bind, evA_atleast1d, List.map_cons]
          · rintro _ ⟨⟩ gs hg
            rcases List.mem_cons.mp hg with rfl | hg
            · exact h4 a rfl
            · exact h2 gss rfl gs hg

theorem pyMap_mem {β γ : Type} {F : β → Py γ} : ∀ {xs : List β} {ys : List γ}, pyMap F xs = .ok ys →
    ∀ y ∈ ys, ∃ x ∈ xs, F x = .ok y
  | [], ys, h => by cases h; simp
  | x :: xs, ys, h => by
    simp only [pyMap] at h
    cases hx : F x with
    | error e => rw [hx] at h; cases h
    | ok y =>
      cases hxs : pyMap F xs with
      | error e => rw [hx, hxs] at h; cases h
      | ok ys' =>
        rw [hx, hxs] at h
        cases h
        intro z hz
        rcases List.mem_cons.mp hz with rfl | hz
        · exact ⟨x, by simp, hx⟩
        · obtain ⟨x', h1, h2⟩ := pyMap_mem hxs z hz
          exact ⟨x', List.mem_cons_of_mem _ h1, h2⟩

/-- Evaluating a construction with fixed parameters on a family. -/
theorem call_famG [Nonempty X] (v0 : α) (h0 : ∀ x, f x v0 = ⟨0, []⟩) {c : Cons Flt} {ps : List (Param Flt)}
    (prims : List (Node PrimType α)) (hG : ∀ p ∈ prims, ∀ path q, p.At path q → G q)
    (hfit : c.value.sig.primTypes.length = prims.length → ps.length = c.value.sig.paramTypes.length →
      c.Fits (argKeys prims.length) ps)
    (h : AllN (TameP A f G) c) :
    ∃ r : Py (List (X → Flt)), (∀ x, c.call (prims.map (·.mapV (f x))) ps = r.map (List.map (· x))) ∧
      ∀ gs, r = .ok gs → ∀ g ∈ gs, A g := by
  obtain ⟨x0⟩ := ‹Nonempty X›
  have : Nonempty X := ⟨x0⟩
  have hz : ∀ x (ps : List (Node PrimType α)) (ts : List PrimType),
      List.zipWith (fun (p : Prim Flt) t => !p.ty.sub t) (ps.map (Node.mapV (f x))) ts
        = List.zipWith (fun (p : Prim Flt) t => !p.ty.sub t) (ps.map (Node.mapV (f x0))) ts := by
    intro x ps
    induction ps with
    | nil => intro ts; simp
    | cons p ps ih => intro ts; cases ts <;> simp [ih]
  have hv : ∀ x, c.validatePrims (prims.map (Node.mapV (f x))) = c.validatePrims (prims.map (Node.mapV (f x0))) := by
    intro x
    simp only [Cons.validatePrims, List.length_map, hz x]
  obtain ⟨u, hu⟩ := primInit_fam v0 h0 (argKeys prims.length) prims
  simp only [Cons.call, List.length_map, hv, hu, validateParams]
  cases hvp : c.validatePrims (prims.map (Node.mapV (f x0))) with
  | error e => exact ⟨.error e, fun x => rfl, by simp⟩
  | ok _ =>
  by_cases hpl : ps.length = c.value.sig.paramTypes.length
  swap
  · exact ⟨.error .typeError, fun x => by simp only [bind, Except.bind, ne_eq, hpl, not_false_eq_true, if_true]; rfl, by simp⟩
  have hlen : c.value.sig.primTypes.length = prims.length := by
    simp only [Cons.validatePrims, List.length_map] at hvp
    split at hvp
    · cases hvp
    · rename_i hn; exact (not_not.mp hn).symm
  have hf := hfit hlen hpl
  obtain ⟨z, e1, e2, e3⟩ := Both.exists_mk (H := HP A f G) c (fun _ : X => ps) hf.wf (fun x => hf.aligned) (fun x => hf.params)
    (HT_const h ps)
  simp only [bind, Except.bind, ne_eq, hpl, not_true_eq_false, if_false]
  cases u with
  | error e => exact ⟨.error e, fun x => rfl, by simp⟩
  | ok _ =>
  cases c.rootPrimKeys (argKeys prims.length) with
  | error e => exact ⟨.error e, fun x => rfl, by simp⟩
  | ok keys =>
  simp only [Except.map, assemFromTree, bind, Except.bind, lookups_fam]
  cases hpss : pyMap (pyMap (Node.mk PrimType.primitiveNode v0 (dictOfZip (argKeys prims.length) prims)).getChild)
      ((keys.iterFlat []).map (·.2.value)) with
  | error e =>
    refine ⟨.error e, fun x => ?_, by simp⟩
    have := e2 x
    simp only [this]
  | ok pss =>
  obtain ⟨r, h1, h2⟩ := residuals_famG (f := f) (A := A) (G := G) ((z.iterFlat []).map (·.2)) (fun z' hz' => by
    obtain ⟨kc, hkc, rfl⟩ := List.mem_map.mp hz'
    exact AllN.iterFlat e3 [] kc hkc) pss (by
      intro qs hqs q hq
      obtain ⟨ks, _, hks⟩ := pyMap_mem hpss qs hqs
      obtain ⟨k, _, hk⟩ := pyMap_mem hks q hq
      rw [Node.getChild_ok_iff] at hk
      have hat := Node.At_of_find hk
      generalize hsp : splitAll k = path at hat
      cases hat with
      | here => exact absurd hsp (splitAll_ne_nil k)
      | down hc hm => exact hG _ (mem_dictOfZip hc) _ _ hm)
  have e4 : ∀ x, residuals ((c.iterFlat []).map (·.2)) (pss.map (List.map (Node.mapV (f x))))
      (((z.par x).iterFlat []).map (·.2.value)) = r.map (List.map (List.map (· x))) := by
    intro x
    rw [← h1 x, ← e1]
    simp only [Both.cons, Both.par, iterFlat_rmap', iterFlat_mapV', List.map_map, Function.comp_def, Node.rmap_value]
  have e5 : ∀ x, c.rootParams ps = .ok (z.par x) := e2
  refine ⟨r >>= npConcat, fun x => ?_, ?_⟩
  · simp only [e5 x, Except.map, e4]
    cases r with
    | error e => rfl
    | ok gss =>
      simp only [Except.map, npConcat, bind, Except.bind]
      cases gss <;> simp
  · intro gs hg
    cases r with
    | error e => cases hg
    | ok gss =>
      simp only [npConcat, bind, Except.bind] at hg
      split at hg
      · cases hg
      · cases hg
        intro g hg
        obtain ⟨l, hl, hg⟩ := List.mem_flatten.mp hg
        exact h2 gss rfl l hl g hg

end call

end MplLayout
