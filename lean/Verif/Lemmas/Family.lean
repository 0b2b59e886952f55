import Verif.Lemmas.Affine
import Verif.Lemmas.LayoutSolve
import Verif.Lemmas.ShiftSolve

/-!
# Families of layouts

The same calls with primitives and parameters that depend on `x`.  The trees of the layouts differ
only in their values, and the residuals are related as the outputs of single nodes are.
-/

namespace MplLayout

open Flt Cons

section family
variable {X α : Type}

/-- A property of a node and of the parameters that it is given, for all `x`. -/
abbrev FamPred (X : Type) := ConsClass Flt → (X → List (Param Flt)) → Prop

/-- The node's outputs for all primitives, with parameters `ps x`, are in the class. -/
def HP (A : (X → Flt) → Prop) (f : X → α → PVal Flt) (G : Node PrimType α → Prop) : FamPred X :=
  fun cls ps => ∀ prims : List (Node PrimType α), (∀ p ∈ prims, G p) →
    Tame A (fun x => cls.assem (prims.map (·.mapV (f x))) (ps x))

mutual
/-- The property holds at all nodes, which get their parameters as the code distributes them. -/
def HT (H : FamPred X) : Cons Flt → (X → List (Param Flt)) → Prop
  | .mk cls v cs, ps => H cls ps ∧ ((∃ e, ∀ x, v.childParams (ps x) = .error e) ∨
      ∃ pss : List (X → List (Param Flt)), (∀ x, v.childParams (ps x) = .ok (pss.map (· x))) ∧ HTL H cs pss)
/-- `HT` for a list of children. -/
def HTL (H : FamPred X) : List (Str × Cons Flt) → List (X → List (Param Flt)) → Prop
  | (_, c) :: cs, ps :: pss => HT H c ps ∧ HTL H cs pss
  | _, _ => True
end

theorem HTL_iff {H : FamPred X} {cs : List (Str × Cons Flt)} {pss : List (X → List (Param Flt))} :
    HTL H cs pss ↔ ∀ (i : Nat) (kc : Str × Cons Flt) (ps : X → List (Param Flt)),
      cs[i]? = some kc → pss[i]? = some ps → HT H kc.2 ps := by
  induction cs generalizing pss with
  | nil => simp [HTL]
  | cons kc cs ih =>
    obtain ⟨k, c⟩ := kc
    cases pss with
    | nil => simp [HTL]
    | cons ps pss =>
      simp only [HTL, ih]
      constructor
      · rintro ⟨h1, h2⟩ i kc qs e1 e2
        cases i with
        | zero => simp only [List.getElem?_cons_zero, Option.some.injEq] at e1 e2; subst e1; subst e2; exact h1
        | succ i => exact h2 i kc qs e1 e2
      · intro h
        exact ⟨h 0 (k, c) ps rfl rfl, fun i kc qs e1 e2 => h (i + 1) kc qs e1 e2⟩

mutual
theorem HT.mono {H H' : FamPred X} (h : ∀ cls ps, H cls ps → H' cls ps) :
    ∀ {c : Cons Flt} {ps : X → List (Param Flt)}, HT H c ps → HT H' c ps
  | .mk cls v cs, ps, hc => by
    simp only [HT] at hc ⊢
    refine ⟨h _ _ hc.1, hc.2.imp (fun h => h) ?_⟩
    rintro ⟨pss, h1, h2⟩
    exact ⟨pss, h1, HTL.mono h h2⟩
theorem HTL.mono {H H' : FamPred X} (h : ∀ cls ps, H cls ps → H' cls ps) :
    ∀ {cs : List (Str × Cons Flt)} {pss : List (X → List (Param Flt))}, HTL H cs pss → HTL H' cs pss
  | (_, c) :: cs, ps :: pss, hc => by
    simp only [HTL] at hc ⊢
    exact ⟨HT.mono h hc.1, HTL.mono h hc.2⟩
  | [], _, _ => by simp [HTL]
  | _ :: _, [], _ => by simp [HTL]
end

theorem Tame.mono {A B : (X → Flt) → Prop} (h : ∀ g, A g → B g) {F : X → Py (Arr Flt)} (hF : Tame A F) :
    Tame B F := by
  obtain ⟨r, h1, h2⟩ := hF
  exact ⟨r, h1, fun a e g hg => h g (h2 a e g hg)⟩

theorem HP.mono {A B : (X → Flt) → Prop} (h : ∀ g, A g → B g) {f : X → α → PVal Flt}
    {G : Node PrimType α → Prop} {cls : ConsClass Flt} {ps : X → List (Param Flt)} (hp : HP A f G cls ps) :
    HP B f G cls ps := fun prims hG => (hp prims hG).mono h

/-- The combined tree of a constraint and its parameters. -/
abbrev Both (X : Type) := Node (ConsClass Flt) (ConsVal Flt × (X → List (Param Flt)))

/-- The constraint. -/
abbrev Both.cons (z : Both X) : Cons Flt := z.mapV Prod.fst
/-- The parameters at `x`. -/
abbrev Both.par (z : Both X) (x : X) : ParamsNode Flt := z.rmap () fun v => v.2 x

/-- The property holds at all nodes of the combined tree. -/
abbrev Both.All (H : FamPred X) (z : Both X) : Prop := AllN (fun t v => H t v.2) z

theorem Node.rmap_mk' {τ σ β γ : Type} (b : σ) (f : β → γ) (t : τ) (v : β) (cs : List (Str × Node τ β)) :
    (Node.mk t v cs).rmap b f = .mk b (f v) (cs.map fun kc => (kc.1, kc.2.rmap b f)) := by
  rw [Node.rmap, Node.rmapL_eq]

theorem Both.exists_mk [Nonempty X] {H : FamPred X} (c : Cons Flt) : ∀ (ps : X → List (Param Flt)), c.WF →
    (∀ x, c.Aligned (ps x)) → (∀ x, ∃ t, c.rootParams (ps x) = .ok t) → HT H c ps →
    ∃ z : Both X, z.cons = c ∧ (∀ x, c.rootParams (ps x) = .ok (z.par x)) ∧ z.All H := by
  induction c using Node.induct with
  | _ cls v cs ih =>
    intro ps hw ha hr h
    simp only [HT] at h
    obtain ⟨h1, h2⟩ := h
    obtain ⟨x0⟩ := ‹Nonempty X›
    rcases h2 with ⟨e, he⟩ | ⟨pss, h2, h3⟩
    · obtain ⟨t, ht⟩ := hr x0
      simp [rootParams, he, bind, Except.bind] at ht
    have hn : (cs.map (·.1)).Nodup := WF_nodup hw
    have hlen : cs.length ≤ pss.length := by
      have := ((ha x0).2 _ (h2 x0)).1
      simpa using this
    suffices ∃ zs : List (Str × Both X), (zs.map fun kz => (kz.1, Both.cons kz.2)) = cs ∧
        (∀ x, rootParamsL cs (pss.map (· x)) = .ok (zs.map fun kz => (kz.1, kz.2.par x))) ∧
        ∀ kz ∈ zs, kz.2.All H by
      obtain ⟨zs, e1, e2, e3⟩ := this
      refine ⟨.mk cls (v, ps) zs, ?_, fun x => ?_, ?_⟩
      · rw [Both.cons, Node.mapV_mk, e1]
      · rw [rootParams_ok hn]
        exact ⟨_, _, h2 x, e2 x, Node.rmap_mk' _ _ _ _ _⟩
      · rw [Both.All, AllN_mk]
        exact ⟨h1, fun k c hc => e3 (k, c) hc⟩
    have hal : ∀ x, AlignedL cs (pss.map (· x)) := fun x => ((ha x).2 _ (h2 x)).2
    have hch : ∀ k c, (k, c) ∈ cs → Node.WF c := fun k c hc => hw.child hc
    have hrl : ∀ x, ∃ ts, rootParamsL cs (pss.map (· x)) = .ok ts := fun x => by
      obtain ⟨t, ht⟩ := hr x
      rw [rootParams_ok hn] at ht
      obtain ⟨qss, ns, e1, e2, _⟩ := ht
      rw [h2 x] at e1
      cases e1
      exact ⟨ns, e2⟩
    clear h1 h2 hw ha hr hn
    induction cs generalizing pss with
    | nil => exact ⟨[], rfl, fun x => by cases pss <;> rfl, by simp⟩
    | cons kc cs ihc =>
      obtain ⟨k, c⟩ := kc
      cases pss with
      | nil => simp at hlen
      | cons qs pss =>
        simp only [HTL] at h3
        simp only [List.map_cons, AlignedL] at hal
        have hr1 : ∀ x, ∃ t, rootParams c (qs x) = .ok t := fun x => by
          obtain ⟨ts, h⟩ := hrl x
          simp only [List.map_cons, rootParamsL, py_bind_ok] at h
          obtain ⟨t, ht, _⟩ := h
          exact ⟨t, ht⟩
        have hr2 : ∀ x, ∃ t, rootParamsL cs (pss.map (· x)) = .ok t := fun x => by
          obtain ⟨ts, h⟩ := hrl x
          simp only [List.map_cons, rootParamsL, py_bind_ok] at h
          obtain ⟨_, _, t, ht, _⟩ := h
          exact ⟨t, ht⟩
        obtain ⟨z, e1, e2, e3⟩ := ih k c (by simp) qs (hch k c (by simp)) (fun x => (hal x).1) hr1 h3.1
        obtain ⟨zs, f1, f2, f3⟩ := ihc (fun k c h => ih k c (List.mem_cons_of_mem _ h)) pss h3.2
          (by simpa using hlen) (fun x => (hal x).2) (fun k c h => hch k c (List.mem_cons_of_mem _ h)) hr2
        refine ⟨(k, z) :: zs, by simp only [List.map_cons, e1, f1], fun x => ?_, ?_⟩
        · simp only [List.map_cons, rootParamsL, e2 x, f2 x]; rfl
        · rintro kz hk
          rcases List.mem_cons.mp hk with rfl | hk
          · exact e3
          · exact f3 kz hk

/-! ## Families of layouts -/

/-- The layout with the given trees, at `x`. -/
def famL (f : X → α → PVal Flt) (P : Node PrimType α) (Z : Both X) (keys : KeysNode) (ctr : ItemCounter)
    (x : X) : Layout Flt := ⟨P.mapV (f x), Z.cons, keys, Z.par x, ctr⟩

/-- The layouts differ only in their values, and all nodes have the property. -/
structure Fam (f : X → α → PVal Flt) (H : FamPred X) (P : Node PrimType α) (Z : Both X) (keys : KeysNode) : Prop where
  wf : Z.WF
  skel : Node.skel Z = keys.skel
  all : Z.All H

/-- The same call for all `x`. -/
inductive OpFam (f : X → α → PVal Flt) (H : FamPred X) : (X → LayoutOp Flt) → Prop
  | prim (p : Node PrimType α) (key : Str) : OpFam f H (fun x => .addPrim (p.mapV (f x)) key)
  | prims (ps : List (Str × Node PrimType α)) :
      OpFam f H (fun x => .addPrims (ps.map fun kp => (kp.1, kp.2.mapV (f x))))
  | cons (c : Cons Flt) (ks : List Str) (ps : X → List (Param Flt)) (key : Str)
      (hn : '/' ∉ c.ty.name) (hl : ∀ x y, (ps x).length = (ps y).length)
      (hfit : ks.length = c.value.sig.primTypes.length →
        (∀ x, (ps x).length = c.value.sig.paramTypes.length) → ∀ x, c.Fits ks (ps x))
      (h : (∀ x, (ps x).length = c.value.sig.paramTypes.length) → HT H c ps) :
      OpFam f H (fun x => .addConstraint c ks (ps x) key)

theorem addPrim_fam (f : X → α → PVal Flt) (P p : Node PrimType α) (Z : Both X) (keys : KeysNode)
    (ctr : ItemCounter) (key : Str) : ∃ P' r, ∀ x,
    (famL f P Z keys ctr x).addPrim (p.mapV (f x)) key = (famL f P' Z keys ctr x, r) := by
  simp only [Layout.addPrim, famL, Node.addChild_mapV]
  cases P.addChild key p with
  | error e => exact ⟨P, .error e, fun x => rfl⟩
  | ok P' => exact ⟨P', .ok (), fun x => rfl⟩

theorem addPrims_fam (f : X → α → PVal Flt) (ps : List (Str × Node PrimType α)) :
    ∀ (P : Node PrimType α) (Z : Both X) (keys : KeysNode) (ctr : ItemCounter), ∃ P' r, ∀ x,
    (famL f P Z keys ctr x).addPrims (ps.map fun kp => (kp.1, kp.2.mapV (f x))) = (famL f P' Z keys ctr x, r) := by
  induction ps with
  | nil => exact fun P Z keys ctr => ⟨P, .ok (), fun x => rfl⟩
  | cons kp ps ih =>
    intro P Z keys ctr
    obtain ⟨key, p⟩ := kp
    obtain ⟨P', r, h⟩ := addPrim_fam f P p Z keys ctr key
    simp only [List.map_cons, Layout.addPrims, h]
    cases r with
    | error e => exact ⟨P', .error e, fun x => rfl⟩
    | ok u => exact ih P' Z keys ctr

theorem containsPath_rmap {τ σ β γ : Type} (b : σ) (f : β → γ) (p : List Str) (n : Node τ β) :
    (n.rmap b f).containsPath p = n.containsPath p := by
  induction p generalizing n with
  | nil => rfl
  | cons k ks ih =>
    simp only [Node.containsPath, Node.children_rmap, dictGet_mapVal]
    split
    · congr 1
      simp only [dictHas, dictGet_mapVal]
      cases dictGet n.children k <;> rfl
    · cases dictGet n.children k with
      | none => rfl
      | some c => exact ih c

theorem check_fam (f : X → α → PVal Flt) (P : Node PrimType α) (Z : Both X) (keys : KeysNode)
    (ctr : ItemCounter) (c : Cons Flt) (ks : List Str) (ps : X → List (Param Flt))
    (hl : ∀ x y, (ps x).length = (ps y).length) (x y : X) :
    (famL f P Z keys ctr x).check c ks (ps x) = (famL f P Z keys ctr y).check c ks (ps y) := by
  have hlk : ∀ x, lookupPrims (P.mapV (f x)) ks = (pyMap P.getChild ks).map (List.map (Node.mapV (f x))) := by
    intro x
    clear hl
    induction ks with
    | nil => rfl
    | cons k ks ih =>
      simp only [lookupPrims, pyMap] at ih ⊢
      rw [ih, Node.getChild_mapV]
      cases P.getChild k with
      | error e => rfl
      | ok y => cases pyMap P.getChild ks <;> rfl
  have hz : ∀ (prims : List (Node PrimType α)) (ts : List PrimType),
      List.zipWith (fun (p : Prim Flt) t => !p.ty.sub t) (prims.map (Node.mapV (f x))) ts
        = List.zipWith (fun (p : Prim Flt) t => !p.ty.sub t) (prims.map (Node.mapV (f y))) ts := by
    intro prims
    induction prims with
    | nil => intro ts; simp
    | cons p prims ih => intro ts; cases ts <;> simp [ih]
  simp only [Layout.check, famL, hlk]
  cases pyMap P.getChild ks with
  | error e => simp only [Except.map, bind, Except.bind, validateParams, hl x y]
  | ok prims =>
    have hv : c.validatePrims (prims.map (Node.mapV (f x))) = c.validatePrims (prims.map (Node.mapV (f y))) := by
      simp only [Cons.validatePrims, List.length_map, hz]
    simp only [Except.map, bind, Except.bind, hv, validateParams, hl x y]

variable [Nonempty X]

theorem store_fam {f : X → α → PVal Flt} {H : FamPred X} {P : Node PrimType α} {Z : Both X} {keys : KeysNode}
    (hF : Fam f H P Z keys) (ctr : ItemCounter) {c : Cons Flt} {ks : List Str} {ps : X → List (Param Flt)}
    (hfit : ∀ x, c.Fits ks (ps x)) (h : HT H c ps) (key : Str) : ∃ Z' keys' r, Fam f H P Z' keys' ∧
      ∀ x, (famL f P Z keys ctr x).store c ks (ps x) key = (famL f P Z' keys' ctr x, r) := by
  obtain ⟨x0⟩ := ‹Nonempty X›
  haveI : Nonempty X := ⟨x0⟩
  obtain ⟨z, e1, e2, e3⟩ := Both.exists_mk c ps (hfit x0).wf (fun x => (hfit x).aligned) (fun x => (hfit x).params) h
  obtain ⟨kt, hk⟩ := (hfit x0).keys
  have hc : Z.cons.addChild key c = (Z.addChild key z).map Both.cons := by
    conv_lhs => rw [← e1]
    exact Node.addChild_mapV _ _ _ _
  have hp : ∀ x, (Z.par x).addChild key (z.par x) = (Z.addChild key z).map (Both.par · x) := fun x =>
    Node.addChild_rmap _ _ _ _ _
  have hzk : Node.skel z = kt.skel := by
    have := (arg_skel c (hfit x0).wf ks (ps x0) (hfit x0).aligned kt _ hk (e2 x0)).1
    rw [← this]
    have he : Node.skel (Both.cons z) = Node.skel z := by
      clear * -
      induction z using Node.induct with
      | _ t v cs ih =>
        simp only [Both.cons, Node.skel, Node.mapV_mk, Node.rmap_mk', List.map_map, Node.mk.injEq, true_and]
        refine List.map_congr_left fun kc hk => ?_
        simp only [Function.comp_def, Prod.mk.injEq, true_and]
        exact ih kc.1 kc.2 hk
    rw [← he, e1]
  have hzw : z.WF := by
    have := (hfit x0).wf
    rw [← e1] at this
    intro p m hm
    have h' := this p _ ((At_mapV Prod.fst).mpr ⟨m, hm, rfl⟩)
    rwa [Node.keys_mapV] at h'
  cases hz : Z.addChild key z with
  | error e =>
    refine ⟨Z, keys, .error e, hF, fun x => ?_⟩
    simp only [Layout.store, famL]
    rw [hc, hz]; rfl
  | ok Z' =>
    obtain ⟨keys', hk', hs⟩ := Node.addChild_skel hF.skel hzk hz
    refine ⟨Z', keys', .ok (), ⟨Node.addChild_WF hz hF.wf hzw, hs, AllN.addChild hz hF.wf hzw hF.all e3⟩, fun x => ?_⟩
    simp only [Layout.store, famL]
    rw [hc, hz]
    simp only [Except.map, Layout.storeKeys, hk, bind, Except.bind, hk', Layout.storeParams, e2 x, hp x, hz]

/-- One call on a family of layouts. -/
theorem step_fam {f : X → α → PVal Flt} {H : FamPred X} {P : Node PrimType α} {Z : Both X} {keys : KeysNode}
    (hF : Fam f H P Z keys) (ctr : ItemCounter) {o : X → LayoutOp Flt} (ho : OpFam f H o) :
    ∃ P' Z' keys' ctr' r, Fam f H P' Z' keys' ∧
      ∀ x, (famL f P Z keys ctr x).step (o x) = (famL f P' Z' keys' ctr' x, r) := by
  cases ho with
  | prim p key =>
    obtain ⟨P', r, h⟩ := addPrim_fam f P p Z keys ctr key
    exact ⟨P', Z, keys, ctr, r, ⟨hF.wf, hF.skel, hF.all⟩, h⟩
  | prims ps =>
    obtain ⟨P', r, h⟩ := addPrims_fam f ps P Z keys ctr
    exact ⟨P', Z, keys, ctr, r, ⟨hF.wf, hF.skel, hF.all⟩, h⟩
  | cons c ks ps key hn hl hfit h =>
    obtain ⟨x0⟩ := ‹Nonempty X›
    haveI : Nonempty X := ⟨x0⟩
    have hcs : ∀ ctr key, ∃ Z' keys' r, Fam f H P Z' keys' ∧
        ∀ x, (famL f P Z keys ctr x).checkAndStore c ks (ps x) key = (famL f P Z' keys' ctr x, r) := by
      intro ctr key
      have hck := fun x => check_fam f P Z keys ctr c ks ps hl x x0
      cases h0 : (famL f P Z keys ctr x0).check c ks (ps x0) with
      | error e =>
        refine ⟨Z, keys, .error e, hF, fun x => ?_⟩
        simp only [Layout.checkAndStore, hck x, h0]
      | ok u =>
        obtain ⟨e1, e2⟩ := Layout.accepts_lengths h0
        have e3 : ∀ x, (ps x).length = c.value.sig.paramTypes.length := fun x => (hl x x0).trans e2
        obtain ⟨Z', keys', r, g1, g2⟩ := store_fam hF ctr (hfit e1 e3) (h e3) key
        refine ⟨Z', keys', r, g1, fun x => ?_⟩
        simp only [Layout.checkAndStore, hck x, h0]
        exact g2 x
    by_cases hk : key = []
    · have hau : ∀ x, (famL f P Z keys ctr x).autoKey c = (famL f P Z keys ctr x0).autoKey c := by
        intro x
        have e1 : Node.contains (famL f P Z keys ctr x).params = Node.contains (famL f P Z keys ctr x0).params := by
          funext k
          simp only [famL, Node.contains, containsPath_rmap]
        have e2 : (famL f P Z keys ctr x).counterFuel = (famL f P Z keys ctr x0).counterFuel := by
          simp only [Layout.counterFuel, famL, Node.len, Node.children_rmap, List.length_map]
        simp only [Layout.autoKey, e1, e2]
        rfl
      rcases hr : (famL f P Z keys ctr x0).autoKey c with ⟨ctr', r⟩
      cases r with
      | error e =>
        refine ⟨P, Z, keys, ctr', .error e, hF, fun x => ?_⟩
        simp only [Layout.step, Layout.addConstraint, hk, if_true, hau x, hr]
        rfl
      | ok key' =>
        obtain ⟨Z', keys', r, g1, g2⟩ := hcs ctr' key'
        refine ⟨P, Z', keys', ctr', r, g1, fun x => ?_⟩
        simp only [Layout.step, Layout.addConstraint, hk, if_true, hau x, hr]
        exact g2 x
    · obtain ⟨Z', keys', r, g1, g2⟩ := hcs ctr key
      refine ⟨P, Z', keys', ctr, r, g1, fun x => ?_⟩
      simp only [Layout.step, Layout.addConstraint, hk, if_false]
      exact g2 x

/-- Histories on a family of layouts. -/
theorem run_fam {f : X → α → PVal Flt} {H : FamPred X} {os : List (X → LayoutOp Flt)} (ho : ∀ o ∈ os, OpFam f H o) :
    ∀ {P : Node PrimType α} {Z : Both X} {keys : KeysNode} (_ : Fam f H P Z keys) (ctr : ItemCounter),
    ∃ P' Z' keys' ctr', Fam f H P' Z' keys' ∧
      ∀ x, (famL f P Z keys ctr x).run (os.map (· x)) = famL f P' Z' keys' ctr' x := by
  induction os with
  | nil => intro P Z keys hF ctr; exact ⟨P, Z, keys, ctr, hF, fun x => rfl⟩
  | cons o os ih =>
    intro P Z keys hF ctr
    obtain ⟨P', Z', keys', ctr', r, h1, h2⟩ := step_fam hF ctr (ho o (by simp))
    obtain ⟨P2, Z2, keys2, ctr2, h3, h4⟩ := ih (fun o h => ho o (List.mem_cons_of_mem _ h)) h1 ctr'
    refine ⟨P2, Z2, keys2, ctr2, h3, fun x => ?_⟩
    have := h4 x
    simp only [Layout.run, List.map_cons, List.foldl_cons, h2 x] at this ⊢
    exact this

theorem lookup_fam (f : X → α → PVal Flt) (R : Node PrimType α) (x : X) (ks : List Str) :
    lookupPrims (R.mapV (f x)) ks = (pyMap R.getChild ks).map (List.map (Node.mapV (f x))) := by
  induction ks with
  | nil => rfl
  | cons k ks ih =>
    simp only [lookupPrims, pyMap] at ih ⊢
    rw [ih, Node.getChild_mapV]
    cases R.getChild k with
    | error e => rfl
    | ok y => cases pyMap R.getChild ks <;> rfl

theorem lookups_fam (f : X → α → PVal Flt) (R : Node PrimType α) (x : X) (kss : List (List Str)) :
    pyMap (lookupPrims (R.mapV (f x))) kss
      = (pyMap (pyMap R.getChild) kss).map (List.map (List.map (Node.mapV (f x)))) := by
  induction kss with
  | nil => rfl
  | cons ks kss ih =>
    simp only [pyMap]
    rw [ih, lookup_fam]
    cases pyMap R.getChild ks with
    | error e => rfl
    | ok y => cases pyMap (pyMap R.getChild) kss <;> rfl

theorem residuals_fam {f : X → α → PVal Flt} {A : (X → Flt) → Prop} (zs : List (Both X)) :
    ∀ (_ : ∀ z ∈ zs, HP A f (fun _ => True) z.ty z.value.2) (pss : List (List (Node PrimType α))),
    ∃ r : Py (List (List (X → Flt))),
      (∀ x, residuals (zs.map Both.cons) (pss.map (List.map (Node.mapV (f x)))) (zs.map fun z => z.value.2 x)
        = r.map (List.map (List.map (· x)))) ∧ ∀ gss, r = .ok gss → ∀ gs ∈ gss, ∀ g ∈ gs, A g := by
  induction zs with
  | nil => exact fun _ pss => ⟨.ok [], fun x => by cases pss <;> rfl, by rintro _ ⟨⟩; simp⟩
  | cons z zs ih =>
    intro h pss
    cases pss with
    | nil => exact ⟨.ok [], fun x => rfl, by rintro _ ⟨⟩; simp⟩
    | cons ps pss =>
      obtain ⟨r, h1, h2⟩ := ih (fun z hz => h z (List.mem_cons_of_mem _ hz)) pss
      obtain ⟨r0, h3, h4⟩ := h z (by simp) ps (by simp)
      simp only [List.map_cons, residuals, assemAtleast1d, Both.cons, Node.ty_mapV, h3, h1]
      cases r0 with
      | error e => exact ⟨.error e, fun x => rfl, by simp⟩
      | ok a =>
        cases r with
        | error e => exact ⟨.error e, fun x => rfl, by simp⟩
        | ok gss =>
          refine ⟨.ok (a.atleast1d :: gss), fun x => ?_, ?_⟩
          · simp only [Except.map, bind, Except.bind, evA_atleast1d, List.map_cons]
          · rintro _ ⟨⟩ gs hg
            rcases List.mem_cons.mp hg with rfl | hg
            · exact h4 a rfl
            · exact h2 gss rfl gs hg

theorem iterFlat_rmap' {τ σ β γ : Type} (b : σ) (f : β → γ) (n : Node τ β) (key : Str) :
    (n.rmap b f).iterFlat key = (n.iterFlat key).map fun kc => (kc.1, kc.2.rmap b f) := by
  induction n using Node.induct generalizing key with
  | _ t v cs ih =>
    rw [Node.rmap_mk', Node.iterFlat, Node.iterFlat, Node.iterFlatL_eq, Node.iterFlatL_eq, List.map_cons,
      Node.rmap_mk', List.flatMap_map, List.map_flatMap]
    congr 1
    exact List.flatMap_congr fun kc hk => ih kc.1 kc.2 hk _

theorem iterFlat_mapV' {τ β γ : Type} (f : β → γ) (n : Node τ β) (key : Str) :
    (n.mapV f).iterFlat key = (n.iterFlat key).map fun kc => (kc.1, kc.2.mapV f) := by
  induction n using Node.induct generalizing key with
  | _ t v cs ih =>
    rw [Node.mapV_mk, Node.iterFlat, Node.iterFlat, Node.iterFlatL_eq, Node.iterFlatL_eq, List.map_cons,
      Node.mapV_mk, List.flatMap_map, List.map_flatMap]
    congr 1
    exact List.flatMap_congr fun kc hk => ih kc.1 kc.2 hk _

/-- The residuals of a family of layouts. -/
theorem residual_fam {f : X → α → PVal Flt} {A : (X → Flt) → Prop} {P : Node PrimType α} {Z : Both X} {keys : KeysNode}
    (hF : Fam f (HP A f fun _ => True) P Z keys) (ctr : ItemCounter) (R : Node PrimType α) :
    ∃ r : Py (List (X → Flt)), (∀ x, (famL f P Z keys ctr x).residual (R.mapV (f x)) = r.map (List.map (· x))) ∧
      ∀ gs, r = .ok gs → ∀ g ∈ gs, A g := by
  generalize hzs : ((Z.iterFlat []).map (·.2)).drop 1 = zs
  have hfl : ∀ x, (famL f P Z keys ctr x).flatConstraints
      = (zs.map Both.cons, ((keys.iterFlat []).map (·.2.value)).drop 1, zs.map fun z => z.value.2 x) := by
    intro x
    simp only [Layout.flatConstraints, famL, iterFlat_rmap', iterFlat_mapV', List.map_map, Function.comp_def, ← hzs,
      List.map_drop, Node.rmap_value]
  have hH : ∀ z ∈ zs, HP A f (fun _ => True) z.ty z.value.2 := by
    intro z hz
    rw [← hzs] at hz
    obtain ⟨kc, hkc, rfl⟩ := List.mem_map.mp (List.mem_of_mem_drop hz)
    exact hF.all.iterFlat [] kc hkc
  simp only [Layout.residual, Layout.residualList, hfl, List.length_map, lookups_fam]
  generalize List.take _ _ = kss
  cases pyMap (pyMap R.getChild) kss with
  | error e => exact ⟨.error e, fun x => rfl, by simp⟩
  | ok pss =>
    obtain ⟨r, h1, h2⟩ := residuals_fam zs hH pss
    simp only [Except.map, bind, Except.bind, h1]
    cases r with
    | error e => exact ⟨.error e, fun x => rfl, by simp⟩
    | ok gss =>
      refine ⟨npConcat gss, fun x => ?_, fun gs hg => ?_⟩
      · simp only [Except.map, npConcat]
        cases gss <;> simp
      · simp only [npConcat] at hg
        split at hg
        · cases hg
        · cases hg
          intro g hg
          obtain ⟨l, hl, hg⟩ := List.mem_flatten.mp hg
          exact h2 gss rfl l hl g hg

end family

end MplLayout
