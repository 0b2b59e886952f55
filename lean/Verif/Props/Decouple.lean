import Verif.Lemmas.Decouple
import Verif.Props.Canonical

/-!
# C80: independent parts of a layout are solved independently
-/

namespace MplLayout

/-- The call puts its primitives at the top level of the layout. -/
def LayoutOp.PrimsOnTop {K : Type} : LayoutOp K → Prop
  | .addPrim _ key => '/' ∉ key
  | .addPrims prims => ∀ kp ∈ prims, '/' ∉ kp.1
  | .addConstraint _ _ _ _ => True

namespace Props

open Solver Flt

/-- C80: if a layout contains all primitives and all constraints (affine ones) of another layout, and
its remaining constraints do not refer to any array of the other layout's primitives, then both have
the same solution for the primitives that they have in common, whether or not the constraints can be
satisfied and whether or not they determine the geometry. -/
theorem C80_independent (num num' : Numerics Flt) (hnum : Exact num) (hnum' : Exact num') (id id' : Nat)
    (ops ops' : List (LayoutOp Flt)) (hops : ∀ op ∈ ops, op.Uses Shipped.IsAffine)
    (hops' : ∀ op ∈ ops', op.Uses Shipped.IsAffine) (hs : ∀ op ∈ ops, op.Sensible)
    (hs' : ∀ op ∈ ops', op.Sensible) (ht : ∀ op ∈ ops, op.TopLevel) (ht' : ∀ op ∈ ops', op.TopLevel)
    (l l' : Layout Flt) (hl : l = (Layout.empty id).run ops) (hl' : l' = (Layout.empty id').run ops')
    (hok : PrimOK l.prim) (hok' : PrimOK l'.prim) (hfin : l.prim.Finite)
    (hpart : l'.prim.PartOf l.prim) (rest : List (Added Flt)) (hne : (Layout.empty id').added ops' ≠ [])
    (hperm : ((Layout.empty id).added ops).Perm ((Layout.empty id').added ops' ++ rest))
    (hrest : ∀ p m, p ≠ [] → l'.prim.At p m → Unseen rest l.prim p)
    (s0 : ℝ) (h0 : l.Misfit l.prim s0) (base base' : Nat) (a b a' b' : ℝ) (maxIter maxIter' : Int)
    (hmax : 1 ≤ maxIter) (hmax' : 1 ≤ maxIter') :
    ∃ r info r' info', solveNewton num l base (fin a) (fin b) maxIter = .ok (r, info) ∧
      solveNewton num' l' base' (fin a') (fin b') maxIter' = .ok (r', info') ∧ r'.PlacedIn r := by
  have hfin' : l'.prim.Finite := by
    intro p n hn x hx
    cases p with
    | nil =>
      cases hn
      rw [hl', root_arr id' fun op h => uses_trees (hops' op h)] at hx
      cases hx
    | cons k p => exact hfin _ n (hpart _ n (by simp) hn) x hx
  obtain ⟨s0', h0'⟩ := part_misfit hops' hops hs hs' ht ht' hl hl' hok hok' hfin hpart hne hperm h0
  obtain ⟨r, info, e1, hb⟩ := newton_best hnum hops (congrArg Layout.cons hl) hok hfin
    ⟨hok, SameStructure.refl hok.wf, hfin⟩ h0 base a b maxIter hmax
  obtain ⟨r', info', e2, hb'⟩ := newton_best hnum' hops' (congrArg Layout.cons hl') hok' hfin'
    ⟨hok', SameStructure.refl hok'.wf, hfin'⟩ h0' base' a' b' maxIter' hmax'
  exact ⟨r, info, r', info', e1, e2,
    best_part hops hops' hs hs' ht ht' hl hl' hok hok' hfin hpart hperm hrest hb hb'⟩

/-- Primitives added at the top level leave those that are there as they are. -/
theorem partOf_step (l : Layout Flt) (hl : l.prim.WF) (op : LayoutOp Flt) (ht : op.Trees) (h : op.PrimsOnTop) :
    l.prim.PartOf (l.step op).1.prim := by
  have one : ∀ (l : Layout Flt), l.prim.WF → ∀ (prim : Prim Flt) (key : Str), prim.WF → '/' ∉ key →
      l.prim.PartOf (l.addPrim prim key).1.prim ∧ (l.addPrim prim key).1.prim.WF := by
    intro l hl prim key hw hk
    rcases hx : l.prim.addChild key prim with e | root
    · simp only [Layout.addPrim, hx]
      exact ⟨fun _ _ _ h => h, hl⟩
    · simp only [Layout.addPrim, hx]
      refine ⟨fun p m hp hm => ?_, Node.addChild_WF hx hl hw⟩
      rw [Node.addChild_eq, splitAll_noslash hk] at hx
      simp only [List.dropLast_singleton, Node.find] at hx
      split at hx
      · cases hx
      · cases hx
        rename_i hkey
        cases p with
        | nil => exact absurd rfl hp
        | cons k p =>
          cases hm with
          | down hc hm =>
            refine .down ?_ hm
            simp only [Node.setAt, Node.children_mk]
            refine Node.mem_dictSet_of_ne hc fun e => hkey ?_
            rw [← e]
            exact List.mem_map.mpr ⟨_, hc, rfl⟩
  cases op with
  | addPrim prim key => exact (one l hl prim key ht h).1
  | addConstraint c ks ps key =>
    show l.prim.PartOf (l.addConstraint c ks ps key).1.prim
    rw [C54_constraint l c ht.2]
    exact fun _ _ _ h => h
  | addPrims prims =>
    show l.prim.PartOf (l.addPrims prims).1.prim
    have hw : ∀ kp ∈ prims, kp.2.WF := ht
    have hk : ∀ kp ∈ prims, '/' ∉ kp.1 := h
    clear ht h
    induction prims generalizing l with
    | nil => exact fun _ _ _ h => h
    | cons kp prims ih =>
      obtain ⟨key, prim⟩ := kp
      obtain ⟨h1, h2⟩ := one l hl prim key (hw _ (List.mem_cons_self ..)) (hk _ (List.mem_cons_self ..))
      simp only [Layout.addPrims]
      rcases hx : l.addPrim prim key with ⟨l1, res⟩
      rw [hx] at h1 h2
      cases res with
      | error e => exact h1
      | ok u =>
        exact fun p m hp hm => ih l1 h2 (fun kp h => hw kp (by simp [h])) (fun kp h => hk kp (by simp [h])) p m hp
          (h1 p m hp hm)

theorem partOf_run {more : List (LayoutOp Flt)} (ht : ∀ op ∈ more, op.Trees)
    (h : ∀ op ∈ more, op.PrimsOnTop) {l : Layout Flt} (hl : l.Wf) : l.prim.PartOf (l.run more).prim := by
  induction more generalizing l with
  | nil => exact fun _ _ _ h => h
  | cons op more ih =>
    have h1 := partOf_step l hl.prim op (ht op (by simp)) (h op (by simp))
    have h2 := (hl.run (ops := [op]) (by simpa using ht op (by simp))).1
    exact fun p m hp hm => ih (fun o ho => ht o (by simp [ho])) (fun o ho => h o (by simp [ho])) h2 p m hp
      (h1 p m hp hm)

theorem added_append {K : Type} [PyNum K] (l : Layout K) (ops more : List (LayoutOp K)) :
    l.added (ops ++ more) = l.added ops ++ (l.run ops).added more := by
  induction ops generalizing l with
  | nil => rfl
  | cons op ops ih => simp only [List.cons_append, Layout.added, ih, List.append_assoc]; rfl

/-- C80, continuing a layout: a user who goes on by adding primitives at the top level, and (affine)
constraints that do not refer to the arrays of the primitives that are there already, does not change
the solution for these. -/
theorem C80_extend (num num' : Numerics Flt) (hnum : Exact num) (hnum' : Exact num') (id : Nat)
    (ops more : List (LayoutOp Flt)) (hops : ∀ op ∈ ops ++ more, op.Uses Shipped.IsAffine)
    (hs : ∀ op ∈ ops ++ more, op.Sensible) (ht : ∀ op ∈ ops ++ more, op.TopLevel)
    (htop : ∀ op ∈ more, op.PrimsOnTop)
    (l l' : Layout Flt) (hl : l = (Layout.empty id).run ops) (hl' : l' = (Layout.empty id).run (ops ++ more))
    (hok : PrimOK l'.prim) (hfin : l'.prim.Finite) (hne : (Layout.empty id).added ops ≠ [])
    (hmore : ∀ p m, p ≠ [] → l.prim.At p m → Unseen (l.added more) l'.prim p)
    (s0 : ℝ) (h0 : l'.Misfit l'.prim s0) (base base' : Nat) (a b a' b' : ℝ) (maxIter maxIter' : Int)
    (hmax : 1 ≤ maxIter) (hmax' : 1 ≤ maxIter') :
    ∃ r info r' info', solveNewton num l base (fin a) (fin b) maxIter = .ok (r, info) ∧
      solveNewton num' l' base' (fin a') (fin b') maxIter' = .ok (r', info') ∧ r.PlacedIn r' := by
  have hwf : l.Wf := by
    rw [hl]
    exact ((Layout.Inv.empty (K := Flt) id).wf.run fun op h => uses_trees (hops op (by simp [h]))).1
  have hrun : l' = l.run more := by rw [hl', hl]; simp [Layout.run]
  have hpart : l.prim.PartOf l'.prim := by
    rw [hrun]
    exact partOf_run (fun op h => uses_trees (hops op (by simp [h]))) htop hwf
  have hext : l'.prim.Extends l.prim := by
    rw [hrun]
    exact (hwf.run fun op h => uses_trees (hops op (by simp [h]))).2.prim
  have hok' : PrimOK l.prim := by
    refine ⟨hwf.prim, ?_, ?_⟩
    · intro p m hm k hk
      obtain ⟨c, hc⟩ : ∃ c, (k, c) ∈ m.children := by
        obtain ⟨kc, h1, rfl⟩ := List.mem_map.mp hk
        exact ⟨kc.2, h1⟩
      obtain ⟨m', hm', _⟩ := hext (p ++ [k]) c (hm.trans (.down hc (.here _)))
      exact Node.At.noslash hok.slashFree hm' k (by simp)
    · intro p q m n hm hn e
      obtain ⟨m', hm', _, e1⟩ := hext p m hm
      obtain ⟨n', hn', _, e2⟩ := hext q n hn
      rw [← e1, ← e2] at e ⊢
      exact hok.ident p q m' n' hm' hn' e
  obtain ⟨r', info', r, info, e1, e2, e3⟩ := C80_independent num' num hnum' hnum id id (ops ++ more) ops hops
    (fun op h => hops op (by simp [h])) hs (fun op h => hs op (by simp [h])) ht
    (fun op h => ht op (by simp [h])) l' l hl' hl hok hok' hfin hpart (l.added more) hne
    (by rw [added_append, hl]) hmore s0 h0 base' base a' b' a b maxIter' maxIter hmax' hmax
  exact ⟨r, info, r', info', e2, e1, e3⟩

/-! ## Example -/

/-- A line and its width. -/
noncomputable def soloOps : List (LayoutOp Flt) :=
  [.addPrim (sLn 4 (sPt 1 0 0) (sPt 2 3 0)) k!"U",
   .addConstraint ((Shipped.xLength.build).toOption.getD ct.coincident) [k!"U"] [.num (fin 1)] []]

/-- Another line, for which two widths are demanded. -/
noncomputable def duoOps : List (LayoutOp Flt) :=
  [.addPrim (sLn 5 (sPt 6 0 0) (sPt 3 3 0)) k!"V",
   .addConstraint ((Shipped.xLength.build).toOption.getD ct.coincident) [k!"V"] [.num (fin 1)] [],
   .addConstraint ((Shipped.xLength.build).toOption.getD ct.coincident) [k!"V"] [.num (fin 2)] []]

/-- The two lines. -/
noncomputable def duoTree : Prim Flt :=
  .mk .primitiveNode ⟨0, []⟩ [(k!"U", sLn 4 (sPt 1 0 0) (sPt 2 3 0)), (k!"V", sLn 5 (sPt 6 0 0) (sPt 3 3 0))]

theorem duoTree_at {path : List Str} {m : Prim Flt} (h : Node.At duoTree path m) :
    (path = [] ∧ m = duoTree) ∨ (∃ p, path = k!"U" :: p ∧ Node.At (sLn 4 (sPt 1 0 0) (sPt 2 3 0)) p m) ∨
      ∃ p, path = k!"V" :: p ∧ Node.At (sLn 5 (sPt 6 0 0) (sPt 3 3 0)) p m := by
  rcases At_mk h with h | ⟨k, c, p', h, e, hm⟩
  · exact .inl h
  · simp only [List.mem_cons, List.not_mem_nil, or_false, Prod.mk.injEq] at h
    rcases h with ⟨rfl, rfl⟩ | ⟨rfl, rfl⟩
    · exact .inr (.inl ⟨p', e, hm⟩)
    · exact .inr (.inr ⟨p', e, hm⟩)

/-- The second line and its contradictory constraints do not matter for the solution of the first. -/
example : ∃ r info r' info',
    solveNewton exactNum ((Layout.empty 0).run soloOps) 10 (fin 0) (fin 0) 1 = .ok (r, info) ∧
    solveNewton exactNum ((Layout.empty 0).run (soloOps ++ duoOps)) 20 (fin 1) (fin 0) 5 = .ok (r', info') ∧
    r.PlacedIn r' := by
  have hw : ∀ (i j k : Nat) (a b c d : ℝ), (sLn i (sPt j a b) (sPt k c d)).WF := fun i j k a b c d =>
    ((Node.goodB_iff _).mp (show Node.goodB (sLn i (sPt j a b) (sPt k c d)) = true from rfl)).1
  have hall : ∀ op ∈ soloOps ++ duoOps, op.Uses (· = .xLength) ∧ op.TopLevel := by
    intro op h
    simp only [soloOps, duoOps, List.cons_append, List.nil_append, List.mem_cons, List.not_mem_nil,
      or_false] at h
    rcases h with rfl | rfl | rfl | rfl | rfl
    · exact ⟨hw _ _ _ _ _ _ _, trivial⟩
    · exact ⟨⟨.xLength, rfl, trivial, rfl⟩, show '/' ∉ ([] : Str) by decide⟩
    · exact ⟨hw _ _ _ _ _ _ _, trivial⟩
    · exact ⟨⟨.xLength, rfl, trivial, rfl⟩, show '/' ∉ ([] : Str) by decide⟩
    · exact ⟨⟨.xLength, rfl, trivial, rfl⟩, show '/' ∉ ([] : Str) by decide⟩
  have hprim : ((Layout.empty 0).run (soloOps ++ duoOps)).prim = duoTree := rfl
  have hvals : ∀ path m, Node.At duoTree path m → m.value ∈
      ([⟨0, []⟩, ⟨4, []⟩, ⟨1, [fin 0, fin 0]⟩, ⟨2, [fin 3, fin 0]⟩, ⟨5, []⟩, ⟨6, [fin 0, fin 0]⟩,
        ⟨3, [fin 3, fin 0]⟩] : List (PVal Flt)) := by
    intro path m hm
    rcases duoTree_at hm with ⟨_, rfl⟩ | ⟨p, _, h⟩ | ⟨p, _, h⟩
    · simp [duoTree]
    all_goals
      rcases sLn_at h with ⟨_, rfl⟩ | ⟨p', _, h⟩ | ⟨p', _, h⟩
      · simp [sLn]
      · obtain ⟨_, rfl⟩ := sPt_at h; simp [sPt]
      · obtain ⟨_, rfl⟩ := sPt_at h; simp [sPt]
  refine C80_extend exactNum exactNum exactNum_exact exactNum_exact 0 soloOps duoOps
    (fun op h => (affine_sensible (hall op h).1).1) (fun op h => (affine_sensible (hall op h).1).2)
    (fun op h => (hall op h).2) ?_ _ _ rfl rfl ⟨?_, ?_, ?_⟩ ?_ ?_ ?_ (2 ^ 2 + 2 ^ 2 + 1 ^ 2) ⟨[2, 2, 1], ?_, ?_⟩ 10 20
    0 0 1 0 1 5 (by norm_num) (by norm_num)
  · intro op h
    simp only [duoOps, List.mem_cons, List.not_mem_nil, or_false] at h
    rcases h with rfl | rfl | rfl
    · show '/' ∉ k!"V"; decide
    · trivial
    · trivial
  · rw [hprim]; exact ((Node.goodB_iff _).mp (show Node.goodB duoTree = true from rfl)).1
  · rw [hprim]; exact ((Node.goodB_iff _).mp (show Node.goodB duoTree = true from rfl)).2
  · rw [hprim]
    intro p q m n hm hn e
    have h1 := hvals p m hm
    have h2 := hvals q n hn
    simp only [List.mem_cons, List.not_mem_nil, or_false] at h1 h2
    rcases h1 with h1 | h1 | h1 | h1 | h1 | h1 | h1 <;> rcases h2 with h2 | h2 | h2 | h2 | h2 | h2 | h2 <;>
      rw [h1, h2] at e ⊢ <;> simp at e
  · rw [hprim]
    intro p m hm x hx
    have h1 := hvals p m hm
    simp only [List.mem_cons, List.not_mem_nil, or_false] at h1
    rcases h1 with h1 | h1 | h1 | h1 | h1 | h1 | h1 <;> rw [h1] at hx <;>
      simp only [List.mem_cons, List.not_mem_nil, or_false] at hx <;> rcases hx with rfl | rfl <;>
      exact ⟨_, rfl⟩
  · exact List.cons_ne_nil _ _
  · intro p m hp hm c hc k hk q hq path n m' hn hm'
    have hc' : c.primKeys = [k!"V"] := by
      have hadd : ((Layout.empty 0).run soloOps).added duoOps
        = [⟨(Shipped.xLength.build).toOption.getD ct.coincident, [k!"V"], [.num (fin 1)]⟩,
          ⟨(Shipped.xLength.build).toOption.getD ct.coincident, [k!"V"], [.num (fin 2)]⟩] := rfl
      rw [hadd] at hc
      simp only [List.mem_cons, List.not_mem_nil, or_false] at hc
      rcases hc with rfl | rfl <;> rfl
    rw [hc', List.mem_singleton] at hk
    subst hk
    rw [hprim] at hq hm'
    have e : q = sLn 5 (sPt 6 0 0) (sPt 3 3 0) := Except.ok.inj (hq.symm.trans rfl)
    subst e
    have hsolo : ((Layout.empty 0).run soloOps).prim
      = .mk .primitiveNode ⟨0, []⟩ [(k!"U", sLn 4 (sPt 1 0 0) (sPt 2 3 0))] := rfl
    rw [hsolo] at hm
    have hU : ∃ p', p = k!"U" :: p' := by
      rcases At_mk hm with ⟨h, _⟩ | ⟨k, c, p', h, e, _⟩
      · exact absurd h hp
      · simp only [List.mem_cons, List.not_mem_nil, or_false, Prod.mk.injEq] at h
        exact ⟨p', h.1 ▸ e⟩
    obtain ⟨p', rfl⟩ := hU
    have hid : m'.value.id ∈ [4, 1, 2] := by
      rcases duoTree_at hm' with ⟨h, _⟩ | ⟨p, _, h⟩ | ⟨p, h, _⟩
      · cases h
      · rcases sLn_at h with ⟨_, rfl⟩ | ⟨p', _, h⟩ | ⟨p', _, h⟩
        · simp [sLn]
        · obtain ⟨_, rfl⟩ := sPt_at h; simp [sPt]
        · obtain ⟨_, rfl⟩ := sPt_at h; simp [sPt]
      · exact absurd (List.cons.inj h).1 (by decide)
    have hid2 : n.value.id ∈ [5, 6, 3] := by
      rcases sLn_at hn with ⟨_, rfl⟩ | ⟨p', _, h⟩ | ⟨p', _, h⟩
      · simp [sLn]
      · obtain ⟨_, rfl⟩ := sPt_at h; simp [sPt]
      · obtain ⟨_, rfl⟩ := sPt_at h; simp [sPt]
    intro e
    rw [e] at hid2
    simp only [List.mem_cons, List.not_mem_nil, or_false] at hid hid2
    omega
  · have : ((Layout.empty 0).run (soloOps ++ duoOps)).residual ((Layout.empty 0).run (soloOps ++ duoOps)).prim
        = .ok [fin (0 + (3 - 0) * 1 + (0 - 0) * 0 + -1 * 1), fin (0 + (3 - 0) * 1 + (0 - 0) * 0 + -1 * 1),
          fin (0 + (3 - 0) * 1 + (0 - 0) * 0 + -1 * 2)] := by
      rw [hprim]; rfl
    rw [this]
    norm_num
  · norm_num

end Props

end MplLayout
