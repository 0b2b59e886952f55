import Verif.Lemmas.LayoutUpdate2
import Verif.Props.Layout

/-!
# C52: `update_layout_constraints`
-/

namespace MplLayout.Props

open MplLayout MplLayout.Node MplLayout.Cons MplLayout.Flt

theorem thicknessAt_iff {l : Layout Flt} (hl : TopOK l) (p : List Str) (kind : AxisKind) :
    l.ThicknessAt p kind ↔ p ≠ [] ∧ ∃ c, l.cons.At p c ∧ c.ty.axisKind = some kind := by
  constructor
  · rintro ⟨hp, c, hc, e⟩
    refine ⟨hp, c, hc, ?_⟩
    rw [thickness_eq] at e; cases e
    exact thickness_kind kind
  · rintro ⟨hp, c, hc, e⟩
    refine ⟨hp, c, hc, ?_⟩
    have : c = thicknessT kind := by
      cases hc with
      | here => exact absurd rfl hp
      | @down _ d _ k p hd hm =>
        rcases (hl.child k d hd).2 with h | ⟨kind', rfl⟩
        · rw [(h p c hm).1] at e; cases e
        · cases hm with
          | here => rw [thickness_kind] at e; cases e; rfl
          | down hd' hm' => rw [((NN_thickness kind' _ _ hd').2 _ _ hm').1] at e; cases e
    rw [this, thickness_eq]

theorem split1_head (key : Str) : ∃ rest, splitAll key = (split1 key).1 :: rest := by
  induction key with
  | nil => exact ⟨[], rfl⟩
  | cons c cs ih =>
    simp only [splitAll, split1]
    split
    · exact ⟨_, rfl⟩
    · obtain ⟨rest, e⟩ := ih
      rw [e]; exact ⟨rest, rfl⟩

/-- C52: for every layout reached by adding primitives and shipped constraints (with top-level
keys), if `update_layout_constraints` succeeds then the result is the layout with refreshed axis
thicknesses, and its constraints, keys and parameters are still paired.  Missing: constraints added
below a thickness constraint (`C52_counterexample`). -/
theorem C52_refreshed_partial (id : Nat) (ops : List (LayoutOp Flt)) (hr : ∀ op ∈ ops, op.Sensible)
    (ht : ∀ op ∈ ops, op.TopLevel) (axs : List (Str × MplAxes Flt)) (l' : Layout Flt)
    (h : updateLayoutConstraints ((Layout.empty id).run ops) axs = .ok l') :
    ((Layout.empty id).run ops).Refreshed l' axs ∧ l'.Paired := by
  have htop := (TopOK.empty id).run hr ht
  have hinv : ((Layout.empty id).run ops).Inv :=
    (Layout.Inv.empty id).run fun op hm => Sensible.regular (hr op hm)
  generalize (Layout.empty id).run ops = l at *
  obtain ⟨h1, h2, h3, _, h5, h6, h7⟩ := (htop.thick hinv).update h
  refine ⟨⟨h1, h2, h3, ?_, ?_⟩, h5.paired⟩
  · intro p kind hp
    have hp0 := hp
    obtain ⟨hpne, c, hc, e⟩ := hp0
    rw [thickness_eq] at e; cases e
    obtain ⟨ks, v, pt, e1, ⟨axisKey, ax, e2, e3, rfl⟩, e4, e5⟩ :=
      h6 p _ kind hpne hc (thickness_kind kind)
    obtain ⟨t, e6, rfl⟩ := thickness_params kind _ _ e4
    obtain ⟨rest, e7⟩ := split1_head axisKey
    exact ⟨axisKey, _, rest, ax, t, _, _, ⟨ks, e1, e2⟩, e7, e3, by cases kind <;> exact e6, e5,
      by cases kind <;> rfl, e5.trans (.down (List.mem_singleton_self _) (.here _)), rfl⟩
  · intro p m hm hno
    refine h7 p m hm fun q c hq hpre hc => ?_
    cases hk : c.ty.axisKind with
    | none => rfl
    | some kind => exact absurd ((thicknessAt_iff htop q kind).mpr ⟨hq, c, hc, hk⟩) (hno q kind hpre)

theorem rootPrimKeysL_get {K : Type} {cs : List (Str × Cons K)} : ∀ {kss : List (List Str)}
    {ns : List (Str × KeysNode)}, Cons.rootPrimKeysL cs kss = .ok ns → ∀ (i : Nat) (kc : Str × Cons K) (ks : List Str),
    cs[i]? = some kc → kss[i]? = some ks →
    ∃ n, ns[i]? = some (kc.1, n) ∧ Cons.rootPrimKeys kc.2 ks = .ok n := by
  induction cs with
  | nil => intro kss ns _ i kc ks e; simp at e
  | cons kc cs ih =>
    intro kss ns h i kc' ks e1 e2
    obtain ⟨k, c⟩ := kc
    cases kss with
    | nil => simp at e2
    | cons ks0 kss =>
      simp only [Cons.rootPrimKeysL] at h
      obtain ⟨n, hn, h⟩ := bind_ok' h
      obtain ⟨rest, hr, h⟩ := bind_ok' h
      cases h
      cases i with
      | zero => cases e1; cases e2; exact ⟨n, rfl, hn⟩
      | succ i =>
        obtain ⟨n', h1, h2⟩ := ih hr i kc' ks (by simpa using e1) (by simpa using e2)
        exact ⟨n', by simpa using h1, h2⟩

/-- A thickness constraint has exactly one primitive key. -/
theorem thickness_hasKey {id : Nat} {ops : List (LayoutOp Flt)} (hr : ∀ op ∈ ops, op.Sensible)
    (ht : ∀ op ∈ ops, op.TopLevel) {p : List Str} {kind : AxisKind}
    (hp : ((Layout.empty id).run ops).ThicknessAt p kind) :
    ∃ key, ((Layout.empty id).run ops).HasKey p key := by
  have htop := (TopOK.empty id).run hr ht
  have hT := (Layout.Top.empty (K := Flt) id).run (fun op h => Sensible.regular (hr op h)) ht
  generalize (Layout.empty id).run ops = l at *
  obtain ⟨hpne, c, hc, e⟩ := hp
  rw [thickness_eq] at e; cases e
  have hpath : ∃ k, p = [k] ∧ (k, thicknessT kind) ∈ l.cons.children := by
    have hkd := thickness_kind kind
    generalize hT' : thicknessT kind = T at hc hkd
    cases hc with
    | here => exact absurd rfl hpne
    | @down _ d _ k p hd hm =>
      rcases (htop.child k d hd).2 with h | ⟨kind', hk'⟩
      · have := (h p _ hm).1; rw [hkd] at this; cases this
      · cases hm with
        | here => exact ⟨k, rfl, hd⟩
        | down hd' hm' =>
          rw [hk'] at hd'
          have := ((NN_thickness kind' _ _ hd').2 _ _ hm').1
          rw [hkd] at this; cases this
  obtain ⟨k, rfl, hk⟩ := hpath
  obtain ⟨i, hi⟩ := List.mem_iff_getElem?.mp hk
  have hcs := congrArg (·[i]?) hT.cons
  simp only [List.getElem?_map, hi, Option.map_some] at hcs
  simp only [List.nil_append] at hT hcs
  cases ha : ((Layout.empty id).added ops)[i]? with
  | none => rw [ha] at hcs; cases hcs
  | some a =>
    rw [ha] at hcs
    have hac : thicknessT kind = a.c := Option.some.inj hcs
    obtain ⟨n, hn, hkn⟩ := rootPrimKeysL_get hT.keys i _ a.primKeys hi
      (by simp only [List.nil_append, List.getElem?_map, ha, Option.map_some])
    obtain ⟨prims, h1, h2, _⟩ := hT.accepts a (List.mem_of_getElem? ha)
    have hlen : a.primKeys.length = 1 := by
      rw [h1.length_eq, h2.length_eq, ← hac]
      cases kind <;> rfl
    have hv : n.value = a.primKeys := by
      cases hc0 : thicknessT kind with
      | mk t v cs =>
        simp only [hc0, rootPrimKeys, py_bind_ok] at hkn
        obtain ⟨_, _, _, _, e⟩ := hkn
        cases e; rfl
    match hpk : a.primKeys, hlen with
    | [key], _ =>
      exact ⟨key, n, .down (List.mem_of_getElem? hn) (.here _), by rw [hv, hpk]⟩

/-- C52: on such a layout, `update_layout_constraints` succeeds exactly if the axes named by the
first part of each thickness constraint's primitive key is in the dictionary and the axis can be
measured. -/
theorem C52_succeeds_partial (id : Nat) (ops : List (LayoutOp Flt)) (hr : ∀ op ∈ ops, op.Sensible)
    (ht : ∀ op ∈ ops, op.TopLevel) (axs : List (Str × MplAxes Flt)) :
    (∃ l', updateLayoutConstraints ((Layout.empty id).run ops) axs = .ok l') ↔
    ∀ p kind axisKey name rest, ((Layout.empty id).run ops).ThicknessAt p kind →
      ((Layout.empty id).run ops).HasKey p axisKey → splitAll axisKey = name :: rest →
      ∃ ax t, dictGet axs name = some ax ∧ (ct.getAxisThickness (ax.axis kind)).1 = .ok t := by
  have htop := (TopOK.empty id).run hr ht
  have hinv : ((Layout.empty id).run ops).Inv :=
    (Layout.Inv.empty id).run fun op hm => Sensible.regular (hr op hm)
  constructor
  · rintro ⟨l', h⟩ p kind axisKey name rest hp hk hs
    obtain ⟨hR, _⟩ := C52_refreshed_partial id ops hr ht axs l' h
    obtain ⟨axisKey', name', rest', ax, t, _, _, h1, h2, h3, h4, _⟩ := hR.axis p kind hp
    obtain ⟨ks, e1, e2⟩ := hk
    obtain ⟨ks', e3, e4⟩ := h1
    have : ks = ks' := by
      have a1 := (find_iff_At hinv.keysWF).mpr e1
      rw [(find_iff_At hinv.keysWF).mpr e3] at a1
      exact (Option.some.inj a1).symm
    subst this
    rw [e2] at e4; cases e4
    rw [hs] at h2; cases h2
    exact ⟨ax, t, h3, h4⟩
  · intro h
    refine (htop.thick hinv).update_total ?_
    intro p c kind ks hpne hc hkind hks
    have hp := (thicknessAt_iff htop p kind).mpr ⟨hpne, c, hc, hkind⟩
    obtain ⟨key, ks', e1, e2⟩ := thickness_hasKey hr ht hp
    have : ks = ks' := by
      have a1 := (find_iff_At hinv.keysWF).mpr hks
      rw [(find_iff_At hinv.keysWF).mpr e1] at a1
      exact (Option.some.inj a1).symm
    subst this
    obtain ⟨rest, hs⟩ := split1_head key
    obtain ⟨ax, t, h1, h2⟩ := h p kind key _ rest hp ⟨ks, hks, e2⟩ hs
    obtain ⟨_, c', hc', e⟩ := hp
    have : c = c' := by
      have a1 := (find_iff_At hinv.cons).mpr hc
      rw [(find_iff_At hinv.cons).mpr hc'] at a1
      exact (Option.some.inj a1).symm
    subst this
    rw [thickness_eq] at e; cases e
    exact ⟨[.axis (ax.axis kind)], _, ⟨key, ax, e2, h1, by cases kind <;> rfl⟩, thickness_params_ok kind _ t h2⟩

/-! ### Examples and counterexamples -/

attribute [local instance] exampleNum

/-- An axis that takes a fifth of the height of a 2 x 3 figure. -/
def exAxis (side : Str) : MplAxis Rat :=
  ⟨true, fun _ => some ⟨0, -1 / 5, 1, 1⟩, side, 2, 3, ⟨0, 0, 1, 1⟩⟩

def exAxes : MplAxes Rat := ⟨exAxis k!"bottom", exAxis k!"left"⟩

/-- A rectangle `ax` with an x axis thickness `T`, whose axis is not attached, and a height `h`. -/
def thickOps : List (LayoutOp Rat) :=
  [.addPrim (exRect 0 0 2 3) k!"ax",
   .addConstraint ((ct.axisThickness .x).toOption.getD ct.coincident) [k!"ax"] [.none] k!"T",
   .addConstraint ((ct.height).toOption.getD ct.coincident) [k!"ax"] [.num 1] k!"h"]

/-- Refreshing the thickness of `ax`: its residual goes from `3 - 0` to `3 - 3/5`, that of `h` stays
`3 - 1`. -/
example : ((Layout.empty 0).run thickOps).residual ((Layout.empty 0).run thickOps).prim
      = .ok [3 - 0, 3 - 1] ∧
    (updateLayoutConstraints ((Layout.empty 0).run thickOps) [(k!"ax", exAxes)]).bind
      (fun l' => l'.residual l'.prim) = .ok [3 - 3 / 5, 3 - 1] := by
  constructor <;> decide +kernel

/-- The code violates C52 (pairing): a constraint added below a thickness constraint keeps its
entries among the constraints and the primitive keys, but loses its parameters, so the flat lists no
longer have the same length. -/
theorem C52_counterexample_pairing :
    let l := (Layout.empty 0).run (thickOps ++
      [.addConstraint ((ct.height).toOption.getD ct.coincident) [k!"ax"] [.num 7] k!"T/extra"])
    l.flatConstraints.1.length = l.flatConstraints.2.2.length ∧
    ∃ l', updateLayoutConstraints l [(k!"ax", exAxes)] = .ok l' ∧
      l'.flatConstraints.1.length ≠ l'.flatConstraints.2.2.length := by
  refine ⟨by decide +kernel, ?_⟩
  have h : (match updateLayoutConstraints ((Layout.empty 0).run (thickOps ++
      [.addConstraint ((ct.height).toOption.getD ct.coincident) [k!"ax"] [.num 7] k!"T/extra"]))
      [(k!"ax", exAxes)] with
    | .ok l' => decide (l'.flatConstraints.1.length ≠ l'.flatConstraints.2.2.length)
    | .error _ => false) = true := by decide +kernel
  split at h
  · rename_i l' e
    exact ⟨l', e, of_decide_eq_true h⟩
  · cases h

/-- The code violates C52 (axes below another primitive): the axes is looked up by the first part of
the primitive key only, so for an axes `sub/ax` the dictionary entry `sub/ax` is not found. -/
theorem C52_counterexample_nested :
    let l := (Layout.empty 0).run
      [.addPrim (exRect 0 0 9 9) k!"sub", .addPrim (exRect 0 0 2 3) k!"sub/ax",
       .addConstraint ((ct.axisThickness .x).toOption.getD ct.coincident) [k!"sub/ax"] [.none] k!"T"]
    l.flatConstraints.1.length = 2 ∧
    updateLayoutConstraints l [(k!"sub/ax", exAxes)] matches .error (.keyError _) := by
  constructor <;> decide +kernel

/-- A history that meets the hypotheses of the theorems above. -/
noncomputable def refreshOps : List (LayoutOp Flt) :=
  [.addPrim (realRect ⟨0, 0, 2, 3⟩) k!"ax",
   .addConstraint (thicknessT .x) [k!"ax"] [.none] k!"T",
   .addConstraint (cstr heightT) [k!"ax"] [.num (Flt.fin 5)] k!"h"]

example : (∀ op ∈ refreshOps, op.Sensible) ∧ (∀ op ∈ refreshOps, op.TopLevel) := by
  constructor
  · intro op h
    simp only [refreshOps, List.mem_cons, List.not_mem_nil, or_false] at h
    rcases h with rfl | rfl | rfl
    · show Node.WF _
      refine (Node.goodB_iff _).mp ?_ |>.1
      rfl
    · exact ⟨.axisThickness .x, thickness_eq .x, trivial, by intro p hp; simp at hp; exact .inl hp⟩
    · exact ⟨.height, ct_height_eq, trivial, by intro p hp; simp at hp; subst hp; trivial⟩
  · intro op h
    simp only [refreshOps, List.mem_cons, List.not_mem_nil, or_false] at h
    rcases h with rfl | rfl | rfl
    · trivial
    · show '/' ∉ k!"T"; decide
    · show '/' ∉ k!"h"; decide

end MplLayout.Props
