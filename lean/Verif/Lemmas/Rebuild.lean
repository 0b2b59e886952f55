import Verif.Lemmas.Solver
import Verif.Props.Primitives
import Verif.Props.Pack

/-!
# The primitive tree rebuilt from a global parameter vector
-/

namespace MplLayout.Solver

open MplLayout.Node

variable {K : Type}

theorem getElem?_freshVals (base : Nat) (vs : List (List K)) (i : Nat) :
    (freshVals base vs)[i]? = (vs[i]?).map fun v => ⟨base + i, v⟩ := by
  simp [freshVals]

theorem length_freshVals (base : Nat) (vs : List (List K)) : (freshVals base vs).length = vs.length := by
  simp [freshVals]

theorem primValues_ne (l : Layout K) (h : PrimOK l.prim) : primValues l ≠ [] := by
  obtain ⟨h1, _⟩ := Props.C17_unique_values PVal.id l.prim h.wf h.slashFree h.ident
  obtain ⟨i, _, h2⟩ := h1 [] l.prim (.here _)
  intro e
  have : (filterUnique PVal.id l.prim).2 = [] := by simpa [primValues] using e
  rw [this] at h2
  simp at h2

theorem globalParam_eq (l : Layout K) (h : PrimOK l.prim) :
    globalParam l = .ok (primValues l).flatten := by
  simp [globalParam, npConcat, primValues_ne l h]

/-- The number of coordinates. -/
def dim (l : Layout K) : Nat := ((primValues l).map List.length).sum

theorem globalParam_length {l : Layout K} {g : List K} (h : globalParam l = .ok g) :
    g.length = dim l := by
  simp only [globalParam, npConcat] at h
  split at h
  · cases h
  · cases h
    simp [dim, List.length_flatten]

/-- Which entry of the list of distinct arrays the node at `p` has. -/
def IdxAt (l : Layout K) (p : List Str) (i : Nat) : Prop :=
  dictGet (filterUnique PVal.id l.prim).1 (slashed p) = some i

theorem rebuild_at (l : Layout K) (hok : PrimOK l.prim) (base : Nat) (g : List K)
    (hg : g.length = dim l) : ∃ r, rebuild l base g = .ok r ∧ r.WF ∧
      (∀ p m', r.At p m' → ∃ m, l.prim.At p m) ∧
      ∀ p m, l.prim.At p m → ∃ m' i v, r.At p m' ∧ m'.ty = m.ty ∧ m'.keys = m.keys ∧
        IdxAt l p i ∧ (primValues l)[i]? = some m.value.arr ∧
        (unpack (idxBounds (primValues l)) g)[i]? = some v ∧ m'.value = ⟨base + i, v⟩ ∧
        v.length = m.value.arr.length := by
  have hlen := (Props.C20_pack_unpack (primValues l) (primValues_ne l hok) g hg).1
  obtain ⟨h1, _⟩ := Props.C17_unique_values PVal.id l.prim hok.wf hok.slashFree hok.ident
  obtain ⟨h2, _⟩ := Props.C19_rebuild PVal.id l.prim hok.wf hok.slashFree hok.ident
    (freshVals base (unpack (idxBounds (primValues l)) g))
  have hlen' := congrArg List.length hlen
  simp only [List.length_map] at hlen'
  obtain ⟨r, e1, e2, e3, e4⟩ := h2 (by
    rw [length_freshVals, hlen', primValues, List.length_map])
  refine ⟨r, e1, e2, e3, fun p m hm => ?_⟩
  obtain ⟨m', i, a1, a2, a3, a4, a5⟩ := e4 p m hm
  obtain ⟨j, b1, b2⟩ := h1 p m hm
  have : i = j := by rw [a4] at b1; exact Option.some.inj b1
  subst this
  rw [getElem?_freshVals] at a5
  cases hv : (unpack (idxBounds (primValues l)) g)[i]? with
  | none => rw [hv] at a5; cases a5
  | some v =>
    rw [hv] at a5
    have hp : (primValues l)[i]? = some m.value.arr := by simp [primValues, b2]
    refine ⟨m', i, v, a1, a2, a3, a4, hp, hv, (Option.some.inj a5).symm, ?_⟩
    have := congrArg (·[i]?) hlen
    simp only [List.getElem?_map, hv, hp, Option.map_some] at this
    exact Option.some.inj this

theorem At_unique {τ α : Type} {n : Node τ α} (hn : n.WF) {p : List Str} {a b : Node τ α}
    (h1 : n.At p a) (h2 : n.At p b) : a = b := by
  have e1 := (find_iff_At hn).mpr h1
  rw [(find_iff_At hn).mpr h2] at e1
  exact (Option.some.inj e1).symm

theorem rebuild_structure (l : Layout K) (hok : PrimOK l.prim) (base : Nat) (g : List K)
    (hg : g.length = dim l) : ∃ r, rebuild l base g = .ok r ∧ SameStructure l.prim r := by
  obtain ⟨r, e1, e2, e3, e4⟩ := rebuild_at l hok base g hg
  obtain ⟨_, _, h3, _⟩ := Props.C17_unique_values PVal.id l.prim hok.wf hok.slashFree hok.ident
  refine ⟨r, e1, ⟨?_, ?_, ?_⟩⟩
  · intro p
    constructor
    · rintro ⟨m, hm⟩
      obtain ⟨m', _, _, h, _⟩ := e4 p m hm
      exact ⟨m', h⟩
    · rintro ⟨m', hm'⟩
      exact e3 p m' hm'
  · intro p m m' hm hm'
    obtain ⟨m1, i, v, a1, a2, a3, a4, a5, a6, a7, a8⟩ := e4 p m hm
    obtain rfl := At_unique e2 a1 hm'
    exact ⟨a2.symm, a3.symm, by rw [a7, a8]⟩
  · intro p q m n m' n' hm hn hm' hn'
    obtain ⟨m1, i, v, a1, _, _, a4, _, _, a7, _⟩ := e4 p m hm
    obtain rfl := At_unique e2 a1 hm'
    obtain ⟨n1, j, w, b1, _, _, b4, _, _, b7, _⟩ := e4 q n hn
    obtain rfl := At_unique e2 b1 hn'
    rw [a7, b7, ← h3 p m q n i j hm hn a4 b4]
    simp

/-- Rebuilding with the layout's own parameters gives the layout's geometry. -/
theorem rebuild_self (l : Layout K) (hok : PrimOK l.prim) (base : Nat) {g : List K}
    (hg : globalParam l = .ok g) : ∃ r, rebuild l base g = .ok r ∧ SameGeometry l.prim r := by
  obtain ⟨r, e1, e2, e3, e4⟩ := rebuild_at l hok base g (globalParam_length hg)
  refine ⟨r, e1, ?_, ?_⟩
  · intro p
    constructor
    · rintro ⟨m, hm⟩
      obtain ⟨m', _, _, h, _⟩ := e4 p m hm
      exact ⟨m', h⟩
    · rintro ⟨m', hm'⟩
      exact e3 p m' hm'
  · intro p m m' hm hm'
    obtain ⟨m1, i, v, a1, a2, a3, a4, a5, a6, a7, a8⟩ := e4 p m hm
    obtain rfl := At_unique e2 a1 hm'
    refine ⟨a2.symm, a3.symm, ?_⟩
    have : unpack (idxBounds (primValues l)) g = primValues l := Props.C20_unpack_pack _ g hg
    rw [this, a5] at a6
    rw [a7]
    exact Option.some.inj a6

end MplLayout.Solver
