import Verif.Spec.Shift
import Verif.Lemmas.Shapes

/-! Translation invariance. -/

namespace MplLayout

open Flt Cons

section nodes
variable {τ σ α β : Type}

theorem Node.mapVL_eq (f : α → β) (cs : List (Str × Node τ α)) :
    Node.mapVL f cs = cs.map fun kc => (kc.1, kc.2.mapV f) := by
  induction cs with
  | nil => rfl
  | cons kc cs ih => cases kc; simp [Node.mapVL, ih]

theorem Node.mapV_mk (f : α → β) (t : τ) (v : α) (cs : List (Str × Node τ α)) :
    (Node.mk t v cs).mapV f = .mk t (f v) (cs.map fun kc => (kc.1, kc.2.mapV f)) := by
  rw [Node.mapV, Node.mapVL_eq]

@[simp] theorem Node.ty_mapV (f : α → β) (n : Node τ α) : (n.mapV f).ty = n.ty := by
  cases n; rfl
@[simp] theorem Node.value_mapV (f : α → β) (n : Node τ α) : (n.mapV f).value = f n.value := by
  cases n; rfl
theorem Node.children_mapV (f : α → β) (n : Node τ α) :
    (n.mapV f).children = n.children.map fun kc => (kc.1, kc.2.mapV f) := by
  cases n; simp [Node.mapV_mk]
@[simp] theorem Node.keys_mapV (f : α → β) (n : Node τ α) : (n.mapV f).keys = n.keys := by
  simp [Node.keys, Node.children_mapV]
theorem Node.values_mapV (f : α → β) (n : Node τ α) :
    (n.mapV f).values = n.values.map (·.mapV f) := by
  simp [Node.values, Node.children_mapV]

theorem dictGet_mapVal {γ δ : Type} (g : γ → δ) (d : List (Str × γ)) (k : Str) :
    dictGet (d.map fun kc => (kc.1, g kc.2)) k = (dictGet d k).map g := by
  induction d with
  | nil => rfl
  | cons kc d ih =>
    obtain ⟨k', c⟩ := kc
    simp only [List.map_cons, dictGet]
    by_cases h : k' = k <;> simp [h, ih]

theorem Node.find_mapV (f : α → β) (n : Node τ α) (p : List Str) :
    (n.mapV f).find p = (n.find p).map (·.mapV f) := by
  induction p generalizing n with
  | nil => rfl
  | cons k p ih =>
    simp only [Node.find, Node.children_mapV, dictGet_mapVal]
    cases dictGet n.children k with
    | none => rfl
    | some c => exact ih c

theorem Node.getChild_mapV (f : α → β) (n : Node τ α) (key : Str) :
    (n.mapV f).getChild key = (n.getChild key).map (·.mapV f) := by
  rw [Node.getChild_eq', Node.getChild_eq', Node.find_mapV]
  cases n.find (splitAll key) <;> rfl

theorem pyIndex_map {γ δ : Type} (g : γ → δ) (xs : List γ) (i : Int) :
    pyIndex (xs.map g) i = (pyIndex xs i).map g := by
  simp only [pyIndex, List.length_map, List.getElem?_map]
  generalize (if i < 0 then i + (xs.length : Int) else i) = j
  by_cases h : j < 0
  · simp only [h, if_true]; rfl
  · simp only [h, if_false]
    cases xs[j.toNat]? <;> rfl

theorem Node.getInt_mapV (f : α → β) (n : Node τ α) (i : Int) :
    (n.mapV f).getInt i = (n.getInt i).map (·.mapV f) := by
  rw [Node.getInt, Node.getInt, Node.values_mapV, pyIndex_map]

theorem dictSet_mapVal {γ δ : Type} (g : γ → δ) (d : List (Str × γ)) (k : Str) (v : γ) :
    dictSet (d.map fun kc => (kc.1, g kc.2)) k (g v)
      = (dictSet d k v).map fun kc => (kc.1, g kc.2) := by
  induction d with
  | nil => rfl
  | cons kc d ih =>
    obtain ⟨k', c⟩ := kc
    simp only [List.map_cons, dictSet]
    by_cases h : k' = k <;> simp [h, ih]

theorem dictOfPairs_mapVal {γ δ : Type} (g : γ → δ) (ps : List (Str × γ)) :
    dictOfPairs (ps.map fun kc => (kc.1, g kc.2))
      = (dictOfPairs ps).map fun kc => (kc.1, g kc.2) := by
  have key : ∀ (d : List (Str × γ)),
      (ps.map fun kc => (kc.1, g kc.2)).foldl (fun d kv => dictSet d kv.1 kv.2)
        (d.map fun kc => (kc.1, g kc.2))
      = (ps.foldl (fun d kv => dictSet d kv.1 kv.2) d).map fun kc => (kc.1, g kc.2) := by
    induction ps with
    | nil => intro d; rfl
    | cons p ps ih => intro d; simp only [List.map_cons, List.foldl_cons, dictSet_mapVal, ih]
  exact key []

theorem dictOfZip_map {γ δ : Type} (g : γ → δ) (ks : List Str) (vs : List γ) :
    dictOfZip ks (vs.map g) = (dictOfZip ks vs).map fun kc => (kc.1, g kc.2) := by
  rw [dictOfZip, dictOfZip, ← dictOfPairs_mapVal]
  congr 1
  rw [List.zip_map_right]
  rfl

/-- All nodes of the tree satisfy `P`. -/
def AllN (P : τ → α → Prop) (n : Node τ α) : Prop := ∀ p m, n.At p m → P m.ty m.value

theorem AllN_mk {P : τ → α → Prop} {t : τ} {v : α} {cs : List (Str × Node τ α)} :
    AllN P (.mk t v cs) ↔ P t v ∧ ∀ k c, (k, c) ∈ cs → AllN P c := by
  constructor
  · intro h
    exact ⟨h [] _ (.here _), fun k c hc p m hm => h (k :: p) m (.down hc hm)⟩
  · rintro ⟨h1, h2⟩ p m hm
    cases hm with
    | here => exact h1
    | down hc hm => exact h2 _ _ hc _ _ hm

theorem AllN.child {P : τ → α → Prop} {n c : Node τ α} {k : Str} (h : AllN P n)
    (hc : (k, c) ∈ n.children) : AllN P c := fun p m hm => h (k :: p) m (.down hc hm)

theorem AllN.find {P : τ → α → Prop} {n m : Node τ α} {p : List Str} (h : AllN P n)
    (hm : n.find p = some m) : AllN P m :=
  fun q l hl => h (p ++ q) l ((Node.At_of_find hm).trans hl)

theorem AllN.getChild {P : τ → α → Prop} {n m : Node τ α} {key : Str} (h : AllN P n)
    (hm : n.getChild key = .ok m) : AllN P m := h.find (Node.getChild_ok_iff.mp hm)

theorem AllN.iterFlat {P : τ → α → Prop} {n : Node τ α} (h : AllN P n) (key : Str)
    (kc : Str × Node τ α) (hkc : kc ∈ n.iterFlat key) : P kc.2.ty kc.2.value := by
  obtain ⟨k, c⟩ := kc
  obtain ⟨p, _, hp⟩ := (Node.iterFlat_mem n key k c).mp hkc
  exact h p c hp

theorem AllN.mono {P Q : τ → α → Prop} (h : ∀ t v, P t v → Q t v) {n : Node τ α} (hn : AllN P n) :
    AllN Q n := fun p m hm => h _ _ (hn p m hm)

theorem mem_dictOfPairs {γ : Type} {ps : List (Str × γ)} {k : Str} {v : γ}
    (h : (k, v) ∈ dictOfPairs ps) : (k, v) ∈ ps := by
  have key : ∀ (d : List (Str × γ)), (k, v) ∈ ps.foldl (fun d kv => dictSet d kv.1 kv.2) d →
      (k, v) ∈ d ∨ (k, v) ∈ ps := by
    clear h
    induction ps with
    | nil => intro d h; exact .inl h
    | cons p ps ih =>
      intro d h
      rcases ih _ h with h | h
      · rcases mem_dictSet h with ⟨rfl, rfl⟩ | h
        · exact .inr (by simp)
        · exact .inl h
      · exact .inr (by simp [h])
  simpa using key [] h

theorem mem_dictOfZip {γ : Type} {ks : List Str} {vs : List γ} {k : Str} {v : γ}
    (h : (k, v) ∈ dictOfZip ks vs) : v ∈ vs :=
  (List.of_mem_zip (mem_dictOfPairs h)).2

end nodes

section inv

variable {t : ℝ × ℝ}

theorem Planar.allN {p : Prim Flt} : Planar p ↔ AllN (fun _ v => v.arr.length = 0 ∨ v.arr.length = 2) p :=
  Iff.rfl

theorem Planar.val {p : Prim Flt} (h : Planar p) : p.value.arr.length = 0 ∨ p.value.arr.length = 2 :=
  h [] p (.here p)

theorem Planar.getChild {p c : Prim Flt} {key : Str} (h : Planar p) (hc : p.getChild key = .ok c) :
    Planar c := (Planar.allN.mp h).getChild hc

theorem Planar.values {p c : Prim Flt} (h : Planar p) (hc : c ∈ p.values) : Planar c := by
  obtain ⟨⟨k, c'⟩, hm, rfl⟩ := List.mem_map.mp hc
  exact (Planar.allN.mp h).child hm

theorem shiftPrim_ty (p : Prim Flt) : (shiftPrim t p).ty = p.ty := Node.ty_mapV _ _
theorem shiftPrim_arr (p : Prim Flt) : (shiftPrim t p).value.arr = shiftL t p.value.arr := by
  rw [shiftPrim, Node.value_mapV]

theorem shiftL_length (l : List Flt) : (shiftL t l).length = l.length := by
  unfold shiftL; split <;> rfl

theorem planar_cases {l : List Flt} (h : l.length = 0 ∨ l.length = 2) :
    l = [] ∨ ∃ x y, l = [x, y] := by
  rcases l with _ | ⟨x, _ | ⟨y, _ | ⟨z, l⟩⟩⟩ <;> simp at h ⊢

theorem sub_shift_flt (x y : Flt) (s : ℝ) : (x + fin s) - (y + fin s) = x - y := by
  cases x <;> cases y <;> simp

theorem sub_shift {xs ys : List Flt} (hx : xs.length = 0 ∨ xs.length = 2)
    (hy : ys.length = 0 ∨ ys.length = 2) :
    Arr.sub (.vec (shiftL t xs)) (.vec (shiftL t ys)) = Arr.sub (.vec xs) (.vec ys) := by
  rcases planar_cases hx with rfl | ⟨x, x', rfl⟩ <;> rcases planar_cases hy with rfl | ⟨y, y', rfl⟩
  · rfl
  · rfl
  · rfl
  · show Except.ok (Arr.vec [(x + fin t.1) - (y + fin t.1), (x' + fin t.2) - (y' + fin t.2)]) = _
    rw [sub_shift_flt, sub_shift_flt]
    rfl

/-- The function of primitives ignores translation. -/
def SIa (f : List (Prim Flt) → Py (Arr Flt)) : Prop :=
  ∀ t prims, (∀ p ∈ prims, Planar p) → f (prims.map (shiftPrim t)) = f prims
/-- The function of primitives and parameters ignores translation. -/
def SI {γ : Type} (f : List (Prim Flt) → γ → Py (Arr Flt)) : Prop :=
  ∀ t prims params, (∀ p ∈ prims, Planar p) → f (prims.map (shiftPrim t)) params = f prims params

theorem SI_of (f : List (Prim Flt) → Py (Arr Flt)) (h : SIa f) : SI (assem0 f) := by
  intro t prims params hp
  cases params with
  | nil => exact h t prims hp
  | cons => rfl

theorem SI_of1 (f : List (Prim Flt) → Param Flt → Py (Arr Flt)) (h : SI f) : SI (assem1 f) := by
  intro t prims params hp
  rcases params with _ | ⟨p, _ | ⟨q, ps⟩⟩
  · rfl
  · exact h t prims p hp
  · rfl

theorem SI_const (f : List (Param Flt) → Py (Arr Flt)) : SI (fun _ ps => f ps) := fun _ _ _ _ => rfl

theorem SI_compound (n : Nat) : SI (compoundAssem (K := Flt) n) := fun _ _ _ _ => rfl
theorem SI_value : SI (valueAssem (K := Flt)) := by
  intro t prims params hp
  rcases params with _ | ⟨p, _ | ⟨q, ps⟩⟩ <;> rfl

/-- Wrong number of primitives. -/
local macro "err1" : tactic => `(tactic| (
  rename_i ps h
  rcases ps with _ | ⟨p, _ | ⟨q, ps⟩⟩
  · rfl
  · exact absurd rfl h
  · rfl))
/-- Wrong number of primitives. -/
local macro "err2" : tactic => `(tactic| (
  rename_i ps h
  rcases ps with _ | ⟨p, _ | ⟨q, _ | ⟨r, ps⟩⟩⟩
  · rfl
  · rfl
  · exact absurd rfl h
  · rfl))

/-- Wrong number of primitives. -/
local macro "err2p" : tactic => `(tactic| (
  rename_i ps r h
  rcases ps with _ | ⟨p, _ | ⟨q, _ | ⟨r, ps⟩⟩⟩
  · rfl
  · rfl
  · exact absurd rfl h
  · rfl))

theorem inv2 {f : List (Prim Flt) → Py (Arr Flt)}
    (h : ∀ t p q, Planar p → Planar q → f [shiftPrim t p, shiftPrim t q] = f [p, q])
    (h0 : ∀ ps, ps.length ≠ 2 → f ps = .error .valueError) : SIa f := by
  intro t prims hp
  by_cases hl : prims.length = 2
  · obtain ⟨p, q, rfl⟩ := List.length_eq_two.mp hl
    exact h t p q (hp p (by simp)) (hp q (by simp))
  · rw [h0 _ hl, h0 _ (by simpa using hl)]

theorem inv1 {f : List (Prim Flt) → Py (Arr Flt)}
    (h : ∀ t p, Planar p → f [shiftPrim t p] = f [p])
    (h0 : ∀ ps, ps.length ≠ 1 → f ps = .error .valueError) : SIa f := by
  intro t prims hp
  by_cases hl : prims.length = 1
  · obtain ⟨p, rfl⟩ := List.length_eq_one_iff.mp hl
    exact h t p (hp p (by simp))
  · rw [h0 _ hl, h0 _ (by simpa using hl)]

theorem lineVector_inv {l : Prim Flt} (h : Planar l) :
    con.lineVectorA [shiftPrim t l] = con.lineVectorA [l] := by
  have hv : (shiftPrim t l).values = l.values.map (shiftPrim t) := Node.values_mapV _ _
  simp only [con.lineVectorA, hv]
  have hp : ∀ c ∈ l.values, Planar c := fun c hc => h.values hc
  generalize l.values = vs at hp ⊢
  rcases vs with _ | ⟨a, _ | ⟨b, _ | ⟨c, rest⟩⟩⟩
  · rfl
  · rfl
  · have ha := (hp a (by simp)).val
    have hb := (hp b (by simp)).val
    simp only [List.map_cons, List.map_nil, con.coordinateA, shiftPrim_arr, bind, Except.bind]
    exact sub_shift hb ha
  · rfl

theorem SIa_lineVector : SIa con.lineVectorA :=
  inv1 (fun t l h => lineVector_inv h) fun _ _ => by err1

theorem unit_inv {l : Prim Flt} (h : Planar l) :
    con.unitLineVectorA [shiftPrim t l] = con.unitLineVectorA [l] := by
  simp only [con.unitLineVectorA, lineVector_inv h]

theorem length_inv {l : Prim Flt} (h : Planar l) :
    con.lengthA [shiftPrim t l] = con.lengthA [l] := by
  simp only [con.lengthA, lineVector_inv h]

theorem SIa_length : SIa con.lengthA := inv1 (fun t l h => length_inv h) fun _ _ => by err1

theorem SIa_directedLength (d : Arr Flt) : SIa (con.directedLengthA d) :=
  inv1 (fun t l h => by simp only [con.directedLengthA, lineVector_inv h]) fun _ _ => by err1

theorem SIa_directedDistance (d : Arr Flt) : SIa (con.directedDistanceA d) :=
  inv2 (fun t p q hp hq => by
    simp only [con.directedDistanceA, shiftPrim_arr, sub_shift hq.val hp.val]) fun _ _ => by err2

theorem SI_withDirection {f : Arr Flt → List (Prim Flt) → Py (Arr Flt)} (h : ∀ d, SIa (f d)) :
    SI (con.withDirection f) := by
  intro t prims p hp
  simp only [con.withDirection, h _ t prims hp]

theorem getChild_shift (p : Prim Flt) (key : Str) :
    (shiftPrim t p).getChild key = (p.getChild key).map (shiftPrim t) := Node.getChild_mapV _ _ _

/-- The midpoint moves along. -/
theorem midpoint_shift {l : Prim Flt} (h : Planar l) : ∃ r : Py (List Flt),
    con.midpointA [l] = r.map Arr.vec ∧ con.midpointA [shiftPrim t l] = r.map (fun m => Arr.vec (shiftL t m)) ∧
    ∀ m, r = .ok m → m.length = 0 ∨ m.length = 2 := by
  simp only [con.midpointA, getChild_shift]
  cases h0 : l.getChild k!"Point0" with
  | error e => exact ⟨.error e, rfl, rfl, by simp⟩
  | ok p0 =>
    cases h1 : l.getChild k!"Point1" with
    | error e => exact ⟨.error e, rfl, rfl, by simp⟩
    | ok p1 =>
      simp only [Except.map, bind, Except.bind, con.coordinateA, shiftPrim_arr]
      rcases planar_cases (h.getChild h0).val with e | ⟨x, x', e⟩ <;>
        rcases planar_cases (h.getChild h1).val with e' | ⟨y, y', e'⟩ <;> rw [e, e']
      · exact ⟨.ok [], rfl, rfl, by simp⟩
      · exact ⟨.error .valueError, rfl, rfl, by simp⟩
      · exact ⟨.error .valueError, rfl, rfl, by simp⟩
      · refine ⟨.ok [1 / ((2 : Nat) : Flt) * (x + y), 1 / ((2 : Nat) : Flt) * (x' + y')], rfl, ?_, by simp⟩
        show Except.ok (Arr.vec [1 / ((2 : Nat) : Flt) * ((x + fin t.1) + (y + fin t.1)),
          1 / ((2 : Nat) : Flt) * ((x' + fin t.2) + (y' + fin t.2))]) = Except.ok (Arr.vec
          [1 / ((2 : Nat) : Flt) * (x + y) + fin t.1, 1 / ((2 : Nat) : Flt) * (x' + y') + fin t.2])
        have half : (1 : Flt) / ((2 : Nat) : Flt) = fin (1 / 2) := by
          rw [one_eq, fin_natCast, fin_div (by norm_num)]; norm_num
        have key : ∀ (x y : Flt) (s : ℝ), fin (1 / 2) * ((x + fin s) + (y + fin s))
            = fin (1 / 2) * (x + y) + fin s := by
          intro x y s
          cases x <;> cases y <;> simp
          ring
        rw [half, key, key]

theorem SIa_midpointDistance (d : Arr Flt) : SIa (con.midpointDirectedDistanceA d) :=
  inv2 (fun t p q hp hq => by
    obtain ⟨r, e1, e2, h⟩ := midpoint_shift (t := t) hp
    obtain ⟨r', e1', e2', h'⟩ := midpoint_shift (t := t) hq
    simp only [con.midpointDirectedDistanceA, e1, e2, e1', e2']
    cases r' with
    | error e => rfl
    | ok m' =>
      cases r with
      | error e => rfl
      | ok m =>
        simp only [Except.map, bind, Except.bind, sub_shift (h' m' rfl) (h m rfl)])
    fun _ _ => by err2

theorem SIa_angle : SIa con.angleA :=
  inv2 (fun t p q hp hq => by simp only [con.angleA, unit_inv hp, unit_inv hq]) fun _ _ => by err2

theorem SIa_aspect : SIa con.aspectRatioA :=
  inv1 (fun t q hq => by
    simp only [con.aspectRatioA, getChild_shift]
    cases h0 : q.getChild k!"Line0" with
    | error e => rfl
    | ok l0 =>
      simp only [Except.map, bind, Except.bind, length_inv (hq.getChild h0)]
      cases con.lengthA [l0] with
      | error e => rfl
      | ok w =>
        cases h1 : q.getChild k!"Line1" with
        | error e => rfl
        | ok l1 => simp only [length_inv (hq.getChild h1)]) fun _ _ => by err1

theorem inv2p {f : List (Prim Flt) → Param Flt → Py (Arr Flt)}
    (h : ∀ t p q r, Planar p → Planar q → f [shiftPrim t p, shiftPrim t q] r = f [p, q] r)
    (h0 : ∀ ps r, ps.length ≠ 2 → f ps r = .error .valueError) : SI f := by
  intro t prims r hp
  by_cases hl : prims.length = 2
  · obtain ⟨p, q, rfl⟩ := List.length_eq_two.mp hl
    exact h t p q r (hp p (by simp)) (hp q (by simp))
  · rw [h0 _ _ hl, h0 _ _ (by simpa using hl)]

theorem pointOn_inv {p l : Prim Flt} (hp : Planar p) (hl : Planar l) (r : Param Flt) :
    con.pointOnLineDistanceA [shiftPrim t p, shiftPrim t l] r = con.pointOnLineDistanceA [p, l] r := by
  simp only [con.pointOnLineDistanceA, getChild_shift, unit_inv hl, shiftPrim_arr]
  cases r.truthy with
  | error e => rfl
  | ok b =>
    cases con.unitLineVectorA [l] with
    | error e => rfl
    | ok u =>
      simp only [bind, Except.bind]
      cases hc : l.getChild (if b then k!"Point1" else k!"Point0") with
      | error e => rfl
      | ok o =>
        simp only [Except.map, shiftPrim_arr, sub_shift hp.val (hl.getChild hc).val]

theorem SI_pointOn : SI con.pointOnLineDistanceA :=
  inv2p (fun t p q r hp hq => pointOn_inv hp hq r) fun _ _ _ => by err2p

theorem SI_pointTo : SI con.pointToLineDistanceA :=
  inv2p (fun t p l r hp hl => by
    simp only [con.pointToLineDistanceA, getChild_shift, unit_inv hl, shiftPrim_arr]
    cases con.unitLineVectorA [l] with
    | error e => rfl
    | ok u =>
      cases r.truthy with
      | error e => rfl
      | ok b =>
        simp only [bind, Except.bind]
        split
        · rfl
        · split
          · rfl
          · cases hc : l.getChild k!"Point0" with
            | error e => rfl
            | ok o =>
              simp only [Except.map, shiftPrim_arr, sub_shift hp.val (hl.getChild hc).val])
    fun _ _ _ => by err2p

theorem SI_relPoint : SI con.relativePointOnLineDistanceA :=
  inv2p (fun t p l r hp hl => by
    simp only [con.relativePointOnLineDistanceA, pointOn_inv hp hl, length_inv hl])
    fun _ _ _ => by err2p

theorem coincident_inv {p q : Prim Flt} (hp : Planar p) (hq : Planar q) :
    ct.coincidentA [shiftPrim t p, shiftPrim t q] = ct.coincidentA [p, q] := by
  simp only [ct.coincidentA, shiftPrim_arr, sub_shift hq.val hp.val]

theorem SIa_coincident : SIa (ct.coincidentA (K := Flt)) :=
  inv2 (fun t p q hp hq => coincident_inv hp hq) fun _ _ => by err2

theorem SIa_vertical : SIa (ct.verticalA (K := Flt)) := by
  intro t prims hp; simp only [ct.verticalA, SIa_lineVector t prims hp]
theorem SIa_horizontal : SIa (ct.horizontalA (K := Flt)) := by
  intro t prims hp; simp only [ct.horizontalA, SIa_lineVector t prims hp]

theorem SIa_orthogonal : SIa (ct.orthogonalA (K := Flt)) :=
  inv2 (fun t p q hp hq => by simp only [ct.orthogonalA, lineVector_inv hp, lineVector_inv hq])
    fun _ _ => by err2

theorem parallel_inv {p q : Prim Flt} (hp : Planar p) (hq : Planar q) :
    ct.parallelA [shiftPrim t p, shiftPrim t q] = ct.parallelA [p, q] := by
  simp only [ct.parallelA, lineVector_inv hp, lineVector_inv hq]

theorem SIa_parallel : SIa (ct.parallelA (K := Flt)) :=
  inv2 (fun t p q hp hq => parallel_inv hp hq) fun _ _ => by err2

theorem primNodeInit_check {K τ : Type} (C : ClassTable τ) (ty : τ) (n : Nat) (tys : List τ) :
    ∃ u : Py Unit, ∀ (v : PVal K) (cs : List (Str × Node τ (PVal K))), v.arr.length = n →
      cs.map (·.2.ty) = tys → primNodeInit C ty v cs = u.map fun _ => .mk ty v cs := by
  by_cases hn : n = C.size ty
  · cases hs : C.sig ty with
    | tuple types =>
      refine ⟨validatePrims C tys types, fun v cs h1 h2 => ?_⟩
      simp only [primNodeInit, h1, hn, h2, hs, ne_eq, not_true, if_false]
      cases validatePrims C tys types <;> rfl
    | anyOf alts =>
      refine ⟨(anyMatch C tys alts).bind fun b => if b then .ok () else .error .valueError,
        fun v cs h1 h2 => ?_⟩
      simp only [primNodeInit, h1, hn, h2, hs, ne_eq, not_true, if_false]
      cases anyMatch C tys alts with
      | error e => rfl
      | ok b => cases b <;> rfl
  · refine ⟨.error .assertionError, fun v cs h1 h2 => ?_⟩
    simp only [primNodeInit, h1, ne_eq, hn, not_false_iff, if_true]
    rfl

theorem primInit_shift (ty : PrimType) (i : Nat) (ks : List Str) (ps : List (Prim Flt)) :
    primInit ty ⟨i, []⟩ ks (ps.map (shiftPrim t)) = (primInit ty ⟨i, []⟩ ks ps).map (shiftPrim t) := by
  have h1 : dictOfZip ks (ps.map (shiftPrim t))
      = (dictOfZip ks ps).map fun kc => (kc.1, shiftPrim t kc.2) := dictOfZip_map _ _ _
  have h2 : ((dictOfZip ks ps).map fun kc => (kc.1, shiftPrim t kc.2)).map (·.2.ty)
      = (dictOfZip ks ps).map (·.2.ty) := by
    simp [shiftPrim_ty]
  obtain ⟨u, hu⟩ := primNodeInit_check (K := Flt) PrimType.table ty 0 ((dictOfZip ks ps).map (·.2.ty))
  rw [primInit, primInit, h1, hu _ _ rfl h2, hu _ _ rfl rfl]
  cases u with
  | error e => rfl
  | ok _ =>
    show Except.ok _ = Except.ok _
    rw [shiftPrim, Node.mapV_mk]
    rfl

theorem primInit_shape {K : Type} {ty : PrimType} {v : PVal K} {ks : List Str} {ps : List (Prim K)}
    {p : Prim K} (h : primInit ty v ks ps = .ok p) : p = .mk ty v (dictOfZip ks ps) := by
  obtain ⟨u, hu⟩ := primNodeInit_check (K := K) PrimType.table ty v.arr.length
    ((dictOfZip ks ps).map (·.2.ty))
  rw [primInit, hu _ _ rfl rfl] at h
  cases u with
  | error e => cases h
  | ok _ => cases h; rfl

theorem pyIndex_mem {γ : Type} {xs : List γ} {i : Int} {x : γ} (h : pyIndex xs i = .ok x) : x ∈ xs := by
  simp only [pyIndex] at h
  generalize (if i < 0 then i + (xs.length : Int) else i) = j at h
  by_cases hj : j < 0
  · simp [hj] at h
  · simp only [hj, if_false] at h
    cases hx : xs[j.toNat]? with
    | none => simp [hx] at h
    | some y => simp only [hx, Except.ok.injEq] at h; exact h ▸ List.mem_of_getElem? hx

theorem SIa_collinear : SIa (ct.collinearA (K := Flt)) :=
  inv2 (fun t p q hp hq => by
    have g : ∀ x : Prim Flt, (shiftPrim t x).getInt 0 = (x.getInt 0).map (shiftPrim t) :=
      fun x => Node.getInt_mapV _ _ _
    have pl : ∀ {x y : Prim Flt}, Planar x → x.getInt 0 = .ok y → Planar y := by
      intro x y hx hy
      exact hx.values (pyIndex_mem hy)
    simp only [ct.collinearA, g]
    cases h1 : q.getInt 0 with
    | error e => rfl
    | ok a =>
      cases h0 : p.getInt 0 with
      | error e => rfl
      | ok b =>
        have ha := pl hq h1
        have hb := pl hp h0
        have e := primInit_shift (t := t) .line 0 [k!"Point0", k!"Point1"] [a, b]
        simp only [List.map_cons, List.map_nil] at e
        simp only [Except.map, bind, Except.bind, e]
        cases h2 : primInit .line (⟨0, []⟩ : PVal Flt) [k!"Point0", k!"Point1"] [a, b] with
        | error e => rfl
        | ok l2 =>
          have hl2 : Planar l2 := by
            have hl := primInit_shape h2
            rw [hl, Planar.allN, AllN_mk]
            refine ⟨by simp, fun k c hc => ?_⟩
            have := mem_dictOfZip hc
            simp only [List.mem_cons, List.not_mem_nil, or_false] at this
            rcases this with rfl | rfl
            · exact ha
            · exact hb
          simp only [parallel_inv hp hq, parallel_inv hp hl2])
    fun _ _ => by err2

theorem SI_coincidentLines : SI (ct.coincidentLinesA (K := Flt)) :=
  inv2p (fun t p q r hp hq => by
    simp only [ct.coincidentLinesA, getChild_shift]
    cases r.truthy with
    | error e => rfl
    | ok b =>
      cases h10 : q.getChild k!"Point0" with
      | error e => rfl
      | ok p10 =>
        cases h11 : q.getChild k!"Point1" with
        | error e => rfl
        | ok p11 =>
          cases h00 : p.getChild k!"Point0" with
          | error e => rfl
          | ok p00 =>
            cases h01 : p.getChild k!"Point1" with
            | error e => rfl
            | ok p01 =>
              simp only [Except.map, bind, Except.bind,
                coincident_inv (hq.getChild h10) (hp.getChild h01),
                coincident_inv (hq.getChild h10) (hp.getChild h00),
                coincident_inv (hq.getChild h11) (hp.getChild h01),
                coincident_inv (hq.getChild h11) (hp.getChild h00)])
    fun _ _ _ => by err2p

end inv

section trees
variable {K τ α : Type}

theorem unflattenChildren_all {P : τ → α → Prop}
    {rec : List (FlatStruct τ α) → Py (Node τ α × List (FlatStruct τ α))}
    (hrec : ∀ ss r rest, (∀ s ∈ ss, P s.ty s.value) → rec ss = .ok (r, rest) →
      AllN P r ∧ ∀ s ∈ rest, P s.ty s.value) (ks : List Str) :
    ∀ ss cs rest, (∀ s ∈ ss, P s.ty s.value) → unflattenChildren rec ks ss = .ok (cs, rest) →
      (∀ c ∈ cs, AllN P c) ∧ ∀ s ∈ rest, P s.ty s.value := by
  induction ks with
  | nil =>
    intro ss cs rest h e
    simp only [unflattenChildren, Except.ok.injEq, Prod.mk.injEq] at e
    obtain ⟨rfl, rfl⟩ := e
    exact ⟨by simp, h⟩
  | cons k ks ih =>
    intro ss cs rest h e
    simp only [unflattenChildren, bind, Except.bind] at e
    cases h1 : rec ss with
    | error e' => simp [h1] at e
    | ok r =>
      obtain ⟨c, rest1⟩ := r
      obtain ⟨a1, a2⟩ := hrec _ _ _ h h1
      simp only [h1] at e
      cases h2 : unflattenChildren rec ks rest1 with
      | error e' => simp [h2] at e
      | ok r2 =>
        obtain ⟨cs2, rest2⟩ := r2
        simp only [h2, Except.ok.injEq, Prod.mk.injEq] at e
        obtain ⟨rfl, rfl⟩ := e
        obtain ⟨b1, b2⟩ := ih _ _ _ a2 h2
        exact ⟨fun c' hc' => by
          rcases List.mem_cons.mp hc' with rfl | hc'
          · exact a1
          · exact b1 c' hc', b2⟩

theorem unflattenF_all {P : τ → α → Prop} (fuel : Nat) :
    ∀ ss r rest, (∀ s ∈ ss, P s.ty s.value) → unflattenF fuel ss = .ok (r, rest) →
      AllN P r ∧ ∀ s ∈ rest, P s.ty s.value := by
  induction fuel with
  | zero =>
    intro ss r rest h e
    cases ss <;> simp [unflattenF] at e
  | succ fuel ih =>
    intro ss r rest h e
    cases ss with
    | nil => simp [unflattenF] at e
    | cons s ss =>
      simp only [unflattenF, bind, Except.bind] at e
      cases h1 : unflattenChildren (unflattenF fuel) s.childKeys ss with
      | error e' => simp [h1] at e
      | ok r1 =>
        obtain ⟨cs, rest1⟩ := r1
        simp only [h1, Except.ok.injEq, Prod.mk.injEq] at e
        obtain ⟨rfl, rfl⟩ := e
        obtain ⟨a1, a2⟩ := unflattenChildren_all ih _ _ _ _ (fun s hs => h s (by simp [hs])) h1
        exact ⟨AllN_mk.mpr ⟨h s (by simp), fun k c hc => a1 c (mem_dictOfZip hc)⟩, a2⟩

theorem unflatten_all {P : τ → α → Prop} {ss : List (FlatStruct τ α)} {r : Node τ α}
    {rest : List (FlatStruct τ α)} (h : ∀ s ∈ ss, P s.ty s.value) (e : unflatten ss = .ok (r, rest)) :
    AllN P r := (unflattenF_all _ _ _ _ h e).1

/-- A property of all nodes of construction trees. -/
abbrev ConsPred (K : Type) := ConsClass K → ConsVal K → Prop

theorem consInit_all {P : ConsPred K} {cls : ConsClass K} {v : ConsVal K}
    {children : List (Str × Cons K)} {r : Cons K} (e : consInit cls v children = .ok r)
    (h : P cls v) (hc : ∀ k c, (k, c) ∈ children → AllN P c) : AllN P r := by
  simp only [consInit] at e
  split at e
  · cases e
  · split at e
    · cases e
    · cases e
      exact AllN_mk.mpr ⟨h, hc⟩

theorem construction_all {P : ConsPred K} {cls : ConsClass K} {keys : List Str}
    {children : List (Cons K)} {cpk : List (List Str)}
    {cp : List (Param K) → Py (List (List (Param K)))} {sig : ConsSig} {r : Cons K}
    (e : construction cls keys children cpk cp sig = .ok r)
    (h : P cls ⟨cpk, cp, sig⟩) (hc : ∀ c ∈ children, AllN P c) : AllN P r :=
  consInit_all e h fun _ c hm => hc c (mem_dictOfZip hm)

theorem leaf_all {P : ConsPred K} {cls : ConsClass K} {sig : ConsSig}
    (h : P cls ⟨[], fun _ => .ok [], sig⟩) : AllN P (leaf cls sig) :=
  AllN_mk.mpr ⟨h, by simp⟩

theorem transformNodes_all {P Q : ConsPred K} {f : Cons K → ConsClass K × ConsVal K × List Str}
    {c r : Cons K} (hc : AllN P c) (hf : ∀ a : Cons K, P a.ty a.value → Q (f a).1 (f a).2.1)
    (e : transformNodes f c = .ok r) : AllN Q r := by
  simp only [transformNodes, bind, Except.bind] at e
  split at e
  · cases e
  · rename_i x hx
    cases e
    refine unflatten_all (P := Q) ?_ hx
    intro s hs
    obtain ⟨kc, hkc, rfl⟩ := List.mem_map.mp hs
    exact hf _ (hc.iterFlat [] kc hkc)

theorem transformSum_all [PyNum K] {P Q R : ConsPred K} {a b r : Cons K} (ha : AllN P a)
    (hb : AllN Q b)
    (hf : ∀ (a b : Cons K) n, P a.ty a.value → Q b.ty b.value → sumNode a b = .ok n → R n.1 n.2.1)
    (e : transformSum a b = .ok r) : AllN R r := by
  have key : ∀ (as bs : List (Str × Cons K)) ss, (∀ kc ∈ as, P kc.2.ty kc.2.value) →
      (∀ kc ∈ bs, Q kc.2.ty kc.2.value) → sumStructs as bs = .ok ss → ∀ s ∈ ss, R s.ty s.value := by
    intro as
    induction as with
    | nil => intro bs ss _ _ e; simp only [sumStructs, Except.ok.injEq] at e; subst e; simp
    | cons x as ih =>
      intro bs ss h1 h2 e
      cases bs with
      | nil => simp only [sumStructs, Except.ok.injEq] at e; subst e; simp
      | cons y bs =>
        obtain ⟨kx, x⟩ := x
        obtain ⟨ky, y⟩ := y
        simp only [sumStructs, bind, Except.bind] at e
        cases hn : sumNode x y with
        | error e' => simp [hn] at e
        | ok n =>
          simp only [hn] at e
          cases hr : sumStructs as bs with
          | error e' => simp [hr] at e
          | ok rest =>
            simp only [hr, Except.ok.injEq] at e
            subst e
            intro s hs
            rcases List.mem_cons.mp hs with rfl | hs
            · exact hf x y n (h1 (kx, x) (by simp)) (h2 (ky, y) (by simp)) hn
            · exact ih bs rest (fun kc h => h1 kc (by simp [h])) (fun kc h => h2 kc (by simp [h])) hr s hs
  simp only [transformSum, bind, Except.bind] at e
  cases hs : sumStructs (a.iterFlat []) (b.iterFlat []) with
  | error e' => simp [hs] at e
  | ok ss =>
    simp only [hs] at e
    cases hu : unflatten ss with
    | error e' => simp [hu] at e
    | ok u =>
      simp only [hu, Except.ok.injEq] at e
      subst e
      exact unflatten_all (key _ _ _ (ha.iterFlat []) (hb.iterFlat []) hs) hu

theorem transformPartial_all {P Q : ConsPred K} {c r : Cons K} {freeze : List (Param K)}
    (hc : AllN P c) (h : Q { name := k!"Partial"
                             isScalar := c.ty.isScalar
                             axisKind := c.ty.axisKind
                             assem := fun prims params => c.ty.assem prims (params ++ freeze) }
      { childPrimKeys := c.value.childPrimKeys
        childParams := fun params => c.value.childParams (params ++ freeze)
        sig := { c.value.sig with
          paramTypes := pySlice c.value.sig.paramTypes none (some (-(freeze.length : Int))) } })
    (hPQ : ∀ cls v, P cls v → Q cls v) (e : transformPartial c freeze = .ok r) : AllN Q r :=
  consInit_all e h fun _ _ hm => (hc.child hm).mono hPQ

theorem vector_all [PyNum K] {P : ConsPred K}
    (h : ∀ v : ConsVal K, P { name := k!"Vector", assem := valueAssem } v) :
    ∀ (n : Node Unit Nat) (r : Cons K), vector n = .ok r → AllN P r := by
  intro n
  induction n using Node.induct with
  | _ t size cs ih =>
    intro r e
    rw [vector] at e
    simp only [bind, Except.bind] at e
    have hl : ∀ (cs : List (Str × Node Unit Nat)) (vs : List (Cons K)),
        (∀ k c, (k, c) ∈ cs → ∀ r, vector c = .ok r → AllN P r) → vectorL cs = .ok vs →
        ∀ v ∈ vs, AllN P v := by
      intro cs
      induction cs with
      | nil => intro vs _ e; simp only [vectorL, Except.ok.injEq] at e; subst e; simp
      | cons kc cs ihc =>
        intro vs hcs e
        obtain ⟨k, c⟩ := kc
        simp only [vectorL, bind, Except.bind] at e
        cases h1 : vector (K := K) c with
        | error e' => simp [h1] at e
        | ok v1 =>
          cases h2 : vectorL (K := K) cs with
          | error e' => simp [h1, h2] at e
          | ok v2 =>
            simp only [h1, h2, Except.ok.injEq] at e
            subst e
            intro v hv
            rcases List.mem_cons.mp hv with rfl | hv
            · exact hcs k c (by simp) _ h1
            · exact ihc v2 (fun k c hc => hcs k c (by simp [hc])) h2 v hv
    cases hv : vectorL (K := K) cs with
    | error e' => simp [hv] at e
    | ok vs =>
      simp only [hv] at e
      exact construction_all e (h _) (hl cs vs ih hv)

end trees

section siTrees

variable {t : ℝ × ℝ}

/-- The own values of the node ignore translation. -/
def SIP : ConsPred Flt := fun cls _ => SI cls.assem

theorem pySlice_map {γ δ : Type} (g : γ → δ) (xs : List γ) (a b : Option Int) :
    pySlice (xs.map g) a b = (pySlice xs a b).map g := by
  simp [pySlice, List.map_take, List.map_drop]

theorem split2_map {γ δ : Type} (g : γ → δ) (a b : Nat) (xs : List γ) :
    split2 a b (xs.map g) = ((split2 a b xs).1.map g, (split2 a b xs).2.map g) := by
  simp [split2, chunk, cumsum, unpack, pySlice_map]

theorem split2_mem {γ : Type} {a b : Nat} {xs : List γ} {x : γ}
    (h : x ∈ (split2 a b xs).1 ∨ x ∈ (split2 a b xs).2) : x ∈ xs := by
  have key : ∀ a b : Option Int, x ∈ pySlice xs a b → x ∈ xs := by
    intro a b h
    simp only [pySlice] at h
    exact List.mem_of_mem_drop (List.mem_of_mem_take h)
  rcases h with h | h
  · exact key (some (Int.ofNat 0)) (some (Int.ofNat (0 + a))) h
  · exact key (some (Int.ofNat (0 + a))) (some (Int.ofNat (0 + a + b))) h

theorem sumNode_SI {a b : Cons Flt} {n : ConsClass Flt × ConsVal Flt × List Str}
    (ha : SIP a.ty a.value) (hb : SIP b.ty b.value) (e : sumNode a b = .ok n) : SIP n.1 n.2.1 := by
  simp only [sumNode] at e
  split at e
  · cases e
  · split at e
    · cases e
    · cases e
      intro t prims params hp
      simp only [split2_map]
      rw [ha t _ _ fun p h => hp p (split2_mem (.inl h)), hb t _ _ fun p h => hp p (split2_mem (.inr h))]

theorem scalarNode_SI {name : Str} {combine : Arr Flt → Arr Flt → Py (Arr Flt)} {a b : Cons Flt}
    (ha : SIP a.ty a.value) (hb : SIP b.ty b.value) :
    SIP (scalarNode name combine a b).1 (scalarNode name combine a b).2.1 := by
  intro t prims params hp
  simp only [scalarNode, split2_map]
  rw [ha t _ _ fun p h => hp p (split2_mem (.inl h)), hb t _ _ fun p h => hp p (split2_mem (.inr h))]

theorem AllN.root {τ α : Type} {P : τ → α → Prop} {n : Node τ α} (h : AllN P n) : P n.ty n.value :=
  h [] n (.here n)

theorem partial_SI {c r : Cons Flt} {freeze : List (Param Flt)} (hc : AllN SIP c)
    (e : transformPartial c freeze = .ok r) : AllN SIP r :=
  transformPartial_all hc (fun t prims params hp => hc.root t prims _ hp) (fun _ _ h => h) e

theorem scalarCons_SI : AllN SIP (scalarCons (K := Flt)) := leaf_all SI_value

theorem toScalar_SI {s : Operand Flt} {r : Cons Flt} (hs : ∀ c, s = .cons c → AllN SIP c)
    (e : toScalar s = .ok r) : AllN SIP r := by
  cases s with
  | num x => exact partial_SI scalarCons_SI e
  | cons c =>
    simp only [toScalar] at e
    split at e
    · cases e; exact hs _ rfl
    · cases e

theorem scalarMul_SI {c r : Cons Flt} {s : Operand Flt} (hc : AllN SIP c)
    (hs : ∀ c, s = .cons c → AllN SIP c) (e : transformScalarMul c s = .ok r) : AllN SIP r := by
  simp only [transformScalarMul, bind, Except.bind] at e
  cases hb : toScalar s with
  | error e' => simp [hb] at e
  | ok b =>
    simp only [hb] at e
    exact transformNodes_all hc (fun a ha => scalarNode_SI ha (toScalar_SI hs hb).root) e

theorem sum_SI {a b r : Cons Flt} (ha : AllN SIP a) (hb : AllN SIP b)
    (e : transformSum a b = .ok r) : AllN SIP r :=
  transformSum_all ha hb (fun _ _ _ h1 h2 e => sumNode_SI h1 h2 e) e

theorem constraint_SI {c r : Cons Flt} (hc : AllN SIP c) (e : transformConstraint c = .ok r) :
    AllN SIP r := by
  simp only [transformConstraint, bind, Except.bind] at e
  split at e
  · cases e
  · split at e
    · cases e
    · rename_i v hv
      split at e
      · cases e
      · rename_i m hm
        exact sum_SI hc (scalarMul_SI (vector_all (fun _ => SI_value) _ _ hv) (by simp) hm) e

theorem map_SI {c r : Cons Flt} {n : Nat} (hc : AllN SIP c) (e : transformMap c n = .ok r) :
    AllN SIP r :=
  construction_all e (SI_const fun _ => .ok (.vec [])) fun c' h => by
    rw [List.eq_of_mem_replicate h]; exact hc

/-! ### Evaluation -/

theorem pyMap_map_comm {γ δ : Type} (g : γ → γ) (f f' : δ → Py γ) (h : ∀ x, f' x = (f x).map g)
    (xs : List δ) : pyMap f' xs = (pyMap f xs).map (List.map g) := by
  induction xs with
  | nil => rfl
  | cons x xs ih =>
    simp only [pyMap, h, ih]
    cases f x with
    | error e => rfl
    | ok y => cases pyMap f xs <;> rfl

theorem pyMap_ok_mem {γ δ : Type} {f : δ → Py γ} {xs : List δ} {ys : List γ}
    (h : pyMap f xs = .ok ys) {y : γ} (hy : y ∈ ys) : ∃ x ∈ xs, f x = .ok y := by
  induction xs generalizing ys with
  | nil => simp only [pyMap, Except.ok.injEq] at h; subst h; simp at hy
  | cons x xs ih =>
    simp only [pyMap, bind, Except.bind] at h
    cases hx : f x with
    | error e => simp [hx] at h
    | ok z =>
      cases hr : pyMap f xs with
      | error e => simp [hx, hr] at h
      | ok zs =>
        simp only [hx, hr, Except.ok.injEq] at h
        subst h
        rcases List.mem_cons.mp hy with rfl | hy
        · exact ⟨x, by simp, hx⟩
        · obtain ⟨x', hx', e⟩ := ih hr hy
          exact ⟨x', by simp [hx'], e⟩

theorem residuals_shift {cs : List (Cons Flt)} (hcs : ∀ c ∈ cs, SI c.ty.assem) :
    ∀ (pss : List (List (Prim Flt))) (qss : List (List (Param Flt))),
      (∀ ps ∈ pss, ∀ p ∈ ps, Planar p) →
      residuals cs (pss.map (List.map (shiftPrim t))) qss = residuals cs pss qss := by
  induction cs with
  | nil => intro pss qss _; simp [residuals]
  | cons c cs ih =>
    intro pss qss hp
    cases pss with
    | nil => simp [residuals]
    | cons ps pss =>
      cases qss with
      | nil => simp [residuals]
      | cons q qss =>
        simp only [List.map_cons, residuals, assemAtleast1d,
          hcs c (by simp) t ps q (hp ps (by simp)),
          ih (fun c h => hcs c (by simp [h])) pss qss (fun ps h => hp ps (by simp [h]))]

theorem call_shift {c : Cons Flt} (hc : AllN SIP c) (t : ℝ × ℝ) (prims : List (Prim Flt))
    (params : List (Param Flt)) (hp : ∀ p ∈ prims, Planar p) :
    c.call (prims.map (shiftPrim t)) params = c.call prims params := by
  have hv : c.validatePrims (prims.map (shiftPrim t)) = c.validatePrims prims := by
    have hz : ∀ (ps : List (Prim Flt)) (ts : List PrimType),
        List.zipWith (fun (p : Prim Flt) t => !p.ty.sub t) (ps.map (shiftPrim t)) ts
          = List.zipWith (fun (p : Prim Flt) t => !p.ty.sub t) ps ts := by
      intro ps
      induction ps with
      | nil => intro ts; simp
      | cons p ps ih => intro ts; cases ts <;> simp [ih, shiftPrim_ty]
    simp only [Cons.validatePrims, List.length_map, hz]
  have hr : rootPrim (argKeys prims.length) (prims.map (shiftPrim t))
      = (rootPrim (argKeys prims.length) prims).map (shiftPrim t) := primInit_shift _ _ _ _
  simp only [Cons.call, hv, List.length_map, hr]
  cases c.validatePrims prims with
  | error e => rfl
  | ok _ =>
    cases c.validateParams params with
    | error e => rfl
    | ok _ =>
      cases hroot : rootPrim (argKeys prims.length) prims with
      | error e => rfl
      | ok root =>
        cases c.rootPrimKeys (argKeys prims.length) with
        | error e => rfl
        | ok keys =>
          cases c.rootParams params with
          | error e => rfl
          | ok ps =>
            simp only [Except.map, bind, Except.bind, assemFromTree]
            have hpl : Planar root := by
              rw [primInit_shape hroot, Planar.allN, AllN_mk]
              exact ⟨by simp, fun k c hc => hp c (mem_dictOfZip hc)⟩
            have hlk : ∀ ks, lookupPrims (shiftPrim t root) ks
                = (lookupPrims root ks).map (List.map (shiftPrim t)) := fun ks =>
              pyMap_map_comm _ _ _ (fun k => getChild_shift root k) ks
            rw [pyMap_map_comm _ _ _ hlk]
            cases hl : pyMap (lookupPrims root) ((keys.iterFlat []).map (·.2.value)) with
            | error e => rfl
            | ok pss =>
              simp only [Except.map]
              rw [residuals_shift]
              · intro c' hc'
                obtain ⟨kc, hkc, rfl⟩ := List.mem_map.mp hc'
                exact hc.iterFlat [] kc hkc
              · intro ps hps p hpp
                obtain ⟨ks, _, hks⟩ := pyMap_ok_mem hl hps
                obtain ⟨k, _, hk⟩ := pyMap_ok_mem hks hpp
                exact hpl.getChild hk

end siTrees

section shipped

theorem bind_ok' {α β : Type} {x : Py α} {f : α → Py β} {r : β} (h : (x >>= f) = .ok r) :
    ∃ a, x = .ok a ∧ f a = .ok r := by
  cases x with
  | error e => cases h
  | ok a => exact ⟨a, rfl, h⟩

theorem SIP_leaf0 {name : Str} {types : List PrimType} {size : Nat}
    {f : List (Prim Flt) → Py (Arr Flt)} (h : SIa f) : AllN SIP (con.leaf0 name types size f) :=
  leaf_all (SI_of f h)

theorem SIP_leaf1 {name : Str} {types : List PrimType} {pt : ParamType} {size : Nat}
    {f : List (Prim Flt) → Param Flt → Py (Arr Flt)} (h : SI f) :
    AllN SIP (con.leaf1 name types pt size f) := leaf_all (SI_of1 f h)

theorem SIP_one {cls : ConsClass Flt} {keys : List Str}
    {children : List (Cons Flt)} {cpk : List (List Str)}
    {cp : List (Param Flt) → Py (List (List (Param Flt)))} {sig : ConsSig} {r : Cons Flt}
    (e : construction cls keys children cpk cp sig = .ok r) (n : Nat)
    (h : cls.assem = compoundAssem n) (hc : ∀ c ∈ children, AllN SIP c) : AllN SIP r :=
  construction_all e (by show SI cls.assem; rw [h]; exact SI_compound n) hc

theorem SIP_margin {outer : Bool} {side : con.Side} {r : Cons Flt}
    (e : con.margin outer side = .ok r) : AllN SIP r := by
  have hx : AllN SIP (con.midpointXDistance (K := Flt)) := SIP_leaf0 (SIa_midpointDistance _)
  have hy : AllN SIP (con.midpointYDistance (K := Flt)) := SIP_leaf0 (SIa_midpointDistance _)
  cases side <;> exact SIP_one e 0 rfl (by simp [hx, hy])

theorem SIP_ctMargin {outer : Bool} {side : con.Side} {r : Cons Flt}
    (e : ct.margin outer side = .ok r) : AllN SIP r := by
  obtain ⟨c, h1, h2⟩ := bind_ok' e
  exact constraint_SI (SIP_margin h1) h2

theorem SIP_relLen {r : Cons Flt} (e : ct.relativeLength = .ok r) : AllN SIP r := by
  have hl : AllN SIP (con.length (K := Flt)) := SIP_leaf0 SIa_length
  obtain ⟨m, h1, h2⟩ := bind_ok' e
  obtain ⟨s, h3, h4⟩ := bind_ok' h2
  have hm := scalarMul_SI hl (by simp) h1
  have hs := scalarMul_SI hm (fun c hc => by cases hc; exact scalarCons_SI) h3
  exact sum_SI hl hs h4

theorem SIP_outerMargins {n : Nat} {side : con.Side} {r : Cons Flt}
    (e : ct.outerMarginArray n side = .ok r) : AllN SIP r := by
  obtain ⟨m, h1, h2⟩ := bind_ok' e
  exact construction_all h2 (SI_const fun _ => .ok (.vec []))
    fun c' h => by rw [List.eq_of_mem_replicate h]; exact SIP_ctMargin h1

theorem SIP_align {row : Bool} {r : Cons Flt} (e : ct.align row = .ok r) : AllN SIP r := by
  have hc : AllN SIP (ct.collinear (K := Flt)) := SIP_leaf0 SIa_collinear
  cases row
  · unfold ct.align at e
    simp only [Bool.false_eq_true, if_false] at e
    exact SIP_one e 0 rfl (by simp [hc])
  · unfold ct.align at e
    simp only [if_true] at e
    exact SIP_one e 0 rfl (by simp [hc])

theorem SIP_faces {side : con.Side} {r : Cons Flt} (e : ct.coincidentOutwardFaces side = .ok r) :
    AllN SIP r := by
  have hc : AllN SIP (ct.coincidentLines (K := Flt)) := SIP_leaf1 SI_coincidentLines
  exact SIP_one e 0 rfl (by simp [hc])

theorem SIP_rectGrid {m n : Nat} {r : Cons Flt} (e : ct.rectilinearGrid m n = .ok r) :
    AllN SIP r := by
  obtain ⟨a, h1, h2⟩ := bind_ok' e
  obtain ⟨row, h3, h4⟩ := bind_ok' h2
  obtain ⟨b, h5, h6⟩ := bind_ok' h4
  obtain ⟨col, h7, h8⟩ := bind_ok' h6
  refine SIP_one h8 0 rfl fun c hc => ?_
  rcases List.mem_append.mp hc with hc | hc
  · rw [List.eq_of_mem_replicate hc]; exact map_SI (SIP_align h1) h3
  · rw [List.eq_of_mem_replicate hc]; exact map_SI (SIP_align h5) h7

theorem SIP_grid {m n : Nat} {r : Cons Flt} (e : ct.grid m n = .ok r) : AllN SIP r := by
  obtain ⟨rect, h1, e⟩ := bind_ok' e
  obtain ⟨l1, h2, e⟩ := bind_ok' e
  obtain ⟨w, h3, e⟩ := bind_ok' e
  obtain ⟨l2, h4, e⟩ := bind_ok' e
  obtain ⟨h, h5, e⟩ := bind_ok' e
  obtain ⟨cm, h6, e⟩ := bind_ok' e
  obtain ⟨rm, h7, e⟩ := bind_ok' e
  refine SIP_one e 4 rfl fun c hc => ?_
  simp only [List.mem_cons, List.not_mem_nil, or_false] at hc
  rcases hc with rfl | rfl | rfl | rfl | rfl
  · exact SIP_rectGrid h1
  · exact map_SI (SIP_relLen h2) h3
  · exact map_SI (SIP_relLen h4) h5
  · exact SIP_outerMargins h6
  · exact SIP_outerMargins h7

theorem SIP_shipped (s : Shipped) (hs : s ≠ .fix) {c : Cons Flt} (e : s.build = .ok c) :
    AllN SIP c := by
  have xl : AllN SIP (con.xLength (K := Flt)) := SIP_leaf0 (SIa_directedLength _)
  have yl : AllN SIP (con.yLength (K := Flt)) := SIP_leaf0 (SIa_directedLength _)
  have hh : AllN SIP (ct.horizontal (K := Flt)) := SIP_leaf0 SIa_horizontal
  have hv : AllN SIP (ct.vertical (K := Flt)) := SIP_leaf0 SIa_vertical
  cases s with
  | fix => exact absurd rfl hs
  | directedDistance =>
    exact constraint_SI (SIP_leaf1 (SI_withDirection SIa_directedDistance)) e
  | xDistance => exact constraint_SI (SIP_leaf0 (SIa_directedDistance _)) e
  | yDistance => exact constraint_SI (SIP_leaf0 (SIa_directedDistance _)) e
  | coincident => cases e; exact SIP_leaf0 SIa_coincident
  | length => exact constraint_SI (SIP_leaf0 SIa_length) e
  | directedLength => exact constraint_SI (SIP_leaf1 (SI_withDirection SIa_directedLength)) e
  | xLength => exact constraint_SI xl e
  | yLength => exact constraint_SI yl e
  | vertical => cases e; exact hv
  | horizontal => cases e; exact hh
  | relativeLength => exact SIP_relLen e
  | midpointXDistance => exact constraint_SI (SIP_leaf0 (SIa_midpointDistance _)) e
  | midpointYDistance => exact constraint_SI (SIP_leaf0 (SIa_midpointDistance _)) e
  | orthogonal => cases e; exact SIP_leaf0 SIa_orthogonal
  | parallel => cases e; exact SIP_leaf0 SIa_parallel
  | angle => exact constraint_SI (SIP_leaf0 SIa_angle) e
  | collinear => cases e; exact SIP_leaf0 SIa_collinear
  | coincidentLines => cases e; exact SIP_leaf1 SI_coincidentLines
  | pointOnLineDistance => exact constraint_SI (SIP_leaf1 SI_pointOn) e
  | pointToLineDistance => exact constraint_SI (SIP_leaf1 SI_pointTo) e
  | relativePointOnLineDistance => exact constraint_SI (SIP_leaf1 SI_relPoint) e
  | box =>
    have e' : ct.box = .ok c := e
    unfold ct.box at e'
    exact SIP_one e' 0 rfl (by simp [hh, hv])
  | width =>
    obtain ⟨c', h1, h2⟩ := bind_ok' e
    exact constraint_SI (SIP_one h1 0 rfl (by simp [xl])) h2
  | height =>
    obtain ⟨c', h1, h2⟩ := bind_ok' e
    exact constraint_SI (SIP_one h1 0 rfl (by simp [yl])) h2
  | aspectRatio => exact constraint_SI (SIP_leaf0 SIa_aspect) e
  | axisThickness axis =>
    cases axis
    · obtain ⟨c', h1, h2⟩ := bind_ok' e
      exact SIP_one h2 1 rfl (by simp [constraint_SI yl h1])
    · obtain ⟨c', h1, h2⟩ := bind_ok' e
      exact SIP_one h2 1 rfl (by simp [constraint_SI xl h1])
  | margin outer side => exact SIP_ctMargin e
  | outerMarginArray n side => exact SIP_outerMargins e
  | align row => exact SIP_align e
  | coincidentOutwardFaces side => exact SIP_faces e
  | rectilinearGrid rows cols => exact SIP_rectGrid e
  | grid rows cols => exact SIP_grid e
  | positionAxis axis side twin =>
    obtain ⟨a, h1, h2⟩ := bind_ok' e
    cases twin
    · exact SIP_one h2 0 rfl (by simp [SIP_faces h1])
    · obtain ⟨b, h3, h4⟩ := bind_ok' h2
      exact SIP_one h4 0 rfl (by simp [SIP_faces h1, SIP_faces h3])
  | positionAxisLabel axis twin =>
    obtain ⟨a, h1, h2⟩ := bind_ok' e
    exact SIP_one h2 1 rfl (by simp [constraint_SI (SIP_leaf1 SI_relPoint) h1])

end shipped

end MplLayout
