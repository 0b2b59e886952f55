import Verif.Lemmas.ShippedAll
import Verif.Lemmas.Rebuild

/-!
# Shipped constraints depend on the coordinates only, not on which arrays hold them
-/

namespace MplLayout

open Flt Cons

variable {K : Type} [PyNum K]

/-- The same primitive with all array identities forgotten. -/
def noId (p : Prim K) : Prim K := p.mapV fun v => ⟨0, v.arr⟩

theorem noId_ty (p : Prim K) : (noId p).ty = p.ty := Node.ty_mapV _ _
theorem noId_arr (p : Prim K) : (noId p).value.arr = p.value.arr := by rw [noId, Node.value_mapV]
theorem noId_values (p : Prim K) : (noId p).values = p.values.map noId := Node.values_mapV _ _
theorem noId_getChild (p : Prim K) (key : Str) : (noId p).getChild key = (p.getChild key).map noId :=
  Node.getChild_mapV _ _ _
theorem noId_getInt (p : Prim K) (i : Int) : (noId p).getInt i = (p.getInt i).map noId :=
  Node.getInt_mapV _ _ _

/-- Does not depend on the identities. -/
def NI (f : List (Prim K) → Py (Arr K)) : Prop := ∀ ps, f (ps.map noId) = f ps

theorem map_bind {α β γ : Type} (x : Py α) (g : α → β) (h : β → Py γ) :
    (x.map g >>= h) = (x >>= fun a => h (g a)) := by cases x <;> rfl

theorem ni1 {f : List (Prim K) → Py (Arr K)} (h : ∀ p, f [noId p] = f [p])
    (h0 : ∀ ps, ps.length ≠ 1 → f ps = .error .valueError) : NI f := by
  intro ps
  by_cases hl : ps.length = 1
  · obtain ⟨p, rfl⟩ := List.length_eq_one_iff.mp hl
    exact h p
  · rw [h0 _ hl, h0 _ (by simpa using hl)]

theorem ni2 {f : List (Prim K) → Py (Arr K)} (h : ∀ p q, f [noId p, noId q] = f [p, q])
    (h0 : ∀ ps, ps.length ≠ 2 → f ps = .error .valueError) : NI f := by
  intro ps
  by_cases hl : ps.length = 2
  · obtain ⟨p, q, rfl⟩ := List.length_eq_two.mp hl
    exact h p q
  · rw [h0 _ hl, h0 _ (by simpa using hl)]

/-- Wrong number of primitives. -/
local macro "err1" : tactic => `(tactic| (
  intro ps h
  rcases ps with _ | ⟨p, _ | ⟨q, ps⟩⟩
  · rfl
  · exact absurd rfl h
  · rfl))
/-- Wrong number of primitives. -/
local macro "err2" : tactic => `(tactic| (
  intro ps h
  rcases ps with _ | ⟨p, _ | ⟨q, _ | ⟨r, ps⟩⟩⟩
  · rfl
  · rfl
  · exact absurd rfl h
  · rfl))

theorem ni_coordinate : NI (con.coordinateA (K := K)) :=
  ni1 (fun p => by simp only [con.coordinateA, noId_arr]) (by err1)

theorem lineVector_noId (l : Prim K) : con.lineVectorA [noId l] = con.lineVectorA [l] := by
  simp only [con.lineVectorA, noId_values]
  rcases l.values with _ | ⟨a, _ | ⟨b, _ | ⟨c, rest⟩⟩⟩
  · rfl
  · rfl
  · simp only [List.map_cons, List.map_nil, con.coordinateA, noId_arr]
  · rfl

theorem ni_lineVector : NI (con.lineVectorA (K := K)) := ni1 lineVector_noId (by err1)

theorem unit_noId (l : Prim K) : con.unitLineVectorA [noId l] = con.unitLineVectorA [l] := by
  simp only [con.unitLineVectorA, lineVector_noId]
theorem length_noId (l : Prim K) : con.lengthA [noId l] = con.lengthA [l] := by
  simp only [con.lengthA, lineVector_noId]

theorem ni_length : NI (con.lengthA (K := K)) := ni1 length_noId (by err1)
theorem ni_directedLength (d : Arr K) : NI (con.directedLengthA d) :=
  ni1 (fun l => by simp only [con.directedLengthA, lineVector_noId]) (by err1)
theorem ni_directedDistance (d : Arr K) : NI (con.directedDistanceA d) :=
  ni2 (fun p q => by simp only [con.directedDistanceA, noId_arr]) (by err2)

theorem midpoint_noId (l : Prim K) : con.midpointA [noId l] = con.midpointA [l] := by
  simp only [con.midpointA, noId_getChild, map_bind, con.coordinateA, noId_arr]

theorem ni_midpointDistance (d : Arr K) : NI (con.midpointDirectedDistanceA d) :=
  ni2 (fun p q => by simp only [con.midpointDirectedDistanceA, midpoint_noId]) (by err2)

theorem ni_angle : NI (con.angleA (K := K)) :=
  ni2 (fun p q => by simp only [con.angleA, unit_noId]) (by err2)

theorem ni_aspect : NI (con.aspectRatioA (K := K)) :=
  ni1 (fun q => by simp only [con.aspectRatioA, noId_getChild, map_bind, length_noId]) (by err1)

theorem pointOn_noId (p l : Prim K) (r : Param K) :
    con.pointOnLineDistanceA [noId p, noId l] r = con.pointOnLineDistanceA [p, l] r := by
  simp only [con.pointOnLineDistanceA, noId_getChild, unit_noId, noId_arr, map_bind]

theorem ni_pointOn (r : Param K) : NI (fun ps => con.pointOnLineDistanceA ps r) :=
  ni2 (fun p q => pointOn_noId p q r) (by err2)
theorem ni_pointTo (r : Param K) : NI (fun ps => con.pointToLineDistanceA ps r) :=
  ni2 (fun p q => by
    simp only [con.pointToLineDistanceA, noId_getChild, unit_noId, noId_arr, map_bind]) (by err2)
theorem ni_relPoint (r : Param K) : NI (fun ps => con.relativePointOnLineDistanceA ps r) :=
  ni2 (fun p q => by
    simp only [con.relativePointOnLineDistanceA, pointOn_noId, length_noId]) (by err2)

theorem coincident_noId (p q : Prim K) : ct.coincidentA [noId p, noId q] = ct.coincidentA [p, q] := by
  simp only [ct.coincidentA, noId_arr]
theorem ni_coincident : NI (ct.coincidentA (K := K)) := ni2 coincident_noId (by err2)
theorem ni_vertical : NI (ct.verticalA (K := K)) := fun ps => by
  simp only [ct.verticalA, ni_lineVector ps]
theorem ni_horizontal : NI (ct.horizontalA (K := K)) := fun ps => by
  simp only [ct.horizontalA, ni_lineVector ps]
theorem ni_orthogonal : NI (ct.orthogonalA (K := K)) :=
  ni2 (fun p q => by simp only [ct.orthogonalA, lineVector_noId]) (by err2)
theorem parallel_noId (p q : Prim K) : ct.parallelA [noId p, noId q] = ct.parallelA [p, q] := by
  simp only [ct.parallelA, lineVector_noId]
theorem ni_parallel : NI (ct.parallelA (K := K)) := ni2 parallel_noId (by err2)

theorem primInit_noId (ty : PrimType) (ks : List Str) (ps : List (Prim K)) :
    primInit ty ⟨0, []⟩ ks (ps.map noId) = (primInit ty ⟨0, []⟩ ks ps).map noId := by
  have h1 : dictOfZip ks (ps.map noId) = (dictOfZip ks ps).map fun kc => (kc.1, noId kc.2) :=
    dictOfZip_map _ _ _
  have h2 : ((dictOfZip ks ps).map fun kc => (kc.1, noId kc.2)).map (·.2.ty)
      = (dictOfZip ks ps).map (·.2.ty) := by
    simp [noId_ty]
  obtain ⟨u, hu⟩ := primNodeInit_check (K := K) PrimType.table ty 0 ((dictOfZip ks ps).map (·.2.ty))
  rw [primInit, primInit, h1, hu _ _ rfl h2, hu _ _ rfl rfl]
  cases u with
  | error e => rfl
  | ok _ =>
    show Except.ok _ = Except.ok _
    rw [noId, Node.mapV_mk]
    rfl

theorem ni_collinear : NI (ct.collinearA (K := K)) :=
  ni2 (fun p q => by
    simp only [ct.collinearA, noId_getInt, map_bind]
    have e : ∀ a b : Prim K, primInit .line (⟨0, []⟩ : PVal K) [k!"Point0", k!"Point1"] [noId a, noId b]
        = (primInit .line ⟨0, []⟩ [k!"Point0", k!"Point1"] [a, b]).map noId :=
      fun a b => primInit_noId .line _ [a, b]
    simp only [e, map_bind, parallel_noId]) (by err2)

theorem ni_coincidentLines (r : Param K) : NI (fun ps => ct.coincidentLinesA ps r) :=
  ni2 (fun p q => by
    simp only [ct.coincidentLinesA, noId_getChild, map_bind, coincident_noId]) (by err2)

/-- The value of the node does not depend on the identities. -/
def NIP : ConsPred K := fun cls _ => ∀ params, NI (fun ps => cls.assem ps params)

theorem nip_leaf0 {F : List (Prim K) → Py (Arr K)} (h : NI F) (name : Str)
    (types : List PrimType) (size : Nat) : AllN NIP (con.leaf0 name types size F) := by
  refine leaf_all fun params ps => ?_
  cases params with
  | nil => exact h ps
  | cons => rfl

theorem nip_leaf1 {F : List (Prim K) → Param K → Py (Arr K)} (h : ∀ q, NI (fun ps => F ps q))
    (name : Str) (types : List PrimType) (pt : ParamType) (size : Nat) :
    AllN NIP (con.leaf1 name types pt size F) := by
  refine leaf_all fun params ps => ?_
  rcases params with _ | ⟨q, _ | ⟨q', params⟩⟩
  · rfl
  · exact h q ps
  · rfl

theorem ni_direction {F : Arr K → List (Prim K) → Py (Arr K)} (h : ∀ d, NI (F d))
    (q : Param K) : NI (fun ps => con.withDirection F ps q) := by
  intro ps
  simp only [con.withDirection, fun d => h d ps]

theorem ni_value (params : List (Param K)) : NI (fun ps => valueAssem ps params) := by
  intro ps
  rcases params with _ | ⟨q, _ | ⟨q', params⟩⟩ <;> rfl

theorem nip_closed : Closed (K := K) NIP NIP where
  compound cls v n h _ := by intro params ps; simp only [h, compoundAssem]
  empty cls v h _ := by intro params ps; simp only [h]
  vector n r h := vector_all (P := NIP) (fun _ => ni_value) n r h
  num x r h := by
    have : AllN NIP r := transformPartial_all (P := NIP) (Q := NIP)
      (show AllN NIP (MplLayout.scalarCons (K := K)) from leaf_all ni_value)
      (fun q ps => ni_value _ ps) (fun _ _ h => h) h
    exact this.root
  scalarCons := ni_value
  mul name a b ha hb := by
    intro params ps
    have ha' : ∀ q ps, a.ty.assem (ps.map noId) q = a.ty.assem ps q := ha
    have hb' : ∀ q ps, b.ty.assem (ps.map noId) q = b.ty.assem ps q := hb
    simp only [scalarNode, split2_map]
    rw [hb', ha']
  sum a b n ha hb e := by
    simp only [sumNode] at e
    split at e
    · cases e
    · split at e
      · cases e
      · cases e
        intro params ps
        have ha' : ∀ q ps, a.ty.assem (ps.map noId) q = a.ty.assem ps q := ha
        have hb' : ∀ q ps, b.ty.assem (ps.map noId) q = b.ty.assem ps q := hb
        simp only [split2_map]
        rw [ha', hb']

theorem nip_leaves (s : Shipped) : ∀ c ∈ s.leaves K, AllN NIP c := by
  intro c hc
  cases s <;> simp only [Shipped.leaves, List.mem_cons, List.not_mem_nil, or_false] at hc <;>
    (try rcases hc with rfl | rfl | rfl | rfl) <;> (try rcases hc with rfl | rfl) <;>
    (try subst hc) <;>
    first
    | exact nip_leaf0 ni_coordinate _ _ _
    | exact nip_leaf1 (ni_direction ni_directedDistance) _ _ _ _
    | exact nip_leaf0 (ni_directedDistance _) _ _ _
    | exact nip_leaf0 ni_coincident _ _ _
    | exact nip_leaf0 ni_length _ _ _
    | exact nip_leaf1 (ni_direction ni_directedLength) _ _ _ _
    | exact nip_leaf0 (ni_directedLength _) _ _ _
    | exact nip_leaf0 ni_vertical _ _ _
    | exact nip_leaf0 ni_horizontal _ _ _
    | exact nip_leaf0 (ni_midpointDistance _) _ _ _
    | exact nip_leaf0 ni_orthogonal _ _ _
    | exact nip_leaf0 ni_parallel _ _ _
    | exact nip_leaf0 ni_angle _ _ _
    | exact nip_leaf0 ni_collinear _ _ _
    | exact nip_leaf1 ni_coincidentLines _ _ _ _
    | exact nip_leaf1 ni_pointOn _ _ _ _
    | exact nip_leaf1 ni_pointTo _ _ _ _
    | exact nip_leaf1 ni_relPoint _ _ _ _
    | exact nip_leaf0 ni_aspect _ _ _

theorem make_nip {s : Shipped} {c : Cons K} (e : s.make K = .ok c) : AllN NIP c :=
  make_all nip_closed s (nip_leaves s) e

theorem shipped_nip {s : Shipped} {c : Cons Flt} (e : s.build = .ok c) : AllN NIP c :=
  make_nip (by rw [make_flt]; exact e)

end MplLayout
