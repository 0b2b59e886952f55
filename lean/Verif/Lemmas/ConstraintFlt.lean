import Verif.Lemmas.Map
import Verif.Model.Flt

/-! `transform_constraint` over the reals. -/

namespace MplLayout

open Cons

/-- `transform_constraint(c)` as a tree. -/
abbrev cstr {K : Type} [PyNum K] (c : Cons K) : Cons K := sumTree c (negVec c)

/-- Over the reals (or for non-finite values), adding `-1 * x` is subtracting `x`. -/
theorem Flt.add_neg_one_mul (y x : Flt) : y + (-1 : Flt) * x = y - x := by
  have : (-1 : Flt) = .fin (-1) := rfl
  rw [this]
  cases y <;> cases x <;> simp [sub_eq_add_neg]

theorem Flt.mul_one' (x : Flt) : x * 1 = x := by
  cases x with
  | fin x => show Flt.fin x * Flt.fin 1 = _; simp
  | bad => simp

/-- Two laws of arithmetic that also hold with rounding. -/
class NumLaws (K : Type) [PyNum K] : Prop where
  add_neg_one_mul : ∀ y x : K, y + (-1 : K) * x = y - x
  mul_one' : ∀ x : K, x * 1 = x

instance : NumLaws Flt := ⟨Flt.add_neg_one_mul, Flt.mul_one'⟩

section generic
variable {K : Type} [PyNum K] [NumLaws K]

theorem cstr_num {c : Cons K} (hw : c.WF)
    (hleaf : ∀ kc ∈ c.children, Node.children kc.2 = [])
    {prims : List (Prim K)} {params : List (Param K)} (hcon : c.Consistent params)
    (hsz : c.Sized prims params) {v : List K} (hacc : c.Accepts prims params)
    (hev : c.eval prims params = .ok v) (x : K) :
    (cstr c).Accepts prims (params ++ [.num x]) ∧
    (cstr c).eval prims (params ++ [.num x]) = .ok (v.map (· - x)) ∧
    (cstr c).Aligned (params ++ [.num x]) := by
  obtain ⟨own, hown⟩ : ∃ own, c.ty.assem prims params = .ok own := by
    cases c with
    | mk t w cs =>
      simp only [Cons.eval, py_bind_ok] at hev
      obtain ⟨own, h, _⟩ := hev
      exact ⟨own, h⟩
  generalize hcs : (c.children.map fun kc => kc.2.value.sig.valueSize) = sizes
  obtain ⟨u, rfl, hu, h1, h, h3⟩ := constraint_eval (val := .num x) (y := .scalar x)
    (z := own.map (· - x)) (xss := sizes.map fun n => List.replicate n x) hw hleaf hcon hsz hacc hev
    hown rfl (by cases own <;> simp [Arr.map, Arr.add, Arr.binop, NumLaws.add_neg_one_mul])
    (by
      rw [← hcs, List.forall₂_map_right_iff, List.forall₂_map_right_iff]
      simp [List.forall₂_same])
    (by
      rw [hcs]
      unfold vectorChildParams
      cases sizes with
      | nil => simp
      | cons s ss =>
        simp only [reduceCtorEq, if_false, NumLaws.mul_one']
        have hch := unpack_cumsum ((s :: ss).map fun n => List.replicate n x) []
          (List.replicate c.value.sig.valueSize x)
        have e1 : ((s :: ss).map fun n => List.replicate n x).map List.length = s :: ss := by
          simp [Function.comp_def]
        have e2 : ([] : List K) ++ ((s :: ss).map fun n => List.replicate n x).flatten
            ++ List.replicate c.value.sig.valueSize x
            = List.replicate (c.value.sig.valueSize + (s :: ss).sum) x := by
          rw [List.eq_replicate_iff]
          refine ⟨?_, ?_⟩
          · simp [Function.comp_def]; omega
          · intro y hy
            simp only [List.nil_append, List.mem_append, List.mem_flatten, List.mem_map] at hy
            rcases hy with ⟨l, ⟨n, _, rfl⟩, hy⟩ | hy
            · exact List.eq_of_mem_replicate hy
            · exact List.eq_of_mem_replicate hy
        rw [e1, e2] at hch
        simp only [chunk]
        simp only [List.length_nil] at hch
        rw [hch]
        congr 1
        generalize s :: ss = l
        induction l with
        | nil => rfl
        | cons a l ih => simp [ih])
  refine ⟨h1, ?_, h3⟩
  rw [h]
  congr 1
  rw [List.map_append, Arr.atleast1d_map]
  congr 1
  apply List.ext_getElem
  · simp only [List.length_zipWith, List.length_map]; omega
  · intro i h1 h2
    have hx : ∀ y ∈ (sizes.map fun n => List.replicate n x).flatten, y = x := by
      intro y hy
      simp only [List.mem_flatten, List.mem_map] at hy
      obtain ⟨l, ⟨n, _, rfl⟩, hy⟩ := hy
      exact List.eq_of_mem_replicate hy
    simp only [List.getElem_zipWith, List.getElem_map]
    rw [hx _ (List.getElem_mem _), NumLaws.add_neg_one_mul]

omit [PyNum K] [NumLaws K] in
theorem KeysNE_leaf {c : Cons K} (hleaf : c.children = []) : c.KeysNE := by
  cases c with
  | mk t w cs =>
    simp only [Node.children_mk] at hleaf
    subst hleaf
    rw [Node.KeysNE_mk]; simp

theorem cstr_arr {c : Cons K} (hw : c.WF) (hleaf : c.children = [])
    {prims : List (Prim K)} {params : List (Param K)} (hcon : c.Consistent params)
    (hsz : c.Sized prims params) {v : List K} (hacc : c.Accepts prims params)
    (hev : c.eval prims params = .ok v)
    {xs : List K} (hxs : xs.length = v.length) :
    (cstr c).Accepts prims (params ++ [.arr xs]) ∧
    (cstr c).eval prims (params ++ [.arr xs]) = .ok (List.zipWith (· - ·) v xs) ∧
    (cstr c).Aligned (params ++ [.arr xs]) := by
  obtain ⟨own, hown, rfl⟩ : ∃ own, c.ty.assem prims params = .ok own ∧ v = own.atleast1d := by
    cases c with
    | mk t w cs =>
      simp only [Node.children_mk] at hleaf
      subst hleaf
      simp only [Cons.eval, py_bind_ok, evalL, Except.ok.injEq, exists_eq_left'] at hev
      obtain ⟨own, h, _, _, e⟩ := hev
      exact ⟨own, h, by simpa using e.symm⟩
  obtain ⟨z, hz, hz'⟩ := Arr.add_sized (x := own) (y := (Arr.vec xs).map ((-1 : K) * ·))
    (by simp [Arr.map, Arr.atleast1d, hxs])
  obtain ⟨u, hu, _, h1, h, h3⟩ := constraint_eval (val := .arr xs) (y := .vec xs) (z := z)
    (xss := []) hw (by simp [hleaf]) hcon hsz hacc hev hown rfl hz (by rw [hleaf]; exact .nil)
    (by rw [hleaf]; rfl)
  have hu0 : u = [] := by simpa using hu
  subst hu0
  refine ⟨h1, ?_, h3⟩
  rw [h, hz']
  congr 1
  simp only [List.zipWith_nil_left, List.append_nil, Arr.map, Arr.atleast1d]
  rw [List.zipWith_map_right]
  simp only [NumLaws.add_neg_one_mul]

end generic

/-- Subtracting an array with one entry subtracts that entry everywhere. -/
theorem Arr.add_one_entry (own : Arr Flt) (q : Flt) :
    ∃ z, own.add ((Arr.vec [q]).map ((-1 : Flt) * ·)) = .ok z ∧
      z.atleast1d = own.atleast1d.map (· - q) := by
  cases own with
  | scalar x =>
    exact ⟨_, rfl, by simp [Arr.atleast1d, Flt.add_neg_one_mul]⟩
  | vec xs =>
    match xs with
    | [] => exact ⟨_, rfl, rfl⟩
    | [x] => exact ⟨_, rfl, by simp [Arr.atleast1d, Flt.add_neg_one_mul]⟩
    | x :: y :: xs =>
      refine ⟨.vec ((x :: y :: xs).map (· + (-1 : Flt) * q)), ?_, ?_⟩
      · simp [Arr.map, Arr.add, Arr.binop]
      · simp [Arr.atleast1d, Flt.add_neg_one_mul]

theorem cstr_one {c : Cons Flt} (hw : c.WF) (hleaf : c.children = [])
    {prims : List (Prim Flt)} {params : List (Param Flt)} (hcon : c.Consistent params)
    (hsz : c.Sized prims params) {v : List Flt} (hacc : c.Accepts prims params)
    (hev : c.eval prims params = .ok v) (q : Flt) :
    (cstr c).Accepts prims (params ++ [.arr [q]]) ∧
    (cstr c).eval prims (params ++ [.arr [q]]) = .ok (v.map (· - q)) ∧
    (cstr c).Aligned (params ++ [.arr [q]]) := by
  obtain ⟨own, hown, rfl⟩ : ∃ own, c.ty.assem prims params = .ok own ∧ v = own.atleast1d := by
    cases c with
    | mk t w cs =>
      simp only [Node.children_mk] at hleaf
      subst hleaf
      simp only [Cons.eval, py_bind_ok, evalL, Except.ok.injEq, exists_eq_left'] at hev
      obtain ⟨own, h, _, _, e⟩ := hev
      exact ⟨own, h, by simpa using e.symm⟩
  obtain ⟨z, hz, hz'⟩ := Arr.add_one_entry own q
  obtain ⟨u, hu, _, h1, h, h3⟩ := constraint_eval (val := .arr [q]) (y := .vec [q]) (z := z)
    (xss := []) hw (by simp [hleaf]) hcon hsz hacc hev hown rfl hz (by rw [hleaf]; exact .nil)
    (by rw [hleaf]; rfl)
  have hu0 : u = [] := by simpa using hu
  subst hu0
  refine ⟨h1, ?_, h3⟩
  rw [h, ← hz']
  simp

theorem cstr_bool {c : Cons Flt} (hw : c.WF) (hleaf : c.children = [])
    {prims : List (Prim Flt)} {params : List (Param Flt)} (hcon : c.Consistent params)
    (hsz : c.Sized prims params) {v : List Flt} (hacc : c.Accepts prims params)
    (hev : c.eval prims params = .ok v) (b : Bool) :
    (cstr c).Accepts prims (params ++ [.bool b]) ∧
    (cstr c).eval prims (params ++ [.bool b]) = .ok (v.map (· - (if b then 1 else 0))) ∧
    (cstr c).Aligned (params ++ [.bool b]) := by
  obtain ⟨own, hown, rfl⟩ : ∃ own, c.ty.assem prims params = .ok own ∧ v = own.atleast1d := by
    cases c with
    | mk t w cs =>
      simp only [Node.children_mk] at hleaf
      subst hleaf
      simp only [Cons.eval, py_bind_ok, evalL, Except.ok.injEq, exists_eq_left'] at hev
      obtain ⟨own, h, _, _, e⟩ := hev
      exact ⟨own, h, by simpa using e.symm⟩
  obtain ⟨u, hu, _, h1, h, h3⟩ := constraint_eval (val := .bool b) (y := .scalar (if b then 1 else 0))
    (z := own.map (· - (if b then 1 else 0)))
    (xss := []) hw (by simp [hleaf]) hcon hsz hacc hev hown rfl
    (by
      generalize (if b then 1 else 0 : Flt) = x
      cases own <;> simp [Arr.map, Arr.add, Arr.binop, Flt.add_neg_one_mul])
    (by rw [hleaf]; exact .nil) (by rw [hleaf]; rfl)
  have hu0 : u = [] := by simpa using hu
  subst hu0
  refine ⟨h1, ?_, h3⟩
  rw [h, ← Arr.atleast1d_map]
  simp

end MplLayout
