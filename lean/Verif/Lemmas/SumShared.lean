import Verif.Lemmas.Transforms2
import Verif.Spec.SumShared

/-! Sums of compound constructions that are evaluated on the same primitives. -/

namespace MplLayout

variable {K : Type}

theorem forall₂_append_left' {α β : Type} {R : α → β → Prop} {xs ys : List α} {zs : List β}
    (h : List.Forall₂ R (xs ++ ys) zs) :
    ∃ u w, List.Forall₂ R xs u ∧ List.Forall₂ R ys w ∧ zs = u ++ w := by
  induction xs generalizing zs with
  | nil => exact ⟨[], zs, .nil, h, rfl⟩
  | cons x xs ih =>
    cases h with
    | cons h1 h2 =>
      obtain ⟨u, w, h3, h4, rfl⟩ := ih h2
      exact ⟨_ :: u, w, .cons h1 h3, h4, rfl⟩

section Sum
variable [PyNum K]

theorem sum_eval_shared (a : Cons K) : ∀ (b : Cons K), Shape a b →
    ∀ (pa pb : List (Prim K)) (qa qb : List (Param K)) (va vb : List K),
    b.NoPrimRefs ∨ (pb <+: pa ∧ a.RefersAlike b) →
    pa.length = a.value.sig.primTypes.length → pb.length = b.value.sig.primTypes.length →
    a.Consistent qa → b.Consistent qb → a.Sized pa qa → b.Sized pb qb →
    a.eval pa qa = .ok va → b.eval pb qb = .ok vb →
    va.length = vb.length ∧
    (sumTree a b).eval (pa ++ pb) (qa ++ qb) = .ok (List.zipWith (· + ·) va vb) := by
  induction a using Node.induct with
  | _ t v cs ih =>
    intro b hsh pa pb qa qb va vb hnp hpa hpb hca hcb hza hzb hea heb
    cases b with
    | mk t' v' ds =>
      obtain ⟨ha1, ha2, ha3⟩ := hca
      obtain ⟨hb1, hb2, hb3⟩ := hcb
      simp only [Cons.eval, py_bind_ok] at hea heb
      obtain ⟨x, hx, pssa, hpssa, ua, hua, e⟩ := hea
      cases e
      obtain ⟨y, hy, pssb, hpssb, ub, hub, e⟩ := heb
      cases e
      have hlen : x.atleast1d.length = y.atleast1d.length := by
        rw [hza.1 x hx, hzb.1 y hy]; exact hsh.2.1
      obtain ⟨z, hz, hz'⟩ := Arr.add_sized hlen
      have hs1 : split2 v.sig.primTypes.length v'.sig.primTypes.length (pa ++ pb) = (pa, pb) :=
        split2_append hpa hpb
      have hs2 : split2 v.sig.paramTypes.length v'.sig.paramTypes.length (qa ++ qb) = (qa, qb) :=
        split2_append ha1 hb1
      have key : ∀ (cs ds : List (Str × Cons K)) (kssa kssb : List (List Str))
          (pssa pssb : List (List (Param K))) (ua ub : List K),
          (∀ k c, (k, c) ∈ cs → ∀ (b : Cons K), Shape c b →
            ∀ (pa pb : List (Prim K)) (qa qb : List (Param K)) (va vb : List K),
            b.NoPrimRefs ∨ (pb <+: pa ∧ c.RefersAlike b) →
            pa.length = c.value.sig.primTypes.length → pb.length = b.value.sig.primTypes.length →
            c.Consistent qa → b.Consistent qb → c.Sized pa qa → b.Sized pb qb →
            c.eval pa qa = .ok va → b.eval pb qb = .ok vb →
            va.length = vb.length ∧
            (sumTree c b).eval (pa ++ pb) (qa ++ qb) = .ok (List.zipWith (· + ·) va vb)) →
          ShapeL cs ds → ((∀ kc ∈ ds, Cons.NoPrimRefs kc.2) ∧ (∀ ks ∈ kssb, ks = []) ∨
            (pb <+: pa ∧ Cons.RefersAlikeL cs ds kssa kssb)) →
          kssa.length = cs.length → kssb.length = ds.length →
          cs.length ≤ pssa.length → ds.length ≤ pssb.length →
          Cons.ConsistentL cs kssa pssa → Cons.ConsistentL ds kssb pssb →
          Cons.SizedL pa cs kssa pssa → Cons.SizedL pb ds kssb pssb →
          Cons.evalL pa cs kssa pssa = .ok ua → Cons.evalL pb ds kssb pssb = .ok ub →
          ua.length = ub.length ∧
          Cons.evalL (pa ++ pb) (sumTreeL cs ds) (List.zipWith (· ++ ·) kssa kssb)
            (List.zipWith (· ++ ·) pssa pssb) = .ok (List.zipWith (· + ·) ua ub) := by
        intro cs
        induction cs with
        | nil =>
          intro ds kssa kssb pssa pssb ua ub _ hsh _ hl1 hl2 _ _ _ _ _ _ he1 he2
          cases ds with
          | cons d ds => exact hsh.elim
          | nil =>
            simp only [Cons.evalL, Except.ok.injEq] at he1 he2
            subst he1 he2
            simp [sumTreeL, Cons.evalL]
        | cons kc cs ihc =>
          obtain ⟨k, c⟩ := kc
          intro ds kssa kssb pssa pssb ua ub ih hsh hnp hl1 hl2 hl3 hl4 hc1 hc2 hz1 hz2 he1 he2
          cases ds with
          | nil => exact hsh.elim
          | cons d ds =>
            obtain ⟨k', d⟩ := d
            cases kssa with
            | nil => simp at hl1
            | cons ksa kssa =>
            cases kssb with
            | nil => simp at hl2
            | cons ksb kssb =>
            cases pssa with
            | nil => simp at hl3
            | cons qsa pssa =>
            cases pssb with
            | nil => simp at hl4
            | cons qsb pssb =>
              simp only [Cons.evalL, py_bind_ok] at he1 he2
              obtain ⟨cpa, hcpa, v1, hv1, u1, hu1, e⟩ := he1
              cases e
              obtain ⟨cpb, hcpb, v2, hv2, u2, hu2, e⟩ := he2
              cases e
              have hres : pyMap (resolve (pa ++ pb)) ksb = .ok cpb := by
                rcases hnp with ⟨_, hkb⟩ | ⟨⟨r, rfl⟩, _⟩
                · obtain rfl : ksb = [] := hkb ksb (by simp)
                  exact hcpb
                · rw [List.append_assoc]; exact resolves_append hcpb
              have hsub : d.NoPrimRefs ∨ (cpb <+: cpa ∧ c.RefersAlike d) := by
                rcases hnp with ⟨hd, _⟩ | ⟨⟨r, rfl⟩, hd⟩
                · exact .inl (hd (k', d) (by simp))
                · rcases hd.1 with he | ⟨⟨t, rfl⟩, he⟩
                  · exact .inl he
                  · refine .inr ⟨?_, he⟩
                    have h1 := resolves_append (pb := r) hcpb
                    rw [pyMap_ok] at h1 hcpa
                    obtain ⟨u, w, h3, _, rfl⟩ := forall₂_append_left' hcpa
                    have : pyMap (resolve (pb ++ r)) ksb = .ok u := pyMap_ok.mpr h3
                    rw [pyMap_ok.mpr h1] at this
                    cases this
                    exact List.prefix_append _ _
              have hrest : (∀ kc ∈ ds, Cons.NoPrimRefs kc.2) ∧ (∀ ks ∈ kssb, ks = []) ∨
                  (pb <+: pa ∧ Cons.RefersAlikeL cs ds kssa kssb) := by
                rcases hnp with ⟨h1, h2⟩ | ⟨h1, h2⟩
                · exact .inl ⟨fun kc h => h1 kc (List.mem_cons_of_mem _ h), fun ks h => h2 ks (List.mem_cons_of_mem _ h)⟩
                · exact .inr ⟨h1, h2.2⟩
              obtain ⟨l1, e1⟩ := ih k c (by simp) d hsh.1 cpa cpb qsa qsb
                v1 v2 hsub (by rw [pyMap_length hcpa]; exact hc1.1) (by rw [pyMap_length hcpb]; exact hc2.1) hc1.2.1
                hc2.2.1 (hz1.1 cpa hcpa) (hz2.1 cpb hcpb) hv1 hv2
              obtain ⟨l2, e2⟩ := ihc ds kssa kssb pssa pssb u1 u2
                (fun k c h => ih k c (List.mem_cons_of_mem _ h)) hsh.2 hrest
                (by simpa using hl1)
                (by simpa using hl2) (by simpa using hl3) (by simpa using hl4) hc1.2.2 hc2.2.2
                hz1.2 hz2.2 hu1 hu2
              refine ⟨by simp [l1, l2], ?_⟩
              simp only [sumTreeL, List.zipWith_cons_cons, Cons.evalL, py_bind_ok]
              refine ⟨cpa ++ cpb, ?_, _, e1, _, e2, ?_⟩
              · rw [pyMap_ok]
                exact List.rel_append (pyMap_ok.mp (resolves_append hcpa)) (pyMap_ok.mp hres)
              rw [List.zipWith_append l1]
      have hnp' : (∀ kc ∈ ds, Cons.NoPrimRefs kc.2) ∧ (∀ ks ∈ v'.childPrimKeys, ks = []) ∨
          (pb <+: pa ∧ Cons.RefersAlikeL cs ds v.childPrimKeys v'.childPrimKeys) := by
        rcases hnp with hnp | hnp
        · refine .inl ⟨?_, hnp [] _ (.here _)⟩
          rintro ⟨k, d⟩ hm p m hat
          exact hnp (k :: p) m (.down hm hat)
        · exact .inr hnp
      obtain ⟨l, e⟩ := key cs ds v.childPrimKeys v'.childPrimKeys pssa pssb ua ub
        (fun k c h => ih k c h) hsh.2.2 hnp' ha2 hb2 (ha3 pssa hpssa).1
        (hb3 pssb hpssb).1 (ha3 pssa hpssa).2 (hb3 pssb hpssb).2 (hza.2 pssa hpssa)
        (hzb.2 pssb hpssb) hua hub
      refine ⟨by simp [hlen, l], ?_⟩
      simp only [sumTree, Cons.eval, sumClass, sumVal, Node.value_mk, Node.ty_mk, py_bind_ok, hs1,
        hs2, hx, hy, hpssa, hpssb, Except.ok.injEq, exists_eq_left', hz, Node.children_mk]
      refine ⟨_, e, ?_⟩
      rw [hz', List.zipWith_append hlen]

theorem sum_call_shared {a b : Cons K} (ha : a.WF) (hsh : Shape a b) 
    {pa pb : List (Prim K)} (hnp : b.NoPrimRefs ∨ (pb <+: pa ∧ a.RefersAlike b)) {qa qb : List (Param K)} {va vb : List K}
    (hca : a.Consistent qa) (hcb : b.Consistent qb) (hza : a.Sized pa qa) (hzb : b.Sized pb qb)
    (hb : b.WF)
    (hea : a.call pa qa = .ok va) (heb : b.call pb qb = .ok vb) :
    (sumTree a b).call (pa ++ pb) (qa ++ qb) = .ok (List.zipWith (· + ·) va vb) := by
  rw [Cons.call_ok_iff _ (sumTree_WF ha hsh) _ _ (sum_aligned a b hsh qa qb hca hcb)]
  rw [Cons.call_ok_iff _ ha _ _ hca.aligned] at hea
  rw [Cons.call_ok_iff _ hb _ _ hcb.aligned] at heb
  obtain ⟨⟨a1, a2⟩, hea⟩ := hea
  obtain ⟨⟨b1, b2⟩, heb⟩ := heb
  refine ⟨?_, (sum_eval_shared a b hsh pa pb qa qb va vb hnp a1.length_eq b1.length_eq hca hcb hza hzb
    hea heb).2⟩
  cases a with
  | mk t v cs =>
    refine ⟨?_, ?_⟩
    · exact List.rel_append a1 b1
    · simp only [sumTree, Node.value_mk, sumVal, ConsSig.concat, List.length_append]
      simp only [Node.value_mk] at a2
      rw [a2, b2]

end Sum

end MplLayout
