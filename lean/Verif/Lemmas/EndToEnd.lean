import Verif.Lemmas.Program
import Verif.Lemmas.SolveKeeps
import Verif.Props.Drawing2
import Verif.Props.Geometry

/-! From programs to drawings. -/

namespace MplLayout

open Flt Solver

/-! ## Programs as sequences of method calls -/

section
variable {K : Type} [PyNum K]

/-- The calls of layout methods that a program makes. -/
def Session.ops (s : Session K) : List (Stmt K) → List (LayoutOp K)
  | [] => []
  | st :: prog =>
    (match s.call st with | .ok op => [op] | .error _ => []) ++ (s.step st).1.ops prog

theorem Session.run_ops (s : Session K) (prog : List (Stmt K)) :
    (s.run prog).layout = s.layout.run (s.ops prog) := by
  induction prog generalizing s with
  | nil => rfl
  | cons st prog ih =>
    show ((s.step st).1.run prog).layout = _
    rw [ih, ops]
    have hstep : (s.step st).1.layout
        = s.layout.run (match s.call st with | .ok op => [op] | .error _ => []) := by
      cases st with
      | array xs => rfl
      | make e =>
        show (match s.eval e s.next with | .ok (p, n) => _ | .error e => _ : Session K × Py Unit).1.layout = _
        split <;> rfl
      | addPrim i key =>
        show (s.stepCall (s.call (.addPrim i key))).1.layout = _
        cases s.call (.addPrim i key) <;> rfl
      | addPrims ps =>
        show (s.stepCall (s.call (.addPrims ps))).1.layout = _
        cases s.call (.addPrims ps) <;> rfl
      | addConstraint c primKeys param key => rfl
    rw [hstep]
    simp [Layout.run, List.foldl_append]

theorem Session.constraints_ops (s : Session K) (prog : List (Stmt K)) :
    s.constraints prog = s.layout.added (s.ops prog) := by
  induction prog generalizing s with
  | nil => rfl
  | cons st prog ih =>
    unfold constraints
    rw [ops, ih]
    cases st with
    | array xs => rfl
    | make e =>
      have : (s.step (.make e)).1.layout = s.layout := by
        show (match s.eval e s.next with | .ok (p, n) => _ | .error e => _ : Session K × Py Unit).1.layout = _
        split <;> rfl
      rw [this]
      rfl
    | addPrim i key =>
      have : s.step (.addPrim i key) = s.stepCall (s.call (.addPrim i key)) := rfl
      rw [this]
      have h : ∀ op, s.call (.addPrim i key) = .ok op → ∃ p, op = .addPrim p key := by
        intro op h
        simp only [call, py_bind_ok] at h
        obtain ⟨p, _, h⟩ := h
        cases h; exact ⟨p, rfl⟩
      revert h
      cases s.call (.addPrim i key) with
      | error e => intro _; rfl
      | ok op =>
        intro h
        obtain ⟨p, rfl⟩ := h op rfl
        rfl
    | addPrims ps =>
      have : s.step (.addPrims ps) = s.stepCall (s.call (.addPrims ps)) := rfl
      rw [this]
      have h : ∀ op, s.call (.addPrims ps) = .ok op → ∃ qs, op = .addPrims qs := by
        intro op h
        simp only [call, py_bind_ok] at h
        obtain ⟨p, _, h⟩ := h
        cases h; exact ⟨p, rfl⟩
      revert h
      cases s.call (.addPrims ps) with
      | error e => intro _; rfl
      | ok op =>
        intro h
        obtain ⟨p, rfl⟩ := h op rfl
        rfl
    | addConstraint c primKeys param key =>
      show _ = LayoutOp.addedBy _ (s.layout.step (.addConstraint c primKeys param key)).2 ++ _
      congr 1
      show (match Stmt.addConstraint c primKeys param key,
        (s.layout.step (.addConstraint c primKeys param key)).2 with
        | .addConstraint c primKeys param _, .ok () => [(⟨c, primKeys, param⟩ : Added K)]
        | _, _ => []) = _
      cases (s.layout.step (.addConstraint c primKeys param key)).2 <;> rfl

/-- What holds of all calls of a program whose variables hold well-formed trees. -/
theorem Session.ops_all {Q : K → Prop} (C : Consts Q) {P : LayoutOp K → Prop}
    (h1 : ∀ p key, p.WF → P (.addPrim p key)) (h2 : ∀ ps, (∀ kp ∈ ps, Node.WF kp.2) → P (.addPrims ps))
    {s : Session K} (hs : ProgOK Q s) : ∀ {prog : List (Stmt K)}, (∀ st ∈ prog, st.TopLevel) →
    (∀ st ∈ prog, st.All Q) →
    (∀ c ks ps key, .addConstraint c ks ps key ∈ prog → P (.addConstraint c ks ps key)) →
    ∀ op ∈ s.ops prog, P op := by
  intro prog
  induction prog generalizing s with
  | nil => intro _ _ _ op h; cases h
  | cons st prog ih =>
    intro ht hq hc op hop
    rw [ops] at hop
    rcases List.mem_append.mp hop with hop | hop
    · obtain ⟨heap, hh⟩ := hs.heap
      have hvar : ∀ i p, var s.prims i = .ok p → p.WF := fun i p h => (hh.prims p (var_ok h)).wf
      cases st with
      | array xs => simp [call] at hop
      | make e => simp [call] at hop
      | addPrim i key =>
        cases e : s.call (.addPrim i key) with
        | error e' => rw [e] at hop; cases hop
        | ok op' =>
          rw [e] at hop
          rw [List.mem_singleton.mp hop]
          simp only [call, py_bind_ok] at e
          obtain ⟨p, hp, e⟩ := e
          cases e
          exact h1 p key (hvar i p hp)
      | addPrims ps =>
        cases e : s.call (.addPrims ps) with
        | error e' => rw [e] at hop; cases hop
        | ok op' =>
          rw [e] at hop
          rw [List.mem_singleton.mp hop]
          simp only [call, py_bind_ok] at e
          obtain ⟨qs, hqs, e⟩ := e
          cases e
          refine h2 qs fun kp hkp => ?_
          obtain ⟨x, hx, e⟩ := pyMap_ok_mem hqs hkp
          simp only [py_bind_ok] at e
          obtain ⟨p, hp, e⟩ := e
          cases e
          exact hvar _ p hp
      | addConstraint c primKeys param key =>
        rw [show s.call (.addConstraint c primKeys param key)
          = .ok (.addConstraint c primKeys param key) from rfl] at hop
        rw [List.mem_singleton.mp hop]
        exact hc _ _ _ _ (by simp)
    · exact ih (hs.step C (ht st (by simp)) (hq st (by simp))) (fun st h => ht st (by simp [h]))
        (fun st h => hq st (by simp [h])) (fun c ks ps key h => hc c ks ps key (by simp [h])) op hop

end

/-! ## Quadrilaterals after solving -/

section
variable {a b : Prim Flt}

/-- A pair of trees of the same structure, the second with real coordinates. -/
structure Solved (a b : Prim Flt) : Prop where
  okA : PrimOK a
  okB : PrimOK b
  same : SameStructure a b
  fin : b.Finite

theorem Solved.node (h : Solved a b) {p : List Str} {m : Prim Flt} (hm : a.At p m) :
    ∃ m', b.At p m' ∧ m'.ty = m.ty ∧ m'.keys = m.keys ∧ m'.value.arr.length = m.value.arr.length := by
  obtain ⟨m', hm'⟩ := (h.same.paths p).mp ⟨m, hm⟩
  obtain ⟨h1, h2, h3⟩ := h.same.nodes p m m' hm hm'
  exact ⟨m', hm', h1.symm, h2.symm, h3.symm⟩

theorem Solved.point (h : Solved a b) {p : List Str} {m m' : Prim Flt} (hm : a.At p m)
    (hm' : b.At p m') {u : ℝ × ℝ} (hp : IsPoint m u) : ∃ u', IsPoint m' u' := by
  obtain ⟨h1, h2, h3⟩ := h.same.nodes p m m' hm hm'
  obtain ⟨t, e⟩ := hp
  rw [e] at h3
  match hv : m'.value.arr, h3 with
  | [x, y], _ =>
    obtain ⟨x', rfl⟩ := h.fin p m' hm' x (by rw [hv]; simp)
    obtain ⟨y', rfl⟩ := h.fin p m' hm' y (by rw [hv]; simp)
    exact ⟨(x', y'), h1 ▸ t, hv⟩

/-- Children by their keys. -/
theorem children_of_keys {n : Prim Flt} {k : Str} {ks : List Str} (h : n.keys = k :: ks) :
    ∃ c cs, n.children = (k, c) :: cs ∧ cs.map (·.1) = ks := by
  unfold Node.keys at h
  cases hc : n.children with
  | nil => rw [hc] at h; cases h
  | cons kc cs =>
    rw [hc] at h
    obtain ⟨k', c⟩ := kc
    simp only [List.map_cons, List.cons.injEq] at h
    obtain ⟨rfl, rfl⟩ := h
    exact ⟨c, cs, rfl, rfl⟩

theorem At_child {n c : Prim Flt} {root : Prim Flt} {p : List Str} {k : Str} (h : root.At p n)
    (hm : (k, c) ∈ n.children) : root.At (p ++ [k]) c :=
  Node.At.trans h (.down hm (.here _))

/-- Equal identities before give equal coordinates after. -/
theorem Solved.shared (h : Solved a b) {p q : List Str} {m m' n' : Prim Flt} (hm : a.At p m)
    (hn : a.At q m) (hm' : b.At p m') (hn' : b.At q n') : m'.value = n'.value :=
  h.okB.ident p q m' n' hm' hn' ((h.same.sharing p q m m m' n' hm hn hm' hn').mp rfl)

/-- A line with its end points, after solving. -/
theorem Solved.line (h : Solved a b) {p : List Str} {m m' : Prim Flt} (hm : a.At p m)
    (hm' : b.At p m') {q0 q1 : Prim Flt} (ht : m.ty.IsA .line)
    (hc : m.children = [(k!"Point0", q0), (k!"Point1", q1)]) {u0 u1 : ℝ × ℝ} (h0 : IsPoint q0 u0)
    (h1 : IsPoint q1 u1) :
    ∃ p0 p1, ∃ v0 v1 : ℝ × ℝ, m'.ty.IsA .line ∧ m'.children = [(k!"Point0", p0), (k!"Point1", p1)] ∧
      IsPoint p0 v0 ∧ IsPoint p1 v1 ∧ b.At (p ++ [k!"Point0"]) p0 ∧ b.At (p ++ [k!"Point1"]) p1 ∧
      a.At (p ++ [k!"Point0"]) q0 ∧ a.At (p ++ [k!"Point1"]) q1 := by
  obtain ⟨e1, e2, _⟩ := h.same.nodes p m m' hm hm'
  have hk : m'.keys = [k!"Point0", k!"Point1"] := by rw [← e2]; simp [Node.keys, hc]
  obtain ⟨p0, cs, c1, c2⟩ := children_of_keys hk
  match cs, c2 with
  | [(k1, p1)], c2 =>
    simp only [List.map_cons, List.map_nil, List.cons.injEq, and_true] at c2
    subst c2
    have a0 : a.At (p ++ [k!"Point0"]) q0 := At_child hm (by rw [hc]; simp)
    have a1 : a.At (p ++ [k!"Point1"]) q1 := At_child hm (by rw [hc]; simp)
    have b0 : b.At (p ++ [k!"Point0"]) p0 := At_child hm' (by rw [c1]; simp)
    have b1 : b.At (p ++ [k!"Point1"]) p1 := At_child hm' (by rw [c1]; simp)
    obtain ⟨v0, g0⟩ := h.point a0 b0 h0
    obtain ⟨v1, g1⟩ := h.point a1 b1 h1
    exact ⟨p0, p1, v0, v1, e1 ▸ ht, c1, g0, g1, b0, b1, a0, a1⟩

/-- A quadrilateral whose edges share their end points is a quadrilateral after solving. -/
theorem Solved.quad (h : Solved a b) {p : List Str} {m m' : Prim Flt} (hm : a.At p m)
    (hm' : b.At p m') {A B C D : ℝ × ℝ} (hq : IsQuad m A B C D) (hl : ∃ pts, ClosedLoop m pts) :
    ∃ A' B' C' D', IsQuad m' A' B' C' D' := by
  obtain ⟨ht, l0, l1, l2, l3, hc, ⟨t0, p00, p01, c0, i00, i01⟩, ⟨t1, p10, p11, c1, i10, i11⟩,
    ⟨t2, p20, p21, c2, i20, i21⟩, ⟨t3, p30, p31, c3, i30, i31⟩⟩ := hq
  obtain ⟨pts, hk, hloop⟩ := hl
  have hlen : pts.length = 4 := by
    have := congrArg List.length hk
    simpa [Node.keys, hc] using this.symm
  have hkd := h.okA.wf p m hm
  have child : ∀ {k : Str} {x y : Prim Flt}, (k, x) ∈ m.children → (k, y) ∈ m.children → x = y := by
    intro k x y h1 h2
    exact At_unique h.okA.wf (At_child hm h1) (At_child hm h2)
  have line : ∀ i (hi : i < pts.length) {l q0 q1 : Prim Flt}, (lineKey i, l) ∈ m.children →
      l.children = [(k!"Point0", q0), (k!"Point1", q1)] →
      q0 = pts[i] ∧ q1 = pts[(i + 1) % pts.length]'(Nat.mod_lt _ (by omega)) := by
    intro i hi l q0 q1 h1 h2
    obtain ⟨l', g1, _, _, g2⟩ := hloop i hi
    obtain rfl := child h1 g1
    rw [h2] at g2
    simp only [List.cons.injEq, Prod.mk.injEq, true_and, and_true] at g2
    exact g2
  obtain ⟨s00, s01⟩ := line 0 (by omega) (l := l0) (by rw [hc]; exact .head _) c0
  obtain ⟨s10, s11⟩ := line 1 (by omega) (l := l1) (by rw [hc]; exact .tail _ (.head _)) c1
  obtain ⟨s20, s21⟩ := line 2 (by omega) (l := l2) (by rw [hc]; exact .tail _ (.tail _ (.head _))) c2
  obtain ⟨s30, s31⟩ := line 3 (by omega) (l := l3)
    (by rw [hc]; exact .tail _ (.tail _ (.tail _ (.head _)))) c3
  have idx : ∀ i j (hi : i < pts.length) (hj : j < pts.length), i = j → pts[i] = pts[j] := by
    intro i j _ _ e; subst e; rfl
  have r1 : p01 = p10 := by rw [s01, s10]; exact idx _ _ _ _ (by rw [hlen])
  have r2 : p11 = p20 := by rw [s11, s20]; exact idx _ _ _ _ (by rw [hlen])
  have r3 : p21 = p30 := by rw [s21, s30]; exact idx _ _ _ _ (by rw [hlen])
  have r0 : p31 = p00 := by rw [s31, s00]; exact idx _ _ _ _ (by rw [hlen])
  clear line child hloop hk hlen idx s00 s01 s10 s11 s20 s21 s30 s31 hkd
  obtain ⟨e1, e2, _⟩ := h.same.nodes p m m' hm hm'
  have hk' : m'.keys = [k!"Line0", k!"Line1", k!"Line2", k!"Line3"] := by
    rw [← e2]; simp [Node.keys, hc]
  obtain ⟨l0', cs, d0, d1⟩ := children_of_keys hk'
  match cs, d1 with
  | [(k1, l1'), (k2, l2'), (k3, l3')], d1 =>
    simp only [List.map_cons, List.map_nil, List.cons.injEq, and_true] at d1
    obtain ⟨rfl, rfl, rfl⟩ := d1
    obtain ⟨q00, q01, v00, v01, u0, w0, j00, j01, b00, b01, a00, a01⟩ :=
      h.line (At_child hm (k := k!"Line0") (c := l0) (by rw [hc]; simp))
        (At_child hm' (k := k!"Line0") (c := l0') (by rw [d0]; simp)) t0 c0 i00 i01
    obtain ⟨q10, q11, v10, v11, u1, w1, j10, j11, b10, b11, a10, a11⟩ :=
      h.line (At_child hm (k := k!"Line1") (c := l1) (by rw [hc]; simp))
        (At_child hm' (k := k!"Line1") (c := l1') (by rw [d0]; simp)) t1 c1 i10 i11
    obtain ⟨q20, q21, v20, v21, u2, w2, j20, j21, b20, b21, a20, a21⟩ :=
      h.line (At_child hm (k := k!"Line2") (c := l2) (by rw [hc]; simp))
        (At_child hm' (k := k!"Line2") (c := l2') (by rw [d0]; simp)) t2 c2 i20 i21
    obtain ⟨q30, q31, v30, v31, u3, w3, j30, j31, b30, b31, a30, a31⟩ :=
      h.line (At_child hm (k := k!"Line3") (c := l3) (by rw [hc]; simp))
        (At_child hm' (k := k!"Line3") (c := l3') (by rw [d0]; simp)) t3 c3 i30 i31
    subst r1 r2 r3 r0
    have f1 := h.shared a01 a10 b01 b10
    have f2 := h.shared a11 a20 b11 b20
    have f3 := h.shared a21 a30 b21 b30
    have f0 := h.shared a31 a00 b31 b00
    refine ⟨v00, v10, v20, v30, e1 ▸ ht, l0', l1', l2', l3', d0, ⟨u0, _, _, w0, j00, j01.1, ?_⟩,
      ⟨u1, _, _, w1, j10, j11.1, ?_⟩, ⟨u2, _, _, w2, j20, j21.1, ?_⟩, ⟨u3, _, _, w3, j30, j31.1, ?_⟩⟩
    · rw [f1]; exact j10.2
    · rw [f2]; exact j20.2
    · rw [f3]; exact j30.2
    · rw [f0]; exact j00.2

/-- The node of the solved tree under a key. -/
theorem Solved.getChild (h : Solved a b) {key : Str} {m : Prim Flt} (hm : a.getChild key = .ok m) :
    a.At (splitAll key) m ∧ ∃ m', b.getChild key = .ok m' ∧ b.At (splitAll key) m' := by
  rw [Node.getChild_ok_iff, Node.find_iff_At h.okA.wf] at hm
  obtain ⟨m', hm', _⟩ := h.node hm
  refine ⟨hm, m', ?_, hm'⟩
  rw [Node.getChild_ok_iff, Node.find_iff_At h.okB.wf]
  exact hm'

/-- An axes is an axes after solving. -/
theorem Solved.axes (h : Solved a b) (hloops : ∀ p m, a.At p m → m.ty.IsA .polygon → ∃ pts, ClosedLoop m pts)
    {key : Str} {A B C D : ℝ × ℝ} (hs : AxesShape a key A B C D) :
    ∃ A' B' C' D', AxesShape b key A' B' C' D' := by
  obtain ⟨ax, frame, h1, ⟨hn, h2⟩, h3, h4⟩ := hs
  obtain ⟨hax, ax', g1, hax'⟩ := h.getChild h1
  obtain ⟨e1, e2, _⟩ := h.same.nodes _ _ _ hax hax'
  have part : ∀ {k : Str} {c : Prim Flt}, (k, c) ∈ ax.children →
      ∃ c', HasPart ax' k c' ∧ a.At (splitAll key ++ [k]) c ∧ b.At (splitAll key ++ [k]) c' := by
    intro k c hc
    have hk : k ∈ ax'.keys := by rw [← e2]; exact List.mem_map_of_mem hc
    obtain ⟨⟨k', c'⟩, hc', rfl⟩ := List.mem_map.mp hk
    exact ⟨c', ⟨by rw [← e2]; exact hn, hc'⟩, At_child hax hc, At_child hax' hc'⟩
  have quad : ∀ {k : Str} {c : Prim Flt} {A B C D : ℝ × ℝ}, (k, c) ∈ ax.children → IsQuad c A B C D →
      ∃ c' A' B' C' D', HasPart ax' k c' ∧ IsQuad c' A' B' C' D' := by
    intro k c A B C D hc hq
    obtain ⟨c', p1, p2, p3⟩ := part hc
    obtain ⟨A', B', C', D', hq'⟩ := h.quad p2 p3 hq
      (hloops _ _ p2 (IsA_trans hq.1 ((PrimType.sub_iff _ _).mp (by decide))))
    exact ⟨c', A', B', C', D', p1, hq'⟩
  obtain ⟨frame', A', B', C', D', p1, hq'⟩ := quad h2 h3
  refine ⟨A', B', C', D', ax', frame', g1, p1, hq', fun kind => ⟨fun hk => ?_, fun hk => ?_⟩⟩
  · rw [← e2] at hk
    obtain ⟨q, _, _, _, _, ⟨_, hc⟩, hq⟩ := (h4 kind).1 hk
    exact quad hc hq
  · rw [← e2] at hk
    obtain ⟨q, u, ⟨_, hc⟩, hq⟩ := (h4 kind).2 hk
    obtain ⟨c', p1, p2, p3⟩ := part hc
    obtain ⟨u', hu⟩ := h.point p2 p3 hq
    exact ⟨c', u', p1, hu⟩

end

end MplLayout
