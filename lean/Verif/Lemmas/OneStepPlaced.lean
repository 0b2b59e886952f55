import Verif.Lemmas.OneStepFam

/-!
# Rectangles on the way between two geometries
-/

namespace MplLayout

open Flt

section
variable {α : Type} {f : α → PVal Flt} {m : Node PrimType α}

theorem isPoint_mapV {a : ℝ × ℝ} :
    IsPoint (m.mapV f) a ↔ m.ty.IsA .point ∧ (f m.value).arr = [fin a.1, fin a.2] := by
  simp only [IsPoint, PointAt, up, Node.ty_mapV, Node.value_mapV]

theorem isLine_mapV {a b : ℝ × ℝ} : IsLine (m.mapV f) a b ↔ m.ty.IsA .line ∧
    ∃ p q, m.children = [(k!"Point0", p), (k!"Point1", q)] ∧ IsPoint (p.mapV f) a ∧ IsPoint (q.mapV f) b := by
  obtain ⟨ty, v, cs⟩ := m
  simp only [IsLine, LineAt, IsPoint, Node.ty_mapV]
  refine and_congr_right fun _ => ⟨?_, ?_⟩
  · rintro ⟨p, q, h1, h2, h3⟩
    rw [Node.mapV_mk] at h1
    match cs, h1 with
    | [(k0, p0), (k1, p1)], h1 =>
      simp only [Node.children, List.map_cons, List.map_nil, List.cons.injEq, Prod.mk.injEq, and_true] at h1
      obtain ⟨⟨rfl, rfl⟩, rfl, rfl⟩ := h1
      exact ⟨p0, p1, rfl, h2, h3⟩
  · rintro ⟨p, q, h1, h2, h3⟩
    rw [Node.children] at h1
    subst h1
    exact ⟨_, _, by rw [Node.mapV_mk]; rfl, h2, h3⟩

theorem isQuad_mapV {a b c d : ℝ × ℝ} : IsQuad (m.mapV f) a b c d ↔ m.ty.IsA .quadrilateral ∧
    ∃ l0 l1 l2 l3, m.children = [(k!"Line0", l0), (k!"Line1", l1), (k!"Line2", l2), (k!"Line3", l3)] ∧
      IsLine (l0.mapV f) a b ∧ IsLine (l1.mapV f) b c ∧ IsLine (l2.mapV f) c d ∧ IsLine (l3.mapV f) d a := by
  obtain ⟨ty, v, cs⟩ := m
  simp only [IsQuad, QuadAt, IsLine, Node.ty_mapV]
  refine and_congr_right fun _ => ⟨?_, ?_⟩
  · rintro ⟨p, q, r, s, h1, h2⟩
    rw [Node.mapV_mk] at h1
    match cs, h1 with
    | [(k0, p0), (k1, p1), (k2, p2), (k3, p3)], h1 =>
      simp only [Node.children, List.map_cons, List.map_nil, List.cons.injEq, Prod.mk.injEq, and_true] at h1
      obtain ⟨⟨rfl, rfl⟩, ⟨rfl, rfl⟩, ⟨rfl, rfl⟩, rfl, rfl⟩ := h1
      exact ⟨p0, p1, p2, p3, rfl, h2⟩
  · rintro ⟨p, q, r, s, h1, h2⟩
    rw [Node.children] at h1
    subst h1
    exact ⟨_, _, _, _, by rw [Node.mapV_mk]; rfl, h2⟩

end

/-! ## The same geometry -/

section
variable {p q : Prim Flt}

theorem isPoint_noId {a : ℝ × ℝ} : IsPoint (noId p) a ↔ IsPoint p a := by
  rw [noId, isPoint_mapV]; rfl

theorem isLine_noId {a b : ℝ × ℝ} : IsLine (noId p) a b ↔ IsLine p a b := by
  rw [noId, isLine_mapV]
  refine and_congr_right fun _ => exists_congr fun u => exists_congr fun v => and_congr_right fun _ =>
    and_congr isPoint_noId isPoint_noId

theorem isQuad_noId {a b c d : ℝ × ℝ} : IsQuad (noId p) a b c d ↔ IsQuad p a b c d := by
  rw [noId, isQuad_mapV]
  refine and_congr_right fun _ => exists_congr fun u => exists_congr fun v => exists_congr fun w =>
    exists_congr fun z => and_congr_right fun _ =>
    and_congr isLine_noId (and_congr isLine_noId (and_congr isLine_noId isLine_noId))

theorem isRect_geometry (hp : p.WF) (hq : q.WF) (h : SameGeometry p q) {r : Rect} (hr : IsRect p r) :
    IsRect q r := by
  rw [IsRect, ← isQuad_noId] at hr ⊢
  rw [← geometry_noId hp hq h]
  exact hr

theorem isPoint_geometry (hp : p.WF) (hq : q.WF) (h : SameGeometry p q) {a : ℝ × ℝ} (hr : IsPoint p a) :
    IsPoint q a := by
  rw [← isPoint_noId] at hr ⊢
  rw [← geometry_noId hp hq h]
  exact hr

end

/-! ## Mixtures -/

section
variable {t : ℝ} {m : Node PrimType (Nat × List (ℝ × ℝ))}

/-- A point of the mixture. -/
def mixPt (t : ℝ) (a b : ℝ × ℝ) : ℝ × ℝ := ((1 - t) * a.1 + t * b.1, (1 - t) * a.2 + t * b.2)

theorem isPoint_mix {a b : ℝ × ℝ} (h0 : IsPoint (m.mapV (mixF t 0)) a) (h1 : IsPoint (m.mapV (mixF t 1)) b) :
    IsPoint (m.mapV (mixF t 2)) (mixPt t a b) := by
  rw [isPoint_mapV] at *
  refine ⟨h0.1, ?_⟩
  have e0 := h0.2
  have e1 := h1.2
  simp only [mixF] at e0 e1 ⊢
  have hl : m.value.2.length = 2 := by simpa using congrArg List.length e0
  match hv : m.value.2, hl with
  | [x, y], _ =>
    rw [hv] at e0 e1
    simp only [List.map_cons, List.map_nil, List.cons.injEq, fin_inj, mix, and_true] at e0 e1
    simp [mix, mixPt, ← e0.1, ← e0.2, ← e1.1, ← e1.2]

theorem isLine_mix {a b a' b' : ℝ × ℝ} (h0 : IsLine (m.mapV (mixF t 0)) a b)
    (h1 : IsLine (m.mapV (mixF t 1)) a' b') : IsLine (m.mapV (mixF t 2)) (mixPt t a a') (mixPt t b b') := by
  rw [isLine_mapV] at *
  obtain ⟨ht, p, q, e, h2, h3⟩ := h0
  obtain ⟨_, p', q', e', h2', h3'⟩ := h1
  rw [e] at e'
  simp only [List.cons.injEq, Prod.mk.injEq, true_and, and_true] at e'
  obtain ⟨rfl, rfl⟩ := e'
  exact ⟨ht, p, q, e, isPoint_mix h2 h2', isPoint_mix h3 h3'⟩

theorem isQuad_mix {a b c d a' b' c' d' : ℝ × ℝ} (h0 : IsQuad (m.mapV (mixF t 0)) a b c d)
    (h1 : IsQuad (m.mapV (mixF t 1)) a' b' c' d') :
    IsQuad (m.mapV (mixF t 2)) (mixPt t a a') (mixPt t b b') (mixPt t c c') (mixPt t d d') := by
  rw [isQuad_mapV] at *
  obtain ⟨ht, p, q, u, v, e, h2, h3, h4, h5⟩ := h0
  obtain ⟨_, p', q', u', v', e', h2', h3', h4', h5'⟩ := h1
  rw [e] at e'
  simp only [List.cons.injEq, Prod.mk.injEq, true_and, and_true] at e'
  obtain ⟨rfl, rfl, rfl, rfl⟩ := e'
  exact ⟨ht, p, q, u, v, e, isLine_mix h2 h2', isLine_mix h3 h3', isLine_mix h4 h4', isLine_mix h5 h5'⟩

theorem isRect_mix {r : Rect} (h0 : IsRect (m.mapV (mixF t 0)) ⟨0, 0, 1, 1⟩) (h1 : IsRect (m.mapV (mixF t 1)) r) :
    IsRect (m.mapV (mixF t 2)) (r.way t) := by
  have := isQuad_mix h0 h1
  simpa [IsRect, Rect.way, mixPt] using this

end

end MplLayout
