import Verif.Lemmas.Containers
import Verif.Lemmas.Constructions

/-!
# The same computation with two kinds of numbers

Relations between results, dictionaries and trees, and the operations of `containers.py` that
respect them.
-/

namespace MplLayout

variable {α α' β β' τ τ' : Type}

/-- The same exception, or related values. -/
def PyRel (Q : α → β → Prop) : Py α → Py β → Prop
  | .ok a, .ok b => Q a b
  | .error e, .error e' => e = e'
  | _, _ => False

theorem PyRel.ok {Q : α → β → Prop} {a : α} {b : β} (h : Q a b) : PyRel Q (.ok a) (.ok b) := h

theorem PyRel.err {Q : α → β → Prop} (e : Err) : PyRel Q (.error e) (.error e) := rfl

theorem PyRel.mono {Q Q' : α → β → Prop} (h : ∀ a b, Q a b → Q' a b) {x : Py α} {y : Py β}
    (hx : PyRel Q x y) : PyRel Q' x y := by
  cases x <;> cases y <;> simp_all [PyRel]

theorem PyRel.bind {Q : α → β → Prop} {Q' : α' → β' → Prop} {x : Py α} {y : Py β} (h : PyRel Q x y)
    {f : α → Py α'} {g : β → Py β'} (hf : ∀ a b, x = .ok a → y = .ok b → Q a b → PyRel Q' (f a) (g b)) :
    PyRel Q' (x >>= f) (y >>= g) := by
  cases x with
  | error e => cases y with
    | error e' => exact h
    | ok b => exact h.elim
  | ok a => cases y with
    | error e' => exact h.elim
    | ok b => exact hf a b rfl rfl h

theorem PyRel.bind' {Q : α → β → Prop} {Q' : α' → β' → Prop} {x : Py α} {y : Py β} (h : PyRel Q x y)
    {f : α → Py α'} {g : β → Py β'} (hf : ∀ a b, Q a b → PyRel Q' (f a) (g b)) :
    PyRel Q' (x >>= f) (y >>= g) := h.bind fun a b _ _ => hf a b

theorem PyRel.eq {x y : Py α} (h : PyRel Eq x y) : x = y := by
  cases x <;> cases y <;> simp_all [PyRel]

theorem PyRel.of_eq {x y : Py α} (h : x = y) : PyRel Eq x y := by
  subst h; cases x <;> rfl

theorem PyRel.ok_left {Q : α → β → Prop} {x : Py α} {y : Py β} (h : PyRel Q x y) {a : α}
    (ha : x = .ok a) : ∃ b, y = .ok b ∧ Q a b := by
  subst ha
  cases y with
  | error e => exact h.elim
  | ok b => exact ⟨b, rfl, h⟩

theorem PyRel.ok_right {Q : α → β → Prop} {x : Py α} {y : Py β} (h : PyRel Q x y) {b : β}
    (hb : y = .ok b) : ∃ a, x = .ok a ∧ Q a b := by
  subst hb
  cases x with
  | error e => exact h.elim
  | ok a => exact ⟨a, rfl, h⟩

/-- The same key, related values. -/
def KRel (Q : α → β → Prop) (a : Str × α) (b : Str × β) : Prop := a.1 = b.1 ∧ Q a.2 b.2

/-- Related lists. -/
abbrev LRel (Q : α → β → Prop) := List.Forall₂ Q

/-- Both missing, or related. -/
def ORel (Q : α → β → Prop) : Option α → Option β → Prop
  | some a, some b => Q a b
  | none, none => True
  | _, _ => False

section lists
variable {Q : α → β → Prop}

theorem pyMap_rel {Q' : α' → β' → Prop} {f : α → Py α'} {g : β → Py β'} {xs : List α} {ys : List β}
    (h : LRel Q xs ys) (hf : ∀ a b, a ∈ xs → Q a b → PyRel Q' (f a) (g b)) :
    PyRel (LRel Q') (pyMap f xs) (pyMap g ys) := by
  induction h with
  | nil => exact .nil
  | cons h _ ih =>
    exact (hf _ _ (by simp) h).bind' fun a b hab =>
      (ih fun a b ha => hf a b (List.mem_cons_of_mem _ ha)).bind' fun as bs hs => List.Forall₂.cons hab hs

theorem LRel.length {xs : List α} {ys : List β} (h : LRel Q xs ys) : xs.length = ys.length :=
  List.Forall₂.length_eq h

theorem LRel.get? {xs : List α} {ys : List β} (h : LRel Q xs ys) (i : Nat) : ORel Q xs[i]? ys[i]? := by
  induction h generalizing i with
  | nil => trivial
  | cons h _ ih => cases i with
    | zero => exact h
    | succ i => simpa using ih i

theorem LRel.drop {xs : List α} {ys : List β} (h : LRel Q xs ys) (n : Nat) :
    LRel Q (xs.drop n) (ys.drop n) := List.forall₂_drop n h

theorem LRel.take {xs : List α} {ys : List β} (h : LRel Q xs ys) (n : Nat) :
    LRel Q (xs.take n) (ys.take n) := List.forall₂_take n h

theorem LRel.append {xs xs' : List α} {ys ys' : List β} (h : LRel Q xs ys) (h' : LRel Q xs' ys') :
    LRel Q (xs ++ xs') (ys ++ ys') := List.rel_append h h'

theorem LRel.map {Q' : α' → β' → Prop} {f : α → α'} {g : β → β'} {xs : List α} {ys : List β}
    (h : LRel Q xs ys) (hf : ∀ a b, Q a b → Q' (f a) (g b)) : LRel Q' (xs.map f) (ys.map g) := by
  induction h with
  | nil => exact .nil
  | cons h _ ih => exact .cons (hf _ _ h) ih

theorem LRel.same {γ : Type} {f : γ → α} {g : γ → β} (xs : List γ) (hf : ∀ c ∈ xs, Q (f c) (g c)) :
    LRel Q (xs.map f) (xs.map g) := by
  induction xs with
  | nil => exact .nil
  | cons c xs ih => exact .cons (hf c (by simp)) (ih fun c hc => hf c (List.mem_cons_of_mem _ hc))

theorem LRel.map_eq {γ : Type} {f : α → γ} {g : β → γ} {xs : List α} {ys : List β}
    (h : LRel Q xs ys) (hf : ∀ a b, Q a b → f a = g b) : xs.map f = ys.map g := by
  induction h with
  | nil => rfl
  | cons h _ ih => rw [List.map_cons, List.map_cons, hf _ _ h, ih]

theorem LRel.zipWith {Q' : α' → β' → Prop} {γ γ' : Type} {Q'' : γ → γ' → Prop} {f : α → α' → γ}
    {g : β → β' → γ'} {xs : List α} {ys : List β} (h : LRel Q xs ys) {xs' : List α'} {ys' : List β'}
    (h' : LRel Q' xs' ys') (hf : ∀ a b a' b', Q a b → Q' a' b' → Q'' (f a a') (g b b')) :
    LRel Q'' (List.zipWith f xs xs') (List.zipWith g ys ys') := by
  induction h generalizing xs' ys' with
  | nil => exact .nil
  | cons h _ ih => cases h' with
    | nil => exact .nil
    | cons h1 h2 => exact .cons (hf _ _ _ _ h h1) (ih h2)

theorem LRel.replicate {a : α} {b : β} (h : Q a b) (n : Nat) :
    LRel Q (List.replicate n a) (List.replicate n b) := by
  induction n with
  | zero => exact .nil
  | succ n ih => exact .cons h ih

theorem LRel.flatten {xs : List (List α)} {ys : List (List β)} (h : LRel (LRel Q) xs ys) :
    LRel Q xs.flatten ys.flatten := by
  induction h with
  | nil => exact .nil
  | cons h _ ih => exact LRel.append h ih

theorem LRel.pyIndex {xs : List α} {ys : List β} (h : LRel Q xs ys) (i : Int) :
    PyRel Q (pyIndex xs i) (pyIndex ys i) := by
  simp only [MplLayout.pyIndex, h.length]
  generalize (if i < 0 then i + (ys.length : Int) else i) = j
  split
  · rfl
  · have := h.get? j.toNat
    revert this
    cases xs[j.toNat]? <;> cases ys[j.toNat]? <;> simp [ORel, PyRel]

theorem LRel.pySlice {xs : List α} {ys : List β} (h : LRel Q xs ys) (a b : Option Int) :
    LRel Q (pySlice xs a b) (pySlice ys a b) := by
  simp only [MplLayout.pySlice, h.length]
  exact (h.drop _).take _

theorem LRel.unpack {xs : List α} {ys : List β} (h : LRel Q xs ys) (bs : List Nat) :
    LRel (LRel Q) (unpack bs xs) (unpack bs ys) :=
  LRel.same _ fun _ _ => h.pySlice _ _

theorem LRel.chunk {xs : List α} {ys : List β} (h : LRel Q xs ys) (ns : List Nat) :
    LRel (LRel Q) (chunk xs ns) (chunk ys ns) := h.unpack _

theorem LRel.split2 {xs : List α} {ys : List β} (h : LRel Q xs ys) (m n : Nat) :
    LRel Q (split2 m n xs).1 (split2 m n ys).1 ∧ LRel Q (split2 m n xs).2 (split2 m n ys).2 := by
  simp only [MplLayout.split2]
  have := h.chunk [m, n]
  generalize MplLayout.chunk xs [m, n] = us at this ⊢
  generalize MplLayout.chunk ys [m, n] = vs at this ⊢
  rcases this with _ | ⟨h1, _ | ⟨h2, _ | ⟨h3, h4⟩⟩⟩
  · exact ⟨.nil, .nil⟩
  · exact ⟨.nil, .nil⟩
  · exact ⟨h1, h2⟩
  · exact ⟨.nil, .nil⟩

theorem LRel.npConcat {xs : List (List α)} {ys : List (List β)} (h : LRel (LRel Q) xs ys) :
    PyRel (LRel Q) (npConcat xs) (npConcat ys) := by
  simp only [MplLayout.npConcat]
  cases h with
  | nil => rfl
  | cons h1 h2 => exact LRel.flatten (.cons h1 h2)

/-! ## Dictionaries -/

theorem dictGet_rel {d : List (Str × α)} {d' : List (Str × β)} (h : LRel (KRel Q) d d') (k : Str) :
    ORel Q (dictGet d k) (dictGet d' k) := by
  induction h with
  | nil => trivial
  | @cons a b _ _ h _ ih =>
    obtain ⟨k1, a⟩ := a
    obtain ⟨k2, b⟩ := b
    obtain ⟨rfl, h2⟩ := h
    simp only [dictGet]
    split
    · exact h2
    · exact ih

theorem dictHas_rel {d : List (Str × α)} {d' : List (Str × β)} (h : LRel (KRel Q) d d') (k : Str) :
    dictHas d k = dictHas d' k := by
  have := dictGet_rel h k
  simp only [dictHas]
  revert this
  cases dictGet d k <;> cases dictGet d' k <;> simp [ORel]

theorem dictSet_rel {d : List (Str × α)} {d' : List (Str × β)} (h : LRel (KRel Q) d d') (k : Str)
    {a : α} {b : β} (hab : Q a b) : LRel (KRel Q) (dictSet d k a) (dictSet d' k b) := by
  induction h with
  | nil => exact .cons ⟨rfl, hab⟩ .nil
  | @cons a b _ _ h hr ih =>
    obtain ⟨k1, a⟩ := a
    obtain ⟨k2, b⟩ := b
    obtain ⟨rfl, h2⟩ := h
    simp only [dictSet]
    split
    · exact .cons ⟨rfl, hab⟩ hr
    · exact .cons ⟨rfl, h2⟩ ih

theorem dictOfPairs_rel {d : List (Str × α)} {d' : List (Str × β)} (h : LRel (KRel Q) d d') :
    LRel (KRel Q) (dictOfPairs d) (dictOfPairs d') := by
  suffices ∀ (e : List (Str × α)) (e' : List (Str × β)), LRel (KRel Q) e e' →
      LRel (KRel Q) (d.foldl (fun d p => dictSet d p.1 p.2) e) (d'.foldl (fun d p => dictSet d p.1 p.2) e') from
    this [] [] .nil
  induction h with
  | nil => exact fun e e' he => he
  | cons h _ ih =>
    intro e e' he
    simp only [List.foldl_cons]
    exact ih _ _ (h.1 ▸ dictSet_rel he _ h.2)

theorem zip_rel (ks : List Str) {xs : List α} {ys : List β} (h : LRel Q xs ys) :
    LRel (KRel Q) (ks.zip xs) (ks.zip ys) := by
  induction h generalizing ks with
  | nil => cases ks <;> exact .nil
  | cons h _ ih => cases ks with
    | nil => exact .nil
    | cons k ks => exact .cons ⟨rfl, h⟩ (ih ks)

theorem dictOfZip_rel (ks : List Str) {xs : List α} {ys : List β} (h : LRel Q xs ys) :
    LRel (KRel Q) (dictOfZip ks xs) (dictOfZip ks ys) := dictOfPairs_rel (zip_rel ks h)

end lists

/-! ## Trees -/

mutual
/-- The same tree with related classes and values. -/
def NRel (T : τ → τ' → Prop) (V : α → α' → Prop) : Node τ α → Node τ' α' → Prop
  | .mk t v cs, .mk t' v' cs' => T t t' ∧ V v v' ∧ NRelL T V cs cs'
/-- The same for lists of children. -/
def NRelL (T : τ → τ' → Prop) (V : α → α' → Prop) : List (Str × Node τ α) → List (Str × Node τ' α') → Prop
  | [], [] => True
  | (k, c) :: cs, (k', c') :: cs' => k = k' ∧ NRel T V c c' ∧ NRelL T V cs cs'
  | _, _ => False
end

section trees
variable {T : τ → τ' → Prop} {V : α → α' → Prop}

theorem NRelL_iff {cs : List (Str × Node τ α)} : ∀ {cs' : List (Str × Node τ' α')},
    NRelL T V cs cs' ↔ LRel (KRel (NRel T V)) cs cs' := by
  induction cs with
  | nil => intro cs'; cases cs' <;> simp [NRelL, LRel]
  | cons kc cs ih =>
    intro cs'
    obtain ⟨k, c⟩ := kc
    cases cs' with
    | nil => simp [NRelL, LRel]
    | cons kc' cs' =>
      obtain ⟨k', c'⟩ := kc'
      simp only [NRelL, ih, LRel, List.forall₂_cons, KRel, and_assoc]

theorem NRel_mk {t : τ} {v : α} {cs : List (Str × Node τ α)} {t' : τ'} {v' : α'}
    {cs' : List (Str × Node τ' α')} : NRel T V (.mk t v cs) (.mk t' v' cs') ↔
      T t t' ∧ V v v' ∧ LRel (KRel (NRel T V)) cs cs' := by
  rw [NRel, NRelL_iff]

theorem NRel.parts {n : Node τ α} {n' : Node τ' α'} (h : NRel T V n n') :
    T n.ty n'.ty ∧ V n.value n'.value ∧ LRel (KRel (NRel T V)) n.children n'.children := by
  cases n; cases n'
  exact NRel_mk.mp h

theorem NRel.ty {n : Node τ α} {n' : Node τ' α'} (h : NRel T V n n') : T n.ty n'.ty := h.parts.1
theorem NRel.value {n : Node τ α} {n' : Node τ' α'} (h : NRel T V n n') : V n.value n'.value := h.parts.2.1
theorem NRel.children {n : Node τ α} {n' : Node τ' α'} (h : NRel T V n n') :
    LRel (KRel (NRel T V)) n.children n'.children := h.parts.2.2
theorem NRel.keys {n : Node τ α} {n' : Node τ' α'} (h : NRel T V n n') : n.keys = n'.keys :=
  h.children.map_eq fun _ _ h => h.1
theorem NRel.values {n : Node τ α} {n' : Node τ' α'} (h : NRel T V n n') :
    LRel (NRel T V) n.values n'.values := h.children.map fun _ _ h => h.2
theorem NRel.len {n : Node τ α} {n' : Node τ' α'} (h : NRel T V n n') : n.len = n'.len :=
  h.children.length

theorem NRel.mono {T' : τ → τ' → Prop} {V' : α → α' → Prop} (hT : ∀ a b, T a b → T' a b)
    (hV : ∀ a b, V a b → V' a b) {n : Node τ α} : ∀ {n' : Node τ' α'}, NRel T V n n' → NRel T' V' n n' := by
  induction n using Node.induct with
  | _ t v cs ih =>
    intro n' h
    obtain ⟨t', v', cs'⟩ := n'
    rw [NRel_mk] at h ⊢
    refine ⟨hT _ _ h.1, hV _ _ h.2.1, ?_⟩
    obtain ⟨-, -, h⟩ := h
    induction h with
    | nil => exact .nil
    | cons h _ ih' =>
      exact .cons ⟨h.1, ih _ _ (List.mem_cons_self ..) h.2⟩ (ih' fun k c hc => ih k c (List.mem_cons_of_mem _ hc))

theorem reraiseKey_rel {Q : α → β → Prop} {x : Py α} {y : Py β} (h : PyRel Q x y) (k : Str) :
    PyRel Q (reraiseKey k x) (reraiseKey k y) := by
  cases x with
  | ok a => cases y with
    | ok b => exact h
    | error e => exact h.elim
  | error e => cases y with
    | ok b => exact h.elim
    | error e' =>
      have : e = e' := h
      subst this
      cases e <;> rfl

theorem NRel.getPath {p : List Str} : ∀ {n : Node τ α} {n' : Node τ' α'}, NRel T V n n' →
    PyRel (NRel T V) (n.getPath p) (n'.getPath p) := by
  induction p with
  | nil => intro n n' _; rfl
  | cons k ks ih =>
    intro n n' h
    have hg := dictGet_rel h.children k
    cases ks with
    | nil =>
      simp only [Node.getPath]
      apply reraiseKey_rel
      revert hg
      cases dictGet n.children k <;> cases dictGet n'.children k <;> simp [ORel, PyRel]
    | cons k' ks =>
      simp only [Node.getPath]
      apply reraiseKey_rel
      revert hg
      cases dictGet n.children k <;> cases dictGet n'.children k <;> simp only [ORel, IsEmpty.forall_iff]
      · exact fun _ => rfl
      · exact fun h => ih h

theorem NRel.getChild {n : Node τ α} {n' : Node τ' α'} (h : NRel T V n n') (k : Str) :
    PyRel (NRel T V) (n.getChild k) (n'.getChild k) := NRel.getPath h

theorem NRel.addPath {p : List Str} {c : Node τ α} {c' : Node τ' α'} (hc : NRel T V c c') :
    ∀ {n : Node τ α} {n' : Node τ' α'}, NRel T V n n' → PyRel (NRel T V) (n.addPath c p) (n'.addPath c' p) := by
  induction p with
  | nil => intro n n' _; rfl
  | cons k ks ih =>
    intro n n' h
    have hg := dictGet_rel h.children k
    cases ks with
    | nil =>
      simp only [Node.addPath, dictHas_rel h.children k]
      apply reraiseKey_rel
      split
      · rfl
      · exact NRel_mk.mpr ⟨h.ty, h.value, dictSet_rel h.children k hc⟩
    | cons k' ks =>
      simp only [Node.addPath]
      apply reraiseKey_rel
      revert hg
      cases dictGet n.children k with
      | none => cases dictGet n'.children k with
        | none => exact fun _ => rfl
        | some _ => exact fun h => h.elim
      | some m => cases dictGet n'.children k with
        | none => exact fun h => h.elim
        | some m' =>
          intro hm
          have := ih (show NRel T V m m' from hm)
          simp only
          revert this
          cases m.addPath c (k' :: ks) <;> cases m'.addPath c' (k' :: ks) <;>
            simp only [PyRel, IsEmpty.forall_iff]
          · exact fun h => h
          · exact fun hm => NRel_mk.mpr ⟨h.ty, h.value, dictSet_rel h.children k hm⟩

theorem NRel.addChild {n : Node τ α} {n' : Node τ' α'} (h : NRel T V n n') (k : Str) {c : Node τ α}
    {c' : Node τ' α'} (hc : NRel T V c c') : PyRel (NRel T V) (n.addChild k c) (n'.addChild k c') :=
  NRel.addPath hc h

theorem NRel.containsPath {p : List Str} : ∀ {n : Node τ α} {n' : Node τ' α'}, NRel T V n n' →
    n.containsPath p = n'.containsPath p := by
  induction p with
  | nil => intro n n' _; rfl
  | cons k ks ih =>
    intro n n' h
    have hg := dictGet_rel h.children k
    simp only [Node.containsPath, dictHas_rel h.children k]
    split
    · rfl
    · revert hg
      cases dictGet n.children k <;> cases dictGet n'.children k <;> simp only [ORel, IsEmpty.forall_iff]
      · exact fun _ => trivial
      · exact fun h => ih h

theorem NRel.contains {n : Node τ α} {n' : Node τ' α'} (h : NRel T V n n') : n.contains = n'.contains := by
  funext k
  exact h.containsPath

theorem NRel.iterFlat {n : Node τ α} : ∀ {n' : Node τ' α'} (key : Str), NRel T V n n' →
    LRel (KRel (NRel T V)) (n.iterFlat key) (n'.iterFlat key) := by
  induction n using Node.induct with
  | _ t v cs ih =>
    intro n' key h
    obtain ⟨t', v', cs'⟩ := n'
    have h' := (NRel_mk.mp h).2.2
    rw [Node.iterFlat, Node.iterFlat, Node.iterFlatL_eq, Node.iterFlatL_eq]
    refine .cons ⟨rfl, h⟩ ?_
    clear h
    induction h' with
    | nil => exact .nil
    | @cons a b _ _ h _ ih' =>
      obtain ⟨k1, a⟩ := a
      obtain ⟨k2, b⟩ := b
      obtain ⟨rfl, h2⟩ := h
      simp only [List.flatMap_cons]
      exact LRel.append (ih _ _ (List.mem_cons_self ..) _ h2) (ih' fun k c hc => ih k c (List.mem_cons_of_mem _ hc))

/-- Related flat structures. -/
def FRel (T : τ → τ' → Prop) (V : α → α' → Prop) (s : FlatStruct τ α) (s' : FlatStruct τ' α') : Prop :=
  s.key = s'.key ∧ T s.ty s'.ty ∧ V s.value s'.value ∧ s.childKeys = s'.childKeys

theorem NRel.flatten {n : Node τ α} {n' : Node τ' α'} (h : NRel T V n n') (key : Str) :
    LRel (FRel T V) (flatten key n) (flatten key n') :=
  (h.iterFlat key).map fun _ _ h => ⟨h.1, h.2.ty, h.2.value, h.2.keys⟩

theorem unflattenF_rel : ∀ (fuel : Nat) {ss : List (FlatStruct τ α)} {ss' : List (FlatStruct τ' α')},
    LRel (FRel T V) ss ss' → PyRel (fun r r' => NRel T V r.1 r'.1 ∧ LRel (FRel T V) r.2 r'.2)
      (unflattenF fuel ss) (unflattenF fuel ss')
  | fuel, _, _, .nil => by cases fuel <;> rfl
  | 0, _, _, .cons _ _ => rfl
  | fuel + 1, s :: ss, s' :: ss', .cons h1 h2 => by
    have hch : ∀ (ks : List Str) {ss : List (FlatStruct τ α)} {ss' : List (FlatStruct τ' α')},
        LRel (FRel T V) ss ss' → PyRel (fun r r' => LRel (NRel T V) r.1 r'.1 ∧ LRel (FRel T V) r.2 r'.2)
          (unflattenChildren (unflattenF fuel) ks ss) (unflattenChildren (unflattenF fuel) ks ss') := by
      intro ks
      induction ks with
      | nil => exact fun h => ⟨.nil, h⟩
      | cons k ks ih =>
        intro ss ss' h
        refine (unflattenF_rel fuel h).bind' fun a b hab => ?_
        refine (ih hab.2).bind' fun c d hcd => ?_
        exact ⟨.cons hab.1 hcd.1, hcd.2⟩
    simp only [unflattenF, h1.2.2.2]
    refine (hch _ h2).bind' fun a b hab => ?_
    exact ⟨NRel_mk.mpr ⟨h1.2.1, h1.2.2.1, dictOfZip_rel _ hab.1⟩, hab.2⟩

theorem unflatten_rel {ss : List (FlatStruct τ α)} {ss' : List (FlatStruct τ' α')}
    (h : LRel (FRel T V) ss ss') : PyRel (fun r r' => NRel T V r.1 r'.1 ∧ LRel (FRel T V) r.2 r'.2)
      (unflatten ss) (unflatten ss') := by
  simp only [unflatten, h.length]
  exact unflattenF_rel _ h

theorem mapNode_eq {n : Node τ α} {n' : Node τ' α'} (h : NRel T V n n') {σ γ : Type} (b : σ) {f : α → γ}
    {g : α' → γ} (hf : ∀ a a', V a a' → f a = g a') : mapNode b f n = mapNode b g n' := by
  simp only [mapNode]
  have : (flatten [] n).map (fun s => (⟨s.key, b, f s.value, s.childKeys⟩ : FlatStruct σ γ))
      = (flatten [] n').map fun s => ⟨s.key, b, g s.value, s.childKeys⟩ :=
    (h.flatten []).map_eq fun s s' hs => by rw [hs.1, hf _ _ hs.2.2.1, hs.2.2.2]
  rw [this]

end trees

end MplLayout
