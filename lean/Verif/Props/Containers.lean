import Verif.Lemmas.Containers

/-!
# C01–C13: trees and generated keys (`containers.py`)
-/

namespace MplLayout.Props

open Node

attribute [-simp] List.getLastD_eq_getLast?

variable {τ σ ρ α β γ : Type}

/-- A small tree used in the examples: `root(0){a(1){x(2)}, b(3)}`. -/
def exTree : Node Nat Nat :=
  .mk 7 0 [(k!"a", .mk 8 1 [(k!"x", .mk 9 2 [])]), (k!"b", .mk 8 3 [])]

theorem exTree_good : exTree.WF ∧ exTree.SlashFree := (goodB_iff _).1 (by decide)

/-! ## C01 -/

/-- C01: unflattening the flat form of a tree (followed by any further structures) gives back the
tree, and exactly the further structures are left over. -/
theorem C01_unflatten_flatten (n : Node τ α) (hn : n.WF) (key : Str)
    (extra : List (FlatStruct τ α)) :
    unflatten (flatten key n ++ extra) = .ok (n, extra) :=
  unflatten_flatten n hn key extra

/-- C01: the flat form determines the tree. -/
theorem C01_flatten_injective (n n' : Node τ α) (hn : n.WF) (hn' : n'.WF) (key key' : Str)
    (h : flatten key n = flatten key' n') : n = n' := by
  have h1 := unflatten_flatten n hn key []
  have h2 := unflatten_flatten n' hn' key' []
  rw [h, h2] at h1
  simpa using h1.symm

example : exTree.WF ∧ flatten k!"r" exTree =
    [⟨k!"r", 7, 0, [k!"a", k!"b"]⟩, ⟨k!"r/a", 8, 1, [k!"x"]⟩, ⟨k!"r/a/x", 9, 2, []⟩,
     ⟨k!"r/b", 8, 3, []⟩] := ⟨exTree_good.1, by decide⟩

/-! ## C02 -/

/-- C02: the listing consists of the root, with the given empty key, and then exactly the pairs
`('/' + key, node[key])` for the keys that resolve; no key is listed twice; the order is
depth-first. -/
theorem C02_iter_flat (n : Node τ α) (hn : n.WF) (hs : n.SlashFree) :
    ∃ rest, n.iterFlat [] = ([], n) :: rest ∧
      (∀ k m, (k, m) ∈ rest ↔ ∃ key, k = '/' :: key ∧ n.getChild key = .ok m) ∧
      ((n.iterFlat []).map (·.1)).Nodup ∧
      (n.iterFlat []).Pairwise (fun a b =>
        ∃ p q, a.1 = slashed p ∧ b.1 = slashed q ∧ n.Before p q) := by
  refine ⟨iterFlatL [] n.children, ?_, ?_, ?_, ?_⟩
  · cases n; rfl
  · intro k m
    have hmem : (k, m) ∈ iterFlatL [] n.children ↔
        ∃ p, p ≠ [] ∧ k = slashed p ∧ n.At p m := by
      constructor
      · intro h
        rw [iterFlatL_eq, List.mem_flatMap] at h
        obtain ⟨⟨k', c⟩, hc, h⟩ := h
        obtain ⟨p, hp, hm⟩ := (iterFlat_mem c _ k m).1 h
        exact ⟨k' :: p, by simp, by simp [hp, slashed], .down hc hm⟩
      · rintro ⟨p, hp, hk, hm⟩
        cases hm with
        | here => exact absurd rfl hp
        | @down _ c _ k' p hc hm =>
          rw [iterFlatL_eq, List.mem_flatMap]
          exact ⟨(k', c), hc, (iterFlat_mem c _ k m).2 ⟨p, by simp [hk, slashed], hm⟩⟩
    rw [hmem]
    constructor
    · rintro ⟨p, hp, hk, hm⟩
      refine ⟨joinSlash p, by rw [hk, slashed_eq hp], ?_⟩
      rw [getChild_ok_iff, splitAll_joinSlash hp (hm.noslash hs)]
      exact find_of_At hn hm
    · rintro ⟨key, hk, hm⟩
      rw [getChild_ok_iff] at hm
      exact ⟨splitAll key, splitAll_ne_nil key,
        by rw [hk, slashed_eq (splitAll_ne_nil key), joinSlash_splitAll], At_of_find hm⟩
  · obtain ⟨ps, h1, h2, h3⟩ := iterFlat_paths n [] hn
    rw [h1, List.map_map, List.Nodup, List.pairwise_map]
    apply List.Pairwise.imp_of_mem _ h3
    intro a b ha hb hab
    simp only [Function.comp, List.nil_append]
    intro he
    exact hab.ne hn (slashed_injective ((h2 a ha).noslash hs) ((h2 b hb).noslash hs) he)
  · obtain ⟨ps, h1, h2, h3⟩ := iterFlat_paths n [] hn
    rw [h1, List.pairwise_map]
    exact h3.imp fun h => ⟨_, _, by simp, by simp, h⟩

/-- C02: with a non-empty root key every listed key just gets that key in front. -/
theorem C02_iter_flat_key (n : Node τ α) (key : Str) (k : Str) (m : Node τ α) :
    (k, m) ∈ n.iterFlat key ↔ ∃ k', k = key ++ k' ∧ (k', m) ∈ n.iterFlat [] := by
  constructor
  · intro h
    obtain ⟨p, hp, hm⟩ := (iterFlat_mem n key k m).1 h
    exact ⟨slashed p, hp, (iterFlat_mem n [] _ m).2 ⟨p, by simp, hm⟩⟩
  · rintro ⟨k', hk, h⟩
    obtain ⟨p, hp, hm⟩ := (iterFlat_mem n [] k' m).1 h
    exact (iterFlat_mem n key k m).2 ⟨p, by simp [hk, hp], hm⟩

example : exTree.WF ∧ exTree.SlashFree ∧
    (exTree.iterFlat []).map (·.1) = [k!"", k!"/a", k!"/a/x", k!"/b"] :=
  ⟨exTree_good.1, exTree_good.2, by decide⟩

/-- Why C02 asks for keys without slash: `Node(0, {'a/x': .., 'a': Node(1, {'x': ..})})` lists the
key `/a/x` twice. -/
theorem C02_slash_collision :
    let n : Node Nat Nat := .mk 0 0 [(k!"a/x", .mk 0 1 []), (k!"a", .mk 0 2 [(k!"x", .mk 0 3 [])])]
    n.WF ∧ (n.iterFlat []).map (·.1) = [k!"", k!"/a/x", k!"/a", k!"/a/x"] := by
  refine ⟨?_, by decide⟩
  rw [WF_mk]
  refine ⟨by decide, ?_⟩
  intro k c hc
  simp at hc
  rcases hc with ⟨_, rfl⟩ | ⟨_, rfl⟩
  · exact ((goodB_iff _).1 (by decide)).1
  · exact ((goodB_iff _).1 (by decide)).1

/-! ## C03 -/

/-- C03: `node[a + '/' + b]` is `node[a][b]`. -/
theorem C03_lookup_composes (n m : Node τ α) (a b : Str) :
    n.getChild (a ++ '/' :: b) = .ok m ↔ ∃ c, n.getChild a = .ok c ∧ c.getChild b = .ok m := by
  simp only [getChild_ok_iff, splitAll_append_slash, find_append]
  cases n.find (splitAll a) <;> simp

/-- C03: a lookup that fails raises `KeyError` with the full key that was asked for. -/
theorem C03_lookup_error (n : Node τ α) (key : Str) (e : Err) (h : n.getChild key = .error e) :
    e = .keyError key := (getChild_error_iff.1 h).2

/-- C03: a key without slash is looked up among the children. -/
theorem C03_lookup_single (n m : Node τ α) (hn : n.WF) (k : Str) (hk : '/' ∉ k) :
    n.getChild k = .ok m ↔ (k, m) ∈ n.children := by
  rw [getChild_ok_iff, splitAll_noslash hk]
  simp only [find]
  constructor
  · intro h
    cases hd : dictGet n.children k with
    | none => simp [hd] at h
    | some c => simp [hd] at h; subst h; exact dictGet_eq_some_mem hd
  · intro h; rw [dictGet_of_mem hn.keys_nodup h]

/-- C03: lookup follows the components of the key from child to child. -/
theorem C03_lookup_path (n m : Node τ α) (hn : n.WF) (key : Str) :
    n.getChild key = .ok m ↔ n.At (splitAll key) m := by
  rw [getChild_ok_iff, find_iff_At hn]

example : (exTree.getChild k!"a/x").map (·.value) = .ok 2 ∧
    (exTree.getChild k!"a/y").map (·.value) = .error (.keyError k!"a/y") := by decide

/-! ## C04, C05 -/

/-- The parent of `key` exists: `key` has no slash, or the part before its last slash resolves. -/
def ParentResolves (n : Node τ α) (key : Str) : Prop :=
  '/' ∉ key ∨ ∃ parent last, key = parent ++ '/' :: last ∧ '/' ∉ last ∧
    ∃ m, n.getChild parent = .ok m

theorem parentResolves_iff (n : Node τ α) (key : Str) :
    ParentResolves n key ↔ ∃ m, n.find (splitAll key).dropLast = some m := by
  constructor
  · rintro (h | ⟨parent, last, hk, hl, m, hm⟩)
    · rw [(noslash_iff_dropLast key).1 h]; exact ⟨n, rfl⟩
    · refine ⟨m, ?_⟩
      rw [hk, splitAll_append_slash, splitAll_noslash hl, List.dropLast_concat]
      exact getChild_ok_iff.1 hm
  · rintro ⟨m, hm⟩
    by_cases h : '/' ∈ key
    · right
      have hne : (splitAll key).dropLast ≠ [] := fun e => ((noslash_iff_dropLast key).2 e) h
      have hws : ∀ w ∈ (splitAll key).dropLast, '/' ∉ w := fun w hw =>
        mem_splitAll_noslash (List.dropLast_subset _ hw)
      refine ⟨joinSlash (splitAll key).dropLast, (splitAll key).getLastD [], ?_, ?_, m, ?_⟩
      · conv => lhs; rw [← joinSlash_splitAll key, splitAll_split key]
        rw [joinSlash_append hne (by simp)]
        rfl
      · exact mem_splitAll_noslash (getLastD_mem_splitAll key)
      · rw [getChild_ok_iff, splitAll_joinSlash hne hws]; exact hm
    · exact Or.inl h

/-- C05: `add_child` raises `KeyError` naming the full key exactly when the key already resolves or
its parent does not; otherwise it succeeds. -/
theorem C05_add_child_outcome (n child : Node τ α) (key : Str) :
    (n.addChild key child = .error (.keyError key) ↔
      (∃ m, n.getChild key = .ok m) ∨ ¬ ParentResolves n key) ∧
    (∀ e, n.addChild key child = .error e → e = .keyError key) := by
  rw [parentResolves_iff, addChild_eq]
  have hg : (∃ m, n.getChild key = .ok m) ↔
      ∃ m, n.find (splitAll key).dropLast = some m ∧ (splitAll key).getLastD [] ∈ m.keys := by
    simp only [getChild_ok_iff]
    conv => lhs; rw [splitAll_split key]
    simp only [find_snoc]
    cases n.find (splitAll key).dropLast with
    | none => simp
    | some m => simpa using dictGet_isSome_iff
  rw [hg]
  cases n.find (splitAll key).dropLast with
  | none => simp [eq_comm]
  | some m =>
    by_cases h : (splitAll key).getLastD [] ∈ m.keys
    · simp [h, eq_comm]
    · simp [h]

/-- C04: after a successful `add_child(key, child)`, `node[key]` is `child`; everything below it is
found below `key`; every other key that is not an ancestor of `key` has the same lookup outcome as
before; an ancestor has become itself with `child` added below; the new key comes last among its
siblings and nothing else moved. -/
theorem C04_add_child (n n' child : Node τ α) (key : Str) (h : n.addChild key child = .ok n') :
    n'.getChild key = .ok child ∧
    (∀ r m, n'.getChild (key ++ '/' :: r) = .ok m ↔ child.getChild r = .ok m) ∧
    (∀ key', key' ≠ key → (∀ r, key' ≠ key ++ '/' :: r) → (∀ r, key ≠ key' ++ '/' :: r) →
      n'.getChild key' = n.getChild key') ∧
    (∀ anc r a, key = anc ++ '/' :: r → n.getChild anc = .ok a →
      ∃ a', a.addChild r child = .ok a' ∧ n'.getChild anc = .ok a') ∧
    n'.ty = n.ty ∧ n'.value = n.value ∧
    ('/' ∉ key → n'.children = n.children ++ [(key, child)]) ∧
    ('/' ∈ key → n'.keys = n.keys) := by
  have h0 := h
  rw [addChild_eq] at h
  cases hf : n.find (splitAll key).dropLast with
  | none => rw [hf] at h; simp at h
  | some m =>
    simp only [hf] at h
    by_cases hk : (splitAll key).getLastD [] ∈ m.keys
    · rw [if_pos hk] at h; simp at h
    rw [if_neg hk] at h
    simp only [Except.ok.injEq] at h
    have hsp := splitAll_split key
    have hbelow : ∀ r, n'.find (splitAll key ++ r) = child.find r := by
      intro r
      rw [← h]
      conv => lhs; rw [hsp]
      rw [List.append_assoc, List.singleton_append]
      have e : (splitAll key).dropLast = ((splitAll key).dropLast ++ [(splitAll key).getLastD []]).dropLast := by
        simp
      have := find_setAt_below ((splitAll key).getLastD []) child r hf
      simpa [← hsp] using this
    refine ⟨?_, ?_, ?_, ?_, ?_, ?_, ?_, ?_⟩
    · rw [getChild_ok_iff]
      have := hbelow []
      rwa [List.append_nil] at this
    · intro r m'
      rw [getChild_ok_iff, splitAll_append_slash, hbelow, getChild_ok_iff]
    · intro key' h1 h2 h3
      rw [getChild_eq', getChild_eq', ← h, find_setAt_other]
      · rw [← hsp, splitAll_prefix_iff]
        rintro (e | ⟨r, e⟩)
        · exact h1 e
        · exact h2 r e
      · intro hp
        have : splitAll key' <+: splitAll key := hp.trans (by
          conv => rhs; rw [hsp]
          exact List.prefix_append _ _)
        rcases (splitAll_prefix_iff key' key).1 this with e | ⟨r, e⟩
        · exact h1 e.symm
        · exact h3 r e
    · intro anc r a hkey ha
      rw [getChild_ok_iff] at ha
      have hsk : splitAll key = splitAll anc ++ splitAll r := by rw [hkey, splitAll_append_slash]
      have hdl : (splitAll key).dropLast = splitAll anc ++ (splitAll r).dropLast := by
        rw [hsk, List.dropLast_append_of_ne_nil (splitAll_ne_nil r)]
      have hlast : (splitAll key).getLastD [] = (splitAll r).getLastD [] := by
        rw [hsk]
        conv => lhs; rw [splitAll_split r, ← List.append_assoc]
        rw [List.getLastD_concat]
      rw [hdl] at hf
      obtain ⟨m', g1, g2, g3⟩ := find_setAt_prefix ((splitAll key).getLastD []) child hf
      rw [ha] at g1
      cases g1
      refine ⟨a.setAt (splitAll r).dropLast ((splitAll r).getLastD []) child, ?_, ?_⟩
      · rw [addChild_eq, g2]
        simp only
        rw [if_neg (hlast ▸ hk)]
      · rw [getChild_ok_iff, ← h, hdl, g3, hlast]
    · rw [← h, setAt_ty]
    · rw [← h, setAt_value]
    · intro hns
      have hdl := (noslash_iff_dropLast key).1 hns
      have hlast : (splitAll key).getLastD [] = key := by rw [splitAll_noslash hns]; rfl
      rw [← h, hdl, hlast]
      rw [hdl] at hf
      simp only [find, Option.some.injEq] at hf
      subst hf
      rw [hlast] at hk
      exact dictSet_of_notMem _ hk
    · intro hs
      have hdl : (splitAll key).dropLast ≠ [] := fun e => ((noslash_iff_dropLast key).2 e) hs
      rw [← h, setAt_keys]
      cases hd : (splitAll key).dropLast with
      | nil => exact absurd hd hdl
      | cons => rfl

/-- C04: trees built with `add_child` have distinct keys without slashes. -/
theorem C04_add_child_good (n n' child : Node τ α) (key : Str)
    (h : n.addChild key child = .ok n') (hn : n.WF ∧ n.SlashFree) (hc : child.WF ∧ child.SlashFree) :
    n'.WF ∧ n'.SlashFree := by
  rw [addChild_eq] at h
  cases hf : n.find (splitAll key).dropLast with
  | none => rw [hf] at h; simp at h
  | some m =>
    simp only [hf] at h
    by_cases hk : (splitAll key).getLastD [] ∈ m.keys
    · rw [if_pos hk] at h; simp at h
    rw [if_neg hk] at h
    simp only [Except.ok.injEq] at h
    rw [← h]
    exact ⟨setAt_good hn.1 hc.1,
      setAt_slashFree hn.2 (mem_splitAll_noslash (getLastD_mem_splitAll key)) hc.2⟩

example : ((exTree.addChild k!"a/y" exTree).map (·.iterFlat [] |>.map (·.1))) =
      .ok [k!"", k!"/a", k!"/a/x", k!"/a/y", k!"/a/y/a", k!"/a/y/a/x", k!"/a/y/b", k!"/b"] ∧
    ((exTree.addChild k!"a/x" exTree).map (·.ty)) = .error (.keyError k!"a/x") ∧
    ((exTree.addChild k!"c/x" exTree).map (·.ty)) = .error (.keyError k!"c/x") := by decide

/-! ## C06, C07 -/

/-- C07 (partial): for keys without empty components, `key in node` is `True` exactly when
`node[key]` resolves, is `False` exactly when only the last component is missing, and raises
`KeyError` exactly when an ancestor is missing.  Missing for the full property: it raises (and does
not return `False`) for a missing ancestor, see `C07_raises`; and see `C07_trailing_slash`. -/
theorem C07_contains_partial (n : Node τ α) (key : Str) (hk : ProperKey key) :
    (n.contains key = .ok true ↔ ∃ m, n.getChild key = .ok m) ∧
    (n.contains key = .ok false ↔ (¬ ∃ m, n.getChild key = .ok m) ∧ ParentResolves n key) ∧
    ((∃ k', n.contains key = .error (.keyError k')) ↔ ¬ ParentResolves n key) := by
  rw [parentResolves_iff]
  have hsp := splitAll_split key
  have := containsPath_eq n (splitAll key).dropLast ((splitAll key).getLastD [])
    (by rw [← hsp]; exact hk)
  rw [← hsp] at this
  have hg : (∃ m, n.getChild key = .ok m) ↔
      ∃ m, n.find (splitAll key).dropLast = some m ∧ (splitAll key).getLastD [] ∈ m.keys := by
    simp only [getChild_ok_iff]
    conv => lhs; rw [hsp]
    simp only [find_snoc]
    cases n.find (splitAll key).dropLast with
    | none => simp
    | some m => simpa using dictGet_isSome_iff
  rw [hg, contains]
  cases hf : n.find (splitAll key).dropLast with
  | none =>
    rw [hf] at this
    obtain ⟨k', hk'⟩ := this
    rw [hk']
    simp
  | some m =>
    rw [hf] at this
    simp only at this
    rw [this]
    by_cases h : (splitAll key).getLastD [] ∈ m.keys
    · have : dictHas m.children ((splitAll key).getLastD []) = true := dictHas_iff.2 h
      simp [this, h]
    · have : dictHas m.children ((splitAll key).getLastD []) = false := dictHas_false_iff.2 h
      simp [this, h]

example : ProperKey k!"a/x" ∧ exTree.contains k!"a/x" = .ok true ∧
    exTree.contains k!"a/y" = .ok false := by decide

/-- C07 fails: membership raises `KeyError` when an ancestor is missing. -/
theorem C07_raises : exTree.contains k!"c/x" = .error (.keyError k!"c") ∧
    (exTree.getChild k!"c/x").isOk = false := by decide

/-- C07 fails: `'b/' in node` is `True` although `node['b/']` raises. -/
theorem C07_trailing_slash : exTree.contains k!"b/" = .ok true ∧
    (exTree.getChild k!"b/").isOk = false := by decide

/-- C06 (partial): for keys without empty components, `node[key] = x` raises `KeyError` when
`node[key]` does not resolve; otherwise afterwards `node[key]` is `x` (with everything below it),
every key that is neither below nor above `key` has the same lookup outcome as before, and every
ancestor (and the root) keeps its class, value and the order of its keys.  Missing for the full
property: keys with empty components, see `C06_trailing_slash` and `C06_leading_slash`. -/
theorem C06_setitem_partial (n x : Node τ α) (key : Str) (hk : ProperKey key) :
    ((¬ ∃ m, n.getChild key = .ok m) → ∃ k', n.setItem key x = .error (.keyError k')) ∧
    (∀ m, n.getChild key = .ok m → ∃ n', n.setItem key x = .ok n' ∧
      n'.getChild key = .ok x ∧
      (∀ r l, n'.getChild (key ++ '/' :: r) = .ok l ↔ x.getChild r = .ok l) ∧
      (∀ key', key' ≠ key → (∀ r, key' ≠ key ++ '/' :: r) → (∀ r, key ≠ key' ++ '/' :: r) →
        n'.getChild key' = n.getChild key') ∧
      (∀ anc r a, key = anc ++ '/' :: r → n.getChild anc = .ok a →
        ∃ a', n'.getChild anc = .ok a' ∧ a'.keys = a.keys ∧ a'.value = a.value ∧ a'.ty = a.ty) ∧
      n'.keys = n.keys ∧ n'.value = n.value ∧ n'.ty = n.ty) := by
  obtain ⟨c1, c2, c3⟩ := C07_contains_partial n key hk
  have hsp := splitAll_split key
  constructor
  · intro hno
    by_cases hp : ParentResolves n key
    · rw [setItem, c2.2 ⟨hno, hp⟩]
      exact ⟨key, rfl⟩
    · obtain ⟨k', hk'⟩ := c3.2 hp
      rw [setItem, hk']
      exact ⟨k', rfl⟩
  · intro m hm
    have hm' := hm
    rw [getChild_ok_iff, hsp, find_snoc] at hm
    cases hf : n.find (splitAll key).dropLast with
    | none => rw [hf] at hm; simp at hm
    | some par =>
      have hin : (splitAll key).getLastD [] ∈ par.keys := by
        rw [hf] at hm
        exact dictGet_isSome_iff.1 ⟨m, hm⟩
      have hset : n.setItem key x
          = .ok (n.setAt (splitAll key).dropLast ((splitAll key).getLastD []) x) := by
        rw [setItem, c1.2 ⟨m, hm'⟩]
        simp only [bind, Except.bind, if_true]
        by_cases hd : (splitAll key).dropLast = []
        · simp [hd, joinSlash]
        · have hws : ∀ w ∈ (splitAll key).dropLast, '/' ∉ w := fun w hw =>
            mem_splitAll_noslash (List.dropLast_subset _ hw)
          have hj : joinSlash (splitAll key).dropLast ≠ [] := by
            obtain ⟨b, q, hq⟩ := List.exists_cons_of_ne_nil hd
            have hb : b ≠ [] := hk b (List.dropLast_subset _ (by rw [hq]; simp))
            rw [hq]
            cases q with
            | nil => simpa [joinSlash] using hb
            | cons c q => rw [joinSlash]; simp
          rw [if_neg hj, splitAll_joinSlash hd hws]
          have hg : n.getChild (joinSlash (splitAll key).dropLast) = .ok par := by
            rw [getChild_ok_iff, splitAll_joinSlash hd hws]; exact hf
          rw [hg]
      refine ⟨_, hset, ?_⟩
      have hbelow : ∀ r, (n.setAt (splitAll key).dropLast ((splitAll key).getLastD []) x).find
          (splitAll key ++ r) = x.find r := by
        intro r
        have := find_setAt_below ((splitAll key).getLastD []) x r hf
        rw [← List.singleton_append, ← List.append_assoc, ← hsp] at this
        exact this
      refine ⟨?_, ?_, ?_, ?_, ?_, ?_, ?_⟩
      · rw [getChild_ok_iff]
        have := hbelow []
        rwa [List.append_nil] at this
      · intro r l
        rw [getChild_ok_iff, splitAll_append_slash, hbelow, getChild_ok_iff]
      · intro key' h1 h2 h3
        rw [getChild_eq', getChild_eq', find_setAt_other]
        · rw [← hsp, splitAll_prefix_iff]
          rintro (e | ⟨r, e⟩)
          · exact h1 e
          · exact h2 r e
        · intro hp
          have : splitAll key' <+: splitAll key := hp.trans (by
            conv => rhs; rw [hsp]
            exact List.prefix_append _ _)
          rcases (splitAll_prefix_iff key' key).1 this with e | ⟨r, e⟩
          · exact h1 e.symm
          · exact h3 r e
      · intro anc r a hkey ha
        rw [getChild_ok_iff] at ha
        have hsk : splitAll key = splitAll anc ++ splitAll r := by
          rw [hkey, splitAll_append_slash]
        have hdl : (splitAll key).dropLast = splitAll anc ++ (splitAll r).dropLast := by
          rw [hsk, List.dropLast_append_of_ne_nil (splitAll_ne_nil r)]
        rw [hdl] at hf
        obtain ⟨m', g1, g2, g3⟩ := find_setAt_prefix ((splitAll key).getLastD []) x hf
        rw [ha] at g1
        cases g1
        refine ⟨a.setAt (splitAll r).dropLast ((splitAll key).getLastD []) x, ?_, ?_,
          setAt_value .., setAt_ty ..⟩
        · rw [getChild_ok_iff, hdl, g3]
        · rw [setAt_keys]
          cases hd : (splitAll r).dropLast with
          | nil =>
            rw [hd] at g2
            simp only [find, Option.some.injEq] at g2
            subst g2
            simp only [if_pos hin]
          | cons => rfl
      · rw [setAt_keys]
        cases hd : (splitAll key).dropLast with
        | nil =>
          rw [hd] at hf
          simp only [find, Option.some.injEq] at hf
          subst hf
          simp only [if_pos hin]
        | cons => rfl
      · exact setAt_value ..
      · exact setAt_ty ..

example : ProperKey k!"a/x" ∧ (exTree.getChild k!"a/x").isOk = true ∧
    ((exTree.setItem k!"a/x" exTree).map fun n => (n.iterFlat []).map (·.1)) =
      .ok [k!"", k!"/a", k!"/a/x", k!"/a/x/a", k!"/a/x/a/x", k!"/a/x/b", k!"/b"] := by decide

/-- C06 fails for a trailing slash: `node['b/'] = x` does not raise although `node['b/']` does not
resolve; it adds a child with the empty key below `b`. -/
theorem C06_trailing_slash : (exTree.getChild k!"b/").isOk = false ∧
    ((exTree.setItem k!"b/" exTree).map fun n => (n.iterFlat []).map (·.1)) =
      .ok [k!"", k!"/a", k!"/a/x", k!"/b", k!"/b/", k!"/b//a", k!"/b//a/x", k!"/b//b"] := by decide

/-- C06 fails for a leading slash: with a child whose key is empty, `node['/x'] = y` writes to the
root instead of to the node `node['/x']`. -/
theorem C06_leading_slash :
    let n : Node Nat Nat := .mk 0 0 [(k!"", .mk 0 1 [(k!"x", .mk 0 2 [])])]
    (n.getChild k!"/x").map (·.value) = .ok 2 ∧
    ((n.setItem k!"/x" (.mk 0 9 [])).bind (·.getChild k!"/x")).map (·.value) = .ok 2 ∧
    ((n.setItem k!"/x" (.mk 0 9 [])).bind (·.getChild k!"x")).map (·.value) = .ok 9 := by decide

/-! ## C08 -/

/-- C08: `map(f, node)` succeeds and has, at every path, `f` of the value, the same keys in the same
order, and nothing else. -/
theorem C08_map (base : σ) (f : α → β) (n : Node τ α) (hn : n.WF) :
    ∃ n', mapNode base f n = .ok n' ∧
      (∀ p m, n.At p m → ∃ m', n'.At p m' ∧ m'.value = f m.value ∧ m'.keys = m.keys ∧
        m'.ty = base) ∧
      (∀ p m', n'.At p m' → ∃ m, n.At p m ∧ m'.value = f m.value ∧ m'.keys = m.keys) := by
  refine ⟨rmap base f n, mapNode_eq base f n hn, ?_, ?_⟩
  · intro p m hm
    exact ⟨_, rmap_At.2 ⟨m, hm, rfl⟩, rmap_value .., rmap_keys .., rmap_ty ..⟩
  · intro p m' hm'
    obtain ⟨m, hm, rfl⟩ := rmap_At.1 hm'
    exact ⟨m, hm, rmap_value .., rmap_keys ..⟩

/-- C08: mapping `g` after `f` is mapping the composite. -/
theorem C08_map_map (b1 : σ) (b2 : ρ) (f : α → β) (g : β → γ) (n : Node τ α) (hn : n.WF) :
    (mapNode b1 f n).bind (mapNode b2 g) = mapNode b2 (fun x => g (f x)) n := by
  rw [mapNode_eq b1 f n hn, mapNode_eq b2 _ n hn]
  show mapNode b2 g (rmap b1 f n) = _
  rw [mapNode_eq b2 g _ (rmap_WF b1 f n hn), rmap_rmap]

/-- C08: `copy()` has the same keys and values. -/
theorem C08_copy (base : σ) (n : Node τ α) (hn : n.WF) :
    ∃ n', copyNode base n = .ok n' ∧
      (∀ p m, n.At p m → ∃ m', n'.At p m' ∧ m'.value = m.value ∧ m'.keys = m.keys ∧
        m'.ty = base) ∧
      (∀ p m', n'.At p m' → ∃ m, n.At p m ∧ m'.value = m.value ∧ m'.keys = m.keys) :=
  C08_map base id n hn

example : exTree.WF ∧ ((mapNode () (· + 10) exTree).map fun n => (flatten [] n).map (·.value)) =
    .ok [10, 11, 12, 13] := ⟨exTree_good.1, by decide⟩

/-! ## C09 -/

/-- C09: for an associative function with neutral element `initial`, `accumulate` has the same paths
and keys, and at every path its value is the combination of all values in the corresponding
subtree. -/
theorem C09_accumulate (base : σ) (f : α → α → α) (hf : ∀ a b c, f (f a b) c = f a (f b c))
    (initial : α) (hr : ∀ a, f a initial = a) (hl : ∀ a, f initial a = a) (n : Node τ α) :
    (∀ p m, n.At p m → ∃ m', (accumulate base f initial n).At p m' ∧
        m'.value = m.allValues.foldr f initial ∧ m'.keys = m.keys) ∧
    (∀ p m', (accumulate base f initial n).At p m' → ∃ m, n.At p m) := by
  constructor
  · intro p m hm
    refine ⟨_, accumulate_At.2 ⟨m, hm, rfl⟩, accumulate_value base f hf initial hr hl m, ?_⟩
    cases m
    simp only [accumulate, keys_mk, accumulateL_eq, List.map_map]
    rfl
  · intro p m' hm'
    obtain ⟨m, hm, _⟩ := accumulate_At.1 hm'
    exact ⟨m, hm⟩

/-- C09 for addition: the value at every path is the sum of the values in the subtree. -/
theorem C09_accumulate_sum (base : σ) (n : Node τ Int) (p : List Str) (m : Node τ Int)
    (h : n.At p m) : ∃ m', (accumulate base (· + ·) 0 n).At p m' ∧ m'.value = m.allValues.sum := by
  obtain ⟨m', h1, h2, _⟩ := (C09_accumulate base (· + ·) (by intros; omega) 0 (by simp) (by simp)
    n).1 p m h
  exact ⟨m', h1, h2⟩

example : (accumulate () (· + ·) 0 exTree).value = 6 ∧
    ((accumulate () (· + ·) 0 exTree).getChild k!"a").map (·.value) = .ok 3 := by decide

/-! ## C10 -/

/-- C10: `node_height` is the largest number of steps of any downward path. -/
theorem C10_node_height (n : Node τ α) :
    (∃ p m, n.At p m ∧ p.length = n.nodeHeight) ∧
    (∀ p m, n.At p m → p.length ≤ n.nodeHeight) ∧
    (n.nodeHeight = 0 ↔ n.keys = []) := by
  refine ⟨height_attained n, fun p m => height_bound, ?_⟩
  cases n with
  | mk t v cs =>
    rw [nodeHeight_mk, keys_mk, List.map_eq_nil_iff]
    by_cases h : cs = []
    · simp [h]
    · simp [h]

/-- C10: in terms of keys, `node_height` is the largest number of components of a key that
resolves. -/
theorem C10_node_height_keys (n : Node τ α) (hn : n.WF) (hs : n.SlashFree) :
    (∀ key m, n.getChild key = .ok m → (splitAll key).length ≤ n.nodeHeight) ∧
    (n.keys ≠ [] → ∃ key m, n.getChild key = .ok m ∧ (splitAll key).length = n.nodeHeight) := by
  constructor
  · intro key m h
    exact height_bound (At_of_find (getChild_ok_iff.1 h))
  · intro hk
    obtain ⟨p, m, hm, hp⟩ := height_attained n
    have hne : p ≠ [] := by
      rintro rfl
      exact hk ((C10_node_height n).2.2.1 hp.symm)
    refine ⟨joinSlash p, m, ?_, ?_⟩
    · rw [getChild_ok_iff, splitAll_joinSlash hne (hm.noslash hs)]; exact find_of_At hn hm
    · rw [splitAll_joinSlash hne (hm.noslash hs), hp]

example : exTree.WF ∧ exTree.SlashFree ∧ exTree.nodeHeight = 2 :=
  ⟨exTree_good.1, exTree_good.2, by decide⟩

/-! ## C11 -/

/-- C11: for `0 ≤ i < len(node)`, `node[i]` and `node[i - len(node)]` are the child with the `i`-th
key. -/
theorem C11_getitem_int (n : Node τ α) (hn : n.WF) (i : Nat) (k : Str) (hk : n.keys[i]? = some k) :
    ∃ c, n.getInt i = .ok c ∧ n.getInt ((i : Int) - n.len) = .ok c ∧ (k, c) ∈ n.children ∧
      (n.SlashFree → n.getChild k = .ok c) := by
  have hlen : i < n.children.length := by
    have := (List.getElem?_eq_some_iff.1 hk).1
    simpa [keys] using this
  have hkc : n.children[i].1 = k := by
    have := (List.getElem?_eq_some_iff.1 hk).2
    simpa [keys] using this
  have hmem : (k, n.children[i].2) ∈ n.children := by
    rw [← hkc]; exact List.getElem_mem hlen
  have hv : n.values[i]? = some n.children[i].2 := by
    simp [values, hlen]
  refine ⟨n.children[i].2, ?_, ?_, hmem, ?_⟩
  · have h0 : ¬ ((i : Int) < 0) := by omega
    simp only [getInt, pyIndex, if_neg h0, Int.toNat_natCast, hv]
  · have hl : n.values.length = n.len := by simp [values, len]
    have h0 : ((i : Int) - n.len) < 0 := by simp only [len]; omega
    simp only [getInt, pyIndex, if_pos h0, hl]
    rw [show (i : Int) - (n.len : Int) + (n.len : Int) = i from by omega]
    rw [if_neg (by omega), Int.toNat_natCast, hv]
  · intro hs
    exact (C03_lookup_single n _ hn k (hs.key hmem)).2 hmem

/-- C11: positions outside `-len(node) .. len(node) - 1` raise `IndexError`. -/
theorem C11_getitem_out_of_range (n : Node τ α) (i : Int)
    (hi : i < -(n.len : Int) ∨ (n.len : Int) ≤ i) : n.getInt i = .error .indexError := by
  have hl : n.values.length = n.len := by simp [values, len]
  unfold getInt pyIndex
  simp only [hl]
  rcases hi with hi | hi
  · have h1 : i < 0 := by omega
    simp only [if_pos h1]
    rw [if_pos (by omega)]
  · have h1 : ¬ i < 0 := by omega
    simp only [if_neg h1]
    have : n.values[i.toNat]? = none := by
      rw [List.getElem?_eq_none_iff, hl]; omega
    rw [this]

/-- C11: `node[a:b]` (with `0 ≤ a`, `0 ≤ b`) is the run of children at the positions `a .. b-1`. -/
theorem C11_getitem_slice (n : Node τ α) (a b : Nat) (i : Nat) :
    (n.getSlice (some a) (some b))[i]? = if a + i < b then n.values[a + i]? else none := by
  have hl : n.values.length = n.len := by simp [values, len]
  unfold getSlice pySlice sliceBound
  have h1 : ¬ (a : Int) < 0 := by omega
  have h2 : ¬ (b : Int) < 0 := by omega
  simp only [h1, h2, if_false, Int.toNat_natCast, List.getElem?_take, List.getElem?_drop]
  by_cases h : a + i < b
  · by_cases h3 : a + i < n.values.length
    · rw [if_pos (by omega), if_pos h]
      congr 1; omega
    · have hn2 : n.values[a + i]? = none := List.getElem?_eq_none (by omega)
      rw [if_pos h, hn2]
      split
      · omega
      · rfl
  · rw [if_neg (by omega), if_neg h]

/-- The position an end of a slice denotes among `len` items: a negative one counts from the end. -/
def slicePos (len : Nat) (e : Int) : Int := if e < 0 then (len : Int) + e else e

/-- C11: `node[a:b]` for any integer ends, positive or negative, or omitted ends: the child at
position `j` of the node occurs in the slice exactly when `a ≤ j < b`, each end read as Python reads
it, and the children of the slice keep their order. -/
theorem C11_getitem_slice_any (n : Node τ α) (a b : Option Int) : ∃ lo hi : Nat,
    n.getSlice a b = (n.values.drop lo).take (hi - lo) ∧
    ∀ j : Nat, j < n.len → ((lo ≤ j ∧ j < hi) ↔
      (∀ e, a = some e → slicePos n.len e ≤ j) ∧ (∀ e, b = some e → (j : Int) < slicePos n.len e)) := by
  have hl : n.values.length = n.len := by simp [values, len]
  have hb : ∀ (e : Int) (j : Nat), j < n.len →
      ((sliceBound n.len e ≤ j ↔ slicePos n.len e ≤ j) ∧
        (j < sliceBound n.len e ↔ (j : Int) < slicePos n.len e)) := by
    intro e j hj
    simp only [sliceBound, slicePos]
    by_cases h : e < 0
    · simp only [if_pos h]
      split <;> omega
    · simp only [if_neg h]
      omega
  refine ⟨match a with | none => 0 | some i => sliceBound n.values.length i,
    match b with | none => n.values.length | some i => sliceBound n.values.length i, rfl, ?_⟩
  intro j hj
  rw [hl]
  cases a with
  | none => cases b with
    | none => simp [hj]
    | some e => simp [(hb e j hj).2]
  | some d => cases b with
    | none => simp [(hb d j hj).1, hj]
    | some e => simp [(hb d j hj).1, (hb e j hj).2]

example : exTree.WF ∧ exTree.keys[1]? = some k!"b" ∧
    (exTree.getSlice (some (-2)) (some (-1))).map (·.value) = [1] ∧
    (exTree.getInt (-1)).map (·.value) = .ok 3 ∧
    (exTree.getSlice (some 1) none).map (·.value) = [3] := ⟨exTree_good.1, by decide⟩

/-! ## C12, C13 -/

/-- C12: for a category without slash (class names have none), key generation terminates — there is
a number of rounds after which every larger bound gives the same result —, the key it returns is in
none of the given trees, has the form `<category><number>`, and no count decreases. -/
theorem C12_fresh_key (c : ItemCounter) (cat : Str) (hcat : '/' ∉ cat)
    (nodes : List ((τ : Type) × (α : Type) × Node τ α)) :
    ∃ fuel c' key, (∀ extra, c.addItemToNodes cat (nodes.map fun n => n.2.2.contains) (fuel + extra)
        = some (c', .ok key)) ∧
      (∀ n ∈ nodes, n.2.2.contains key = .ok false ∧ ∀ m, n.2.2.getChild key ≠ .ok m) ∧
      (∃ k, key = cat ++ natStr k) ∧
      (∀ cat', c.count cat' ≤ c'.count cat') ∧ c.count cat < c'.count cat := by
  obtain ⟨ks, h1, h2⟩ := ItemCounter.validIn_finite
    (tests := nodes.map fun n => n.2.2.contains) (by
      intro t ht
      obtain ⟨n, _, rfl⟩ := List.mem_map.1 ht
      exact ⟨n.2.2.keys, fun key hk => contains_noslash _ hk⟩)
  obtain ⟨B, hB⟩ := ItemCounter.fresh_bound cat ks
  obtain ⟨c', k, g1, g2, g3, g4, g5⟩ := ItemCounter.addItemUntilValid_terminates cat hcat _ ks h1 B
    hB B c (by omega)
  have hns : '/' ∉ cat ++ natStr k := by simp [hcat, slash_notMem_natStr]
  refine ⟨B + 1, c', cat ++ natStr k, g1, ?_, ⟨k, rfl⟩, ?_, by omega⟩
  · intro n hn
    have hf : n.2.2.contains (cat ++ natStr k) = .ok false := h2 _ hns g2 _ (List.mem_map.2 ⟨n, hn, rfl⟩)
    refine ⟨hf, ?_⟩
    intro m hm
    rw [contains_noslash _ hns] at hf
    simp only [Except.ok.injEq, decide_eq_false_iff_not] at hf
    rw [getChild_ok_iff, splitAll_noslash hns] at hm
    simp only [find] at hm
    cases hd : dictGet n.2.2.children (cat ++ natStr k) with
    | none => simp [hd] at hm
    | some v => exact hf (dictGet_isSome_iff.1 ⟨v, hd⟩)
  · intro cat'
    by_cases h : cat' = cat
    · subst h; omega
    · rw [g5 cat' h]; exact Nat.le_refl _

/-- A concrete run: the keys `Line0`, `Line1` are taken by hand, so the first generated key is
`Line2`. -/
example : '/' ∉ k!"Line" ∧
    ((ItemCounter.addItemToNodes {} k!"Line"
      [(Node.mk () () [(k!"Line0", .mk () () []), (k!"Line1", .mk () () [])] : Node Unit Unit).contains]
      5).map fun r => r.2) = some (.ok k!"Line2") := by decide

/-- The keys returned by a sequence of `add_item` calls for items of the given categories. -/
def addItems : ItemCounter → List Str → List Str
  | _, [] => []
  | c, cat :: cats => (c.addItem cat).2 :: addItems (c.addItem cat).1 cats

theorem addItems_getElem (c : ItemCounter) (cats : List Str) (i : Nat) :
    (addItems c cats)[i]? = cats[i]?.map fun cat =>
      cat ++ natStr (c.count cat + (cats.take i).count cat) := by
  induction cats generalizing c i with
  | nil => simp [addItems]
  | cons a cats ih =>
    cases i with
    | zero => simp [addItems, ItemCounter.addItem_key]
    | succ i =>
      simp only [addItems, List.getElem?_cons_succ, ih]
      cases hc : cats[i]? with
      | none => rfl
      | some cat =>
        simp only [Option.map_some, Option.some.injEq]
        congr 2
        rw [ItemCounter.addItem_count, List.take_succ_cons, List.count_cons]
        by_cases h : cat = a
        · subst h; simp; omega
        · have : (a == cat) = false := by simp [Ne.symm h]
          simp [h, this]

/-- C13: in a history of `add_item` calls starting from an empty counter, the call that adds the
`n`-th item of a category (`n - 1` earlier ones) returns `<category><n-1>`. -/
theorem C13_add_item (cats : List Str) (i : Nat) (cat : Str) (h : cats[i]? = some cat) :
    (addItems {} cats)[i]? = some (cat ++ natStr ((cats.take i).count cat)) := by
  rw [addItems_getElem, h]
  simp [ItemCounter.count, dictGet]

/-- C13: two calls with the same category never return the same key, whatever happened before. -/
theorem C13_no_repeat (c : ItemCounter) (cats : List Str) (i j : Nat) (cat key : Str) (hij : i < j)
    (hi : cats[i]? = some cat) (hj : cats[j]? = some cat) :
    ¬ ((addItems c cats)[i]? = some key ∧ (addItems c cats)[j]? = some key) := by
  rintro ⟨h1, h2⟩
  rw [addItems_getElem, hi] at h1
  rw [addItems_getElem, hj] at h2
  rw [← h2] at h1
  simp only [Option.map_some, Option.some.injEq] at h1
  have := natStr_injective (List.append_cancel_left h1)
  have hlt : (cats.take i).count cat < (cats.take j).count cat := by
    have h3 : cats.take j = cats.take i ++ cat :: (cats.take j).drop (i + 1) := by
      have h4 : (cats.take j).drop i = cat :: (cats.take j).drop (i + 1) := by
        have hil : i < (cats.take j).length := by
          have := (List.getElem?_eq_some_iff.1 hj).1
          simp; omega
        rw [List.drop_eq_getElem_cons hil]
        congr 1
        have := (List.getElem?_eq_some_iff.1 hi).2
        simpa using this
      rw [← h4]
      have h5 : cats.take i = (cats.take j).take i := by
        rw [List.take_take]; congr 1; omega
      rw [h5, List.take_append_drop]
    rw [h3, List.count_append, List.count_cons]
    simp
  omega

example : addItems {} [k!"Line", k!"Box", k!"Line"] = [k!"Line0", k!"Box0", k!"Line1"] := by decide

/-- Keys of *different* categories can coincide: the first item of category `A1` and the eleventh of
category `A` are both called `A10`.  (`add_item_to_nodes`, C12, is what makes keys unique.) -/
theorem C13_cross_category :
    let keys := addItems {} (k!"A1" :: List.replicate 11 k!"A")
    keys[0]? = some k!"A10" ∧ keys[11]? = some k!"A10" := by decide

end MplLayout.Props
