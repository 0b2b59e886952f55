import Verif.Model.Py

/-!
# Model of `src/mpllayout/containers.py`

`Node`, its dictionary-like interface, `map`, `accumulate`, `iter_flat`, `flatten`, `unflatten`
and `ItemCounter`.

Simplification (whole file): nodes are pure values.  Methods that mutate return the new tree.  Two
places of a tree that hold the *same* Python object are modelled as two equal subtrees, so a
mutation through one place is not visible at the other.  `Model/NodeHeap.lean` models objects with
references, and `Props/NodeHeap.lean` (C79) relates the two.
-/

namespace MplLayout

/-- `containers.py:18-40`, class `Node`: a class tag (Python `type(node)`), a value and a
dictionary of children in insertion order. -/
inductive Node (τ α : Type) where
  | mk (ty : τ) (value : α) (children : List (Str × Node τ α))

namespace Node

variable {τ σ α β : Type}

/-- `type(node)`. -/
def ty : Node τ α → τ
  | .mk t _ _ => t

/-- `containers.py:60-65`, property `value`. -/
def value : Node τ α → α
  | .mk _ v _ => v

/-- `containers.py:67-72`, property `children`. -/
def children : Node τ α → List (Str × Node τ α)
  | .mk _ _ cs => cs

/-- `containers.py:177-181`, `keys`. -/
def keys (n : Node τ α) : List Str := n.children.map (·.1)

/-- `containers.py:183-187`, `values`. -/
def values (n : Node τ α) : List (Node τ α) := n.children.map (·.2)

/-- `containers.py:174-175`, `__len__`. -/
def len (n : Node τ α) : Nat := n.children.length

mutual
/-- `containers.py:74-89`, `node_height`: 0 without children, else one more than the largest child
height. -/
def nodeHeight : Node τ α → Nat
  | .mk _ _ [] => 0
  | .mk _ _ (c :: cs) => 1 + maxHeight (c :: cs)
/-- `containers.py:89`, `max(child.node_height() for _, child in self.items())`
(never called on an empty list). -/
def maxHeight : List (Str × Node τ α) → Nat
  | [] => 0
  | (_, c) :: cs => max (nodeHeight c) (maxHeight cs)
end

/-- `containers.py:91-104`, `get_child` on the components of the key.  Python splits off the first
component at each level; here the key has been split completely.
`Lemmas.Containers.getChild_eq` shows that this satisfies the code's own recursion. -/
def getPath (n : Node τ α) : List Str → Py (Node τ α)
  | [] => .error .indexError
  | [k] =>
    reraiseKey k (match dictGet n.children k with
      | some c => .ok c
      | none => .error (.keyError k))
  | k :: k' :: ks =>
    reraiseKey (joinSlash (k :: k' :: ks)) (match dictGet n.children k with
      | some c => getPath c (k' :: ks)
      | none => .error (.keyError k))

/-- `containers.py:91-101`, `get_child`; also `__getitem__` with a `str` key
(`containers.py:241-242`). -/
def getChild (n : Node τ α) (key : Str) : Py (Node τ α) := n.getPath (splitAll key)

/-- `containers.py:106-142`, `add_child` and `_add_child_nonrecursive` on the components of the
key: returns the tree after the mutation, or the exception (in which case nothing was mutated,
because the only mutation, line 142, is the last step). -/
def addPath (n : Node τ α) (child : Node τ α) : List Str → Py (Node τ α)
  | [] => .error .indexError
  | [k] =>
    reraiseKey k (
      if dictHas n.children k then .error (.keyError k)
      else .ok (.mk n.ty n.value (dictSet n.children k child)))
  | k :: k' :: ks =>
    reraiseKey (joinSlash (k :: k' :: ks)) (match dictGet n.children k with
      | some c => match addPath c child (k' :: ks) with
        | .ok c' => .ok (.mk n.ty n.value (dictSet n.children k c'))
        | .error e => .error e
      | none => .error (.keyError k))

/-- `containers.py:106-131`, `add_child(key, child)`. -/
def addChild (n : Node τ α) (key : Str) (child : Node τ α) : Py (Node τ α) :=
  n.addPath child (splitAll key)

/-- `containers.py:164-172`, `__contains__` on the components of the key.  The remaining components
joined give `child_key`; `child_key == ""` (lines 169-170) tests only the first component;
otherwise `self[parent_key]` (line 172) may raise `KeyError`. -/
def containsPath (n : Node τ α) : List Str → Py Bool
  | [] => .error .indexError
  | k :: ks =>
    if joinSlash ks = [] then .ok (dictHas n.children k)
    else match dictGet n.children k with
      | some c => containsPath c ks
      | none => .error (.keyError k)

/-- `containers.py:164-172`, `key in node`. -/
def contains (n : Node τ α) (key : Str) : Py Bool := n.containsPath (splitAll key)

/-- Write `child` into the children dictionary of the node found at path `ps` below `n`
(the mutation `parent.children[child_key] = node`, `containers.py:219-223`, seen from the root). -/
def setAt (n : Node τ α) (ps : List Str) (k : Str) (child : Node τ α) : Node τ α :=
  match ps with
  | [] => .mk n.ty n.value (dictSet n.children k child)
  | p :: ps => match dictGet n.children p with
    | some c => .mk n.ty n.value (dictSet n.children p (setAt c ps k child))
    | none => n

/-- `containers.py:195-223`, `__setitem__`. -/
def setItem (n : Node τ α) (key : Str) (child : Node τ α) : Py (Node τ α) := do
  let splitKeys := splitAll key
  let parentKey := joinSlash splitKeys.dropLast
  let childKey := splitKeys.getLastD []
  if ← n.contains key then
    if parentKey = [] then
      .ok (n.setAt [] childKey child)
    else do
      let _ ← n.getChild parentKey
      .ok (n.setAt (splitAll parentKey) childKey child)
  else .error (.keyError key)

/-- `containers.py:243-244`, `__getitem__` with an `int` key. -/
def getInt (n : Node τ α) (i : Int) : Py (Node τ α) := pyIndex n.values i

/-- `containers.py:243-244`, `__getitem__` with a `slice` key (step 1). -/
def getSlice (n : Node τ α) (start stop : Option Int) : List (Node τ α) :=
  pySlice n.values start stop

mutual
/-- `containers.py:412-440`, `iter_flat(root_key, root_node)`. -/
def iterFlat (rootKey : Str) : Node τ α → List (Str × Node τ α)
  | .mk t v cs => (rootKey, .mk t v cs) :: iterFlatL rootKey cs
/-- `containers.py:436-440`: the chained listings of all children. -/
def iterFlatL (rootKey : Str) : List (Str × Node τ α) → List (Str × Node τ α)
  | [] => []
  | (k, c) :: cs => iterFlat (rootKey ++ '/' :: k) c ++ iterFlatL rootKey cs
end

end Node

/-- `containers.py:443`, `FlatNodeStructure`: key, node type, value, child keys. -/
structure FlatStruct (τ α : Type) where
  key : Str
  ty : τ
  value : α
  childKeys : List Str
deriving DecidableEq

variable {τ σ α β : Type}

/-- `containers.py:445-467`, `flatten`. -/
def flatten (rootKey : Str) (n : Node τ α) : List (FlatStruct τ α) :=
  (n.iterFlat rootKey).map fun p => ⟨p.1, p.2.ty, p.2.value, p.2.keys⟩

/-- The `for _key in child_keys` loop, `containers.py:492-496`; `rec` is the recursive call of
`unflatten`. -/
def unflattenChildren (rec : List (FlatStruct τ α) → Py (Node τ α × List (FlatStruct τ α))) :
    List Str → List (FlatStruct τ α) → Py (List (Node τ α) × List (FlatStruct τ α))
  | [], rest => .ok ([], rest)
  | _ :: ks, rest => do
    let (c, rest) ← rec rest
    let (cs, rest) ← unflattenChildren rec ks rest
    .ok (c :: cs, rest)

/-- `containers.py:469-501`, `unflatten`.  Python recursion modelled with fuel: every call consumes
one structure, so the length of the list is enough (`Lemmas.Containers.unflatten_never_outOfFuel`).
`node_structs[0]` of an empty list raises `IndexError`. -/
def unflattenF : Nat → List (FlatStruct τ α) → Py (Node τ α × List (FlatStruct τ α))
  | _, [] => .error .indexError
  | 0, _ :: _ => .error .outOfFuel
  | fuel + 1, s :: rest => do
    let (children, rest') ← unflattenChildren (unflattenF fuel) s.childKeys rest
    .ok (.mk s.ty s.value (dictOfZip s.childKeys children), rest')

/-- `containers.py:469-501`, `unflatten(node_structs)`. -/
def unflatten (structs : List (FlatStruct τ α)) : Py (Node τ α × List (FlatStruct τ α)) :=
  unflattenF structs.length structs

/-- `containers.py:372-386`, `map(function, node)`; every node of the result has class `Node`
(`base`). -/
def mapNode (base : σ) (f : α → β) (n : Node τ α) : Py (Node σ β) := do
  let structs := (flatten [] n).map fun s => (⟨s.key, base, f s.value, s.childKeys⟩ : FlatStruct σ β)
  let r ← unflatten structs
  .ok r.1

/-- `containers.py:144-147`, `copy`. -/
def copyNode (base : σ) (n : Node τ α) : Py (Node σ α) := mapNode base id n

mutual
/-- `containers.py:388-408`, `accumulate(function, node, initial)`; results have class `Node`. -/
def accumulate (base : σ) (f : α → α → α) (initial : α) : Node τ α → Node σ α
  | .mk _ v cs =>
    let cnodes := accumulateL base f initial cs
    let value := match cnodes with
      | [] => f v initial
      | _ => (cnodes.map fun kc => kc.2.value).foldl f v
    .mk base value cnodes
/-- `containers.py:397-400`: the dictionary of accumulated children. -/
def accumulateL (base : σ) (f : α → α → α) (initial : α) :
    List (Str × Node τ α) → List (Str × Node σ α)
  | [] => []
  | (k, c) :: cs => (k, accumulate base f initial c) :: accumulateL base f initial cs
end

/-! ## `ItemCounter` (`containers.py:251-365`) -/

/-- `containers.py:273-279`: the state of an `ItemCounter` is `_category_counts`. -/
structure ItemCounter where
  counts : List (Str × Nat) := []

namespace ItemCounter

/-- `containers.py:290-311`, `add_item`, for an item whose category is `cat`
(default: its class name, `containers.py:269-271`). -/
def addItem (c : ItemCounter) (cat : Str) : ItemCounter × Str :=
  let c' : ItemCounter := match dictGet c.counts cat with
    | some n => ⟨dictSet c.counts cat (n + 1)⟩
    | none => ⟨dictSet c.counts cat 1⟩
  let count := (dictGet c'.counts cat).getD 0 - 1
  (c', cat ++ natStr count)

/-- `containers.py:335-339`, `add_item_until_valid`: the `while not valid(key)` loop with fuel;
`none` means that the loop is still running when the fuel is used up. -/
def addItemUntilValid (valid : Str → Py Bool) (cat : Str) :
    Nat → ItemCounter → Option (ItemCounter × Py Str)
  | 0, _ => none
  | fuel + 1, c =>
    let r := c.addItem cat
    match valid r.2 with
    | .error e => some (r.1, .error e)
    | .ok true => some (r.1, .ok r.2)
    | .ok false => addItemUntilValid valid cat fuel r.1

/-- `containers.py:362-364`: `all(key not in node for node in nodes)`, in order and
short-circuiting.  The trees may have different value types, so they are given through their
`key in node` tests. -/
def validIn (tests : List (Str → Py Bool)) (key : Str) : Py Bool :=
  match tests with
  | [] => .ok true
  | t :: ts => match t key with
    | .error e => .error e
    | .ok true => .ok false
    | .ok false => validIn ts key

/-- `containers.py:341-365`, `add_item_to_nodes(item, *nodes)` with fuel. -/
def addItemToNodes (c : ItemCounter) (cat : Str) (tests : List (Str → Py Bool)) (fuel : Nat) :
    Option (ItemCounter × Py Str) :=
  addItemUntilValid (validIn tests) cat fuel c

end ItemCounter

end MplLayout
