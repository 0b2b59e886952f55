import Verif.Model.Arr

/-!
# Model of `src/mpllayout/constructions.py`: construction trees and their transforms

A construction is a `Node` whose class carries `assem` and whose value is a
`ConstructionValue`.
-/

namespace MplLayout

variable {K : Type}

/-- The parameter types that occur in signatures (`constructions.py:25`).  `validate_params`
(`constructions.py:273-281`) only counts them. -/
inductive ParamType where
  | float | ndarray | bool | xAxis | yAxis
deriving DecidableEq, Repr

/-- `constructions.py:35-38`, `ConstructionSignature`; `constructions.py:565-574`, `make_signature_class`
(the classes `_PointSignature` etc. only prefill `primTypes`). -/
structure ConsSig where
  primTypes : List PrimType
  paramTypes : List ParamType
  valueSize : Nat
deriving DecidableEq, Repr

/-- `constructions.py:42-45`, `ConstructionValue`. -/
structure ConsVal (K : Type) where
  childPrimKeys : List (List Str)
  childParams : List (Param K) → Py (List (List (Param K)))
  sig : ConsSig

/-- Which of the classes `XAxisThickness` / `YAxisThickness` (`constraints.py:726,737`) a class
derives from. -/
inductive AxisKind where
  | x | y
deriving DecidableEq, Repr

/-- What the code uses of a construction class: `__name__`, `isinstance(·, Scalar)`,
`isinstance(·, XAxisThickness / YAxisThickness)` and the class method `assem`. -/
structure ConsClass (K : Type) where
  name : Str
  isScalar : Bool := false
  axisKind : Option AxisKind := none
  assem : List (Prim K) → List (Param K) → Py (Arr K)

/-- `constructions.py:72`, `ConstructionNode`. -/
abbrev Cons (K : Type) := Node (ConsClass K) (ConsVal K)

/-- `constructions.py:50`, `PrimKeysNode`. -/
abbrev KeysNode := Node Unit (List Str)

/-- `constructions.py:61`, `ParamsNode`. -/
abbrev ParamsNode (K : Type) := Node Unit (List (Param K))

/-- `constructions.py:147-205`, `ConstructionNode.__init__(value, children)` for class `cls`.
The check of the number of primitive keys per child (`constructions.py:170-186`) computes a
dictionary of booleans but then applies `all` to the dictionary itself, that is to its keys; so it
only rejects a child whose key is the empty string. -/
def consInit (cls : ConsClass K) (v : ConsVal K) (children : List (Str × Cons K)) :
    Py (Cons K) :=
  if v.childPrimKeys.length ≠ children.length then .error .valueError
  else if children.any (fun kc => kc.1.isEmpty) then .error .valueError
  else .ok (.mk cls v children)

/-- `constructions.py:477-487`, `Construction.__init__`. -/
def construction (cls : ConsClass K) (keys : List Str) (children : List (Cons K))
    (childPrimKeys : List (List Str)) (childParams : List (Param K) → Py (List (List (Param K))))
    (sig : ConsSig) : Py (Cons K) :=
  consInit cls ⟨childPrimKeys, childParams, sig⟩ (dictOfZip keys children)

/-- `constructions.py:540-560`, `LeafConstruction`: no children, `child_params` returns `()`. -/
def leaf (cls : ConsClass K) (sig : ConsSig) : Cons K :=
  .mk cls ⟨[], fun _ => .ok [], sig⟩ []

/-- `constructions.py:503-507`, `CompoundConstruction.assem`: `np.array(())`. -/
def emptyAssem : List (Prim K) → List (Param K) → Py (Arr K) := fun _ _ => .ok (.vec [])

/-! ## Child arguments -/

/-- `constructions.py:219-224`, `argnum_from_key`. -/
def argnum (pre : Str) : Py Nat :=
  if pre.take 3 = k!"arg" then parseInt (pre.drop 3) else .error .valueError

/-- `constructions.py:226-229`, `replace_prim_key_prefix`. -/
def replacePrefix (argKeys : List Str) (key : Str) : Py Str := do
  let (pre, rest) := split1 key
  let i ← argnum pre
  let newPre ← pyIndex argKeys (Int.ofNat i)
  .ok (joinSlash (newPre :: rest.toList))

/-- `constructions.py:209-238`, `child_prim_keys(arg_keys)`. -/
def ConsVal.childKeys (v : ConsVal K) (argKeys : List Str) : Py (List (List Str)) :=
  pyMap (fun keys => pyMap (replacePrefix argKeys) keys) v.childPrimKeys

namespace Cons

/-- `constructions.py:249-271`, `validate_prims`. -/
def validatePrims (c : Cons K) (prims : List (Prim K)) : Py Unit :=
  let types := c.value.sig.primTypes
  if prims.length ≠ types.length then .error .typeError
  else if (List.zipWith (fun (p : Prim K) t => !p.ty.sub t) prims types).any id then
    .error .typeError
  else .ok ()

/-- `constructions.py:273-281`, `validate_params`. -/
def validateParams (c : Cons K) (params : List (Param K)) : Py Unit :=
  if params.length ≠ c.value.sig.paramTypes.length then .error .typeError else .ok ()

/-- `constructions.py:294-314`, `root_prim(prim_keys, prims)`; the new empty array gets the
identity 0 (it is never compared). -/
def rootPrim (primKeys : List Str) (prims : List (Prim K)) : Py (Prim K) :=
  primInit .primitiveNode ⟨0, []⟩ primKeys prims

mutual
/-- `constructions.py:316-340`, `root_prim_keys(prim_keys)`. -/
def rootPrimKeys : Cons K → List Str → Py KeysNode
  | .mk _ v cs, primKeys => do
    let childKeys ← v.childKeys primKeys
    let children ← rootPrimKeysL cs childKeys
    .ok (.mk () primKeys (dictOfPairs children))
/-- `constructions.py:334-339`: the pairs of the dictionary comprehension. -/
def rootPrimKeysL : List (Str × Cons K) → List (List Str) → Py (List (Str × KeysNode))
  | (k, c) :: cs, ks :: kss => do
    let n ← rootPrimKeys c ks
    let rest ← rootPrimKeysL cs kss
    .ok ((k, n) :: rest)
  | _, _ => .ok []
end

mutual
/-- `constructions.py:342-364`, `root_params(params)`. -/
def rootParams : Cons K → List (Param K) → Py (ParamsNode K)
  | .mk _ v cs, params => do
    let childParams ← v.childParams params
    let children ← rootParamsL cs childParams
    .ok (.mk () params (dictOfPairs children))
/-- `constructions.py:360-363`: the pairs of the dictionary comprehension. -/
def rootParamsL : List (Str × Cons K) → List (List (Param K)) → Py (List (Str × ParamsNode K))
  | (k, c) :: cs, ps :: pss => do
    let n ← rootParams c ps
    let rest ← rootParamsL cs pss
    .ok ((k, n) :: rest)
  | _, _ => .ok []
end

/-- `constructions.py:399-400`, `assem_atleast_1d`. -/
def assemAtleast1d (c : Cons K) (prims : List (Prim K)) (params : List (Param K)) :
    Py (List K) := do
  let a ← c.ty.assem prims params
  .ok a.atleast1d

/-- `tuple(root_prim[key] for key in prim_keys)` (`constructions.py:386`, `solver.py:281`). -/
def lookupPrims (root : Prim K) (keys : List Str) : Py (List (Prim K)) :=
  pyMap root.getChild keys

/-- The residual loop `constructions.py:391-396` over three zipped lists. -/
def residuals : List (Cons K) → List (List (Prim K)) → List (List (Param K)) →
    Py (List (List K))
  | c :: cs, prims :: pss, params :: qss => do
    let r ← c.assemAtleast1d prims params
    let rs ← residuals cs pss qss
    .ok (r :: rs)
  | _, _, _ => .ok []

/-- `constructions.py:377-397`, `assem_from_tree`. -/
def assemFromTree (c : Cons K) (root : Prim K) (keys : KeysNode) (params : ParamsNode K) :
    Py (List K) := do
  let flatCons := (c.iterFlat []).map (·.2)
  let flatKeys := (keys.iterFlat []).map (·.2.value)
  let flatPrims ← pyMap (lookupPrims root) flatKeys
  let flatParams := (params.iterFlat []).map (·.2.value)
  let rs ← residuals flatCons flatPrims flatParams
  npConcat rs

/-- The keys `arg0`, `arg1`, ... (`constructions.py:371`). -/
def argKeys (n : Nat) : List Str := (List.range n).map fun i => k!"arg" ++ natStr i

/-- `constructions.py:368-375`, `__call__(prims, *params)`. -/
def call (c : Cons K) (prims : List (Prim K)) (params : List (Param K)) : Py (List K) := do
  c.validatePrims prims
  c.validateParams params
  let primKeys := argKeys prims.length
  let root ← rootPrim primKeys prims
  let keys ← c.rootPrimKeys primKeys
  let ps ← c.rootParams params
  c.assemFromTree root keys ps

end Cons

/-! ## Transforms -/

/-- `constructions.py:1368-1396`, `chunk(array, chunk_sizes)`. -/
def chunk {α : Type} (array : List α) (sizes : List Nat) : List (List α) :=
  unpack (cumsum 0 sizes) array

/-- `split(cat)` of `concatenate_prims` / `concatenate_params` (`constructions.py:1451-1483`):
the two pieces of `chunk(cat, (a, b))`. -/
def split2 {α : Type} (a b : Nat) (cat : List α) : List α × List α :=
  match chunk cat [a, b] with
  | [x, y] => (x, y)
  | _ => ([], [])

/-- `constructions.py:1410-1449`, `concatenate_signature`, and `concatenate_construction_inputs`, which
calls it (the splitting functions that it also returns are `split2` below). -/
def ConsSig.concat (a b : ConsSig) (valueSize : Nat) : ConsSig :=
  ⟨a.primTypes ++ b.primTypes, a.paramTypes ++ b.paramTypes, valueSize⟩

/-- `constructions.py:1613-1660`, the inner `transform_SumConstruction(cons_a, cons_b)`:
class, value and child keys of one node of the sum. -/
def sumNode [PyNum K] (a b : Cons K) : Py (ConsClass K × ConsVal K × List Str) :=
  let sa := a.value.sig
  let sb := b.value.sig
  if a.keys ≠ b.keys then .error .assertionError
  else if sa.valueSize ≠ sb.valueSize then .error .assertionError
  else
    let splitPrims (ps : List (Prim K)) := split2 sa.primTypes.length sb.primTypes.length ps
    let splitParams (ps : List (Param K)) := split2 sa.paramTypes.length sb.paramTypes.length ps
    .ok ({ name := k!"SumConstruction"
           assem := fun prims params => do
             let x ← a.ty.assem (splitPrims prims).1 (splitParams params).1
             let y ← b.ty.assem (splitPrims prims).2 (splitParams params).2
             x.add y },
         { childPrimKeys := List.zipWith (· ++ ·) a.value.childPrimKeys b.value.childPrimKeys
           childParams := fun params => do
             let ca ← a.value.childParams (splitParams params).1
             let cb ← b.value.childParams (splitParams params).2
             .ok (List.zipWith (· ++ ·) ca cb)
           sig := sa.concat sb sa.valueSize },
         a.keys)

/-- `constructions.py:1662-1668`: the structures of the sum, from the two zipped flat lists. -/
def sumStructs [PyNum K] : List (Str × Cons K) → List (Str × Cons K) →
    Py (List (FlatStruct (ConsClass K) (ConsVal K)))
  | (key, a) :: as, (_, b) :: bs => do
    let n ← sumNode a b
    let rest ← sumStructs as bs
    .ok (⟨key, n.1, n.2.1, n.2.2⟩ :: rest)
  | _, _ => .ok []

/-- `constructions.py:1606-1670`, `transform_sum(cons_a, cons_b)`; also `a + b`. -/
def transformSum [PyNum K] (a b : Cons K) : Py (Cons K) := do
  let structs ← sumStructs (a.iterFlat []) (b.iterFlat [])
  let r ← unflatten structs
  .ok r.1

/-- `constructions.py:1683-1718` and `1757-1792`: one node of a scalar multiple or power.
`combine x y` is the value from the values `x` of the construction and `y` of the scalar. -/
def scalarNode (name : Str) (combine : Arr K → Arr K → Py (Arr K)) (a b : Cons K) :
    ConsClass K × ConsVal K × List Str :=
  let sa := a.value.sig
  let sb := b.value.sig
  let splitPrims (ps : List (Prim K)) := split2 sa.primTypes.length sb.primTypes.length ps
  let splitParams (ps : List (Param K)) := split2 sa.paramTypes.length sb.paramTypes.length ps
  ({ name := name
     isScalar := a.ty.isScalar
     axisKind := a.ty.axisKind
     assem := fun prims params => do
       let y ← b.ty.assem (splitPrims prims).2 (splitParams params).2
       let x ← a.ty.assem (splitPrims prims).1 (splitParams params).1
       combine x y },
   { childPrimKeys := a.value.childPrimKeys
     childParams := fun params => do
       let ca ← a.value.childParams (splitParams params).1
       .ok (ca.map (· ++ (splitParams params).2))
     sig := sa.concat sb sa.valueSize },
   a.keys)

/-- `constructions.py:1726-1732`, `1799-1805`: apply a node transform to every node. -/
def transformNodes (f : Cons K → ConsClass K × ConsVal K × List Str) (c : Cons K) :
    Py (Cons K) := do
  let structs := (c.iterFlat []).map fun kc =>
    let n := f kc.2
    (⟨kc.1, n.1, n.2.1, n.2.2⟩ : FlatStruct (ConsClass K) (ConsVal K))
  let r ← unflatten structs
  .ok r.1

/-- `constructions.py:1808-1849`, `transform_partial(cons, *freeze_params)`.
`param_types[:-len(freeze_params)]` is `param_types[:0]` when nothing is frozen. -/
def transformPartial (c : Cons K) (freeze : List (Param K)) : Py (Cons K) :=
  let sig := c.value.sig
  consInit
    { name := k!"Partial"
      isScalar := c.ty.isScalar
      axisKind := c.ty.axisKind
      assem := fun prims params => c.ty.assem prims (params ++ freeze) }
    { childPrimKeys := c.value.childPrimKeys
      childParams := fun params => c.value.childParams (params ++ freeze)
      sig := { sig with paramTypes := pySlice sig.paramTypes none (some (-(freeze.length : Int))) } }
    c.children

/-- One-parameter `assem` (`value`), `constructions.py:659-663,686-688`: `TypeError` for another
number of parameters. -/
def valueAssem [PyNum K] : List (Prim K) → List (Param K) → Py (Arr K)
  | _, [p] => p.toArr
  | _, _ => .error .typeError

/-- `constructions.py:666-688`, `Scalar()`. -/
def scalarCons [PyNum K] : Cons K :=
  leaf { name := k!"Scalar", isScalar := true, assem := valueAssem } ⟨[], [.float], 1⟩

/-- The second argument of `*`, `**`, `/`: a number, or a construction. -/
inductive Operand (K : Type) where
  | num (x : K)
  | cons (c : Cons K)

/-- `constructions.py:1721-1724`: a number becomes a partially applied `Scalar`, another
construction than a `Scalar` is refused. -/
def toScalar [PyNum K] : Operand K → Py (Cons K)
  | .num x => transformPartial scalarCons [.num x]
  | .cons c => if c.ty.isScalar then .ok c else .error .typeError

/-- `constructions.py:1673-1732`, `transform_scalar_mul`; also `-c` (with `-1.0`). -/
def transformScalarMul [PyNum K] (c : Cons K) (s : Operand K) : Py (Cons K) := do
  let b ← toScalar s
  transformNodes (fun a => scalarNode k!"ScalarMultipleConstruction" (fun x y => y.mul x) a b) c

/-- `constructions.py:1747-1805`, `transform_scalar_pow`; also `c ** s`. -/
def transformScalarPow [PyNum K] (c : Cons K) (s : Operand K) : Py (Cons K) := do
  let b ← toScalar s
  transformNodes (fun a => scalarNode k!"ScalarPowerConstruction" (fun x y => x.pow y) a b) c

/-- `constructions.py:1735-1744`, `transform_scalar_div`; also `c / s`.  Division by a construction
that is not a `Scalar` is not modelled (the code wraps it as if it were a number and fails when
evaluated). -/
def transformScalarDiv [PyNum K] (c : Cons K) (s : Operand K) : Py (Cons K) := do
  let b ← match s with
    | .num x => transformPartial scalarCons [.num x]
    | .cons b => if b.ty.isScalar then .ok b else .error .notImplemented
  let p ← transformScalarPow b (.num (-1))
  transformScalarMul c (.cons p)

/-- `constructions.py:447-451`, `self * other`: with a `Scalar` on the left the roles are swapped,
and then a number on the right has no `items()` (`AttributeError`). -/
def pyMul [PyNum K] (self : Cons K) (other : Operand K) : Py (Cons K) :=
  if self.ty.isScalar then
    match other with
    | .cons c => transformScalarMul c (.cons self)
    | .num _ => .error .attributeError
  else transformScalarMul self other

/-- `constructions.py:435-436`, `-self`. -/
def pyNeg [PyNum K] (self : Cons K) : Py (Cons K) := transformScalarMul self (.num (-1))

/-- `constructions.py:438-439`, `+self`. -/
def pyPos (self : Cons K) : Py (Cons K) := .ok self

/-- `constructions.py:441-442`, `self + other`: a number has no children to iterate over
(`AttributeError` in `iter_flat`, `containers.py:432`), although the annotation allows it. -/
def pyAdd [PyNum K] (self : Cons K) : Operand K → Py (Cons K)
  | .cons c => transformSum self c
  | .num _ => .error .attributeError

/-- `constructions.py:444-445`, `other + self` where `other` does not define `+` for
constructions: a number. -/
def pyRadd [PyNum K] (_self : Cons K) (_other : K) : Py (Cons K) := .error .attributeError

/-- `constructions.py:453-454`, `other * self` where `other` is a number. -/
def pyRmul [PyNum K] (self : Cons K) (other : K) : Py (Cons K) :=
  transformScalarMul self (.num other)

/-- `constructions.py:456-457`, `self / other`. -/
def pyTruediv [PyNum K] (self : Cons K) (other : Operand K) : Py (Cons K) :=
  transformScalarDiv self other

/-- `constructions.py:459-460`, `self ** other`. -/
def pyPow [PyNum K] (self : Cons K) (other : Operand K) : Py (Cons K) :=
  transformScalarPow self other

/-! ### `Vector` (`constructions.py:604-663`) -/

/-- `constructions.py:641-651`, `child_params` of a `Vector` whose whole tree has `total` entries,
with the sizes `cum` of the child trees and the own sizes `own` of the children. -/
def vectorChildParams [PyNum K] (total : Nat) (cum own : List Nat) (params : List (Param K)) :
    Py (List (List (Param K))) :=
  match params with
  | [value] =>
    if cum = [] then .ok []
    else match value with
      | .num x => .ok (List.zipWith (fun c n => [.arr (c.take n)])
          (chunk (List.replicate total (x * 1)) cum) own)
      | .bool b => .ok (List.zipWith (fun c n => [.arr (c.take n)])
          (chunk (List.replicate total ((if b then (1 : K) else 0) * 1)) cum) own)
      | .arr xs => .ok (List.zipWith (fun c n => [.arr (c.take n)]) (chunk xs cum) own)
      | .seq ps => .ok (List.zipWith (fun c n => [.seq (c.take n)]) (chunk ps cum) own)
      | _ => .error .typeError
  | _ => .error .valueError

mutual
/-- `constructions.py:622-663`, `Vector(size_node)`. -/
def vector [PyNum K] : Node Unit Nat → Py (Cons K)
  | .mk t size cs => do
    let cum := accumulate () (· + ·) 0 (Node.mk t size cs)
    let children ← vectorL cs
    construction { name := k!"Vector", assem := valueAssem }
      (cs.map (·.1)) children (cs.map fun _ => [])
      (vectorChildParams cum.value (cum.children.map (·.2.value)) (cs.map (·.2.value)))
      ⟨[], [.ndarray], size⟩
/-- `constructions.py:632-635`: the child vectors. -/
def vectorL [PyNum K] : List (Str × Node Unit Nat) → Py (List (Cons K))
  | [] => .ok []
  | (_, n) :: cs => do
    let c ← vector n
    let rest ← vectorL cs
    .ok (c :: rest)
end

/-- `constructions.py:1488-1517`, `transform_constraint(construction)`. -/
def transformConstraint [PyNum K] (c : Cons K) : Py (Cons K) := do
  let sizeNode ← mapNode () (fun v : ConsVal K => v.sig.valueSize) c
  let v ← vector sizeNode
  let m ← transformScalarMul v (.num (-1))
  transformSum c m

/-- `constructions.py:1524-1603`, `transform_map(construction, PrimTypes)` with
`n = len(PrimTypes)`.  `M = len(SIG.prim_types) - 1`, so `max(N - M, 0)` is `n + 1 - len` in
natural numbers; the constant keys `range(N - M, N)` are only used if `N - M > 0`. -/
def transformMap (c : Cons K) (n : Nat) : Py (Cons K) :=
  let sig := c.value.sig
  let num := n + 1 - sig.primTypes.length
  let const := (List.range (sig.primTypes.length - 1)).map fun j => k!"arg" ++ natStr (num + j)
  let numParams := sig.paramTypes.length
  construction
    { name := k!"Map" ++ c.ty.name, assem := fun _ _ => .ok (.vec []) }
    ((List.range num).map fun i => c.ty.name ++ natStr i)
    (List.replicate num c)
    ((List.range num).map fun i => (k!"arg" ++ natStr i) :: const)
    (fun params => .ok ((List.range num).map fun i =>
      pySlice params (some ((i * numParams : Nat) : Int)) (some (((i + 1) * numParams : Nat) : Int))))
    ⟨(List.replicate num (sig.primTypes.take 1)).flatten ++ sig.primTypes.drop 1,
     (List.replicate num sig.paramTypes).flatten, 0⟩

end MplLayout
