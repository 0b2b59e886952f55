import Verif.Model.Constructions
import Verif.Spec.Containers
import Verif.Spec.Primitives

/-!
# Specification vocabulary for constructions
-/

namespace MplLayout

variable {K : Type}

/-- The argument number written in the first part of an argument key: `argN`, with `N` decimal. -/
def argIndex : Str → Py Nat
  | 'a' :: 'r' :: 'g' :: digits =>
    if digits ≠ [] ∧ digits.all Char.isDigit then .ok (Nat.ofDigitChars 10 digits 0)
    else .error .valueError
  | _ => .error .valueError

/-- The primitive that an argument key such as `arg1` or `arg0/Line0/Point1` names among `prims`:
the argument with that number, then the child found under the remaining path. -/
def resolve (prims : List (Prim K)) (key : Str) : Py (Prim K) :=
  match splitAll key with
  | [] => .error .valueError
  | w :: ws =>
    match argIndex w with
    | .error e => .error e
    | .ok i =>
      match prims[i]? with
      | none => .error .indexError
      | some p => if ws = [] then .ok p else p.getChild (joinSlash ws)

namespace Cons

mutual
/-- Recursive evaluation: the construction's own value, followed by the values of the children,
each evaluated on the primitives that its argument keys name among `prims` and on the parameters
assigned to it. -/
def eval : Cons K → List (Prim K) → List (Param K) → Py (List K)
  | .mk cls v cs, prims, params => do
    let own ← cls.assem prims params
    let childParams ← v.childParams params
    let rest ← evalL prims cs v.childPrimKeys childParams
    .ok (own.atleast1d ++ rest)
/-- Recursive evaluation of the children, one after the other. -/
def evalL (prims : List (Prim K)) :
    List (Str × Cons K) → List (List Str) → List (List (Param K)) → Py (List K)
  | (_, c) :: cs, ks :: kss, ps :: pss => do
    let childPrims ← pyMap (resolve prims) ks
    let v ← eval c childPrims ps
    let rest ← evalL prims cs kss pss
    .ok (v ++ rest)
  | _, _, _ => .ok []
end

mutual
/-- Every child is assigned a tuple of argument keys and a tuple of parameters, here and in all
descendants, when the construction is evaluated with `params`. -/
def Aligned : Cons K → List (Param K) → Prop
  | .mk _ v cs, params =>
    v.childPrimKeys.length = cs.length ∧
    ∀ pss, v.childParams params = .ok pss → cs.length ≤ pss.length ∧ AlignedL cs pss
/-- `Aligned` for a list of children. -/
def AlignedL : List (Str × Cons K) → List (List (Param K)) → Prop
  | (_, c) :: cs, ps :: pss => Aligned c ps ∧ AlignedL cs pss
  | _, _ => True
end

mutual
/-- The parameters have the declared number at this node, and the tuples of argument keys and of
parameters assigned to the children have the numbers that the children declare, here and in all
descendants. -/
def Consistent : Cons K → List (Param K) → Prop
  | .mk _ v cs, params =>
    params.length = v.sig.paramTypes.length ∧
    v.childPrimKeys.length = cs.length ∧
    ∀ pss, v.childParams params = .ok pss →
      cs.length ≤ pss.length ∧ ConsistentL cs v.childPrimKeys pss
/-- `Consistent` for a list of children. -/
def ConsistentL : List (Str × Cons K) → List (List Str) → List (List (Param K)) → Prop
  | (_, c) :: cs, ks :: kss, ps :: pss =>
    ks.length = c.value.sig.primTypes.length ∧ Consistent c ps ∧ ConsistentL cs kss pss
  | _, _, _ => True
end

/-- No descendant takes a primitive. -/
def NoPrimRefs (c : Cons K) : Prop :=
  ∀ p (m : Cons K), c.At p m → ∀ ks ∈ m.value.childPrimKeys, ks = []

/-- The two constructions can be added: every position of the first is a position of the second,
with the same child keys (in the same order) and the same declared output size. -/
def SameShape (a b : Cons K) : Prop :=
  ∀ p (m : Cons K), a.At p m → ∃ m' : Cons K, b.At p m' ∧ m'.keys = m.keys ∧
    m'.value.sig.valueSize = m.value.sig.valueSize

mutual
/-- In the recursive evaluation every node returns as many entries as it declares. -/
def Sized : Cons K → List (Prim K) → List (Param K) → Prop
  | .mk cls v cs, prims, params =>
    (∀ own, cls.assem prims params = .ok own → own.atleast1d.length = v.sig.valueSize) ∧
    ∀ pss, v.childParams params = .ok pss → SizedL prims cs v.childPrimKeys pss
/-- `Sized` for a list of children. -/
def SizedL (prims : List (Prim K)) :
    List (Str × Cons K) → List (List Str) → List (List (Param K)) → Prop
  | (_, c) :: cs, ks :: kss, ps :: pss =>
    (∀ childPrims, pyMap (resolve prims) ks = .ok childPrims → Sized c childPrims ps) ∧
    SizedL prims cs kss pss
  | _, _, _ => True
end

/-- The arguments have the number and classes that the construction declares. -/
def Accepts (c : Cons K) (prims : List (Prim K)) (params : List (Param K)) : Prop :=
  List.Forall₂ (fun (p : Prim K) t => p.ty.IsA t) prims c.value.sig.primTypes ∧
  params.length = c.value.sig.paramTypes.length

end Cons

end MplLayout
