/-!
# Python run-time vocabulary used by the model

Strings, exceptions and dictionaries, as far as `/repo/src/mpllayout` uses them.
-/

namespace MplLayout

/-- Python `str`, as its list of characters.  (Models the keys used throughout
`containers.py`; only equality, concatenation and splitting at `'/'` are used there.) -/
abbrev Str := List Char

open Lean in
/-- `k!"Line0"` is the `Str` literal `['L','i','n','e','0']`. -/
macro:max "k!" s:str : term => do
  let cs := s.getString.toList.toArray.map (fun c => Syntax.mkCharLit c)
  `(([$cs,*] : Str))

/-- The exception classes that the modelled code raises.  `KeyError` keeps its message (the key),
because `containers.py:100-101,130-131` re-raise it with the full key; the other messages are
not modelled. -/
inductive Err where
  | keyError (key : Str)
  | typeError
  | valueError
  | indexError
  | assertionError
  | runtimeError
  | attributeError
  | notImplemented
  | zeroDivision
  /-- Not a Python exception: returned by a fuelled model function that runs out of fuel.  Each
  such function is proved never to return it. -/
  | outOfFuel
deriving DecidableEq, Repr

/-- Result of a Python computation: a value or an exception. -/
abbrev Py := Except Err

deriving instance DecidableEq for Except

/-- Python `try: x except KeyError as err: raise KeyError(key) from err`
(`containers.py:95-101` and `124-131`). -/
def reraiseKey {β : Type} (key : Str) (x : Py β) : Py β :=
  match x with
  | .error (.keyError _) => .error (.keyError key)
  | r => r

/-- Python `key.split("/")` (`containers.py:212`, `ui.py:144`). -/
def splitAll : Str → List Str
  | [] => [[]]
  | c :: cs =>
    if c = '/' then [] :: splitAll cs
    else match splitAll cs with
      | [] => [[c]]
      | w :: ws => (c :: w) :: ws

/-- Python `key.split("/", 1)`: the part before the first slash and, if there is a slash, the part
after it (`containers.py:92,121,165`, `constructions.py:227`, `layout.py:249`). -/
def split1 : Str → Str × Option Str
  | [] => ([], none)
  | c :: cs =>
    if c = '/' then ([], some cs)
    else let r := split1 cs; (c :: r.1, r.2)

/-- Python `"/".join(words)` (`containers.py:167,213`, `constructions.py:229`). -/
def joinSlash : List Str → Str
  | [] => []
  | [w] => w
  | w :: w' :: ws => w ++ '/' :: joinSlash (w' :: ws)

/-- Python `str(n)` / `f"{n}"` for a non-negative integer. -/
def natStr (n : Nat) : Str := Nat.toDigits 10 n

/-- Python `int(s)` (`constructions.py:221`).  Simplification: only plain decimal digit strings are
accepted; Python also accepts signs, underscores and surrounding blanks, which the code base
never produces. -/
def parseInt (s : Str) : Py Nat :=
  if s ≠ [] ∧ s.all Char.isDigit then .ok (Nat.ofDigitChars 10 s 0) else .error .valueError

/-! ## Dictionaries

A Python `dict` with `str` keys is an association list in insertion order. -/

/-- Python `d[key]` without the exception. -/
def dictGet {β : Type} (d : List (Str × β)) (k : Str) : Option β :=
  match d with
  | [] => none
  | (k', v) :: d => if k' = k then some v else dictGet d k

/-- Python `key in d`. -/
def dictHas {β : Type} (d : List (Str × β)) (k : Str) : Bool := (dictGet d k).isSome

/-- Python `d[key] = v`: an existing key keeps its position, a new key goes last. -/
def dictSet {β : Type} (d : List (Str × β)) (k : Str) (v : β) : List (Str × β) :=
  match d with
  | [] => [(k, v)]
  | (k', v') :: d => if k' = k then (k', v) :: d else (k', v') :: dictSet d k v

/-- Python `{key: v for key, v in pairs}`. -/
def dictOfPairs {β : Type} (ps : List (Str × β)) : List (Str × β) :=
  ps.foldl (fun d p => dictSet d p.1 p.2) []

/-- Python `{key: v for key, v in zip(keys, vs)}`; `zip` stops at the shorter list. -/
def dictOfZip {β : Type} (ks : List Str) (vs : List β) : List (Str × β) :=
  dictOfPairs (ks.zip vs)

/-- Python sequence index `xs[i]` for an `int` `i` (negative indices count from the end). -/
def pyIndex {β : Type} (xs : List β) (i : Int) : Py β :=
  let j : Int := if i < 0 then i + xs.length else i
  if j < 0 then .error .indexError
  else match xs[j.toNat]? with
    | some x => .ok x
    | none => .error .indexError

/-- One end of a Python slice with step 1: negative counts from the end, then clamped to
`0 .. n`. -/
def sliceBound (n : Nat) (i : Int) : Nat :=
  let j : Int := if i < 0 then i + n else i
  if j < 0 then 0 else min j.toNat n

/-- Python slice `xs[start:stop]` (step 1; omitted ends are `none`). -/
def pySlice {β : Type} (xs : List β) (start stop : Option Int) : List β :=
  let a := match start with | none => 0 | some i => sliceBound xs.length i
  let b := match stop with | none => xs.length | some i => sliceBound xs.length i
  (xs.drop a).take (b - a)

end MplLayout
