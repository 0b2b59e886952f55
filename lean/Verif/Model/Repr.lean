import Verif.Model.Containers

/-!
# Printing nodes (`containers.py:149-157`)
-/

namespace MplLayout

/-- Python `", ".join(words)`. -/
def joinComma : List Str → Str
  | [] => []
  | [w] => w
  | w :: w' :: ws => w ++ k!", " ++ joinComma (w' :: ws)

namespace Node
variable {τ α : Type}

mutual
/-- `containers.py:151-157`, `__repr__` and `__str__`.  `name` is `type(self).__name__` and `show_` is what
an f-string writes for the value (`str(value)`). -/
def repr (name : τ → Str) (show_ : α → Str) : Node τ α → Str
  | .mk t v cs => name t ++ k!"(" ++ show_ v ++ k!", (" ++ joinComma (reprs name show_ cs) ++ k!"), (" ++
      joinComma (cs.map (·.1)) ++ k!"))"
/-- `containers.py:153`: the representations of the children. -/
def reprs (name : τ → Str) (show_ : α → Str) : List (Str × Node τ α) → List Str
  | [] => []
  | (_, c) :: cs => repr name show_ c :: reprs name show_ cs
end

end Node

end MplLayout
