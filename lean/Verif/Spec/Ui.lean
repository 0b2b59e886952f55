import Verif.Model.Ui
import Verif.Spec.Geometry

/-!
# Vocabulary for plotting primitives
-/

namespace MplLayout

/-- `m` is drawn when `n` is plotted, at the path `p` below `n`: no primitive from `n` down to the
parent of `m` is a line. -/
inductive Shown {K : Type} : Prim K → List Str → Prim K → Prop
  | here (n : Prim K) : Shown n [] n
  | down {n c m : Prim K} {k : Str} {p : List Str} : ¬ n.ty.IsA .line →
      (k, c) ∈ n.children → Shown c p m → Shown n (k :: p) m

/-- What is drawn apart from text. -/
def Artist.IsShape {K : Type} : Artist K → Bool
  | .text .. => false
  | _ => true

end MplLayout
