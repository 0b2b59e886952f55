import Verif.Spec.Layout

/-!
# Vocabulary: other names for the primitives of a layout
-/

namespace MplLayout

variable {K : Type}

/-- A way to give other names: different names stay different, and no slashes are introduced. -/
structure Renaming (ρ : Str → Str) : Prop where
  inj : Function.Injective ρ
  noSlash : ∀ s, '/' ∉ s → '/' ∉ ρ s

/-- A key with its first component renamed: `a/Line0/Point1` becomes `b/Line0/Point1`. -/
def renameKey (ρ : Str → Str) (key : Str) : Str :=
  match splitAll key with
  | [] => []
  | k :: ks => joinSlash (ρ k :: ks)

/-- A tree with the children of its root renamed. -/
def Prim.rename (ρ : Str → Str) (p : Prim K) : Prim K :=
  .mk p.ty p.value (p.children.map fun kc => (ρ kc.1, kc.2))

/-- The same call with other names for the primitives of the layout.  (The keys of the parts of a
primitive are not renamed; they belong to its class.) -/
def LayoutOp.rename (ρ : Str → Str) : LayoutOp K → LayoutOp K
  | .addPrim prim key => .addPrim prim (renameKey ρ key)
  | .addPrims prims => .addPrims (prims.map fun kp => (renameKey ρ kp.1, kp.2))
  | .addConstraint c primKeys param key => .addConstraint c (primKeys.map (renameKey ρ)) param key

/-- Which calls succeed. -/
def Layout.successes (l : Layout K) : List (LayoutOp K) → List Bool
  | [] => []
  | op :: ops => decide ((l.step op).2 = .ok ()) :: (l.step op).1.successes ops

end MplLayout
