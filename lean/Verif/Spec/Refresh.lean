import Verif.Spec.Layout

/-!
# Calls with the current axes
-/

namespace MplLayout

/-- `op'` is the call `op` as it would be made with the axes `axs`: an `XAxisThickness`
(`YAxisThickness`) constraint gets the axis of the axes named by the first part of its primitive key,
whatever it was given before; all other calls are the same.  The axis can be measured. -/
inductive LayoutOp.WithAxes (axs : List (Str × MplAxes Flt)) : LayoutOp Flt → LayoutOp Flt → Prop
  | thickness {kind : AxisKind} {c : Cons Flt} {axisKey name : Str} {rest : List Str}
      {ax : MplAxes Flt} {t : Flt} {p : Param Flt} {key : Str}
      (hc : ct.axisThickness kind = .ok c) (hn : splitAll axisKey = name :: rest)
      (hax : dictGet axs name = some ax) (ht : (ct.getAxisThickness (ax.axis kind)).1 = .ok t) :
      WithAxes axs (.addConstraint c [axisKey] [p] key)
        (.addConstraint c [axisKey] [.axis (ax.axis kind)] key)
  | same {op : LayoutOp Flt}
      (h : ∀ kind c ks ps key, op = .addConstraint c ks ps key → ct.axisThickness kind ≠ .ok c) :
      WithAxes axs op op

end MplLayout
