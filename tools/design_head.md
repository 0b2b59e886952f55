# Formal model of mpl-layout (Lean 4)

Generated by `tools/mkdesign.py` from `tools/design_head.md`, `tools/plan.json`, `tools/notes.json`,
`properties.jsonl`, `MANIFEST.json` and `#print axioms`.

## Approach

Shallow, total model of the Python code, function by function, exceptions as values
(`Py α = Except Err α`).  All modules are under `lean/Verif/`:

* `Model/*`  – the model. Every definition cites file:lines of /repo.
* `Spec/*`   – small, independent vocabulary used to state properties.
* `Lemmas/*` – helper lemmas.
* `Props/*`  – the property theorems `Cxx_...`, each with non-vacuity examples on concrete values.

Theorem names: `_partial` = less than the English property (the scope note says what is missing);
`_counterexample` and similar = the code violates the English property, shown on a concrete call.
Almost every partial property is partial because of such a violation; see *Findings*.

## Trusted base

* Lean 4.33.0's kernel, and Mathlib (whose theorems are checked by the same kernel).
* Axioms: only `propext`, `Classical.choice`, `Quot.sound`. None of our own; no compiled evaluation.
  The axioms of every claimed theorem are listed with it below.
* That the model says what the code does. This was checked by reading only (the sandbox cannot run
  the code), and by mutation testing (last section) for the opposite direction: theorems notice edits.
* The assumptions about external code, listed under *Assumptions*.

## What is modelled

| Model file | Source | Contents |
|---|---|---|
| Py | Python | `str`, `split`, `join`, decimal numerals, `dict`, exceptions |
| Containers | containers.py | `Node`: lookup, assignment, membership, indices and slices (Item: every kind of key), `add_child`, `map`, `copy`, `accumulate`, `node_height`, `iter_flat`, `flatten`, `unflatten`, `ItemCounter` |
| Pytree | containers.py, primitives.py | registration with `jax.tree_util`; flatten, unflatten, map |
| Primitives | primitives.py | all classes, signatures, validation, defaults, unique-value extraction and rebuilding |
| Pack | solver.py | global vector: pack, unpack |
| Arr, Num, Flt | numpy, jax.numpy | arrays of dimension 0 and 1 with broadcasting; numbers |
| Constructions | constructions.py | `ConstructionNode`: tree of keys, parameters, evaluation, validation; all transforms and operators; `Vector`, `Scalar` |
| Shipped | constructions.py, constraints.py | every shipped construction and constraint class |
| Layout | layout.py, solver.py | `Layout`, `add_prim`, `add_constraint`, residual, `update_layout_constraints` |
| LayoutHeap | layout.py | sharing of trees between the layouts before and after `update_layout_constraints` |
| Solver | solver.py | `solve`, `solve_newton`, `minimize`, histories |
| Drawing | matplotlibutils.py | `subplots`, `update_subplots`, figure size, axes rectangles, axis positions, label coordinates |
| Ui | ui.py | which primitive is plotted how, `rotation_from_line` |
| ConsHeap | layout.py, containers.py | constraint objects that are added under several keys |
| Options | constructions.py, constraints.py | constructors with the strings and shapes that users pass |
| NodeHeap | primitives.py, containers.py | primitive objects that are held in several places |
| Dual, Tape | solver.py (jax) | `jax.jacfwd` (numbers with tangents), `jax.value_and_grad` (recorded tangents, backward pass) |
| Repr | containers.py | `__repr__`, `__str__` |
| Round | constraints.py, constructions.py (arithmetic) | numbers of a floating point format, every operation rounded |
| Program | README.md, examples/ | programs: creating, sharing and adding primitives and constraints |

## Modelling decisions and simplifications

* Python `str` keys are lists of characters (`Str`).
* `dict` = association list in insertion order; assignment to an existing key keeps its position.
* Mutation: a method that mutates returns the new value; where an exception can leave a partial
  mutation behind (`Layout.add_constraint`) the model returns the state *and* the outcome.
* Arrays carry an identity (Python `id`), on which the solver's sharing logic depends. Sharing of
  *node objects* is modelled in Program (variables), NodeHeap (primitives), ConsHeap (constraints) and
  LayoutHeap (whole trees); elsewhere trees are values.
* Numbers: container, primitive, layout and solver-history theorems hold for any number type.
  Geometry uses `Flt`: exact reals plus one non-finite value `bad` (all operations on it give `bad`;
  IEEE differs for `1/inf` and `nan**0`).
* Exceptions are their type only; messages are not modelled.

## What is not modelled

* Dtypes, and floating-point rounding outside C99. Statements about solved geometry are about exact arithmetic, except C89
  (errors of the linear algebra).
* `jax.jit` (taken to be the identity) and `vmap` (one run for each direction); `numpy.linalg.lstsq`; scipy's L-BFGS-B.
  `jax.jacfwd`, `lstsq` and the optimizer are the three fields of `Numerics`; theorems state what they assume.
  `jax.jacfwd` is also modelled (Model/Dual: the derivative rules, as read from jax's documentation), and C96 proves the
  assumption about it; so is `jax.value_and_grad` in reverse mode (Model/Tape: one run that records tangents, one backward
  pass; C97). The record is a tree: a number that is used several times is walked through several times, where jax adds up
  the cotangents first.
* matplotlib's internals: the model ends at the calls made to it. Colours, fonts, tick formatting.
* Node objects held in several places are modelled separately (Model/NodeHeap, Model/ConsHeap). The other theorems treat
  primitives and constraints as values; C79_program and C94_reuse_partial justify that for programs that add
  them at the top level.
* type-annotation helpers, `make_signature_class`, dictionary views.

## Assumptions about external code

* `Exact num` (Spec/Solver): `jacobian` is the true Jacobian where it exists, `lstsq` is the minimum
  norm least squares solution. Only for C56, C57, C61 (affine), C68, C70, C71, C74, C75, C78, C80-C87, C89 (the exact run). It is satisfiable:
  `exactNum_exact` constructs such a `num`. About `jax.jacfwd` it is proved in C96 (`C96_exact`); `ForwardMode` (Spec/Jacfwd)
  replaces it in C96_newton_stays (C56, C71), C96_newton_quadratic (C82) and C96_newton_transfer (layouts that
  measure neither lengths nor angles: all theorems), where only `lstsq` is assumed.
* `Rounded ε δ num` (Spec/Rounded): every Newton step has at most the relative error `ε` and the absolute error `δ`. Only
  for C89. Satisfied by routines that are not exact: `roughNum_rounded`, `roughNum_not_exact`.
* `KeepsBad num` (Spec/Jacfwd): least squares with a matrix that is not finite raises or returns a vector that is not finite.
  Only for C56_exactly and C56_counterexample. Satisfiable: `carefulNum_bad`.
* `Optimizes num`: the optimizer returns a vector of the same length. Only for C58, C67 (minimize).
* `StopsAtGradient` (Spec/Jacfwd): the optimizer reports nothing if no entry of the gradient at the start exceeds its
  tolerance. Only for C97_minimize_stays and C97_tolerance_counterexample. Satisfiable: `gradNum_stops`.
* `Tools.OK` (Props/Readme), `TutTools.OK` (Props/Tutorial), `GridTools.OK` (Props/GridFigure): the same, bundled for
  one program.
* `IdentOK`: equal identities have equal contents inside one tree, which Python's `id` guarantees.
* JAX flattens and rebuilds dictionaries in sorted key order (documented behaviour). Only for C73.

## Findings: where the code violates what a user relies on

1. `node['b/'] = x`, `'b/' in node`, `node['/x'] = ...` treat keys with empty components inconsistently (C06, C07); `'x/y' in node` raises KeyError if `x` is missing (C07).
2. Child keys containing '/' given to the constructor collide in `iter_flat` (C02_slash_collision).
3. `Axes(prims=...)` and `Line` silently drop surplus primitives and `Axes` accepts too few (C15, C16).
4. The arity check of `ConstructionNode.__init__` checks nothing (zip truncates).
5. `Width() + Width()` and other sums of compound constructions evaluate the first operand's primitives twice (C24).
6. Freezing no parameters loses the whole parameter signature (C28).
7. `transform_constraint` is wrong on trees of depth two and for arrays on compounds (C29).
8. `CoincidentLines` declares 2 residual entries and returns 4 (C31).
9. `Collinear` accepts everything if the first line is a point (C36); `Angle` leaves (-pi, pi] (C40).
10. `idx_1d` strides are wrong from three dimensions on (C46).
11. `Grid` with too few margins is accepted, and assigns parameters to the wrong children (C21, C47).
12. `add_constraint` that fails while building parameters leaves a half-stored constraint (C47, C49).
13. `update_layout_constraints` shares trees with its argument, loses parameters of nested constraints and looks up nested axes by their first key part (C52, C53).
14. `get_axis_thickness` leaves the label invisible if a call raises (C45).
15. `solve` raises ValueError for a layout without constraints (C59); its last reported error belongs to the iterate before the returned one (C61); `minimize` reports sums of squares as norms (C60).
16. Label coordinates are not shifted with the figure (C63), `rotation_from_line` is wrong for downward lines (C65), axis detection fails for flipped boxes (C43).
17. An axes key requested twice creates an orphan axes (C64_duplicate).
18. `Scalar() * 2.0` raises AttributeError (C26); so does `construction + number` (C72).
19. With nested constraint keys the residual order is tree order, not call order (C50).
20. `PositionXAxis` is accepted on axes without an x axis and then fails when solving (C48).
21. A JAX round trip reorders the children of polygons with more than ten edges and of twin axes (C73).
22. A zero-length measured line yields nan derivatives, so a satisfied layout that has one is not left alone (C96_dot, C56_counterexample).
23. `add_prim` below a primitive that is held in several places (a polygon's corner) changes all of them
    (C79_shared_corner); adding a primitive below itself succeeds and makes the layout infinite (C79_self).
24. `Point([[1, 2], [3, 4]])` is accepted: only the first dimension of a value is checked; and `jax` arrays, which
    `Primitive.__init__` lets through, always fail the assertion in `PrimitiveNode.__init__` (C88).
25. `Vector` of a tree with child nodes returns the whole array and then parts of it again; entries of grandchildren are lost (C92).
26. `add_constraint` stores the caller's object: after the object under `'A'` was added again as `'B'`, a constraint added
    as `'A/x'` (or one added there before) also appears as `'B/x'`, for which there are no primitive keys and parameters; from there on
    `flat_constraints` pairs constraints with the wrong primitives and drops the last ones (C94).
27. `PositionAxis(axis='z')` is accepted, also by `add_constraint`; solving the layout raises a `KeyError` (C95).
28. `AxisThickness` takes every axis but `'x'` (also `'X'`) for `'y'`; objects of the base class are passed over by
    `update_layout_constraints`, which looks for `XAxisThickness` and `YAxisThickness` (C95).
29. `OuterMarginArray` refuses the documented integer shape (TypeError), and accepts any string as side when there is at
    most one quadrilateral; `Grid()` with its default shape `(0,)` always raises (C95).

30. `Angle` with a line that points to the left: the residual jumps by a full turn there, and the Newton solver
    gets a finite row that is no derivative (C96_jump). `Length` of a point-like line makes its whole row `nan`, also when the
    constraint is satisfied (C96_dot).
31. `solve_minimize` passes neither `abs_tol` nor `rel_tol` to scipy: L-BFGS-B stops where the gradient is below its own
    `1e-5`, so constraints can stay unsatisfied beyond the tolerances of the user, without report
    (C97_tolerance_counterexample).
32. Nodes with different keys are printed alike if keys contain `', '` (C98_counterexample).
33. In floating point, `Parallel` and `Orthogonal` of very short lines are computed as satisfied whatever their
    directions, because products of coordinates underflow (C99_products_underflow).
34. Residuals are computed in `float32` (nothing sets `jax_enable_x64`), so points that differ by about `3e-8` are
    computed to coincide; the default `abs_tol` of `1e-10` promises more (C99_single_precision).
35. From the default geometry the Newton method does not find boxes with aspect ratios that are large compared to
    their width: the first step gives a box of width `W` and ratio `v` the height `W + 1 - v`, which is zero for width 1
    and ratio 2 (C101_aspect_step, C101_aspect_counterexample). If `3 W <= v |W + 1 - v|` (12 by 2, or 0.1 by 0.2) it
    never gets there, with any number of iterations (C104_never_counterexample); for some ratios above `W + 1` it
    returns a box whose top is below its bottom (C104_turned).
36. `examples/profile_solver.py` passes the margins of the grid as widths and the widths as margins (the order of
    `Grid` is widths, heights, column margins, row margins); with its 12 columns the margins exceed the figure, and the
    solver returns frames that are turned over (C101_profile_flipped).


## Testing the theorems against wrong programs

`tools/mutate.py` seeds an edit into a scratch copy of the model, rebuilds, and keeps rebuilding with the
failed proofs stubbed (in the scratch copy) until every theorem was either checked or has failed.
`seeded/LOG.jsonl` has one line per attempt: definition, edit, broken claim, failed theorems,
theorems tightened or added because of it.
