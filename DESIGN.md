# Formal model of mpl-layout (Lean 4)

Generated by `tools/mkdesign.py` from `tools/design_head.md`, `tools/plan.json`, `tools/notes.json`,
`properties.jsonl`, `MANIFEST.json` and `#print axioms`.

## Approach

Shallow, total model of the Python code, function by function, exceptions as values
(`Py α = Except Err α`).  All modules are under `lean/Verif/`:

* `Model/*`  – the model. Every definition cites file:lines of /repo.
* `Spec/*`   – small, independent vocabulary used to state properties.
* `Lemmas/*` – helper lemmas.
* `Props/*`  – the property theorems `Cxx_...`, each with non-vacuity examples on concrete values.

Theorem names: `_partial` = less than the English property (the scope note says what is missing);
`_counterexample` and similar = the code violates the English property, shown on a concrete call.
Almost every partial property is partial because of such a violation; see *Findings*.

## Trusted base

* Lean 4.33.0's kernel, and Mathlib (whose theorems are checked by the same kernel).
* Axioms: only `propext`, `Classical.choice`, `Quot.sound`. None of our own; no compiled evaluation.
  The axioms of every claimed theorem are listed with it below.
* That the model says what the code does. This was checked by reading only (the sandbox cannot run
  the code), and by mutation testing (last section) for the opposite direction: theorems notice edits.
* The assumptions about external code, listed under *Assumptions*.

## What is modelled

| Model file | Source | Contents |
|---|---|---|
| Py | Python | `str`, `split`, `join`, decimal numerals, `dict`, exceptions |
| Containers | containers.py | `Node`: lookup, assignment, membership, indices and slices (Item: every kind of key), `add_child`, `map`, `copy`, `accumulate`, `node_height`, `iter_flat`, `flatten`, `unflatten`, `ItemCounter` |
| Pytree | containers.py, primitives.py | registration with `jax.tree_util`; flatten, unflatten, map |
| Primitives | primitives.py | all classes, signatures, validation, defaults, unique-value extraction and rebuilding |
| Pack | solver.py | global vector: pack, unpack |
| Arr, Num, Flt | numpy, jax.numpy | arrays of dimension 0 and 1 with broadcasting; numbers |
| Constructions | constructions.py | `ConstructionNode`: tree of keys, parameters, evaluation, validation; all transforms and operators; `Vector`, `Scalar` |
| Shipped | constructions.py, constraints.py | every shipped construction and constraint class |
| Layout | layout.py, solver.py | `Layout`, `add_prim`, `add_constraint`, residual, `update_layout_constraints` |
| LayoutHeap | layout.py | sharing of trees between the layouts before and after `update_layout_constraints` |
| Solver | solver.py | `solve`, `solve_newton`, `minimize`, histories |
| Drawing | matplotlibutils.py | `subplots`, `update_subplots`, figure size, axes rectangles, axis positions, label coordinates |
| Ui | ui.py | which primitive is plotted how, `rotation_from_line` |
| ConsHeap | layout.py, containers.py | constraint objects that are added under several keys |
| Options | constructions.py, constraints.py | constructors with the strings and shapes that users pass |
| NodeHeap | primitives.py, containers.py | primitive objects that are held in several places |
| Dual, Tape | solver.py (jax) | `jax.jacfwd` (numbers with tangents), `jax.value_and_grad` (recorded tangents, backward pass) |
| Repr | containers.py | `__repr__`, `__str__` |
| Round | constraints.py, constructions.py (arithmetic) | numbers of a floating point format, every operation rounded |
| Program | README.md, examples/ | programs: creating, sharing and adding primitives and constraints |

## Modelling decisions and simplifications

* Python `str` keys are lists of characters (`Str`).
* `dict` = association list in insertion order; assignment to an existing key keeps its position.
* Mutation: a method that mutates returns the new value; where an exception can leave a partial
  mutation behind (`Layout.add_constraint`) the model returns the state *and* the outcome.
* Arrays carry an identity (Python `id`), on which the solver's sharing logic depends. Sharing of
  *node objects* is modelled in Program (variables), NodeHeap (primitives), ConsHeap (constraints) and
  LayoutHeap (whole trees); elsewhere trees are values.
* Numbers: container, primitive, layout and solver-history theorems hold for any number type.
  Geometry uses `Flt`: exact reals plus one non-finite value `bad` (all operations on it give `bad`;
  IEEE differs for `1/inf` and `nan**0`).
* Exceptions are their type only; messages are not modelled.

## What is not modelled

* Dtypes, and floating-point rounding outside C99. Statements about solved geometry are about exact arithmetic, except C89
  (errors of the linear algebra).
* `jax.jit` (taken to be the identity) and `vmap` (one run for each direction); `numpy.linalg.lstsq`; scipy's L-BFGS-B.
  `jax.jacfwd`, `lstsq` and the optimizer are the three fields of `Numerics`; theorems state what they assume.
  `jax.jacfwd` is also modelled (Model/Dual: the derivative rules, as read from jax's documentation), and C96 proves the
  assumption about it; so is `jax.value_and_grad` in reverse mode (Model/Tape: one run that records tangents, one backward
  pass; C97). The record is a tree: a number that is used several times is walked through several times, where jax adds up
  the cotangents first.
* matplotlib's internals: the model ends at the calls made to it. Colours, fonts, tick formatting.
* Node objects held in several places are modelled separately (Model/NodeHeap, Model/ConsHeap). The other theorems treat
  primitives and constraints as values; C79_program and C94_reuse_partial justify that for programs that add
  them at the top level.
* type-annotation helpers, `make_signature_class`, dictionary views.

## Assumptions about external code

* `Exact num` (Spec/Solver): `jacobian` is the true Jacobian where it exists, `lstsq` is the minimum
  norm least squares solution. Only for C56, C57, C61 (affine), C68, C70, C71, C74, C75, C78, C80-C87, C89 (the exact run). It is satisfiable:
  `exactNum_exact` constructs such a `num`. About `jax.jacfwd` it is proved in C96 (`C96_exact`); `ForwardMode` (Spec/Jacfwd)
  replaces it in C96_newton_stays (C56, C71), C96_newton_quadratic (C82) and C96_newton_transfer (layouts that
  measure neither lengths nor angles: all theorems), where only `lstsq` is assumed.
* `Rounded ε δ num` (Spec/Rounded): every Newton step has at most the relative error `ε` and the absolute error `δ`. Only
  for C89. Satisfied by routines that are not exact: `roughNum_rounded`, `roughNum_not_exact`.
* `KeepsBad num` (Spec/Jacfwd): least squares with a matrix that is not finite raises or returns a vector that is not finite.
  Only for C56_exactly and C56_counterexample. Satisfiable: `carefulNum_bad`.
* `Optimizes num`: the optimizer returns a vector of the same length. Only for C58, C67 (minimize).
* `StopsAtGradient` (Spec/Jacfwd): the optimizer reports nothing if no entry of the gradient at the start exceeds its
  tolerance. Only for C97_minimize_stays and C97_tolerance_counterexample. Satisfiable: `gradNum_stops`.
* `Tools.OK` (Props/Readme), `TutTools.OK` (Props/Tutorial), `GridTools.OK` (Props/GridFigure): the same, bundled for
  one program.
* `IdentOK`: equal identities have equal contents inside one tree, which Python's `id` guarantees.
* JAX flattens and rebuilds dictionaries in sorted key order (documented behaviour). Only for C73.

## Findings: where the code violates what a user relies on

1. `node['b/'] = x`, `'b/' in node`, `node['/x'] = ...` treat keys with empty components inconsistently (C06, C07); `'x/y' in node` raises KeyError if `x` is missing (C07).
2. Child keys containing '/' given to the constructor collide in `iter_flat` (C02_slash_collision).
3. `Axes(prims=...)` and `Line` silently drop surplus primitives and `Axes` accepts too few (C15, C16).
4. The arity check of `ConstructionNode.__init__` checks nothing (zip truncates).
5. `Width() + Width()` and other sums of compound constructions evaluate the first operand's primitives twice (C24).
6. Freezing no parameters loses the whole parameter signature (C28).
7. `transform_constraint` is wrong on trees of depth two and for arrays on compounds (C29).
8. `CoincidentLines` declares 2 residual entries and returns 4 (C31).
9. `Collinear` accepts everything if the first line is a point (C36); `Angle` leaves (-pi, pi] (C40).
10. `idx_1d` strides are wrong from three dimensions on (C46).
11. `Grid` with too few margins is accepted, and assigns parameters to the wrong children (C21, C47).
12. `add_constraint` that fails while building parameters leaves a half-stored constraint (C47, C49).
13. `update_layout_constraints` shares trees with its argument, loses parameters of nested constraints and looks up nested axes by their first key part (C52, C53).
14. `get_axis_thickness` leaves the label invisible if a call raises (C45).
15. `solve` raises ValueError for a layout without constraints (C59); its last reported error belongs to the iterate before the returned one (C61); `minimize` reports sums of squares as norms (C60).
16. Label coordinates are not shifted with the figure (C63), `rotation_from_line` is wrong for downward lines (C65), axis detection fails for flipped boxes (C43).
17. An axes key requested twice creates an orphan axes (C64_duplicate).
18. `Scalar() * 2.0` raises AttributeError (C26); so does `construction + number` (C72).
19. With nested constraint keys the residual order is tree order, not call order (C50).
20. `PositionXAxis` is accepted on axes without an x axis and then fails when solving (C48).
21. A JAX round trip reorders the children of polygons with more than ten edges and of twin axes (C73).
22. A zero-length measured line yields nan derivatives, so a satisfied layout that has one is not left alone (C96_dot, C56_counterexample).
23. `add_prim` below a primitive that is held in several places (a polygon's corner) changes all of them
    (C79_shared_corner); adding a primitive below itself succeeds and makes the layout infinite (C79_self).
24. `Point([[1, 2], [3, 4]])` is accepted: only the first dimension of a value is checked; and `jax` arrays, which
    `Primitive.__init__` lets through, always fail the assertion in `PrimitiveNode.__init__` (C88).
25. `Vector` of a tree with child nodes returns the whole array and then parts of it again; entries of grandchildren are lost (C92).
26. `add_constraint` stores the caller's object: after the object under `'A'` was added again as `'B'`, a constraint added
    as `'A/x'` (or one added there before) also appears as `'B/x'`, for which there are no primitive keys and parameters; from there on
    `flat_constraints` pairs constraints with the wrong primitives and drops the last ones (C94).
27. `PositionAxis(axis='z')` is accepted, also by `add_constraint`; solving the layout raises a `KeyError` (C95).
28. `AxisThickness` takes every axis but `'x'` (also `'X'`) for `'y'`; objects of the base class are passed over by
    `update_layout_constraints`, which looks for `XAxisThickness` and `YAxisThickness` (C95).
29. `OuterMarginArray` refuses the documented integer shape (TypeError), and accepts any string as side when there is at
    most one quadrilateral; `Grid()` with its default shape `(0,)` always raises (C95).

30. `Angle` with a line that points to the left: the residual jumps by a full turn there, and the Newton solver
    gets a finite row that is no derivative (C96_jump). `Length` of a point-like line makes its whole row `nan`, also when the
    constraint is satisfied (C96_dot).
31. `solve_minimize` passes neither `abs_tol` nor `rel_tol` to scipy: L-BFGS-B stops where the gradient is below its own
    `1e-5`, so constraints can stay unsatisfied beyond the tolerances of the user, without report
    (C97_tolerance_counterexample).
32. Nodes with different keys are printed alike if keys contain `', '` (C98_counterexample).
33. In floating point, `Parallel` and `Orthogonal` of very short lines are computed as satisfied whatever their
    directions, because products of coordinates underflow (C99_products_underflow).
34. Residuals are computed in `float32` (nothing sets `jax_enable_x64`), so points that differ by about `3e-8` are
    computed to coincide; the default `abs_tol` of `1e-10` promises more (C99_single_precision).
35. From the default geometry the Newton method does not find boxes with aspect ratios that are large compared to
    their width: the first step gives a box of width `W` and ratio `v` the height `W + 1 - v`, which is zero for width 1
    and ratio 2 (C101_aspect_step, C101_aspect_counterexample). If `3 W <= v |W + 1 - v|` (12 by 2, or 0.1 by 0.2) it
    never gets there, with any number of iterations (C104_never_counterexample); for some ratios above `W + 1` it
    returns a box whose top is below its bottom (C104_turned).
36. `examples/profile_solver.py` passes the margins of the grid as widths and the widths as margins (the order of
    `Grid` is widths, heights, column margins, row margins); with its 12 columns the margins exceed the figure, and the
    solver returns frames that are turned over (C101_profile_flipped).


## Testing the theorems against wrong programs

`tools/mutate.py` seeds an edit into a scratch copy of the model, rebuilds, and keeps rebuilding with the
failed proofs stubbed (in the scratch copy) until every theorem was either checked or has failed.
`seeded/LOG.jsonl` has one line per attempt: definition, edit, broken claim, failed theorems,
theorems tightened or added because of it.

## Per property

Letters after a theorem: the axioms it depends on (`#print axioms`): p = propext, c = Classical.choice, q = Quot.sound, - = none.

### C01 flatten/unflatten round trip (proved)
Structural induction on the tree; fuel of the `unflatten` model proved sufficient.
*Theorems:* Props/Containers: `C01_unflatten_flatten`(pq), `C01_flatten_injective`(pq)

### C02 iter_flat lists exactly the addressable nodes (proved)
Lookup and listing both characterised by paths (lists of components); injectivity of '/'-joining when components have no '/'. Collision witness for keys with '/'.
*Scope:* For trees whose child keys contain no '/' (all trees built with add_child, C04_add_child_good); collision otherwise: C02_slash_collision.
*Theorems:* Props/Containers: `C02_iter_flat`(pq), `C02_iter_flat_key`(pq), `C02_slash_collision`(pq)

### C03 Slash-separated lookup composes (proved)
Induction over the path of the first key; the model of get_child is also proved to satisfy the code's literal recursion on key.split('/', 1).
*Theorems:* Props/Containers: `C03_lookup_composes`(pq), `C03_lookup_error`(p), `C03_lookup_single`(pq), `C03_lookup_path`(pq)

### C04 add_child stores the child and disturbs nothing else (proved)
Induction over the path; frame theorem over every other path.
*Theorems:* Props/Containers: `C04_add_child`(pq), `C04_add_child_good`(pq)

### C05 add_child never overwrites (proved)
Same induction; the failing outcomes enumerated. Model returns no new tree on error (see modelling decisions).
*Theorems:* Props/Containers: `C05_add_child_outcome`(pq)

### C06 Item assignment replaces exactly one existing node (partial)
Induction over the path for keys without empty components (`_partial`); counterexample theorems for 'a/' and '/b'.
*Scope:* Proved for keys without empty components; for 'b/' and '/x' the code violates the property (C06_trailing_slash, C06_leading_slash).
*Theorems:* Props/Containers: `C06_setitem_partial`(pcq), `C06_trailing_slash`(p), `C06_leading_slash`(p)

### C07 Membership agrees with lookup (partial)
Exact characterisation of __contains__ (`_partial`); counterexamples: raises for a missing ancestor, True for 'a/'.
*Scope:* Exact characterisation of membership for keys without empty components; the code violates the full property: it raises for a missing ancestor (C07_raises) and answers True for 'b/' (C07_trailing_slash).
*Theorems:* Props/Containers: `C07_contains_partial`(pq), `C07_raises`(p), `C07_trailing_slash`(p)

### C08 map and copy preserve the tree (proved)
flatten/unflatten round trip specialised to mapped structures.
*Theorems:* Props/Containers: `C08_map`(pq), `C08_map_map`(pq), `C08_copy`(pq)

### C09 accumulate sums every subtree (proved)
Tree induction.
*Theorems:* Props/Containers: `C09_accumulate`(pq), `C09_accumulate_sum`(pq)

### C10 node_height is the longest downward path (proved)
Tree induction, path spec.
*Theorems:* Props/Containers: `C10_node_height`(pq), `C10_node_height_keys`(pq)

### C11 Positional access agrees with keyed access (proved)
List indexing lemmas. Model/Item: __getitem__ for every kind of key, slices with CPython's index adjustment; C11_getitem_step states which positions are picked without it.
*Theorems:* Props/Containers: `C11_getitem_int`(pq), `C11_getitem_out_of_range`(pq), `C11_getitem_slice`(pq), `C11_getitem_slice_any`(pcq); Props/Item: `C11_getitem_step`(pcq), `C11_reversed`(pcq), `C11_step_one`(pcq), `C11_getitem_kinds`(p)

### C12 Generated keys are fresh and generation terminates (proved)
While loop modelled with fuel; pigeonhole on the finite key set shows enough fuel always exists and the result does not depend on it.
*Theorems:* Props/Containers: `C12_fresh_key`(pcq)

### C13 A category never yields the same key twice (proved)
Induction over histories; injectivity of decimal numerals.
*Theorems:* Props/Containers: `C13_add_item`(pcq), `C13_no_repeat`(pcq), `C13_cross_category`(p)

### C14 Polygons are closed loops (proved)
List induction on zip(points, rotate points).
*Theorems:* Props/Primitives: `C14_polygon`(pcq), `C14_quadrilateral`(pcq), `C14_default_quadrilateral`(pcq), `C14_point`(pcq), `C14_default_line`(pcq), `C14_default_polygon`(pcq)

### C15 Constructors accept exactly their signature (proved)
Case analysis of validate_prims; spec = pointwise subclass relation with repetition.
*Scope:* Any class table with sensible signatures, and the shipped classes spelled out; note C15_line_drops_extra: Line ignores a third supplied primitive (its children still match).
*Theorems:* Props/Primitives: `C15_classes`(-), `C15_signature`(pcq), `C15_shipped`(pcq), `C15_line_drops_extra`(pcq)

### C16 Axes has exactly the requested parts (partial)
Finite flag table for defaults; truncation counterexample for supplied primitives.
*Scope:* Default axes have exactly the requested parts; supplied primitives are all used when their number matches. The code violates 'all used or rejected' (C16_surplus_dropped, C16_missing_accepted): zip truncates.
*Theorems:* Props/Primitives: `C16_default_parts`(pcq), `C16_supplied_partial`(pcq), `C16_surplus_dropped`(pcq), `C16_missing_accepted`(pcq)

### C17 Unique-value extraction identifies shared arrays (proved)
Loop invariant over the flat listing.
*Scope:* For trees with '/'-free keys; the identity function must determine the value inside the tree (IdentOK), which Python's id does.
*Theorems:* Props/Primitives: `C17_unique_values`(pq)

### C18 Extract then rebuild is the identity (proved)
C17 + C01 + key injectivity.
*Scope:* For trees with '/'-free keys; the identity function must determine the value inside the tree (IdentOK), which Python's id does.
*Theorems:* Props/Primitives: `C18_extract_rebuild`(pq)

### C19 Rebuilding with new values keeps structure and sharing (proved)
as C18 for arbitrary values.
*Scope:* For trees with '/'-free keys; the identity function must determine the value inside the tree (IdentOK), which Python's id does.
*Theorems:* Props/Primitives: `C19_rebuild`(pq), `C19_sharing`(pq), `C19_polygon_stays_closed`(pq)

### C20 Packing and unpacking the global vector are inverse (proved)
List lemmas on cumulative sums.
*Theorems:* Props/Pack: `C20_unpack_pack`(pq), `C20_pack_unpack`(pq)

### C21 Calling a construction is recursive evaluation (partial)
Tree induction relating flat evaluation to recursive evaluation; key-prefix substitution lemma.
*Scope:* Proved whenever every child is assigned keys and parameters (Aligned). The code violates the full property for a Grid with too few margins, where parameters shift to other nodes (C21_grid_too_few_margins).
*Theorems:* Props/Constructions: `C21_call_is_recursive_evaluation_partial`(pcq), `C21_grid_too_few_margins`(pcq)

### C22 Bad arguments are rejected before evaluation (proved)
Case analysis.
*Theorems:* Props/Constructions: `C22_bad_arguments`(pcq), `C22_validation`(pcq)

### C23 chunk partitions an array (proved)
List lemmas.
*Theorems:* Props/Constructions: `C23_chunk`(pcq)

### C24 Sum of constructions adds values (partial)
Tree induction when the right operand takes no primitives or both are leaves (`_partial`); counterexample: Width()+Width() evaluates the first box twice. Compound operands on the same primitives: tree induction with the invariant that the second operand's primitives are a prefix of the first's (C24_shared_partial, C24_same_primitives_partial).
*Scope:* Proved when the second operand's children take no primitives (all leaf constructions), and for compound operands on the same primitives (C24_shared_partial, C24_same_primitives_partial: all shipped compound constructions). False of the code for compound second operands on other primitives: Width()+Width() (C24_compound_counterexample).
*Theorems:* Props/Constructions: `C24_sum_partial`(pcq), `C24_sum_of_leaves_partial`(pcq), `C24_compound_counterexample`(pcq); Props/SumShared: `C24_shared_partial`(pcq), `C24_same_primitives_partial`(pcq)

### C25 Only constructions of the same shape can be added (proved)
Flat zip determines tree shape: induction on trees.
*Theorems:* Props/Constructions: `C25_sum_shape`(pcq)

### C26 Scalar multiples scale every output (partial)
Tree induction, all trees.
*Scope:* Proved for every tree in which declared and supplied parameter counts agree, for numbers, Scalar() and negation; the code violates the property for Scalar()*2.0, which raises AttributeError (C26_scalar_times_number).
*Theorems:* Props/Constructions: `C26_number_multiple_partial`(pcq), `C26_negative`(pcq), `C26_scalar_multiple`(pcq), `C26_not_scalar`(p), `C26_scalar_times_number`(p), `C26_neg_one_mul`(pcq)

### C27 Powers and quotients act on every output (proved)
Tree induction, all trees.
*Scope:* For every tree in which declared and supplied parameter counts agree; division over the reals for nonzero divisors.
*Theorems:* Props/Constructions: `C27_number_power`(pcq), `C27_scalar_power`(pcq), `C27_quotient`(pcq), `C27_recip`(pcq), `C27_real_quotient`(pcq), `C27_real_power`(pcq)

### C28 Partial application fixes trailing parameters (partial)
Proved for >=1 frozen parameters (`_partial`); with none the signature loses all parameters: counterexample.
*Scope:* Proved for 1..all frozen parameters (and for none if the construction has no parameters); the code violates the property for none frozen otherwise (C28_none_frozen_counterexample).
*Theorems:* Props/Constructions: `C28_freeze_partial`(pcq), `C28_none_frozen_counterexample`(pcq), `C28_none_frozen_partial`(pcq)

### C29 A constraint is its construction minus the target (partial)
Proved for leaves and for one-level compound constructions with number value (`_partial`); counterexamples for depth two and array values.
*Scope:* Numbers: constructions whose children are leaves; arrays: leaf constructions. The code violates the property for arrays on compounds and for deeper trees (C29_compound_array_counterexample, C29_deep_counterexample).
*Theorems:* Props/Constructions: `C29_number_partial`(pcq), `C29_array_partial`(pcq), `C29_one_entry_partial`(pcq), `C29_bool_partial`(pcq), `C29_compound_array_counterexample`(pcq), `C29_deep_counterexample`(pcq)

### C30 Map applies the construction to each primitive (proved)
List induction.
*Scope:* For constructions with at least one primitive and 1+M <= N.
*Theorems:* Props/Constructions: `C30_map`(pcq)

### C31 Declared output sizes are honest (partial)
Case analysis over the shipped leaf classes; CoincidentLines violates it.
*Scope:* Proved for every shipped constraint that contains no CoincidentLines, of every grid size, on well-formed plane primitives and parameters of sensible sizes (C31_sizes_partial), with the length of the whole residual (C31_residual_length_partial), and for the leaf constructions. Missing: CoincidentLines (and CoincidentOutwardFaces, PositionXAxis/YAxis, which contain it) declare 2 entries and return 4, so the full claim is false of the code (C31_counterexample).
*Theorems:* Props/Sizes: `C31_sizes_partial`(pcq), `C31_residual_length_partial`(pcq), `C31_constructions`(pcq), `C31_counterexample`(pcq)

### C32 Elementary line and point constraints mean what they say (proved)
Modelled: `assem` of each class and its constraint. The residual is evaluated on real coordinates (`Flt`); `Satisfied c prims` = calling the constraint returns only zeros; both directions by algebra.
*Theorems:* Props/Geometry: `C32_horizontal`(pcq), `C32_vertical`(pcq), `C32_parallel`(pcq), `C32_orthogonal`(pcq), `C32_coincident`(pcq), `C32_coincidentLines`(pcq); Props/Truth: `C32_coincidentLines_truth`(pcq)

### C33 Box means axis-aligned rectangle (proved)
As C32, for the compound `Box`: tree evaluation (C21) reduces it to its children.
*Theorems:* Props/Geometry: `C33_box`(pcq)

### C34 Dimension constraints pin the dimension (proved)
As C32; each theorem is an iff between `Satisfied` and the equation a user has in mind, for every target number.
*Theorems:* Props/Geometry: `C34_xLength`(pcq), `C34_yLength`(pcq), `C34_directedLength`(pcq), `C34_length`(pcq), `C34_directedDistance`(pcq), `C34_xDistance`(pcq), `C34_yDistance`(pcq), `C34_midpointXDistance`(pcq), `C34_midpointYDistance`(pcq), `C34_fix`(pcq), `C34_width`(pcq), `C34_height`(pcq), `C34_rect`(pcq)

### C35 Margins place boxes (proved)
As C32; `margins_add_up` links inner margins, widths and heights.
*Theorems:* Props/Geometry: `C35_margin_value`(pcq), `C35_innerMargin`(pcq), `C35_outerMargin`(pcq), `C35_outerMargin_swap`(pcq), `C35_margins_add_up`(pcq)

### C36 Collinear means collinear (partial)
As C32: cross products of directions; iff for a nondegenerate first line, counterexample and exact description for a degenerate one.
*Scope:* Proved when the first line is nondegenerate; the code violates the property for a degenerate first line (C36_degenerate_counterexample).
*Theorems:* Props/Geometry: `C36_collinear_partial`(pcq), `C36_degenerate_counterexample`(pcq), `C36_degenerate_vacuous`(pcq)

### C37 Grid alignment aligns every row and column (proved)
Induction over the rows and columns of the grid of any shape: `RectilinearGrid` builds its children by comprehension; `Satisfied` iff all rectangles of a row/column agree on their edges.
*Scope:* For shapes with positive number of rows and columns and rectangles of nonzero size.
*Theorems:* Props/Grid: `C37_rectilinearGrid`(pcq)

### C38 Grid fixes relative sizes and margins (proved)
As C37 with relative widths/heights and margins.
*Scope:* For shapes with positive number of rows and columns and rectangles of nonzero size.
*Theorems:* Props/Grid: `C38_grid`(pcq)

### C39 Point-line distances decompose the offset (proved)
Algebra over the reals: projections and their Pythagorean relation.
*Theorems:* Props/Geometry2: `C39_pointOnLine`(pcq), `C39_pointToLine`(pcq), `C39_pythagoras`(pcq), `C39_decomposition`(pcq), `C39_reverse`(pcq), `C39_constraints`(pcq); Props/Truth: `C39_truth`(pcq), `C39_no_truth`(pcq)

### C40 Angle is the counter-clockwise angle in (-pi, pi] (partial)
`arctan2` is modelled as the argument of a complex number (Mathlib `Complex.arg`); difference of arguments and `toIocMod`-style case analysis; counterexample to the range.
*Scope:* Proved: the value is the difference of polar angles, equal to the counter-clockwise angle up to one full turn, and the satisfied constraint rotates the first direction into the second. The code violates the range (-pi, pi] (C40_out_of_range counterexample).
*Theorems:* Props/Geometry2: `C40_angle_partial`(pcq), `C40_angle_in_range_partial`(pcq), `C40_range_counterexample`(pcq), `C40_constraint_sound`(pcq)

### C41 Ratios (proved)
As C32.
*Theorems:* Props/Geometry2: `C41_relativeLength`(pcq), `C41_aspectRatio_value`(pcq), `C41_aspectRatio`(pcq), `C41_relativePointOnLine`(pcq)

### C42 Residuals other than Fix ignore translation (proved)
Translation is a map of the values of the primitives (`Spec/Shift`); case analysis over all shipped constraint classes (including the recursive grids), `C42_fix_moves` is the exception.
*Scope:* Every shipped constraint class (with its parameters) on planar primitives; C42_fix_moves shows Fix is the exception.
*Theorems:* Props/Shift: `C42_translation`(pcq), `C42_fix_moves`(pcq)

### C43 Axis placement is detected as placed (partial)
Modelled: `PositionXAxis/YAxis`, `find_axis_position`; the constraint pins the axis box on an edge, the detection inverts it.
*Scope:* Proved for upright axis boxes (bottom below top, left left of right) lying on one side of the axes frame edge; the code violates the property for flipped axis boxes (counterexample theorem).
*Theorems:* Props/Drawing: `C43_constraint`(pcq), `C43_constraint_twin`(pcq), `C43_detection`(pcq), `C43_drawn_partial`(pcq), `C43_flipped_counterexample`(pcq)

### C44 Axis label placement (proved)
Direct evaluation of `update_axes`'s label coordinates.
*Theorems:* Props/Drawing: `C44_x`(pcq), `C44_y`(pcq)

### C45 Measuring an axis leaves the figure as it was (partial)
Modelled: `get_axis_thickness` as calls on an abstract axis with visibility state and exceptions at any point.
*Scope:* Measured thickness and restoration proved for runs that return; the code violates restoration when a call raises (label left invisible, C45_counterexample).
*Theorems:* Props/Drawing: `C45_measure_partial`(pcq), `C45_restores_partial`(pcq), `C45_counterexample`(pcq), `C45_constraint`(pcq), `C45_constraint_none`(pcq)

### C46 Row-major indexing (partial)
Arithmetic on strides; C46_exactly characterises the shapes for which the code is right, by induction on the shape.
*Scope:* C46_exactly: the code is right exactly for the shapes in which every dimension of size two or more has at most one such dimension behind it, directly; so for all shapes with at most two dimensions (the only ones the package uses). It violates the property for three larger dimensions (C46_three_dim_counterexample).
*Theorems:* Props/Grid: `C46_idx_two_dim_partial`(pcq), `C46_idx_one_dim_partial`(p), `C46_three_dim_counterexample`(p); Props/GridIndex: `C46_exactly`(pq)

### C47 Constraints stay paired with their own arguments (partial)
Invariant: the three trees have the same keys; induction over histories with well-formed constraints (`_partial`); counterexamples: Grid with too few margins, params raising half-way.
*Scope:* Proved for every history of calls whose constraints fit their arguments (all shipped constraints with parameters of the declared kind, accepted or refused); C47_own_arguments_partial follows one call through any later history. The code violates the full property: a call refused while building its parameter tree leaves a half-stored constraint (C47_counterexample), and a Grid with too few margins is accepted and unpaired (C47_counterexample_accepted).
*Theorems:* Props/Layout: `C47_paired_partial`(pcq), `C47_shipped_partial`(pcq), `C47_lengths_partial`(pcq), `C47_own_arguments_partial`(pcq), `C47_counterexample`(pcq), `C47_counterexample_accepted`(pcq)

### C48 Constraint arguments never dangle (partial)
Induction over histories; invariant: every stored key resolves to a primitive that extends the one present when it was stored (`Node.Extends`).
*Scope:* Proved for all histories of shipped constraints on primitives made by the shipped constructors, for constraints that name only parts which the axes have; the constraint's own keys resolve for every history. The code violates the full property: PositionXAxis is accepted on axes without an x axis (C48_counterexample).
*Theorems:* Props/LayoutRefs: `C48_shipped_partial`(pcq), `C48_own_keys_partial`(pcq), `C48_counterexample`(pcq)

### C49 A rejected call changes nothing (partial)
Proved for every failure detected by validation or key checks; counterexample for a failure while computing the parameter tree.
*Scope:* Proved for add_prim on any layout; for add_constraint: any layout and constraint when refused by the checks or because the key is taken (C49_refused), and all regular histories; nothing existing is ever lost (C49_nothing_lost). The code violates the full property (C49_counterexample).
*Theorems:* Props/Layout: `C49_add_prim`(p), `C49_add_constraint_partial`(pcq), `C49_shipped_partial`(pcq), `C49_refused`(pcq), `C49_nothing_lost`(pcq), `C49_counterexample`(pcq)

### C50 Layout residual is the concatenation of constraint calls (partial)
Induction over histories (C47) plus C21.
*Scope:* Proved for histories with slash-free constraint keys; with nested constraint keys the order is tree order, not the order added (C50_counterexample).
*Theorems:* Props/Layout: `C50_residual_partial`(pcq), `C50_shipped_partial`(pcq), `C50_counterexample`(pcq)

### C51 Constraint keys are unique (proved)
Pigeonhole (C12) plus the dictionary lemmas.
*Theorems:* Props/Layout: `C51_auto_terminates`(pcq), `C51_auto_key`(pcq), `C51_explicit_key`(pcq), `C51_distinct`(pcq)

### C52 update_layout_constraints only refreshes axis thicknesses (partial)
Fold over the flat listing of constraints; invariant: paired trees, only parameters of thickness constraints differ.
*Scope:* Proved for every history of sensible calls with slash-free constraint keys and every axes dictionary: the result is exactly the refreshed layout and still paired, and the call succeeds exactly if every thickness constraint's axes is in the dictionary and measurable. The code violates the full property: constraints below a thickness constraint lose their parameters (C52_counterexample_pairing), and axes below another primitive are looked up by the first key part only (C52_counterexample_nested).
*Theorems:* Props/LayoutUpdate: `C52_refreshed_partial`(pcq), `C52_succeeds_partial`(pcq), `C52_counterexample_pairing`(pcq), `C52_counterexample_nested`(pcq)

### C53 The updated layout is independent of the original (partial)
Small heap model with references for the four trees; counterexample and the part that does hold.
*Scope:* The code violates the property: the returned layout shares the primitive, constraint and key trees with the original (C53_counterexample: the original's later constraints are evaluated with the wrong parameters). Proved: the exact extent of the sharing for every history (parameters and counter are never shared), that the call itself changes nothing, that unrelated layouts are unaffected, and that the original's residual is unchanged as long as constraints are added at the top level of the new layout only.
*Theorems:* Props/LayoutHeap: `C53_shared_partial`(pq), `C53_call_partial`(pq), `C53_other_layouts`(pq), `C53_residual_partial`(pcq), `C53_counterexample`(pcq)

### C54 Adding primitives is monotone (proved)
Induction over histories with `Node.Extends`.
*Theorems:* Props/Layout: `C54_add_prim`(pq), `C54_history`(pcq), `C54_constraint`(pcq)

### C55 Newton iteration is bounded and its history is faithful (proved)
The while loop is a recursion on `max_iter`; `NewtonRun` (Spec) is an independent relational description of a faithful run.
*Scope:* for all residual functions, numerical routines, tolerances and starting points
*Theorems:* Props/Solver: `C55_terminates`(pcq), `C55_history`(pcq), `C55_norm`(pcq)

### C56 A satisfied layout is left alone (partial)
`C56_shipped_partial`: derivative of every shipped residual exists at smooth geometries (Lemmas/Smooth*), the minimum norm least squares step from residual zero is zero. With the modelled jax.jacfwd (C96): a satisfied layout is left alone iff the computed matrix is finite (C56_exactly); it is finite unless a measured line is a single point (C56_jax_partial, from C96_finite, a logical relation for finite tangents), where the property fails (C56_counterexample).
*Scope:* With jax's derivatives: exactly the layouts at which jacfwd is finite are left alone (C56_exactly), among them all without measured lines that are single points (C56_jax_partial). The code violates the full property for such lines (C56_counterexample). C56_shipped_partial, C56_affine_partial, C56_satisfied_partial: the same with exact derivatives instead of jax's.
*Theorems:* Props/Alone: `C56_jax_partial`(pcq), `C56_exactly`(pcq), `C56_counterexample`(pcq); Props/Smooth: `C56_shipped_partial`(pcq); Props/Solver: `C56_satisfied_partial`(pcq), `C56_affine_partial`(pcq)

### C57 Linear layouts are solved exactly (proved)
External jacfwd/lstsq as a parameter with a stated contract (solves consistent affine systems); closure of affine maps under everything used.
*Scope:* with exact numerics (Spec/Solver Exact; exactNum shows the hypothesis is satisfiable); newton method
*Theorems:* Props/Solver: `C57_affine`(pcq), `C57_constraints`(pcq)

### C58 Solving preserves structure (proved)
Rebuild lemmas (C18/C19) plus C20.
*Scope:* newton unconditionally; minimize for optimizers that keep the number of coordinates
*Theorems:* Props/Solver: `C58_newton`(pcq), `C58_minimize`(pcq)

### C59 Solver dispatch (partial)
Case analysis of `solve`.
*Scope:* dispatch proved; a layout without constraints raises ValueError (C59_no_constraints_counterexample); with max_iter <= 0 the geometry is returned
*Theorems:* Props/Solver: `C59_dispatch`(p), `C59_no_constraints_counterexample`(pcq), `C59_no_iterations_partial`(pcq)

### C60 Minimize history (partial)
Callback as a fold; entries are the *sum of squares*, not the 2-norm: counterexample.
*Scope:* the histories are faithful, but the entries are sums of squares, not norms (C60_counterexample)
*Theorems:* Props/Solver: `C60_history_partial`(pcq), `C60_counterexample`(pcq)

### C61 Reported convergence describes the returned primitives (partial)
Counterexample (error list lags one iterate behind); partial for affine systems.
*Scope:* false in general (C61_counterexample): the last error is that of the iterate before the returned one (C61_lag_partial); true for affine satisfiable layouts
*Theorems:* Props/Solver: `C61_lag_partial`(pcq), `C61_counterexample`(pcq), `C61_affine_partial`(pcq)

### C62 Axes rectangles reproduce the solved geometry (proved)
Field algebra on `rect_from_box` and figure size.
*Theorems:* Props/Drawing2: `C62_positions`(pcq), `C62_whole`(pcq), `C62_unit_square`(pcq)

### C63 Drawing is independent of where the figure box sits (partial)
Proved for figure size and axes rectangles; counterexample for labels (origin not subtracted).
*Scope:* Axes rectangles are translation invariant; axis label coordinates are proved to move with the figure origin only when labels lie as stated; the code does not subtract the figure's corner from label coordinates (C63_counterexample).
*Theorems:* Props/Drawing2: `C63_translation_partial`(pcq), `C63_labels_partial`(pcq), `C63_counterexample`(pcq)

### C64 subplots draws the requested axes (proved)
Fold over the requested axes keys.
*Scope:* C64_duplicate: a key requested twice creates an orphan axes.
*Theorems:* Props/Drawing2: `C64_requested`(pcq), `C64_default`(pcq), `C64_duplicate`(pcq)

### C65 Line rotation in plots (partial)
Proved for upward lines; counterexample for downward lines.
*Scope:* Correct for the directions in C65_rotation_partial; the code is wrong for downward slanted lines (C65_violation, C65_counterexample).
*Theorems:* Props/Ui: `C65_rotation_partial`(pcq), `C65_violation`(pcq), `C65_counterexample`(pcq)

### C66 Every primitive is plotted once with valid opacity (proved)
Fold over the listing; opacity is an affine function of depth/height.
*Theorems:* Props/Ui: `C66_each_once`(pcq), `C66_opacity`(pcq), `C66_shapes`(pcq), `C66_succeeds`(pcq)

### C67 What a program shares stays shared after solving (proved)
Modelled: user programs as statement lists with a store of arrays and primitive objects (Model/Program); invariant: equal identity implies equal array.
*Scope:* Proved of programs that add primitives at the top level of the layout (keys without '/'): the tree stays well formed with one array per identity (C67_well_formed), sharing before = sharing after solving, with equal coordinates (C67_shared), and polygons stay closed (C67_closed); for scipy's minimize, the assumption that it returns a vector of the given length (Optimizes).
*Theorems:* Props/Program: `C67_well_formed`(pcq), `C67_shared`(pcq), `C67_closed`(pcq)

### C68 From program to drawing: the requested figure size and margins are what matplotlib gets (proved)
Composition of Program, Layout, Solver and Drawing models; C57 for programs; the README program is modelled literally with arbitrary numbers of axes and sizes, and its satisfiability is shown by an explicit geometry.
*Scope:* C68_solved: with exact numerics (Exact: true derivatives, exact least squares, as in C57) every constraint of a program with affine constraints holds exactly of the solution, given that they can be satisfied together; C68_figure: the figure size and the axes positions handed to matplotlib are the requested ones; C68_readme: the program of the README with any number of axes and any sizes and margins, with no satisfiability hypothesis. Numbers are reals, not floats with rounding (DESIGN.md).
*Theorems:* Props/EndToEnd: `C68_solved`(pcq), `C68_figure`(pcq); Props/Readme: `C68_readme`(pcq)

### C69 Exactly the valid add_prim and add_constraint calls are accepted (proved)
Case analysis of `add_prim`/`add_constraint` with both directions; the conditions are stated with plain existence of nodes and subclassing.
*Scope:* C69_add_prim for any layout, key and primitive; C69_add_constraint is an iff for layouts reached by regular calls (constraint trees without duplicate keys whose parameter trees can be built); C69_shipped for every shipped constraint with parameters that make sense (for others see C47_counterexample, C49_counterexample).
*Theorems:* Props/Accept: `C69_add_prim`(pq), `C69_add_constraint`(pcq), `C69_shipped`(pcq)

### C70 A layout that cannot be satisfied, or is not determined, gets the best nearest geometry (proved)
Affine residual: the step minimises the residual norm, and among minimisers the distance moved (projection argument in Lemmas/LeastSquares); second iteration stands still.
*Scope:* Exact numerics (jacfwd exact where the derivative exists, lstsq the minimum norm least squares solution). C70_program: any program with finite numbers and affine shipped constraints; assumed that the residual at the start has finite entries.
*Theorems:* Props/LeastSquares: `C70_least_squares`(pcq), `C70_representable`(pcq), `C70_program`(pcq)

### C71 A locally best layout is left alone (proved)
First order condition: derivative of the sum of squares vanishes at a local minimum, hence the minimum norm step is zero.
*Scope:* Exact numerics assumed (Spec Exact); Shipped.SmoothAt states where each shipped constraint is differentiable.
*Theorems:* Props/Smooth: `C71_local_best`(pcq)

### C72 Arithmetic expressions of constructions mean what they say (proved)
Induction on expression trees; `build` follows Python's operator dispatch (`__add__`, `__radd__`, `__mul__`, ...), `Means` is an independent value semantics.
*Scope:* C72_expression by induction on expressions (build = Python's operator dispatch, Means = independent value); C72_difference, C72_linear over the reals; C72_number_counterexample: adding a number is annotated but raises AttributeError (outside the statement). Compound operands of + are excluded (C24_compound_counterexample).
*Theorems:* Props/Operators: `C72_expression`(pcq), `C72_number_counterexample`(p), `C72_difference`(pcq), `C72_linear`(pcq)

### C73 Nodes survive JAX's pytree functions (proved)
Modelled: `jax.tree_util` flatten/unflatten/map as documented on the registered classes; tree induction; sorted dictionaries.
*Scope:* JAX's own tree functions are modelled as documented (dictionaries flattened and rebuilt in sorted key order). C73_position_counterexample: positional access (node[2]) does change for polygons with more than ten edges and axes with twins; the statement only claims key access for those.
*Theorems:* Props/Pytree: `C73_round_trip`(pq), `C73_map`(pq), `C73_map_map`(pq), `C73_leaves`(pq), `C73_leaf_count`(pq), `C73_sorted`(pq), `C73_common`(pq), `C73_position_counterexample`(p)

### C74 The solved geometry depends only on where primitives were put and on what the constraints demand (proved)
The best geometry (least squares, then least movement) is unique (C70), and does not change if the multiset of residual entries, or the solution set of satisfiable constraints, is the same.
*Scope:* C74_order, C74_demands and C74_repetition for shipped affine constraints and exact numerics; order and repetition for constraint keys without a slash. Primitives are added in the same order in both histories (same tree).
*Theorems:* Props/Canonical: `C74_order`(pcq), `C74_demands`(pcq), `C74_repetition`(pcq)

### C75 Putting all primitives elsewhere moves the solved geometry (proved)
C42 for residuals plus uniqueness of the best geometry (C74); `C75_calls` commutes a value map with histories.
*Scope:* C75_calls (any constraints), C75_translation (shipped affine constraints except Fix, exact numerics).
*Theorems:* Props/Translate: `C75_calls`(pcq), `C75_translation`(pcq)

### C76 A rejected call names what is wrong with it (proved)
Case analysis of both methods with the exception type; `C76_cases` shows that the cases exhaust all calls.
*Scope:* C76_add_prim, C76_missing, C76_wrong, C76_key hold on every layout; C76_accepted on layouts made by regular calls; C76_cases shows the cases are exhaustive. Added after mutation L03 (every exception becomes RuntimeError) broke no claim.
*Theorems:* Props/Outcomes: `C76_add_prim`(pq), `C76_missing`(pcq), `C76_wrong`(pcq), `C76_key`(pcq), `C76_accepted`(pcq), `C76_cases`(pcq)

### C77 Refreshing thickness constraints equals rebuilding the layout (proved)
Spec/Refresh.lean defines when one call is the other one made with the current axes (`LayoutOp.WithAxes`). A simulation between the two histories (`Sim`, Lemmas/Refresh.lean) is kept by every call; at the end the update is computed child by child and the trees are compared path by path. `C77_solve` and `C77_thickness` follow with C57 and C45; an instance is computed.
*Scope:* For shipped constraints added under keys without '/'; a thickness constraint finds its axes by the first part of its primitive key, as the code does (the failures for nested keys are C52). The thickness statement needs exact numerics and satisfiable affine constraints.
*Theorems:* Props/Refresh: `C77_rebuild`(pcq), `C77_solve`(pcq), `C77_thickness`(pcq)

### C78 Primitives that no constraint refers to do not move (proved)
`Unseen` (Spec/Locality.lean) says that no constraint refers to an array. The residual does not depend on such an array's coordinates (through C50), so the Jacobian matrix has columns of zeros there, and a shortest least squares step is zero there; induction over the iterates. The iterates at which differentiability is assumed are named by the API: they are the results with fewer iterations. For affine constraints nothing is assumed.
*Scope:* Newton's method with exact numerics; for nonlinear constraints differentiability and finite residuals are assumed at the visited geometries. Nothing is said about method='minimize', whose iterates are scipy's choice.
*Theorems:* Props/Untouched: `C78_unseen`(pcq), `C78_affine`(pcq)

### C79 Primitives held in several places (proved)
Model/NodeHeap: node objects on a heap with references, get_child/add_child in place, all constructors and programs again on that heap. Spec/NodeHeap: a picture is the tree that an object shows, with addresses; plant adds a child at every place of an object. C79_lookup, C79_add, C79_places, C79_once, C79_cycle by induction on pictures; C79_program by a simulation between the heap program and the value program (Lemmas/HeapProgram), so the theorems about programs (C67, C68, C70, C75, ...) hold of objects; C79_shared_corner and C79_self are the two surprises.
*Scope:* Full characterization of aliasing; C79_shared_corner and C79_self show behaviour a user may not expect (a key that was not given changes; a layout that recurses forever).
*Theorems:* Props/NodeHeap: `C79_lookup`(p), `C79_places`(pq), `C79_add`(pq), `C79_once`(pq), `C79_cycle`(pcq), `C79_program`(pcq), `C79_add_prim`(pq), `C79_shared_corner`(pcq), `C79_self`(pcq)

### C80 Independent parts of a layout are solved independently (proved)
Model: C57/C70 (solver). Spec: Spec/Locality (PartOf, PlacedIn, Unseen). Geometries are written as assignments of coordinates to arrays; the misfit and the distance of an assignment are sums of those of the part and of the rest, so the nearest best geometry of the whole restricts to that of the part (Lemmas/Decouple).
*Scope:* Exact numerics; Newton's method; affine constraints at the top level.
*Theorems:* Props/Decouple: `C80_independent`(pcq), `C80_extend`(pcq)

### C81 The tutorial's two passes: draw, measure, update, draw again (proved)
Model: Program, Layout, Solver, Drawing and the measurement of an axis (C45). The program is written down literally for a list of axes (Props/Tutorial), with the parameters of the thickness constraints left open; an explicit geometry satisfies all constraints and is the only one that does, so C57 gives it, and C62/C43 draw it. The second pass is the same program with measured parameters, by C77. The label constraints of the notebook (not affine) are left out.
*Scope:* Exact numerics; Newton's method. The notebook's constraints on the axis labels (PointToLineDistance, PositionXAxisLabel: not affine) are not part of this program; C102 and C103 do both passes of the figure with them. Twin axes are off. Tick sides: for frames of positive size and thicknesses that are not negative (otherwise C43's counterexample).
*Theorems:* Props/Tutorial: `C81_tutorial`(pcq)

### C82 Newton's method converges quadratically to a nearby regular solution (proved)
The residuals are shown to be twice continuously differentiable (not just differentiable) functions of the coordinates near the solution; Taylor's remainder, the Lipschitz constant of the derivative and the injectivity of the derivative (from regularity) bound the error of one least squares step by a multiple of the squared error; induction over the loop. Rebuilding is shown to depend on the structure of the geometry only, so the constant is the same for all starts.
*Scope:* With exact numerics (no rounding). Underdetermined layouts have no regular solution and are not covered.
*Theorems:* Props/Convergence: `C82_quadratic`(pcq)

### C83 Solving again changes nothing, and the start may be any geometry (proved)
Model: solveNewton on `startAt l p`, the layout with its root_prim replaced. The affine residual of C57/C70 depends only on the constraint tree, so C70's argument applies to every start; idempotence because the start is itself the nearest best geometry; stability because the nearest least squares solutions are an orthogonal projection, which is not expansive (Lemmas/Restart).
*Scope:* Exact numerics (no rounding).
*Theorems:* Props/Restart: `C83_anywhere`(pcq), `C83_again`(pcq), `C83_stable`(pcq)

### C84 The grid figure: given width, fixed aspect ratio, any number of rows and columns (proved)
The notebook's program is run in the session model for any R, C and keys (`does_gridProg`, induction over the keys): every call succeeds (C84_calls). The geometry is computed explicitly (Lemmas/GridFigure: GridSpec.rect, height); it satisfies every constraint by the exact meanings of Box, Width, Fix, AspectRatio, Grid and InnerMargin (C84_exists), is the only one with upright frames, by induction over columns and rows (C84_unique), and is drawn at these places (C84_drawing, from C62). C84_mirror: a second, upside-down solution always exists, so the orientation hypothesis cannot be dropped. That Newton's method finds the solution is C82's subject and is not claimed here.
*Scope:* Existence, uniqueness among upright geometries, drawing and success of all calls, for every grid shape; C84_mirror shows that the upright hypothesis is needed. Convergence of the solver to it is not part of the claim (see C82).
*Theorems:* Props/GridFigure: `C84_calls`(pcq), `C84_unique`(pcq), `C84_exists`(pcq), `C84_mirror`(pcq), `C84_drawing`(pcq)

### C85 Scaling a layout (proved)
Two layouts are one family of layouts over Bool (Lemmas/Family): all values are functions of x : Bool, and every leaf construction is shown to commute with multiplication (by s, 1, s^2 or its inverse, always positive). Induction over the calls gives the family of layouts; for affine constraints every residual is multiplied by s exactly, so the least-squares characterisation of the solved geometry (C70/C72) transfers along scalePrim. Drawing is followed call by call.
*Scope:* Constraint, calls, solution set and drawing for all shipped constraints; solved geometry for affine constraints with exact numerics (no rounding). The warning of find_axis_position has an absolute tolerance and is not part of the claim.
*Theorems:* Props/Scale: `C85_satisfied`(pcq), `C85_calls`(pcq), `C85_solution`(pcq), `C85_solved`(pcq), `C85_drawing`(pcq)

### C86 The solved geometry depends linearly on positions and lengths (proved)
The three histories are a family of layouts over Fin 3 (Lemmas/Family) whose values are mix t: every leaf construction of an affine constraint commutes with mixing, so residuals are mixed. In the coordinates of the first layout the three residual maps are affine with M2 (mix u v) + c2 = mix (M0 u + c0) (M1 v + c1); the solved geometry is the least-squares minimiser nearest to the start (C70/C72), and that point is characterised by orthogonality conditions which are linear (Lemmas/MixLinear.nearest_mix).
*Scope:* C86_mixture: for exact numerics (Exact num: solve returns the least-squares step of minimum norm); constraints are the affine ones (Shipped.IsAffine).
*Theorems:* Props/Mix: `C86_mixture`(pcq)

### C87 What additional constraints do to the solved geometry (proved)
The misfit of a layout is a sum over its added constraints (C50), so with additional constraints it is the old misfit plus squares: not smaller, and equal exactly if the additional ones are satisfied. The result of the solver is the nearest of the best geometries (C70/C74's Best); the best geometries of the larger layout are a subset of the old ones containing the old result, which therefore stays the nearest.
*Scope:* C87_already_met, C87_monotone: exact numerics, affine constraints (Shipped.IsAffine), constraint keys without a slash.
*Theorems:* Props/MoreConstraints: `C87_already_met`(pcq), `C87_monotone`(pcq)

### C88 What a primitive accepts as its parameter vector (partial)
Model/Values.lean models the value argument with nested sequences, shapes, jax arrays and other objects, np.array's shape discovery and len(). C88_accepted and C88_rejected classify all outcomes; for one-dimensional values a Point gets exactly its two numbers (C88_point_partial); C88_counterexample and C88_jax_counterexample refute the rest; C88_agrees ties the constructor to the one used by the other theorems.
*Scope:* C88_accepted/C88_rejected classify every outcome. The property as stated is false of the code: values of more dimensions are accepted (C88_counterexample) and jax arrays are always rejected (C88_jax_counterexample); C88_point_partial is the one-dimensional case.
*Theorems:* Props/Values: `C88_accepted`(pcq), `C88_rejected`(pcq), `C88_point_partial`(pcq), `C88_counterexample`(pcq), `C88_jax_counterexample`(pcq), `C88_agrees`(pcq)

### C89 Rounding errors of the linear algebra do not accumulate (proved)
Spec/Rounded: numerics whose steps have bounded relative and absolute error. For affine residuals the exact step is the projection onto the affine set of best points; the set is closed under lines, so the projection does not expand distances (Pythagoras). Induction over the loop with two invariants: distance to the best set, distance to the exact result.
*Scope:* Exact arithmetic except for the Newton steps, whose errors are arbitrary within the bounds.
*Theorems:* Props/Rounded: `C89_rounding`(pcq)

### C90 The names of primitives do not matter (proved)
Spec/Rename: `Renaming` (injective, no slashes), `renameKey` (first component), renamed trees and calls. Lemmas/Rename: one simulation lemma per function (look-up, insertion, check, key trees by induction on the constraint tree, automatic keys), hence histories; the solver sees the same flat list of values, so the residual function is equal as a function and every numerics does the same; drawing by the look-ups it makes.
*Scope:* C90_calls needs only that the renaming is one; C90_solve is for layouts whose constraint calls fit and whose keys do not dangle (C47/C48 say when), since otherwise a KeyError shows the old name; C90_axes_names shows why drawing without listed axes depends on the names
*Theorems:* Props/Rename: `C90_calls`(pq), `C90_solve`(pcq), `C90_drawing`(pq), `C90_axes_names`(p)

### C91 Colours and labels of plotted primitives (proved)
The model of ui.py carries the colour fraction through the recursion; induction over the tree for colours, then each plot function's artists that are not shapes.
*Scope:* colour map and fonts are matplotlib's; the rotation itself is C65
*Theorems:* Props/UiLabels: `C91_colors`(pcq), `C91_same_color`(pcq), `C91_labels`(pcq)

### C92 Vector distributes an array over a tree (partial)
Model/Constructions.vector as in the code. C92_behaviour gives, for every tree and array, exactly what is returned (by induction on the tree; vecOut is written with take, drop and the sum of the sizes only). The property holds for vectors without child nodes (C92_array_partial) and is false for trees (C92_counterexample): the code returns the whole array at the root and again the parts at the children (the FIXME at constructions.py:660-661), and cuts off what belongs to grandchildren.
*Scope:* Holds for vectors without child nodes. The code violates it for trees: entries are returned twice, those of grandchildren are lost (C92_counterexample); C92_behaviour states exactly what is returned.
*Theorems:* Props/Vector: `C92_behaviour`(pcq), `C92_array_partial`(pcq), `C92_counterexample`(pcq)

### C93 Figures made of boxes: the layout means what the program asks for (proved)
Spec/Figure.lean states 27 kinds of demands as equations between the sides of rectangles (Demand.Holds) and figure programs as lists of steps (make a primitive, ask for something). C93_calls: all calls succeed and the layout has exactly these constraints (induction over the program, Model/Session). C93_placed, C93_demands: in every solution, each box is a rectangle and each demand holds of the rectangles; C93_solutions, C93_anywhere, C93_exists: conversely every placement of which the demands hold is a solution (all points can be moved independently because identities are disjoint). Demands whose direction comes from a degenerate box are excepted (Demand.Regular; C36 shows why). C93_solve: affine demands, exact numerics, via C68. C93_drawing: via C62. The notebooks: C93_one_axes (solve and subplots), C93_two_axes, C93_contour_colorbar, C93_ten_rules (uniqueness among upright layouts and existence). C93_labels, C93_ticks: where subplots puts axis labels and ticks; C93_twin_axes: an axes with a twin axis, measured thicknesses and a centred label, solved and drawn.
*Scope:* For demands whose direction comes from a box (alignment, grids, Collinear, distance to an edge, label positions) that box must not be degenerate, see C36; numerics of solve exact as in C68.
*Theorems:* Props/Figure: `C93_calls`(pcq), `C93_placed`(pcq), `C93_demands`(pcq), `C93_solutions`(pcq), `C93_anywhere`(pcq), `C93_exists`(pcq), `C93_solve`(pcq), `C93_drawing`(pcq); Props/FigureDrawing: `C93_labels`(pcq), `C93_ticks`(pcq), `C93_twin_axes`(pcq); Props/FigureExamples: `C93_two_axes`(pcq), `C93_one_axes`(pcq), `C93_contour_colorbar`(pcq), `C93_ten_rules`(pcq)

### C94 A constraint object may be added under several keys (partial)
Model/ConsHeap: constraint objects on a heap, held in variables; add_constraint stores a reference and changes objects in place. Spec/ConsHeap: the same program on values (CopySession). C94_reuse_partial by a simulation (Lemmas/ConsHeap): references point to earlier objects and never to the root constraint, so storing at the top level changes no tree but the root's. C94_made: what making an object means. C94_deep_counterexample: by computation, a program with a key 'A/x' for which a violated constraint is dropped.
*Scope:* Proved for all programs whose constraint keys have no '/' (C94_reuse_partial). For keys with '/' the property is false of the code: C94_deep_counterexample.
*Theorems:* Props/ConsHeap: `C94_reuse_partial`(pcq), `C94_made`(pcq), `C94_deep_counterexample`(pcq)

### C95 Options take the documented values and refuse others (partial)
Model/Options: the constructors with the arguments users pass (strings, integers, tuples, lists) and the base classes. Spec/Options: the documented names, `Accepts` (exactly these names, ValueError otherwise) and `Cons.SameAs` (same residuals and trees for all arguments). C95_names, C95_opposite, C95_shapes for the options that are checked; C95_marginArray_partial, C95_positionAxis_partial, C95_thickness_partial for documented values of the others; the violations by C95_*_counterexample.
*Scope:* Proved for the sides, dimensions, axis labels, opposite_side and grid shapes (C95_names, C95_opposite, C95_shapes), and for documented values of the other options (C95_*_partial). For undocumented values of these the property is false of the code: C95_*_counterexample.
*Theorems:* Props/Options: `C95_names`(pcq), `C95_opposite`(p), `C95_shapes`(pcq), `C95_marginArray_partial`(pcq), `C95_marginArray_counterexample`(pcq), `C95_positionAxis_partial`(pcq), `C95_thickness_partial`(pcq), `C95_thickness_counterexample`(pcq), `C95_positionAxis_counterexample`(pcq), `C95_refresh_counterexample`(pcq)

### C96 The derivative the Newton solver uses is the derivative (proved)
Model/Dual: forward-mode numbers (value and tangent, with jax's symbolic zeros), the derivative rule of each operation, and jacfwd. Spec/Jacfwd: a program as a list of calls whose numbers can be of any type, run once with Flt (the layout) and once with Dual (what jax traces). A logical relation between the two runs (Lemmas/Rel*) is proved through all constructions, constraints and layout operations, and instantiated with 'the tangent is the directional derivative' (Lemmas/DualRel). C96_smooth, C96_exact, C96_finite_is_jacobian, C96_values, C96_shape; C96_jump and C96_dot show that the two exclusions are needed. C96_newton_*: the theorems about the Newton method with this jacfwd in place of the assumption that the Jacobian matrix is exact. C96_finite: the matrix is finite also where lines point to the left.
*Scope:* Exact arithmetic. The derivative rules of jax are part of the model (Model/Dual).
*Theorems:* Props/Alone: `C96_finite`(pcq); Props/Jacfwd: `C96_finite_is_jacobian`(pcq), `C96_smooth`(pcq), `C96_exact`(pcq), `C96_values`(pcq), `C96_shape`(pcq), `C96_jump`(pcq), `C96_dot`(pcq); Props/JacfwdNewton: `C96_newton_stays`(pcq), `C96_newton_quadratic`(pcq), `C96_newton_transfer`(pcq)

### C97 The gradient that minimize uses is the gradient (proved)
Model/Tape: valueAndGrad, one run on numbers that record their tangents as linear expressions and a backward pass. Lemmas/Tape: the record evaluated in a direction is the tangent of forward mode (logical relation), and the backward pass returns finite numbers exactly if all directions do, and then the same (Lemmas/Gradient: rev_iff; C97_forward). The logical relation of C96 is continued through the sum of squares (grad_core, grad_sound, grad_finite, jacobian_gradient). C97_finite_is_gradient, C97_gradient, C97_transposed, C97_values, C97_downhill (first-order expansion along the negative gradient), C97_stationary (from the local minimum of C71), C97_minimize_stays with the assumption StopsAtGradient about the optimizer; C97_dot and C97_tolerance_counterexample show the exceptions.
*Scope:* Proved for all programs of shipped constraints and all coordinate vectors, in reverse mode (recorded tangents and backward pass). C97_minimize_stays and C97_tolerance_counterexample assume of the optimizer only that it reports nothing where the gradient it is given is at most tol (StopsAtGradient).
*Theorems:* Props/Gradient: `C97_finite_is_gradient`(pcq), `C97_gradient`(pcq), `C97_transposed`(pcq), `C97_values`(pcq), `C97_downhill`(pcq), `C97_stationary`(pcq), `C97_minimize_stays`(pcq), `C97_tolerance_counterexample`(pcq), `C97_forward`(pcq), `C97_dot`(pcq)

### C98 A printed node shows its tree (partial)
Model/Repr models __repr__ on character lists. Unique readability (a printed node is a prefix of at most one continuation) by induction on the tree, for names and values without '(' and keys without ',' and ')'; the converse for all nodes. Counterexample: keys with commas.
*Scope:* Proved as an equivalence for class names and printed values without '(' (all primitives; construction values print tuples) and keys without ',' and ')'. C98_alike holds for all nodes. C98_counterexample: keys with ', ' make different nodes print alike, so the unrestricted claim is false of the code.
*Theorems:* Props/Repr: `C98_repr_partial`(pcq), `C98_alike`(pq), `C98_counterexample`(p)

### C99 Which satisfied constraints are satisfied exactly in floating point (proved)
Model/Round: a floating point format is a set of reals with a monotone rounding function that fixes the set (overflow gives the non-finite value); numbers of the format with rounded operations are another kind of numbers for the same model of the constructions. Gradual underflow = all numbers are multiples of the smallest positive one, hence a rounded difference is zero only for equal numbers. Residuals are evaluated symbolically (Lemmas/Round) and reduced to rounded differences. IEEE formats (binary digits, exponent range, nearest, ties to even, overflow threshold) are shown to be such formats (Lemmas/Ieee). Counterexamples: underflow of products, flush to zero. Conversion to the format: Props/Single (C99_conversion, C99_single_precision). Compounds: Lemmas/RoundGrid evaluates alignments, grids, margin arrays and axis positions in rounded arithmetic by the same inductions as the exact case (C37, C43); that products do not underflow is a condition (FRect.Clear, FloatFormat.Resolves), met by boxes of size 1 or more (C99_unit). Lengths: in the IEEE formats the computed root of the computed square of a number is its absolute value (Lemmas/Sqrt: neighbouring numbers are further apart than the two rounding errors), so that Length, RelativeLength and Grid reduce to rounded differences and products (Props/RoundLength).
*Scope:* For every format with monotone rounding and gradual underflow; float64/float32 (round to nearest, ties to even) are shown to be such formats (C99_ieee). The exceptions are proved as counterexamples: products underflow (C99_products_underflow, finding 33), flush-to-zero hardware (C99_flush_to_zero). The elementary functions are modelled as exactly rounded but nothing is claimed about them. The conversion of 64-bit coordinates to jax's default 32 bits is C99_conversion; what it loses, C99_single_precision (finding 34). Compound constraints: C99_align, C99_rectilinearGrid (every grid shape), C99_outerMarginArray (every length), C99_coincidentOutwardFaces, C99_positionAxis(_twin); C99_unit gives simple sufficient conditions for the first two. Lengths: C99_length, C99_relativeLength and C99_grid under the condition C99_squares (C99_squares64 for float64: sizes from 2^-500 to 2^500). In C99_relativeLength the multiple is stated as minus the rounded product with the negated length, which is what the code computes; no symmetry of rounding is assumed.
*Theorems:* Props/Round: `C99_coincident`(pcq), `C99_coincidentLines`(pcq), `C99_horizontal`(pcq), `C99_vertical`(pcq), `C99_box`(pcq), `C99_fix`(pcq), `C99_xLength`(pcq), `C99_yLength`(pcq), `C99_xDistance`(pcq), `C99_yDistance`(pcq), `C99_width`(pcq), `C99_height`(pcq), `C99_margin`(pcq), `C99_ieee`(pcq), `C99_products_underflow`(pcq), `C99_flush_to_zero`(pcq); Props/RoundGrid: `C99_align`(pcq), `C99_rectilinearGrid`(pcq), `C99_outerMarginArray`(pcq), `C99_coincidentOutwardFaces`(pcq), `C99_positionAxis`(pcq), `C99_positionAxis_twin`(pcq), `C99_unit`(pcq); Props/RoundLength: `C99_squares`(pcq), `C99_length`(pcq), `C99_relativeLength`(pcq), `C99_grid`(pcq), `C99_squares64`(pcq); Props/Single: `C99_conversion`(pcq), `C99_single_precision`(pcq)

### C100 A layout that is computed to be satisfied stays exactly as it is (proved)
The model of layouts and of the Newton loop is generic in the numbers, so it runs on the rounded numbers of C99. That constraints do not depend on which arrays hold the coordinates is proved for every kind of numbers (Lemmas/IdFree, generic); x + 0 = x and -0 = 0 hold without rounding error, so a step from a zero residual does not move. Assumed of lstsq: zero right hand side gives zero (Spec/RoundSolve).
*Scope:* For every floating point format. Assumptions in the statement: numpy.linalg.lstsq maps a zero right hand side to zero (Numerics.ZeroForZero), jax's derivatives at the layout are finite (they are not for zero-length measured lines, see C56_counterexample). Constraints added below others (nested keys) are not covered by C100_all_constraints, but by C100_left_alone.
*Theorems:* Props/RoundSolve: `C100_left_alone`(pcq), `C100_all_constraints`(pcq)

### C101 Figures with alignments, grids and lengths are laid out from the default geometry (proved)
Spec/OneStep.lean: Demand.OneStep (which demands) and Demand.Straight (the equations between coordinates). On the straight way from the default geometry to a placement every residual is a function of one variable, whose tangent at the start vanishes at the end exactly if the equation holds (Lemmas/OneStep*, EvT); so the Newton equation is solvable and the least-squares step, being unique up to the kernel, lands on a placement that satisfies all equations (Ran.newton); the residual there is zero and, where the measured lines are not points (Demand.Sized), differentiable (Ran.jacobian_at), so later iterations stay. C101_onestep for all programs; C101_upright: for upright boxes the equations are what the demands say; C101_two_axes, C101_contour, C101_ten_rules, C101_grid_axes (grids of any size with square first axes): the notebooks. Props/Profile: C101_profile, the layout of examples/profile_solver.py for every shape and all numbers (frames may come out turned over, if the margins take more than the width); C101_profile_flipped: with the numbers of that file they do. Props/FirstStep: with aspect ratios other than 1 the first step solves the linearised equations (Demand.Linear, Ran.first_step); C101_aspect_step, C101_aspect_counterexample: what this makes of a single box.
*Scope:* Numerics exact as in C68. The lines that are measured (by lengths, ratios, squares and grids) must not be points, since the derivative of a length does not exist there; other boxes may be flat, such as axis boxes in the first pass. Aspect ratios other than 1 are covered for the first iteration only (C101_first_step), after which they need not hold (C101_aspect_counterexample); distances to an edge and label positions are C102's.
*Theorems:* Props/FirstStep: `C101_first_step`(pcq), `C101_aspect_step`(pcq), `C101_aspect_counterexample`(pcq); Props/OneStep: `C101_onestep`(pcq), `C101_upright`(pcq), `C101_two_axes`(pcq), `C101_contour`(pcq), `C101_ten_rules`(pcq); Props/OneStepGrid: `C101_grid_axes`(pcq); Props/Profile: `C101_profile`(pcq), `C101_profile_flipped`(pcq)

### C102 Figures with axis labels are laid out by two Newton steps (proved)
The value of each demand near a geometry is a differentiable function of the coordinates (affine, a signed distance, a quotient of lengths); its tangent at the default geometry vanishes exactly at the placements of Spec/TwoStep.lean's First, its tangent at a geometry reached by the first step exactly where the demand holds. So with exact numerics the first step reaches a placement with all boxes in place, the second one satisfies all constraints, and from there the loop stays. The tutorial's figure is an instance whose placement is computed.
*Scope:* Numerics exact as in C68. The demands other than label positions must determine the frames that carry labels; alignments, lengths and ratios (C101) are not mixed in. The label must also be placeable at the given number (First), which holds whenever its coordinate along the axis is only constrained by its own position.
*Theorems:* Props/TwoStep: `C102_twostep`(pcq), `C102_tutorial`(pcq)

### C103 The second pass of any figure: measure, update, solve and draw again (proved)
The statements of a figure program before and after measuring differ only in the parameters of thickness constraints, so C77 says that the updated layout has the trees of the layout of the measured program, and solve only reads those. The tutorial's figure is solved by C102 in both passes and drawn as C93 says; update_subplots makes the calls that subplots makes after creating the figure. ten_simple_rules_demo.ipynb likewise, by C101 in both passes (C103_ten_rules).
*Scope:* Numerics exact as in C68 for the notebooks (the general statement holds for any numerics). The measured axes have their ticks on one side (otherwise C45's counterexample); in the tutorial, thicknesses are not negative for the sides of the ticks (C43).
*Theorems:* Props/Measured: `C103_update`(pcq), `C103_tutorial`(pcq), `C103_ten_rules`(pcq)

### C104 A box with a width and an aspect ratio: what the solver returns after any number of iterations (proved)
Spec/AspectNewton: Demand.NewtonStep, the linear approximation of |width / height| at a placement; heights, the recursion. Lemmas/AspectNewton: near a placement whose measured boxes are not flat the residuals are differentiable functions of the coordinates (Ran.near_aspect, Ran.nearA), so the Newton equation at that placement says NewtonStep (Ran.tangentA), for all figure programs with linear demands and aspect ratios; chain_loop carries an invariant of the iterates through the loop (Ran.aspect_chain, C104_steps). Props/AspectNewton: C104_heights by this invariant, by induction on the iterations; C104_converges and C104_turned by the closed form of the recursion; C104_never_counterexample by its growth.
*Scope:* Numerics exact as in C68. Nothing is claimed if some height of the recursion is 0 (then the next derivative does not exist). C104_never_counterexample is a counterexample to the wish that solve finds every box that exists, not to C104.
*Theorems:* Props/AspectNewton: `C104_steps`(pcq), `C104_heights`(pcq), `C104_converges`(pcq), `C104_turned`(pcq), `C104_never_counterexample`(pcq)
