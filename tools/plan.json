{
 "C01": "Structural induction on the tree; fuel of the `unflatten` model proved sufficient.",
 "C02": "Lookup and listing both characterised by paths (lists of components); injectivity of '/'-joining when components have no '/'. Collision witness for keys with '/'.",
 "C03": "Induction over the path of the first key; the model of get_child is also proved to satisfy the code's literal recursion on key.split('/', 1).",
 "C04": "Induction over the path; frame theorem over every other path.",
 "C05": "Same induction; the failing outcomes enumerated. Model returns no new tree on error (see modelling decisions).",
 "C06": "Induction over the path for keys without empty components (`_partial`); counterexample theorems for 'a/' and '/b'.",
 "C07": "Exact characterisation of __contains__ (`_partial`); counterexamples: raises for a missing ancestor, True for 'a/'.",
 "C08": "flatten/unflatten round trip specialised to mapped structures.",
 "C09": "Tree induction.",
 "C10": "Tree induction, path spec.",
 "C11": "List indexing lemmas. Model/Item: __getitem__ for every kind of key, slices with CPython's index adjustment; C11_getitem_step states which positions are picked without it.",
 "C12": "While loop modelled with fuel; pigeonhole on the finite key set shows enough fuel always exists and the result does not depend on it.",
 "C13": "Induction over histories; injectivity of decimal numerals.",
 "C14": "List induction on zip(points, rotate points).",
 "C15": "Case analysis of validate_prims; spec = pointwise subclass relation with repetition.",
 "C16": "Finite flag table for defaults; truncation counterexample for supplied primitives.",
 "C17": "Loop invariant over the flat listing.",
 "C18": "C17 + C01 + key injectivity.",
 "C19": "as C18 for arbitrary values.",
 "C20": "List lemmas on cumulative sums.",
 "C21": "Tree induction relating flat evaluation to recursive evaluation; key-prefix substitution lemma.",
 "C22": "Case analysis.",
 "C23": "List lemmas.",
 "C24": "Tree induction when the right operand takes no primitives or both are leaves (`_partial`); counterexample: Width()+Width() evaluates the first box twice. Compound operands on the same primitives: tree induction with the invariant that the second operand's primitives are a prefix of the first's (C24_shared_partial, C24_same_primitives_partial).",
 "C25": "Flat zip determines tree shape: induction on trees.",
 "C26": "Tree induction, all trees.",
 "C27": "Tree induction, all trees.",
 "C28": "Proved for >=1 frozen parameters (`_partial`); with none the signature loses all parameters: counterexample.",
 "C29": "Proved for leaves and for one-level compound constructions with number value (`_partial`); counterexamples for depth two and array values.",
 "C30": "List induction.",
 "C31": "Case analysis over the shipped leaf classes; CoincidentLines violates it.",
 "C47": "Invariant: the three trees have the same keys; induction over histories with well-formed constraints (`_partial`); counterexamples: Grid with too few margins, params raising half-way.",
 "C49": "Proved for every failure detected by validation or key checks; counterexample for a failure while computing the parameter tree.",
 "C53": "Small heap model with references for the four trees; counterexample and the part that does hold.",
 "C57": "External jacfwd/lstsq as a parameter with a stated contract (solves consistent affine systems); closure of affine maps under everything used.",
 "C60": "Callback as a fold; entries are the *sum of squares*, not the 2-norm: counterexample.",
 "C61": "Counterexample (error list lags one iterate behind); partial for affine systems.",
 "C63": "Proved for figure size and axes rectangles; counterexample for labels (origin not subtracted).",
 "C65": "Proved for upward lines; counterexample for downward lines.",
 "C32": "Modelled: `assem` of each class and its constraint. The residual is evaluated on real coordinates (`Flt`); `Satisfied c prims` = calling the constraint returns only zeros; both directions by algebra.",
 "C33": "As C32, for the compound `Box`: tree evaluation (C21) reduces it to its children.",
 "C34": "As C32; each theorem is an iff between `Satisfied` and the equation a user has in mind, for every target number.",
 "C35": "As C32; `margins_add_up` links inner margins, widths and heights.",
 "C36": "As C32: cross products of directions; iff for a nondegenerate first line, counterexample and exact description for a degenerate one.",
 "C37": "Induction over the rows and columns of the grid of any shape: `RectilinearGrid` builds its children by comprehension; `Satisfied` iff all rectangles of a row/column agree on their edges.",
 "C38": "As C37 with relative widths/heights and margins.",
 "C39": "Algebra over the reals: projections and their Pythagorean relation.",
 "C40": "`arctan2` is modelled as the argument of a complex number (Mathlib `Complex.arg`); difference of arguments and `toIocMod`-style case analysis; counterexample to the range.",
 "C41": "As C32.",
 "C42": "Translation is a map of the values of the primitives (`Spec/Shift`); case analysis over all shipped constraint classes (including the recursive grids), `C42_fix_moves` is the exception.",
 "C43": "Modelled: `PositionXAxis/YAxis`, `find_axis_position`; the constraint pins the axis box on an edge, the detection inverts it.",
 "C44": "Direct evaluation of `update_axes`'s label coordinates.",
 "C45": "Modelled: `get_axis_thickness` as calls on an abstract axis with visibility state and exceptions at any point.",
 "C46": "Arithmetic on strides; C46_exactly characterises the shapes for which the code is right, by induction on the shape.",
 "C48": "Induction over histories; invariant: every stored key resolves to a primitive that extends the one present when it was stored (`Node.Extends`).",
 "C50": "Induction over histories (C47) plus C21.",
 "C51": "Pigeonhole (C12) plus the dictionary lemmas.",
 "C52": "Fold over the flat listing of constraints; invariant: paired trees, only parameters of thickness constraints differ.",
 "C54": "Induction over histories with `Node.Extends`.",
 "C55": "The while loop is a recursion on `max_iter`; `NewtonRun` (Spec) is an independent relational description of a faithful run.",
 "C56": "`C56_shipped_partial`: derivative of every shipped residual exists at smooth geometries (Lemmas/Smooth*), the minimum norm least squares step from residual zero is zero. With the modelled jax.jacfwd (C96): a satisfied layout is left alone iff the computed matrix is finite (C56_exactly); it is finite unless a measured line is a single point (C56_jax_partial, from C96_finite, a logical relation for finite tangents), where the property fails (C56_counterexample).",
 "C58": "Rebuild lemmas (C18/C19) plus C20.",
 "C59": "Case analysis of `solve`.",
 "C62": "Field algebra on `rect_from_box` and figure size.",
 "C64": "Fold over the requested axes keys.",
 "C66": "Fold over the listing; opacity is an affine function of depth/height.",
 "C67": "Modelled: user programs as statement lists with a store of arrays and primitive objects (Model/Program); invariant: equal identity implies equal array.",
 "C68": "Composition of Program, Layout, Solver and Drawing models; C57 for programs; the README program is modelled literally with arbitrary numbers of axes and sizes, and its satisfiability is shown by an explicit geometry.",
 "C69": "Case analysis of `add_prim`/`add_constraint` with both directions; the conditions are stated with plain existence of nodes and subclassing.",
 "C70": "Affine residual: the step minimises the residual norm, and among minimisers the distance moved (projection argument in Lemmas/LeastSquares); second iteration stands still.",
 "C71": "First order condition: derivative of the sum of squares vanishes at a local minimum, hence the minimum norm step is zero.",
 "C72": "Induction on expression trees; `build` follows Python's operator dispatch (`__add__`, `__radd__`, `__mul__`, ...), `Means` is an independent value semantics.",
 "C73": "Modelled: `jax.tree_util` flatten/unflatten/map as documented on the registered classes; tree induction; sorted dictionaries.",
 "C74": "The best geometry (least squares, then least movement) is unique (C70), and does not change if the multiset of residual entries, or the solution set of satisfiable constraints, is the same.",
 "C75": "C42 for residuals plus uniqueness of the best geometry (C74); `C75_calls` commutes a value map with histories.",
 "C76": "Case analysis of both methods with the exception type; `C76_cases` shows that the cases exhaust all calls.",
 "C77": "Spec/Refresh.lean defines when one call is the other one made with the current axes (`LayoutOp.WithAxes`). A simulation between the two histories (`Sim`, Lemmas/Refresh.lean) is kept by every call; at the end the update is computed child by child and the trees are compared path by path. `C77_solve` and `C77_thickness` follow with C57 and C45; an instance is computed.",
 "C78": "`Unseen` (Spec/Locality.lean) says that no constraint refers to an array. The residual does not depend on such an array's coordinates (through C50), so the Jacobian matrix has columns of zeros there, and a shortest least squares step is zero there; induction over the iterates. The iterates at which differentiability is assumed are named by the API: they are the results with fewer iterations. For affine constraints nothing is assumed.",
 "C79": "Model/NodeHeap: node objects on a heap with references, get_child/add_child in place, all constructors and programs again on that heap. Spec/NodeHeap: a picture is the tree that an object shows, with addresses; plant adds a child at every place of an object. C79_lookup, C79_add, C79_places, C79_once, C79_cycle by induction on pictures; C79_program by a simulation between the heap program and the value program (Lemmas/HeapProgram), so the theorems about programs (C67, C68, C70, C75, ...) hold of objects; C79_shared_corner and C79_self are the two surprises.",
 "C80": "Model: C57/C70 (solver). Spec: Spec/Locality (PartOf, PlacedIn, Unseen). Geometries are written as assignments of coordinates to arrays; the misfit and the distance of an assignment are sums of those of the part and of the rest, so the nearest best geometry of the whole restricts to that of the part (Lemmas/Decouple).",
 "C81": "Model: Program, Layout, Solver, Drawing and the measurement of an axis (C45). The program is written down literally for a list of axes (Props/Tutorial), with the parameters of the thickness constraints left open; an explicit geometry satisfies all constraints and is the only one that does, so C57 gives it, and C62/C43 draw it. The second pass is the same program with measured parameters, by C77. The label constraints of the notebook (not affine) are left out.",
 "C82": "The residuals are shown to be twice continuously differentiable (not just differentiable) functions of the coordinates near the solution; Taylor's remainder, the Lipschitz constant of the derivative and the injectivity of the derivative (from regularity) bound the error of one least squares step by a multiple of the squared error; induction over the loop. Rebuilding is shown to depend on the structure of the geometry only, so the constant is the same for all starts.",
 "C83": "Model: solveNewton on `startAt l p`, the layout with its root_prim replaced. The affine residual of C57/C70 depends only on the constraint tree, so C70's argument applies to every start; idempotence because the start is itself the nearest best geometry; stability because the nearest least squares solutions are an orthogonal projection, which is not expansive (Lemmas/Restart).",
 "C84": "The notebook's program is run in the session model for any R, C and keys (`does_gridProg`, induction over the keys): every call succeeds (C84_calls). The geometry is computed explicitly (Lemmas/GridFigure: GridSpec.rect, height); it satisfies every constraint by the exact meanings of Box, Width, Fix, AspectRatio, Grid and InnerMargin (C84_exists), is the only one with upright frames, by induction over columns and rows (C84_unique), and is drawn at these places (C84_drawing, from C62). C84_mirror: a second, upside-down solution always exists, so the orientation hypothesis cannot be dropped. That Newton's method finds the solution is C82's subject and is not claimed here.",
 "C85": "Two layouts are one family of layouts over Bool (Lemmas/Family): all values are functions of x : Bool, and every leaf construction is shown to commute with multiplication (by s, 1, s^2 or its inverse, always positive). Induction over the calls gives the family of layouts; for affine constraints every residual is multiplied by s exactly, so the least-squares characterisation of the solved geometry (C70/C72) transfers along scalePrim. Drawing is followed call by call.",
 "C86": "The three histories are a family of layouts over Fin 3 (Lemmas/Family) whose values are mix t: every leaf construction of an affine constraint commutes with mixing, so residuals are mixed. In the coordinates of the first layout the three residual maps are affine with M2 (mix u v) + c2 = mix (M0 u + c0) (M1 v + c1); the solved geometry is the least-squares minimiser nearest to the start (C70/C72), and that point is characterised by orthogonality conditions which are linear (Lemmas/MixLinear.nearest_mix).",
 "C87": "The misfit of a layout is a sum over its added constraints (C50), so with additional constraints it is the old misfit plus squares: not smaller, and equal exactly if the additional ones are satisfied. The result of the solver is the nearest of the best geometries (C70/C74's Best); the best geometries of the larger layout are a subset of the old ones containing the old result, which therefore stays the nearest.",
 "C88": "Model/Values.lean models the value argument with nested sequences, shapes, jax arrays and other objects, np.array's shape discovery and len(). C88_accepted and C88_rejected classify all outcomes; for one-dimensional values a Point gets exactly its two numbers (C88_point_partial); C88_counterexample and C88_jax_counterexample refute the rest; C88_agrees ties the constructor to the one used by the other theorems.",
 "C89": "Spec/Rounded: numerics whose steps have bounded relative and absolute error. For affine residuals the exact step is the projection onto the affine set of best points; the set is closed under lines, so the projection does not expand distances (Pythagoras). Induction over the loop with two invariants: distance to the best set, distance to the exact result.",
 "C90": "Spec/Rename: `Renaming` (injective, no slashes), `renameKey` (first component), renamed trees and calls. Lemmas/Rename: one simulation lemma per function (look-up, insertion, check, key trees by induction on the constraint tree, automatic keys), hence histories; the solver sees the same flat list of values, so the residual function is equal as a function and every numerics does the same; drawing by the look-ups it makes.",
 "C91": "The model of ui.py carries the colour fraction through the recursion; induction over the tree for colours, then each plot function's artists that are not shapes.",
 "C92": "Model/Constructions.vector as in the code. C92_behaviour gives, for every tree and array, exactly what is returned (by induction on the tree; vecOut is written with take, drop and the sum of the sizes only). The property holds for vectors without child nodes (C92_array_partial) and is false for trees (C92_counterexample): the code returns the whole array at the root and again the parts at the children (the FIXME at constructions.py:660-661), and cuts off what belongs to grandchildren.",
 "C93": "Spec/Figure.lean states 27 kinds of demands as equations between the sides of rectangles (Demand.Holds) and figure programs as lists of steps (make a primitive, ask for something). C93_calls: all calls succeed and the layout has exactly these constraints (induction over the program, Model/Session). C93_placed, C93_demands: in every solution, each box is a rectangle and each demand holds of the rectangles; C93_solutions, C93_anywhere, C93_exists: conversely every placement of which the demands hold is a solution (all points can be moved independently because identities are disjoint). Demands whose direction comes from a degenerate box are excepted (Demand.Regular; C36 shows why). C93_solve: affine demands, exact numerics, via C68. C93_drawing: via C62. The notebooks: C93_one_axes (solve and subplots), C93_two_axes, C93_contour_colorbar, C93_ten_rules (uniqueness among upright layouts and existence). C93_labels, C93_ticks: where subplots puts axis labels and ticks; C93_twin_axes: an axes with a twin axis, measured thicknesses and a centred label, solved and drawn.",
 "C94": "Model/ConsHeap: constraint objects on a heap, held in variables; add_constraint stores a reference and changes objects in place. Spec/ConsHeap: the same program on values (CopySession). C94_reuse_partial by a simulation (Lemmas/ConsHeap): references point to earlier objects and never to the root constraint, so storing at the top level changes no tree but the root's. C94_made: what making an object means. C94_deep_counterexample: by computation, a program with a key 'A/x' for which a violated constraint is dropped.",
 "C95": "Model/Options: the constructors with the arguments users pass (strings, integers, tuples, lists) and the base classes. Spec/Options: the documented names, `Accepts` (exactly these names, ValueError otherwise) and `Cons.SameAs` (same residuals and trees for all arguments). C95_names, C95_opposite, C95_shapes for the options that are checked; C95_marginArray_partial, C95_positionAxis_partial, C95_thickness_partial for documented values of the others; the violations by C95_*_counterexample.",
 "C96": "Model/Dual: forward-mode numbers (value and tangent, with jax's symbolic zeros), the derivative rule of each operation, and jacfwd. Spec/Jacfwd: a program as a list of calls whose numbers can be of any type, run once with Flt (the layout) and once with Dual (what jax traces). A logical relation between the two runs (Lemmas/Rel*) is proved through all constructions, constraints and layout operations, and instantiated with 'the tangent is the directional derivative' (Lemmas/DualRel). C96_smooth, C96_exact, C96_finite_is_jacobian, C96_values, C96_shape; C96_jump and C96_dot show that the two exclusions are needed. C96_newton_*: the theorems about the Newton method with this jacfwd in place of the assumption that the Jacobian matrix is exact. C96_finite: the matrix is finite also where lines point to the left.",
 "C97": "Model/Tape: valueAndGrad, one run on numbers that record their tangents as linear expressions and a backward pass. Lemmas/Tape: the record evaluated in a direction is the tangent of forward mode (logical relation), and the backward pass returns finite numbers exactly if all directions do, and then the same (Lemmas/Gradient: rev_iff; C97_forward). The logical relation of C96 is continued through the sum of squares (grad_core, grad_sound, grad_finite, jacobian_gradient). C97_finite_is_gradient, C97_gradient, C97_transposed, C97_values, C97_downhill (first-order expansion along the negative gradient), C97_stationary (from the local minimum of C71), C97_minimize_stays with the assumption StopsAtGradient about the optimizer; C97_dot and C97_tolerance_counterexample show the exceptions.",
 "C98": "Model/Repr models __repr__ on character lists. Unique readability (a printed node is a prefix of at most one continuation) by induction on the tree, for names and values without '(' and keys without ',' and ')'; the converse for all nodes. Counterexample: keys with commas.",
 "C99": "Model/Round: a floating point format is a set of reals with a monotone rounding function that fixes the set (overflow gives the non-finite value); numbers of the format with rounded operations are another kind of numbers for the same model of the constructions. Gradual underflow = all numbers are multiples of the smallest positive one, hence a rounded difference is zero only for equal numbers. Residuals are evaluated symbolically (Lemmas/Round) and reduced to rounded differences. IEEE formats (binary digits, exponent range, nearest, ties to even, overflow threshold) are shown to be such formats (Lemmas/Ieee). Counterexamples: underflow of products, flush to zero. Conversion to the format: Props/Single (C99_conversion, C99_single_precision). Compounds: Lemmas/RoundGrid evaluates alignments, grids, margin arrays and axis positions in rounded arithmetic by the same inductions as the exact case (C37, C43); that products do not underflow is a condition (FRect.Clear, FloatFormat.Resolves), met by boxes of size 1 or more (C99_unit). Lengths: in the IEEE formats the computed root of the computed square of a number is its absolute value (Lemmas/Sqrt: neighbouring numbers are further apart than the two rounding errors), so that Length, RelativeLength and Grid reduce to rounded differences and products (Props/RoundLength).",
 "C100": "The model of layouts and of the Newton loop is generic in the numbers, so it runs on the rounded numbers of C99. That constraints do not depend on which arrays hold the coordinates is proved for every kind of numbers (Lemmas/IdFree, generic); x + 0 = x and -0 = 0 hold without rounding error, so a step from a zero residual does not move. Assumed of lstsq: zero right hand side gives zero (Spec/RoundSolve).",
 "C101": "Spec/OneStep.lean: Demand.OneStep (which demands) and Demand.Straight (the equations between coordinates). On the straight way from the default geometry to a placement every residual is a function of one variable, whose tangent at the start vanishes at the end exactly if the equation holds (Lemmas/OneStep*, EvT); so the Newton equation is solvable and the least-squares step, being unique up to the kernel, lands on a placement that satisfies all equations (Ran.newton); the residual there is zero and, where the measured lines are not points (Demand.Sized), differentiable (Ran.jacobian_at), so later iterations stay. C101_onestep for all programs; C101_upright: for upright boxes the equations are what the demands say; C101_two_axes, C101_contour, C101_ten_rules, C101_grid_axes (grids of any size with square first axes): the notebooks. Props/Profile: C101_profile, the layout of examples/profile_solver.py for every shape and all numbers (frames may come out turned over, if the margins take more than the width); C101_profile_flipped: with the numbers of that file they do. Props/FirstStep: with aspect ratios other than 1 the first step solves the linearised equations (Demand.Linear, Ran.first_step); C101_aspect_step, C101_aspect_counterexample: what this makes of a single box.",
 "C102": "The value of each demand near a geometry is a differentiable function of the coordinates (affine, a signed distance, a quotient of lengths); its tangent at the default geometry vanishes exactly at the placements of Spec/TwoStep.lean's First, its tangent at a geometry reached by the first step exactly where the demand holds. So with exact numerics the first step reaches a placement with all boxes in place, the second one satisfies all constraints, and from there the loop stays. The tutorial's figure is an instance whose placement is computed.",
 "C103": "The statements of a figure program before and after measuring differ only in the parameters of thickness constraints, so C77 says that the updated layout has the trees of the layout of the measured program, and solve only reads those. The tutorial's figure is solved by C102 in both passes and drawn as C93 says; update_subplots makes the calls that subplots makes after creating the figure. ten_simple_rules_demo.ipynb likewise, by C101 in both passes (C103_ten_rules).",
 "C104": "Spec/AspectNewton: Demand.NewtonStep, the linear approximation of |width / height| at a placement; heights, the recursion. Lemmas/AspectNewton: near a placement whose measured boxes are not flat the residuals are differentiable functions of the coordinates (Ran.near_aspect, Ran.nearA), so the Newton equation at that placement says NewtonStep (Ran.tangentA), for all figure programs with linear demands and aspect ratios; chain_loop carries an invariant of the iterates through the loop (Ran.aspect_chain, C104_steps). Props/AspectNewton: C104_heights by this invariant, by induction on the iterations; C104_converges and C104_turned by the closed form of the recursion; C104_never_counterexample by its growth."
}