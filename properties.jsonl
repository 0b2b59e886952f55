{"id": "C01", "title": "flatten/unflatten round trip", "statement": "unflatten(flatten(key, node)) returns a tree equal to node (same types, values, child keys in the same order) and leaves nothing over; with extra structures appended, exactly those are left over.", "quantifier": "every tree of any depth and width, every root key, every suffix of extra structures", "why_tests_cant": "Trees of every depth and branching; the test fixture has at most two children and depth one.", "anchors": ["src/mpllayout/containers.py:flatten", "src/mpllayout/containers.py:unflatten", "src/mpllayout/containers.py:iter_flat"]}
{"id": "C02", "title": "iter_flat lists exactly the addressable nodes", "statement": "iter_flat('', root) lists the root followed by every descendant exactly once in depth-first order; each listed key with its leading '/' removed looks up, through root[key], exactly the listed node, and every key that looks up a node is listed. No two listed keys coincide.", "quantifier": "every tree whose child keys contain no '/', every listed entry, every lookup key", "why_tests_cant": "Universally quantified over trees and keys; collisions only appear for special key sets.", "anchors": ["src/mpllayout/containers.py:iter_flat", "src/mpllayout/containers.py:Node.get_child", "src/mpllayout/containers.py:Node.__getitem__"]}
{"id": "C03", "title": "Slash-separated lookup composes", "statement": "node[a + '/' + b] has the same outcome as node[a][b]; when any step is missing a KeyError is raised whose message is the full key that was asked for.", "quantifier": "every tree, every pair of keys (any strings)", "why_tests_cant": "The domain (all trees / keys / values) is infinite; a test samples a few literals.", "anchors": ["src/mpllayout/containers.py:Node.get_child", "src/mpllayout/containers.py:Node.__getitem__"]}
{"id": "C04", "title": "add_child stores the child and disturbs nothing else", "statement": "After add_child(key, child) succeeds, node[key] is child, every key that resolved before and is not below key still resolves to the same subtree (up to the inserted child), every previously existing child keeps its position and the new child comes last among its siblings.", "quantifier": "every tree, key and child for which add_child succeeds", "why_tests_cant": "Frame conditions range over all other keys.", "anchors": ["src/mpllayout/containers.py:Node.add_child", "src/mpllayout/containers.py:Node._add_child_nonrecursive"]}
{"id": "C05", "title": "add_child never overwrites", "statement": "add_child raises KeyError (naming the full key) exactly when the key already resolves or its parent path does not resolve, and then the tree is unchanged; otherwise it succeeds.", "quantifier": "every tree, key and child", "why_tests_cant": "The domain (all trees / keys / values) is infinite; a test samples a few literals.", "anchors": ["src/mpllayout/containers.py:Node.add_child", "src/mpllayout/containers.py:Node._add_child_nonrecursive"]}
{"id": "C06", "title": "Item assignment replaces exactly one existing node", "statement": "node[key] = x raises KeyError when node[key] does not resolve and leaves the tree unchanged; otherwise afterwards node[key] is x, no key appears or disappears elsewhere, sibling order is kept and every node not below key is unchanged.", "quantifier": "every tree, key and replacement", "why_tests_cant": "Frame conditions over all keys; the misbehaving keys (empty path components) are not in any test.", "anchors": ["src/mpllayout/containers.py:Node.__setitem__", "src/mpllayout/containers.py:Node.__contains__"]}
{"id": "C07", "title": "Membership agrees with lookup", "statement": "`key in node` is True when node[key] resolves and False when it does not; it never raises.", "quantifier": "every tree and every key string", "why_tests_cant": "Ranges over all key strings, including nested keys with missing ancestors and trailing slashes.", "anchors": ["src/mpllayout/containers.py:Node.__contains__", "src/mpllayout/containers.py:Node.get_child"]}
{"id": "C08", "title": "map and copy preserve the tree", "statement": "map(f, node) has the same keys in the same order at every level and value f(v) wherever node has v; copy() has the same keys and values; mapping g after f is mapping the composite.", "quantifier": "every tree, every pair of functions", "why_tests_cant": "The domain (all trees / keys / values) is infinite; a test samples a few literals.", "anchors": ["src/mpllayout/containers.py:map", "src/mpllayout/containers.py:Node.copy"]}
{"id": "C09", "title": "accumulate sums every subtree", "statement": "accumulate(+, node, 0) has the same keys as node, and at every node its value is the sum of all values in the corresponding subtree.", "quantifier": "every tree of integers of any depth", "why_tests_cant": "Unbounded depth; the test has depth one.", "anchors": ["src/mpllayout/containers.py:accumulate"]}
{"id": "C10", "title": "node_height is the longest downward path", "statement": "node_height() equals the largest number of '/'-separated components of any key that resolves in the node, and is 0 exactly for a node without children.", "quantifier": "every tree", "why_tests_cant": "The domain (all trees / keys / values) is infinite; a test samples a few literals.", "anchors": ["src/mpllayout/containers.py:Node.node_height"]}
{"id": "C11", "title": "Positional access agrees with keyed access", "statement": "node[i] is the value of the i-th key of node.keys() for 0 <= i < len(node), node[-i] counts from the end, out-of-range raises IndexError, and node[a:b:s] is the list of the children at the positions that are whole steps from the start, before the end, in the direction of the step, for all (also omitted, negative and out-of-range) ends and steps; a step of zero raises ValueError, and keys of other types raise TypeError.", "quantifier": "every tree and every integer / slice bounds", "why_tests_cant": "The domain (all trees / keys / values) is infinite; a test samples a few literals.", "anchors": ["src/mpllayout/containers.py:Node.__getitem__", "src/mpllayout/containers.py:Node.keys", "src/mpllayout/containers.py:Node.values", "src/mpllayout/containers.py:Node.__len__"]}
{"id": "C12", "title": "Generated keys are fresh and generation terminates", "statement": "ItemCounter.add_item_to_nodes(item, *nodes) always terminates and returns a key that is in none of the given trees; every count only grows.", "quantifier": "every counter state reachable or not, every category without '/', every finite collection of trees", "why_tests_cant": "Termination and freshness for every history of previously used keys.", "anchors": ["src/mpllayout/containers.py:ItemCounter.add_item_to_nodes", "src/mpllayout/containers.py:ItemCounter.add_item_until_valid", "src/mpllayout/containers.py:ItemCounter.add_item"]}
{"id": "C13", "title": "A category never yields the same key twice", "statement": "Over any sequence of add_item calls the n-th item of a category gets the key '<category><n-1>', so no key of a given category is ever returned twice.", "quantifier": "every history of add_item calls", "why_tests_cant": "Ranges over all histories.", "anchors": ["src/mpllayout/containers.py:ItemCounter.add_item"]}
{"id": "C14", "title": "Polygons are closed loops", "statement": "A Polygon built from n points has exactly the children Line0..Line(n-1); Line_i starts at point i and ends at point i+1 (mod n), sharing the very same point values, so consecutive edges always meet.", "quantifier": "every list of points of any length", "why_tests_cant": "Any number of vertices.", "anchors": ["src/mpllayout/primitives.py:Polygon.init_children", "src/mpllayout/primitives.py:Polygon", "src/mpllayout/primitives.py:Quadrilateral"]}
{"id": "C15", "title": "Constructors accept exactly their signature", "statement": "Constructing a primitive succeeds exactly when the parameter vector has the declared size and the children match the declared types (subclasses allowed, ellipsis repeats, any of several alternatives); otherwise an exception is raised and no primitive exists.", "quantifier": "every list of child primitives and every parameter vector", "why_tests_cant": "The domain (all trees / keys / values) is infinite; a test samples a few literals.", "anchors": ["src/mpllayout/primitives.py:validate_prims", "src/mpllayout/primitives.py:PrimitiveNode.__init__"]}
{"id": "C16", "title": "Axes has exactly the requested parts", "statement": "Axes(xaxis, yaxis, twinx, twiny) has 'Frame', has 'XAxis'/'XAxisLabel' exactly when xaxis, 'YAxis'/'YAxisLabel' exactly when yaxis, and twin parts exactly when both the axis and its twin are requested; supplied primitives are either all used or rejected.", "quantifier": "all flag combinations and all supplied primitive tuples", "why_tests_cant": "Supplied tuples of every length.", "anchors": ["src/mpllayout/primitives.py:Axes.init_children", "src/mpllayout/primitives.py:Axes.default_prims", "src/mpllayout/primitives.py:Primitive.__init__"]}
{"id": "C17", "title": "Unique-value extraction identifies shared arrays", "statement": "filter_unique_values_from_prim maps every node to the index of its own parameter vector; two nodes get the same index exactly when they hold the same array object; every extracted array is used and none is listed twice.", "quantifier": "every primitive tree with any sharing pattern", "why_tests_cant": "All sharing patterns of all trees.", "anchors": ["src/mpllayout/primitives.py:filter_unique_values_from_prim"]}
{"id": "C18", "title": "Extract then rebuild is the identity", "statement": "build_prim_from_unique_values(flatten(p), *filter_unique_values_from_prim(p)) equals p.", "quantifier": "every primitive tree whose keys contain no '/'", "why_tests_cant": "The domain (all trees / keys / values) is infinite; a test samples a few literals.", "anchors": ["src/mpllayout/primitives.py:build_prim_from_unique_values", "src/mpllayout/primitives.py:filter_unique_values_from_prim"]}
{"id": "C19", "title": "Rebuilding with new values keeps structure and sharing", "statement": "For any new list of values, the rebuilt primitive has the same keys, types and nesting, each node receives the new value of its index, and nodes that shared a value still share one; in particular polygons stay closed.", "quantifier": "every primitive tree and every list of new values", "why_tests_cant": "The domain (all trees / keys / values) is infinite; a test samples a few literals.", "anchors": ["src/mpllayout/primitives.py:build_prim_from_unique_values", "src/mpllayout/primitives.py:filter_unique_values_from_prim"]}
{"id": "C20", "title": "Packing and unpacking the global vector are inverse", "statement": "Cutting the concatenated parameter vector at the cumulative sizes returns the original parameter vectors, and concatenating the cuts of any vector of the right total size returns that vector; all cuts have the right sizes.", "quantifier": "every list of parameter vectors and every global vector", "why_tests_cant": "The domain (all trees / keys / values) is infinite; a test samples a few literals.", "anchors": ["src/mpllayout/solver.py:solve_newton"]}
{"id": "C21", "title": "Calling a construction is recursive evaluation", "statement": "construction(prims, *params) equals the construction's own value followed by, in order, the values of its child constructions called on the primitives named by their argument keys and on the parameters assigned to them.", "quantifier": "every construction tree, all primitives and parameters", "why_tests_cant": "Construction trees of every depth (grids of every shape, maps, sums).", "anchors": ["src/mpllayout/constructions.py:ConstructionNode.__call__", "src/mpllayout/constructions.py:ConstructionNode.assem_from_tree", "src/mpllayout/constructions.py:ConstructionNode.root_prim_keys", "src/mpllayout/constructions.py:ConstructionNode.root_params", "src/mpllayout/constructions.py:ConstructionNode.child_prim_keys"]}
{"id": "C22", "title": "Bad arguments are rejected before evaluation", "statement": "Calling a construction with the wrong number or types of primitives or the wrong number of parameters raises TypeError; with matching arguments validation passes.", "quantifier": "every construction and every argument list", "why_tests_cant": "The domain (all trees / keys / values) is infinite; a test samples a few literals.", "anchors": ["src/mpllayout/constructions.py:ConstructionNode.validate_prims", "src/mpllayout/constructions.py:ConstructionNode.validate_params", "src/mpllayout/constructions.py:ConstructionNode.__call__"]}
{"id": "C23", "title": "chunk partitions an array", "statement": "chunk(array, sizes) yields len(sizes) pieces; if the sizes add up to len(array) their concatenation is the array and the i-th piece has the i-th size.", "quantifier": "every array and every list of sizes", "why_tests_cant": "The domain (all trees / keys / values) is infinite; a test samples a few literals.", "anchors": ["src/mpllayout/constructions.py:chunk"]}
{"id": "C24", "title": "Sum of constructions adds values", "statement": "(a + b)(prims_a + prims_b, *params_a, *params_b) equals a(prims_a, *params_a) + b(prims_b, *params_b).", "quantifier": "every pair of constructions with matching output trees, all arguments", "why_tests_cant": "Holds for the single tested leaf construction; the claim is for every tree.", "anchors": ["src/mpllayout/constructions.py:transform_sum"]}
{"id": "C25", "title": "Only constructions of the same shape can be added", "statement": "a + b raises an error whenever the two constructions differ in child keys or output size at any node, and succeeds otherwise.", "quantifier": "every pair of construction trees", "why_tests_cant": "All pairs of trees: a mismatch may be deep in the tree.", "anchors": ["src/mpllayout/constructions.py:transform_sum"]}
{"id": "C26", "title": "Scalar multiples scale every output", "statement": "(c * s)(prims, *params) is s times c(prims, *params) for a number s; with a Scalar the factor is the extra last parameter; -c negates.", "quantifier": "every construction tree, scalar and arguments", "why_tests_cant": "The domain (all trees / keys / values) is infinite; a test samples a few literals.", "anchors": ["src/mpllayout/constructions.py:transform_scalar_mul", "src/mpllayout/constructions.py:ConstructionNode.__mul__", "src/mpllayout/constructions.py:ConstructionNode.__neg__"]}
{"id": "C27", "title": "Powers and quotients act on every output", "statement": "(c ** s) raises and (c / s) divides every output entry by the number s (or the extra last parameter).", "quantifier": "every construction tree, scalar and arguments", "why_tests_cant": "The domain (all trees / keys / values) is infinite; a test samples a few literals.", "anchors": ["src/mpllayout/constructions.py:transform_scalar_pow", "src/mpllayout/constructions.py:transform_scalar_div"]}
{"id": "C28", "title": "Partial application fixes trailing parameters", "statement": "transform_partial(c, *frozen)(prims, *params) equals c(prims, *params, *frozen), for any number of frozen parameters including none.", "quantifier": "every construction tree, every frozen tuple and arguments", "why_tests_cant": "The test only covers one frozen parameter and a construction without parameters.", "anchors": ["src/mpllayout/constructions.py:transform_partial"]}
{"id": "C29", "title": "A constraint is its construction minus the target", "statement": "transform_constraint(c)(prims, *params, value) equals c(prims, *params) - value, where value is a number or an array with one entry per output.", "quantifier": "every construction tree, value and arguments", "why_tests_cant": "Depends on the tree depth and on the kind of value.", "anchors": ["src/mpllayout/constructions.py:transform_constraint", "src/mpllayout/constructions.py:Vector"]}
{"id": "C30", "title": "Map applies the construction to each primitive", "statement": "transform_map(c, N types) applied to N primitives is the concatenation of c(prims[n], *prims[N-M:]) with the n-th block of parameters, for n < N - M, where c takes 1 + M primitives.", "quantifier": "every construction, number of primitives and arguments", "why_tests_cant": "Any N and M.", "anchors": ["src/mpllayout/constructions.py:transform_map"]}
{"id": "C31", "title": "Declared output sizes are honest", "statement": "Every shipped construction/constraint returns, at each node, an array with exactly the declared value_size entries.", "quantifier": "all shipped constructions, all primitives and parameters of the declared types", "why_tests_cant": "Over all primitives; validate_value is never called.", "anchors": ["src/mpllayout/constructions.py:ConstructionNode.validate_value", "src/mpllayout/constructions.py:ConstructionSignature", "src/mpllayout/constraints.py:CoincidentLines"]}
{"id": "C32", "title": "Elementary line and point constraints mean what they say", "statement": "Horizontal/Vertical/Parallel/Orthogonal/Coincident/CoincidentLines have zero residual exactly when the line(s)/points are horizontal/vertical/parallel/orthogonal/equal/coincident (in the stated orientation).", "quantifier": "all points and lines in the plane", "why_tests_cant": "Real-valued geometry; tests sample random points.", "anchors": ["src/mpllayout/constraints.py:Horizontal", "src/mpllayout/constraints.py:Vertical", "src/mpllayout/constraints.py:Parallel", "src/mpllayout/constraints.py:Orthogonal", "src/mpllayout/constraints.py:Coincident", "src/mpllayout/constraints.py:CoincidentLines"]}
{"id": "C33", "title": "Box means axis-aligned rectangle", "statement": "Box has zero residual exactly when the quadrilateral's vertices are (x0,y0),(x1,y0),(x1,y1),(x0,y1) for some x0,x1,y0,y1.", "quantifier": "all quadrilaterals", "why_tests_cant": "Real-valued geometry.", "anchors": ["src/mpllayout/constraints.py:Box"]}
{"id": "C34", "title": "Dimension constraints pin the dimension", "statement": "Width/Height/XLength/YLength/Length/X-,Y-,DirectedDistance/Midpoint distances/Fix have zero residual exactly when the measured quantity equals the given value.", "quantifier": "all primitives and all target values", "why_tests_cant": "Real-valued geometry.", "anchors": ["src/mpllayout/constraints.py:Width", "src/mpllayout/constraints.py:Height", "src/mpllayout/constraints.py:XLength", "src/mpllayout/constraints.py:YLength", "src/mpllayout/constraints.py:Length", "src/mpllayout/constraints.py:XDistance", "src/mpllayout/constraints.py:YDistance", "src/mpllayout/constraints.py:DirectedDistance", "src/mpllayout/constraints.py:DirectedLength", "src/mpllayout/constraints.py:MidpointXDistance", "src/mpllayout/constraints.py:MidpointYDistance", "src/mpllayout/constraints.py:Fix"]}
{"id": "C35", "title": "Margins place boxes", "statement": "For rectangles, InnerMargin(side) / OuterMargin(side) has zero residual exactly when the signed gap between the named sides equals the value; swapping the two boxes and the side gives the same outer margin; left + width + right inner margins add up to the outer box width (likewise vertically).", "quantifier": "all rectangles and margins", "why_tests_cant": "Real-valued geometry, all sides.", "anchors": ["src/mpllayout/constraints.py:InnerMargin", "src/mpllayout/constraints.py:OuterMargin", "src/mpllayout/constructions.py:Margin"]}
{"id": "C36", "title": "Collinear means collinear", "statement": "Collinear has zero residual exactly when all four end points lie on one straight line.", "quantifier": "all pairs of lines", "why_tests_cant": "Real-valued geometry, including degenerate lines.", "anchors": ["src/mpllayout/constraints.py:Collinear"]}
{"id": "C37", "title": "Grid alignment aligns every row and column", "statement": "For rectangles of nonzero size, RectilinearGrid(shape) has zero residual exactly when all boxes in a row share bottom and top and all boxes in a column share left and right.", "quantifier": "every grid shape and all rectangles", "why_tests_cant": "Every shape.", "anchors": ["src/mpllayout/constraints.py:RectilinearGrid", "src/mpllayout/constraints.py:Align", "src/mpllayout/constraints.py:idx_1d"]}
{"id": "C38", "title": "Grid fixes relative sizes and margins", "statement": "Grid(shape) with one entry per column/row (minus one) has zero residual exactly when the boxes are aligned and each column width / row height is the given multiple of the first and consecutive gaps equal the given margins.", "quantifier": "every grid shape, all rectangles, all parameters", "why_tests_cant": "Every shape.", "anchors": ["src/mpllayout/constraints.py:Grid", "src/mpllayout/constraints.py:OuterMarginArray", "src/mpllayout/constraints.py:RelativeLength"]}
{"id": "C39", "title": "Point-line distances decompose the offset", "statement": "PointOnLineDistance and PointToLineDistance are the components of the offset along and orthogonal to the line: their squares add up to the squared distance from the line start; reversing measures from the other end (sum = length) or flips the sign.", "quantifier": "all points and nondegenerate lines", "why_tests_cant": "Real-valued geometry.", "anchors": ["src/mpllayout/constructions.py:PointOnLineDistance", "src/mpllayout/constructions.py:PointToLineDistance", "src/mpllayout/constructions.py:UnitLineVector"]}
{"id": "C40", "title": "Angle is the counter-clockwise angle in (-pi, pi]", "statement": "Angle returns the counter-clockwise angle from the first line to the second line, in the range (-pi, pi].", "quantifier": "all pairs of nondegenerate lines", "why_tests_cant": "Real-valued; wrap-around only occurs for some direction pairs.", "anchors": ["src/mpllayout/constructions.py:Angle"]}
{"id": "C41", "title": "Ratios", "statement": "RelativeLength(v) has zero residual exactly when length0 = v * length1; AspectRatio(v) when width = v * height; RelativePointOnLineDistance(v) when the projection of the point lies at fraction v of the line.", "quantifier": "all primitives with nondegenerate denominators", "why_tests_cant": "The domain (all trees / keys / values) is infinite; a test samples a few literals.", "anchors": ["src/mpllayout/constraints.py:RelativeLength", "src/mpllayout/constraints.py:AspectRatio", "src/mpllayout/constraints.py:RelativePointOnLineDistance"]}
{"id": "C42", "title": "Residuals other than Fix ignore translation", "statement": "Translating all primitives by the same vector leaves the residual of every shipped constraint other than Fix unchanged.", "quantifier": "all constraints, primitives, translations", "why_tests_cant": "The domain (all trees / keys / values) is infinite; a test samples a few literals.", "anchors": ["src/mpllayout/constraints.py:constraints module"]}
{"id": "C43", "title": "Axis placement is detected as placed", "statement": "If PositionXAxis/PositionYAxis(side) has zero residual for an axes with a rectangle frame of positive size then the tick position chosen when drawing is that side.", "quantifier": "all frames, axes boxes and sides", "why_tests_cant": "Real-valued; ties between sides.", "anchors": ["src/mpllayout/constraints.py:PositionAxis", "src/mpllayout/constraints.py:CoincidentOutwardFaces", "src/mpllayout/matplotlibutils.py:find_axis_position"]}
{"id": "C44", "title": "Axis label placement", "statement": "PositionXAxisLabel/PositionYAxisLabel(v) has zero residual exactly when the label anchor is at fraction v of the frame width from the left / height from the bottom.", "quantifier": "all frames with positive size, labels, fractions", "why_tests_cant": "The domain (all trees / keys / values) is infinite; a test samples a few literals.", "anchors": ["src/mpllayout/constraints.py:PositionAxisLabel"]}
{"id": "C45", "title": "Measuring an axis leaves the figure as it was", "statement": "get_axis_thickness leaves the axis label visibility as it found it, however it ends, and returns the distance from the axes frame to the outer edge of the ticks on the tick side (0 when there is nothing to draw); AxisThickness constrains the axis box to this thickness, or to 0 before an axis is attached.", "quantifier": "all axis states including every tick position", "why_tests_cant": "Exception paths.", "anchors": ["src/mpllayout/constraints.py:get_axis_thickness", "src/mpllayout/constraints.py:AxisThickness"]}
{"id": "C46", "title": "Row-major indexing", "statement": "idx_1d(multi_idx, shape) is the row-major position: distinct in-range multi-indices get distinct positions and every position below prod(shape) is hit.", "quantifier": "every shape and multi-index", "why_tests_cant": "Every dimension count.", "anchors": ["src/mpllayout/constraints.py:idx_1d"]}
{"id": "C47", "title": "Constraints stay paired with their own arguments", "statement": "In every layout reachable by adding primitives and constraints (successfully or not), the flat lists of constraints, primitive keys and parameters have equal lengths and entry n of each belongs to the same constraint node.", "quantifier": "every history of add_prim/add_constraint calls with any keys and arguments", "why_tests_cant": "All histories, including rejected calls.", "anchors": ["src/mpllayout/layout.py:Layout.add_constraint", "src/mpllayout/layout.py:Layout.flat_constraints"]}
{"id": "C48", "title": "Constraint arguments never dangle", "statement": "In every reachable layout, every primitive key stored for any constraint node resolves in the primitive tree, to a primitive of the type that the constraint requires.", "quantifier": "every history", "why_tests_cant": "All histories.", "anchors": ["src/mpllayout/layout.py:Layout.add_constraint", "src/mpllayout/layout.py:Layout.add_prim"]}
{"id": "C49", "title": "A rejected call changes nothing", "statement": "If add_prim or add_constraint raises, the layout's primitives, constraints, primitive keys and parameters are as before.", "quantifier": "every layout, every rejected call", "why_tests_cant": "All failure points.", "anchors": ["src/mpllayout/layout.py:Layout.add_constraint", "src/mpllayout/layout.py:Layout.add_prim"]}
{"id": "C50", "title": "Layout residual is the concatenation of constraint calls", "statement": "The residual assembled from a layout is the concatenation, in the order added, of constraint((root[k1], ...), *param) for the constraints added.", "quantifier": "every layout built from well-formed constraints and every primitive tree values", "why_tests_cant": "All layouts.", "anchors": ["src/mpllayout/solver.py:assem_constraint_residual", "src/mpllayout/layout.py:Layout.flat_constraints"]}
{"id": "C51", "title": "Constraint keys are unique", "statement": "An automatically keyed constraint never collides with or replaces an existing one, whatever explicit keys were used before and even on layouts rebuilt without their counter; an explicitly keyed constraint whose key exists is rejected with KeyError.", "quantifier": "every history of explicit and automatic keys", "why_tests_cant": "All histories.", "anchors": ["src/mpllayout/layout.py:Layout.add_constraint", "src/mpllayout/containers.py:ItemCounter.add_item_to_nodes"]}
{"id": "C52", "title": "update_layout_constraints only refreshes axis thicknesses", "statement": "update_layout_constraints returns a layout with the same primitives, constraints and primitive keys, whose parameters differ exactly at X/YAxisThickness constraints, which now refer to the x/y axis of the Axes named by their primitive key; the original parameters are untouched and the result is still correctly paired.", "quantifier": "every layout and axes dictionary", "why_tests_cant": "All layouts.", "anchors": ["src/mpllayout/layout.py:update_layout_constraints", "src/mpllayout/layout.py:update_root_param"]}
{"id": "C53", "title": "The updated layout is independent of the original", "statement": "Adding a constraint to the layout returned by update_layout_constraints does not affect the original layout.", "quantifier": "every layout and subsequent history", "why_tests_cant": "Aliasing only shows through later mutation.", "anchors": ["src/mpllayout/layout.py:update_layout_constraints"]}
{"id": "C54", "title": "Adding primitives is monotone", "statement": "add_prim never changes an existing primitive: every key that resolved to a primitive outside the new key still resolves to the same values, and the new primitive is found under its key.", "quantifier": "every history", "why_tests_cant": "The domain (all trees / keys / values) is infinite; a test samples a few literals.", "anchors": ["src/mpllayout/layout.py:Layout.add_prim", "src/mpllayout/layout.py:Layout.add_prims"]}
{"id": "C55", "title": "Newton iteration is bounded and its history is faithful", "statement": "solve runs at most max_iter iterations and always terminates; it reports exactly one absolute and one relative error per iteration, entry k being the residual norm at the k-th iterate and its quotient by entry 0; it stops early only when the last error meets a tolerance.", "quantifier": "every residual function, step function, tolerance and max_iter", "why_tests_cant": "All executions of the loop.", "anchors": ["src/mpllayout/solver.py:solve_newton"]}
{"id": "C56", "title": "A satisfied layout is left alone", "statement": "If the primitives already satisfy all constraints exactly, solve returns primitives equal to the input.", "quantifier": "every layout with zero residual", "why_tests_cant": "All layouts.", "anchors": ["src/mpllayout/solver.py:solve_newton"]}
{"id": "C57", "title": "Linear layouts are solved exactly", "statement": "For a layout whose constraints are all affine in the coordinates (boxes, widths, heights, fixed points, distances, margins, axis placement, ...) and jointly satisfiable, the primitives returned by solve satisfy every constraint exactly (in exact arithmetic) whenever max_iter >= 1.", "quantifier": "every layout of affine constraints, every starting geometry", "why_tests_cant": "All layouts.", "anchors": ["src/mpllayout/solver.py:solve_newton", "src/mpllayout/solver.py:assem_constraint_residual"]}
{"id": "C58", "title": "Solving preserves structure", "statement": "The tree returned by solve has the same keys, nesting and types as the layout's primitives, and points shared between edges are still shared.", "quantifier": "every layout and whatever the numerical steps are", "why_tests_cant": "All layouts and numerics.", "anchors": ["src/mpllayout/solver.py:solve_newton", "src/mpllayout/solver.py:solve_minimize", "src/mpllayout/primitives.py:build_prim_from_unique_values"]}
{"id": "C59", "title": "Solver dispatch", "statement": "solve uses the Newton method for 'newton', L-BFGS-B for 'minimize' and raises ValueError for any other method name; a layout without constraints is returned unchanged.", "quantifier": "every method string, every layout", "why_tests_cant": "The domain (all trees / keys / values) is infinite; a test samples a few literals.", "anchors": ["src/mpllayout/solver.py:solve"]}
{"id": "C60", "title": "Minimize history", "statement": "With method 'minimize' the reported errors are one per callback, non-stopped prefix only, and entry k is the 2-norm of the residual vector at iteration k; the run stops at the first entry below a tolerance.", "quantifier": "every sequence of optimizer iterates", "why_tests_cant": "All optimizer runs.", "anchors": ["src/mpllayout/solver.py:solve_minimize"]}
{"id": "C61", "title": "Reported convergence describes the returned primitives", "statement": "If the last reported absolute error is at most abs_tol then the residual norm at the returned primitives is at most abs_tol.", "quantifier": "every layout and numerics", "why_tests_cant": "All executions.", "anchors": ["src/mpllayout/solver.py:solve_newton"]}
{"id": "C62", "title": "Axes rectangles reproduce the solved geometry", "statement": "The position given to each matplotlib axes, scaled by the figure size and shifted by the figure origin, is the frame's bottom-left corner and size; the figure's own box maps to (0, 0, 1, 1); a frame inside the figure box gets a rectangle inside the unit square.", "quantifier": "all figure boxes of nonzero size and frames", "why_tests_cant": "Real-valued geometry.", "anchors": ["src/mpllayout/matplotlibutils.py:rect_from_box", "src/mpllayout/matplotlibutils.py:width_and_height_from_quad", "src/mpllayout/matplotlibutils.py:update_subplots"]}
{"id": "C63", "title": "Drawing is independent of where the figure box sits", "statement": "Translating every primitive (including the figure box) by the same vector changes neither the figure size, nor axes positions, nor axis label positions.", "quantifier": "all layouts and translations", "why_tests_cant": "Default examples all have the figure at the origin.", "anchors": ["src/mpllayout/matplotlibutils.py:update_subplots"]}
{"id": "C64", "title": "subplots draws the requested axes", "statement": "subplots creates one matplotlib axes for each requested key, by default for each top-level primitive whose key contains 'Axes', in order.", "quantifier": "all primitive trees and key lists", "why_tests_cant": "The domain (all trees / keys / values) is infinite; a test samples a few literals.", "anchors": ["src/mpllayout/matplotlibutils.py:subplots"]}
{"id": "C65", "title": "Line rotation in plots", "statement": "rotation_from_line returns the direction angle of the line in degrees (mod 360).", "quantifier": "all nondegenerate lines", "why_tests_cant": "Real-valued; only lines pointing down misbehave.", "anchors": ["src/mpllayout/ui.py:rotation_from_line"]}
{"id": "C66", "title": "Every primitive is plotted once with valid opacity", "statement": "plot_prims plots each primitive of the tree exactly once except the end points of lines, with an opacity between 0.2 and 1.", "quantifier": "all primitive trees", "why_tests_cant": "The domain (all trees / keys / values) is infinite; a test samples a few literals.", "anchors": ["src/mpllayout/ui.py:plot_prim", "src/mpllayout/ui.py:plot_prims", "src/mpllayout/ui.py:make_plot"]}
{"id": "C67", "title": "What a program shares stays shared after solving", "statement": "However a program creates arrays, points, lines, polygons, quadrilaterals and axes (passing arrays and primitives from one constructor to another, or reusing them) and adds them to a layout, two primitives of the layout are backed by the same array object after solve exactly if they were before, and then have the same solved coordinates; in particular every polygon is still closed: each edge ends where the next one starts.", "quantifier": "all programs (sequences of constructor, add_prim and add_constraint calls, including calls that raise), constraints, tolerances, both solve methods, and all results of the numerical routines", "why_tests_cant": "Object aliasing patterns of programs are unbounded; a test shares one or two points.", "anchors": ["src/mpllayout/layout.py:Layout.add_prim", "src/mpllayout/primitives.py:Polygon", "src/mpllayout/primitives.py:Axes", "src/mpllayout/primitives.py:filter_unique_values_from_prim", "src/mpllayout/primitives.py:build_prim_from_unique_values", "src/mpllayout/solver.py:solve"]}
{"id": "C68", "title": "From program to drawing: the requested figure size and margins are what matplotlib gets", "statement": "A program builds primitives and a layout, asks for a width and a height of a figure box and for inner margins of axes in it, and uses affine constraints only. If the constraints can all be met at the same time, then solve (with exact linear algebra) meets them after one iteration from whatever start, and subplots makes a figure of exactly the requested size with every such axes at exactly the requested distances from the sides.", "quantifier": "all programs with affine shipped constraints that can be met together, all figure sizes, margins and numbers of axes, starting coordinates, tolerances and iteration limits of at least one", "why_tests_cant": "A test draws a few example figures with particular numbers; the claim joins construction, sharing, assembly, solving and drawing for every program.", "anchors": ["src/mpllayout/layout.py:Layout.add_constraint", "src/mpllayout/solver.py:solve", "src/mpllayout/matplotlibutils.py:subplots", "src/mpllayout/matplotlibutils.py:update_subplots", "src/mpllayout/constraints.py:InnerMargin", "README.md"]}
{"id": "C69", "title": "Exactly the valid add_prim and add_constraint calls are accepted", "statement": "add_prim succeeds exactly if the key is free and its parent exists. add_constraint succeeds exactly if the primitive keys name existing primitives of the classes that the constraint declares, the number of parameters is the declared one, and the key is automatic or free: it never rejects a valid call (whatever was added or rejected before) and never accepts an invalid one.", "quantifier": "all histories of calls, constraints, primitive keys, parameters and keys", "why_tests_cant": "Histories are unbounded; tests try a few accepted calls and a few rejected ones.", "anchors": ["src/mpllayout/layout.py:Layout.add_prim", "src/mpllayout/layout.py:Layout.add_constraint", "src/mpllayout/containers.py:Node.add_child"]}
{"id": "C70", "title": "A layout that cannot be satisfied, or is not determined, gets the best nearest geometry", "statement": "With exact arithmetic, the Newton method applied for at least one iteration to a layout of constraints that are affine in the coordinates (fixed points, widths, heights, margins, distances, box, coincidences ...) always succeeds. If the constraints contradict each other the result has the least sum of squared residuals of all geometries with the same structure. If they leave freedom, the result is, of the best geometries, the one nearest to where the primitives were put (coordinates of shared points counted once), and it is the only one at that distance: what the user did not constrain moves no more than needed.", "quantifier": "all histories of calls that add affine constraints, all primitive trees with any sharing, all parameters, tolerances and iteration limits from one up", "why_tests_cant": "Optimality compares the result with all of uncountably many geometries, for every system of constraints, singular or contradictory.", "anchors": ["src/mpllayout/solver.py:solve_newton", "src/mpllayout/constructions.py", "src/mpllayout/layout.py:Layout.flat_constraints"]}
{"id": "C71", "title": "A locally best layout is left alone", "statement": "If no geometry of the same structure near the layout's own geometry has a smaller sum of squared constraint errors, then solve(layout, method='newton') returns the same geometry, for every choice of tolerances and max_iter and whether or not the constraints are satisfied (at a geometry where the constraints are differentiable: no measured line is a single point, and no line whose angle is measured points to the left).", "quantifier": "every history of layout calls with shipped constraints, every geometry that is a local optimum, all tolerances and iteration limits", "why_tests_cant": "The local optimum, the constraint set and the iteration count range over unbounded and continuous domains; a test checks single geometries and cannot show that no step is ever taken.", "anchors": ["src/mpllayout/solver.py: solve, solve_newton", "src/mpllayout/constraints.py", "src/mpllayout/constructions.py"]}
{"id": "C72", "title": "Arithmetic expressions of constructions mean what they say", "statement": "Constructions can be combined by unary minus and plus, by + with each other, and by *, / and ** with Python numbers or Scalar(). For leaf constructions with the same number of entries every such expression, however deeply nested, is accepted, and calling the resulting construction on the primitives and parameters of the operands, one operand after the other (a Scalar() taking one number after the parameters of its other operand), returns the expression's value computed entry by entry from the values of the operands; without Scalar() it raises exactly if an operand does. Hence a + -b is the difference, and scaling distributes over sums.", "quantifier": "all arithmetic expressions (any depth) over leaf constructions of one size, all primitives and parameters", "why_tests_cant": "Expressions nest without bound and the argument lists of the operands have to be split correctly at every level; tests combine two operands.", "anchors": ["src/mpllayout/constructions.py:ConstructionNode.__neg__/__pos__/__add__/__mul__/__rmul__/__truediv__/__pow__", "src/mpllayout/constructions.py:transform_sum, transform_scalar_mul, transform_scalar_div, transform_scalar_pow", "src/mpllayout/constructions.py:concatenate_construction_inputs"]}
{"id": "C73", "title": "Nodes survive JAX's pytree functions", "statement": "jax.tree_util can take any node or primitive apart and put it together again: tree_unflatten(treedef, leaves) of tree_flatten(node) has, under every key path, a node of the same class with the same value (the same array object, so sharing is kept) and the same keys, and no others; tree_map(f, node) applies f to the value of each node and changes nothing else, and mapping twice is mapping the composition; the leaves are the values of all nodes, each once; a wrong number of leaves raises ValueError. Points, lines, polygons with up to ten edges and axes without twin axes come back identical, including the order of their children.", "quantifier": "all trees of registered classes, all functions applied to the leaves, all numbers of leaves", "why_tests_cant": "Trees and keys are unbounded; the repository's test compares a few trees whose keys are in alphabetical order, which hides that JAX reorders children.", "anchors": ["src/mpllayout/containers.py:_make_flatten_unflatten", "src/mpllayout/containers.py:Node.from_tree", "src/mpllayout/primitives.py:_PrimitiveClasses"]}
{"id": "C74", "title": "The solved geometry depends only on where primitives were put and on what the constraints demand", "statement": "For layouts of affine constraints and exact linear algebra: (order) two users who put the same primitives in the same places and call add_constraint with the same constraints and arguments get the same solved geometry, whatever the order of the calls and the keys of the constraints are, even if the constraints contradict each other; (demands) if the constraints can be satisfied, the solved geometry depends only on the set of geometries that satisfy them: redundant, repeated or differently expressed constraints make no difference. Tolerances, the number of iterations (at least one) and object identities make no difference either.", "quantifier": "all pairs of histories of add_prim/add_prims/add_constraint calls with shipped affine constraints and the same primitives, all orders and keys, all tolerances and iteration limits, satisfiable or contradictory, determined or underdetermined", "why_tests_cant": "A test compares a few permutations of a few layouts; the claim ranges over all layouts, all orders, all equivalent sets of constraints, and depends on the choice of the nearest least-squares solution.", "anchors": ["src/mpllayout/solver.py:solve", "src/mpllayout/solver.py:solve_newton", "src/mpllayout/layout.py:Layout.add_constraint", "src/mpllayout/layout.py:Layout.flat_constraints"]}
{"id": "C75", "title": "Putting all primitives elsewhere moves the solved geometry", "statement": "A user who makes the same calls but puts every primitive t away from where it was gets the same accepted and refused calls and the same stored constraints, and for affine constraints other than Fix (whose parameter is a position) and exact linear algebra the same solved geometry, moved by t, whether or not the constraints can be satisfied or determine the geometry.", "quantifier": "all histories of calls, all translations, all tolerances and iteration limits", "why_tests_cant": "It is a statement about all layouts and all translations, including underdetermined layouts, where it depends on which of infinitely many solutions the solver picks.", "anchors": ["src/mpllayout/solver.py:solve", "src/mpllayout/solver.py:solve_newton", "src/mpllayout/layout.py:Layout.add_prim", "src/mpllayout/layout.py:Layout.add_constraint", "src/mpllayout/constraints.py"]}
{"id": "C76", "title": "A rejected call names what is wrong with it", "statement": "add_prim raises nothing but KeyError with the key, if the key is taken or its parent does not exist. add_constraint raises KeyError with the first primitive key that does not resolve; else RuntimeError if the number or classes of the primitives or the number of parameters differ from what the constraint declares; else KeyError with the constraint's key if it is taken or its parent does not exist; else nothing (for parameters that can be distributed over the constraint's parts, as those of the shipped constraints can). These cases are exhaustive.", "quantifier": "all layouts reachable by calls, all constraints, keys, primitive keys and parameters", "why_tests_cant": "Tests try a few wrong calls; the claim decides the outcome of every call on every reachable layout.", "anchors": ["src/mpllayout/layout.py:Layout.add_prim", "src/mpllayout/layout.py:Layout.add_constraint", "src/mpllayout/constructions.py:ConstructionNode.validate_prims", "src/mpllayout/constructions.py:ConstructionNode.validate_params"]}
{"id": "C77", "title": "Refreshing thickness constraints equals rebuilding the layout", "statement": "If a layout was built by calls that add shipped constraints under keys without '/', then update_layout_constraints(constraints, params, axs) gives the very layout (primitives, constraints, primitive keys, parameters) that the same calls would have built if each XAxisThickness/YAxisThickness constraint had been given the corresponding axis of axs from the start. Solving the updated layout therefore gives the same result as solving the rebuilt one, with any method and numerics; with exact numerics and satisfiable affine constraints the box of every axis so constrained is as thick as the axis measures now.", "quantifier": "all histories of add_prim/add_prims/add_constraint calls with shipped constraints added at the top level, all axes dictionaries whose axes can be measured, all solver methods, tolerances and iteration limits", "why_tests_cant": "The claim relates two unbounded histories (the one with the old parameters followed by an in-place update, and the one with the new parameters) for any number and nesting of constraints and any axes.", "anchors": ["src/mpllayout/layout.py:update_layout_constraints", "src/mpllayout/layout.py:Layout.add_constraint", "src/mpllayout/constraints.py:XAxisThickness", "src/mpllayout/constraints.py:YAxisThickness", "src/mpllayout/solver.py:solve"]}
{"id": "C78", "title": "Primitives that no constraint refers to do not move", "statement": "Solving with Newton's method leaves the coordinates of a primitive unchanged if no constraint of the layout refers to its array, neither directly nor through a primitive that contains it or shares it; this holds whether or not the constraints can be satisfied, and for any tolerances and any number of iterations.", "quantifier": "all layouts built with shipped constraints at the top level, all geometries, all primitives unreferenced by constraints, all tolerances and iteration limits; exact numerics, and the constraints differentiable at the iterates (always, for affine constraints)", "why_tests_cant": "It is a statement about every layout and every unreferenced coordinate: that the minimum-norm least squares step has no component along coordinates the residual does not depend on, through any number of iterations.", "anchors": ["src/mpllayout/solver.py:solve", "src/mpllayout/solver.py:solve_newton", "src/mpllayout/layout.py:Layout.add_constraint"]}
{"id": "C79", "title": "Primitives held in several places", "statement": "Primitives are shared as objects: the corners of a polygon belong to two of its lines, a primitive may be in a variable and in the layout. `add_prim(c, key)` (and `add_child`) raises exactly when it would for trees of values; otherwise c appears as a new last child at every place, in the layout and in every variable, that holds the same object as the parent named by the key, and nothing else changes. If the parent is held at one place only, the effect is the one a user expects: c appears at `key` only. Programs that add primitives at the top level show exactly the layout, and raise exactly the exceptions, that they would if primitives were values. If c contains the parent (e.g. `add_prim(q, 'Q/Self')` for the q stored at 'Q') the call succeeds and the layout can no longer be walked through.", "quantifier": "all heaps of node objects, all trees and keys, all programs of constructor and layout calls", "why_tests_cant": "aliasing depends on the whole history of calls; tests look at a few trees in which nothing is shared below the place of the change", "anchors": ["src/mpllayout/containers.py:Node.add_child", "src/mpllayout/containers.py:Node.get_child", "src/mpllayout/primitives.py:Polygon.init_children", "src/mpllayout/layout.py:Layout.add_prim"]}
{"id": "C80", "title": "Independent parts of a layout are solved independently", "statement": "If a layout contains all primitives and constraints of another layout, and its other (affine) constraints do not refer to any array of those primitives, then solving either gives those primitives the same geometry, even if the constraints contradict each other or leave freedom. In particular, a user who goes on adding primitives, and constraints between the new ones only, does not change how the part that is already there is solved.", "quantifier": "all histories of add_prim and add_constraint calls with shipped affine constraints, all further calls, all exact numerics, tolerances and numbers of iterations", "why_tests_cant": "The solver minimizes one global residual over one global vector; that the parts do not influence each other must hold for all layouts and all ways of extending them, also where the solution is not unique.", "anchors": ["src/mpllayout/solver.py: solve_newton", "src/mpllayout/layout.py: Layout.add_prim, Layout.add_constraint"]}
{"id": "C81", "title": "The tutorial's two passes: draw, measure, update, draw again", "statement": "The tutorial's workflow, for any figure size, any number of axes with an x axis (bottom or top) and a y axis (left or right) and any margins from the outermost boxes to the figure: every add_prim/add_constraint succeeds; solve and subplots succeed and draw the axes as if their tick labels took no space, with the ticks on the requested sides. Whatever space the tick labels take once the user has plotted (measured by matplotlib, on those sides), update_layout_constraints, solve and update_subplots succeed, keep the figure size, and place every frame so that the outer side of each axis box, as thick as measured, keeps the requested margin.", "quantifier": "all figure sizes (nonzero), all numbers of axes, all choices of sides, all margins, all measured thicknesses, all tolerances and iteration limits from 1", "why_tests_cant": "the result depends on the measured sizes and on the whole chain of calls; a test fixes one figure, one font and one set of numbers", "anchors": ["examples/tutorial.ipynb", "src/mpllayout/layout.py:update_layout_constraints", "src/mpllayout/solver.py:solve", "src/mpllayout/matplotlibutils.py:update_subplots", "src/mpllayout/constraints.py:XAxisThickness", "src/mpllayout/constraints.py:PositionXAxis", "src/mpllayout/constraints.py:InnerMargin"]}
{"id": "C82", "title": "Newton's method converges quadratically to a nearby regular solution", "statement": "If a geometry satisfies all constraints of a layout (any shipped ones, lengths, angles and grids included), the constraints are differentiable there, and no coordinate can be moved a little without violating some constraint in proportion, then solve started from every sufficiently near geometry succeeds, whatever the tolerances and the iteration limit, and the number of correct digits doubles with every iteration: C*d_n^2 <= (C*d_0^2)^(2^n) for the distance d_n to that solution after n iterations. The last reported abs_err bounds the distance: d_n <= C'*abs_err^2.", "quantifier": "all layouts of shipped constraints, all regular solutions, all starting geometries of the same structure in a ball around the solution, all tolerances and iteration limits", "why_tests_cant": "a test runs the solver from a few starting points; the claim is about every start in a neighbourhood and every number of iterations", "anchors": ["src/mpllayout/solver.py:solve_newton", "src/mpllayout/constraints.py"]}
{"id": "C83", "title": "Solving again changes nothing, and the start may be any geometry", "statement": "A layout whose constraints are shipped affine constraints can be solved from any finite geometry of its structure put into it as root_prim: the result is the best geometry nearest to that start. Solving, putting the result into the layout and solving again (with any tolerances and any positive number of iterations) gives the same geometry, also when the constraints contradict each other. The results from two starts have the same sum of squared residuals and are not farther apart than the starts.", "quantifier": "all programs adding any number of affine shipped constraints, all pairs of finite start geometries, all tolerances and positive iteration limits", "why_tests_cant": "It ranges over all layouts and all pairs of real-valued start geometries.", "anchors": ["src/mpllayout/solver.py: solve", "src/mpllayout/solver.py: solve_newton", "src/mpllayout/layout.py: Layout"]}
{"id": "C84", "title": "The grid figure: given width, fixed aspect ratio, any number of rows and columns", "statement": "Consider the program of examples/grid_axes.ipynb for any number of rows and columns, any keys, any figure width, aspect ratio, margins, gaps and relative sizes: it makes a figure box of given width at the origin, one boxed axes per key, an AspectRatio for the first frame, a Grid over all frames and four InnerMargins to the figure. Every add_prim/add_constraint call succeeds. If the width left for the columns, the aspect ratio and the relative sizes are positive there is a geometry that satisfies all constraints with upright frames; in every such geometry the first column has width (W - left - right - sum of column gaps) / (1 + sum of relative widths), the figure height is what the aspect ratio, the row gaps and the margins imply, and every frame is at the implied place; and subplots draws it as a figure of exactly that size with every axes at exactly that place, in the order of the keys. (Without asking for upright frames there is a second solution with the rows upside down.)", "quantifier": "all numbers of rows and columns, all key lists, all real parameters, all geometries of the layout's structure that satisfy the constraints", "why_tests_cant": "the notebook shows one 3 x 4 grid with equal sizes; existence and uniqueness of the geometry for all shapes and parameters needs an induction over columns and rows", "anchors": ["examples/grid_axes.ipynb", "src/mpllayout/constraints.py: Grid, RectilinearGrid, AspectRatio, InnerMargin, Box, Width, Fix", "src/mpllayout/layout.py: Layout.add_prim, add_constraint", "src/mpllayout/matplotlibutils.py: subplots, update_subplots"]}
{"id": "C85", "title": "Scaling a layout", "statement": "A user who multiplies every coordinate of every primitive and every length among the constraint parameters by the same positive number s (leaving directions, ratios, angles and flags) gets the same layout at s times the size: all calls have the same outcome and leave the same constraints on the same primitives; any shipped constraint is satisfied after scaling exactly when it was before; the geometries satisfying all constraints are exactly the scaled ones; the solved geometry (affine constraints) is the scaled solved geometry, also when the constraints clash or do not determine it; and drawing it makes the same calls (axes, ticks and labels at the same relative positions), with the figure s times as large.", "quantifier": "all positive factors, all histories of calls with all shipped constraints and sensible parameters, all geometries, all exact numerics and solver settings, all trees and axes dictionaries", "why_tests_cant": "The claim compares two executions for every layout and every real factor; a test fixes one factor and one layout, and a constraint that mixes powers of the length would only show for other values.", "anchors": ["src/mpllayout/constraints.py", "src/mpllayout/constructions.py", "src/mpllayout/layout.py: Layout.add_constraint", "src/mpllayout/solver.py: solve", "src/mpllayout/matplotlibutils.py: subplots, update_subplots, find_axis_position"]}
{"id": "C86", "title": "The solved geometry depends linearly on positions and lengths", "statement": "Take two histories of calls that differ only in coordinates of primitives and in lengths among the parameters of affine constraints, and mix their numbers with weights 1 - t and t: all calls have the same outcome and leave the same structure, and the solved geometry is the mixture of the two solved geometries, with the same weights, at every point, also when the constraints clash or do not determine the geometry. So a user who moves a length like a slider sees every point move along a straight line with constant speed, and averaging two layouts averages the figures.", "quantifier": "all real t (also outside of [0, 1]), all pairs of histories of calls with affine shipped constraints, all exact numerics, all solver settings with at least one iteration", "why_tests_cant": "The claim relates three executions for every pair of layouts and every real weight; a test fixes the layouts and a few weights, and for singular systems only the minimum-norm choice keeps the result linear.", "anchors": ["src/mpllayout/solver.py: solve, solve_linear", "src/mpllayout/constraints.py", "src/mpllayout/constructions.py", "src/mpllayout/layout.py: Layout.add_constraint, Layout.add_prim"]}
{"id": "C87", "title": "What additional constraints do to the solved geometry", "statement": "Additional affine constraints that the solved figure already satisfies, added anywhere in the history, do not change the solved figure, also when the other constraints clash or do not determine it. Additional constraints never make the fit (the sum of squared residuals) better; and when they leave the fit as good as it was, every coordinate vector of the new figure is at least as far from where the user put the primitives, and the figures agree if the distances do.", "quantifier": "all pairs of histories of calls with affine shipped constraints and top-level keys where the second has additional constraints in any places and order, all exact numerics, all solver settings with at least one iteration", "why_tests_cant": "The claim compares the solutions of two arbitrary layouts, including contradictory and underdetermined ones, where a test would have to guess the compromise that least squares chooses.", "anchors": ["src/mpllayout/solver.py: solve, solve_linear", "src/mpllayout/layout.py: Layout.add_constraint"]}
{"id": "C88", "title": "What a primitive accepts as its parameter vector", "statement": "A primitive can be constructed from None (the default), from lists, tuples, numpy arrays and jax arrays of exactly as many numbers as the class has parameters, and then holds exactly these numbers (the given array itself, not a copy, if an array was given); everything else is rejected with TypeError, ValueError or AssertionError. In particular a Point always has exactly two coordinates.", "quantifier": "all classes, all Python objects given as value (nested sequences of any depth, arrays of any shape, jax arrays, other objects), all children", "why_tests_cant": "The claim ranges over all nestings and shapes; tests try a few flat lists.", "anchors": ["src/mpllayout/primitives.py: Primitive.__init__, PrimitiveNode.__init__, Point"]}
{"id": "C89", "title": "Rounding errors of the linear algebra do not accumulate", "statement": "If every Newton step that differentiation and least squares deliver has at most the relative error eps < 1 and the absolute error delta, then solving a layout of affine constraints still succeeds, and its result is at most eps^N * D + delta/(1-eps) away from a geometry with the smallest possible sum of squared residuals, where N is the number of iterations reported and D how far exact numerics moves the layout. It is at most (eps*D + N*delta)/(1-eps) away from the geometry that exact numerics returns, and also at most eps^N * D + delta/(1-eps) if the constraints determine the geometry.", "quantifier": "all sequences of layout calls with shipped affine constraints, all starting coordinates, tolerances and iteration limits >= 1, all error bounds, and all numerical routines within these bounds (any errors, different in every step)", "why_tests_cant": "The errors are adversarial and differ with the machine, the BLAS and the layout; a test sees one sequence of rounding errors.", "anchors": ["src/mpllayout/solver.py: solve_newton", "src/mpllayout/solver.py: solve"]}
{"id": "C90", "title": "The names of primitives do not matter", "statement": "Give the top-level primitives of a layout other names (different names stay different, and no slash is introduced) and use these in all calls. Then exactly the same add_prim, add_prims and add_constraint calls succeed, the same primitives are found under the new names, constraints keep their (automatic) keys and parameters, solve with any method, tolerances, iteration limit and numerics returns the same errors and the same primitives under the new names, and subplots draws the same figure (with the axes listed, or if the new names contain 'Axes' exactly where the old ones do).", "quantifier": "all injective renamings without slashes, all histories of calls (accepted or refused), all numerics, methods and solver options, all primitive trees to draw", "why_tests_cant": "It relates two executions for every renaming, every history and every numerical routine; keys are split, rewritten and joined at every level of the constraint tree, so a test only samples names that may happen to work.", "anchors": ["src/mpllayout/layout.py:Layout.add_prim", "src/mpllayout/layout.py:Layout.add_constraint", "src/mpllayout/containers.py:Node", "src/mpllayout/constraints.py:Constraint.root_prim_keys", "src/mpllayout/solver.py:solve", "src/mpllayout/matplotlibutils.py:subplots"]}
{"id": "C91", "title": "Colours and labels of plotted primitives", "statement": "plot_prims gives the i-th of n primitives of the root (from 0), and everything drawn inside it, the colour of the colour map at i/n; so two drawn primitives have the same colour exactly if they belong to the same primitive of the root. The label of a primitive shows one dot per primitive above it and the last part of its key (no text deeper than 99 levels); a point has it at its coordinates, a line at its middle turned by the line's rotation (a line of length zero has none), a polygon at its first point.", "quantifier": "all primitive trees (any depth, size and coordinates) and every primitive drawn", "why_tests_cant": "Labels and colours are decided by a recursion over arbitrary trees; a test looks at one picture of one tree.", "anchors": ["src/mpllayout/ui.py:plot_prims", "src/mpllayout/ui.py:plot_prim", "src/mpllayout/ui.py:plot_point", "src/mpllayout/ui.py:plot_line", "src/mpllayout/ui.py:plot_polygon"]}
{"id": "C92", "title": "Vector distributes an array over a tree", "statement": "Vector(size_node) called with an array that has one entry for each entry announced by size_node returns that array.", "quantifier": "every tree of sizes, every array", "why_tests_cant": "quantifies over trees of every shape and arrays of every length", "anchors": ["src/mpllayout/constructions.py: Vector, chunk"]}
{"id": "C93", "title": "Figures made of boxes: the layout means what the program asks for", "statement": "For every program that adds points, quadrilaterals and axes (with any axis flags) and, interleaved with that, asks for boxes, widths, heights, aspect ratios, inner and outer margins, alignment in rows, columns and grids, edge lengths and distances (along an axis or any direction), collinear edges, midpoints, fixed and coincident points, distances to edges, axis positions, axis thicknesses and label positions: every call succeeds; the solutions of the layout are exactly the placements of its boxes and points of which all demands hold as plain equations between sides and coordinates; when the demands are affine and consistent, solve finds such a placement; and subplots draws the figure, the axes frames and the axis labels at these places and the ticks on the sides that were asked for. The programs of the example notebooks are instances, with their layouts given by explicit formulas.", "quantifier": "every such program (any number of primitives and demands in any order), every parameter, every placement", "why_tests_cant": "quantifies over all programs and all placements, including that there are no other solutions", "anchors": ["src/mpllayout/layout.py: Layout.add_prim, Layout.add_constraint", "src/mpllayout/constraints.py: Box, Width, Height, AspectRatio, InnerMargin, OuterMargin, AlignRow, AlignColumn, RectilinearGrid, Grid, Length, XLength, YLength, RelativeLength, Collinear, MidpointXDistance, MidpointYDistance, Fix, Coincident, DirectedLength, DirectedDistance, XDistance, YDistance, PointToLineDistance, PositionXAxis, XAxisThickness, PositionXAxisLabel", "src/mpllayout/solver.py: solve", "src/mpllayout/matplotlibutils.py: subplots", "examples/one_axes.ipynb", "examples/two_axes.ipynb", "examples/contour_colorbar.ipynb", "examples/ten_simple_rules_demo.ipynb"]}
{"id": "C94", "title": "A constraint object may be added under several keys", "statement": "A program that keeps constraint objects in variables and passes the same object to add_constraint several times, always at the top level or under automatic keys, gets the same layout and the same outcomes as a program that makes a fresh copy for every call, and its variables still hold the constraints that were made. (Below an existing constraint, with a key such as 'A/x', this is false: the call changes the shared object at every key that holds it, the three trees of the layout no longer match, and constraints are dropped silently.)", "quantifier": "every program (any sequence of making constraint objects of any shape, adding primitives and adding constraints)", "why_tests_cant": "quantifies over all programs, all shapes of constraint objects and all patterns of reuse", "anchors": ["src/mpllayout/layout.py: Layout.add_constraint", "src/mpllayout/containers.py: Node.add_child, Node.__contains__", "src/mpllayout/constructions.py: ConstructionNode.root_prim_keys, ConstructionNode.root_params"]}
{"id": "C95", "title": "Options take the documented values and refuse others", "statement": "Constructors with an option (side='bottom'|'top'|'left'|'right', axis='x'|'y', dim='width'|'height', shape=(rows, columns)) accept exactly the documented values, make for each of them the constraint that the value names, and raise a ValueError for every other string or shape; opposite_side exchanges opposite sides. (Violations: PositionAxis accepts any axis and the layout fails only when it is solved; AxisThickness takes every axis but 'x' for 'y', and the base class is never refreshed by update_layout_constraints; OuterMarginArray does not look at the side when there is at most one quadrilateral and refuses the documented integer shape; the default shape of Grid is refused.)", "quantifier": "every string passed as a side, axis or dimension, every shape, every constructor with such an option", "why_tests_cant": "quantifies over all strings and all shapes", "anchors": ["src/mpllayout/constructions.py: RectangleDim, Margin, opposite_side, ArrayCompoundConstruction", "src/mpllayout/constraints.py: OuterMarginArray, CoincidentOutwardFaces, RectilinearGrid, Grid, AxisThickness, PositionAxis, PositionAxisLabel"]}
{"id": "C96", "title": "The derivative the Newton solver uses is the derivative", "statement": "For every layout built by any calls that add primitives and shipped constraints: the matrix that the Newton solver obtains by automatic differentiation (jax.jacfwd of the residual, with jax's rule for every operation the constraints use) has one row per residual and one column per coordinate, carries the residual's values and exceptions, and is the Jacobian matrix of the residual at every geometry where the residuals are differentiable (no line is a single point if lengths are measured, none points to the left if angles are measured). Elsewhere: a finite matrix is still the Jacobian matrix unless a line points to the left under an angle constraint (there the measured angle jumps and a finite, meaningless row is returned); a line that is a single point makes the whole row of a length constraint non-finite, also in the columns of other primitives.", "quantifier": "every program of add_prim and add_constraint calls with shipped constraints, every coordinate vector", "why_tests_cant": "quantifies over all layouts and all geometries; finite differences on samples only approximate derivatives", "anchors": ["src/mpllayout/solver.py: solve_newton (jax.jacfwd)", "src/mpllayout/constructions.py: assem", "src/mpllayout/constraints.py: assem"]}
{"id": "C97", "title": "The gradient that minimize uses is the gradient", "statement": "For every layout built by any calls that add primitives and shipped constraints: the value and the gradient that the 'minimize' method obtains by automatic differentiation (jax.value_and_grad of the sum of squared residuals) are that sum and its gradient at every geometry where the residuals are finite and differentiable; it equals twice the residual vector times the matrix that the 'newton' method uses; values and exceptions are those of the objective for every array. A short step against a non-zero gradient makes the sum smaller, and the gradient is zero at every locally best geometry, so that an optimizer that stops where the gradient vanishes leaves it alone and reports nothing. Exceptions: where a line whose length is measured is a single point the gradient is not finite even if the constraint is satisfied; and an optimizer that stops where the gradient is small (scipy's L-BFGS-B, 1e-5) returns a layout with unsatisfied constraints unchanged whatever tolerances the user asks for.", "quantifier": "every program of add_prim and add_constraint calls with shipped constraints, every coordinate vector, all tolerances and iteration limits", "why_tests_cant": "quantifies over all layouts and all geometries; finite differences on samples only approximate gradients", "anchors": ["src/mpllayout/solver.py: solve_minimize (jax.value_and_grad)", "src/mpllayout/solver.py: assem_objective"]}
{"id": "C98", "title": "A printed node shows its tree", "statement": "repr(node) and str(node) of two nodes are equal exactly if the trees have the same paths and, at the same path, nodes of classes of the same name with the same printed value and the same child keys in the same order: what is printed determines the structure. Exception: keys that contain ', ' (two children 'a, b' and 'c' are printed like 'a' and 'b, c').", "quantifier": "every two node trees, all keys without commas and closing parentheses", "why_tests_cant": "unique readability must hold for all trees of any depth and all keys", "anchors": ["src/mpllayout/containers.py: Node.__repr__", "src/mpllayout/containers.py: Node.__str__"]}
{"id": "C99", "title": "Which satisfied constraints are satisfied exactly in floating point", "statement": "The residuals are computed in floating point arithmetic (every operation rounded). In every format with gradual underflow (float64 and float32 with rounding to nearest, ties to even, among them): the residual of Coincident, CoincidentLines, Horizontal, Vertical, Box and Fix is computed as zero exactly if the coordinates in question are the same numbers (no rounding error hides a difference or makes one up, unless a side overflows); XLength, YLength, XDistance, YDistance, Width and Height are computed as zero exactly if the parameter is the correctly rounded difference of the coordinates; and so are InnerMargin and OuterMargin of two rectangles, although they are computed from midpoints, and OuterMarginArray; CoincidentOutwardFaces and PositionXAxis/PositionYAxis are computed as zero exactly if the box sits exactly on that side; AlignRow, AlignColumn and RectilinearGrid, which multiply, are computed as zero exactly if the sides in question are the same numbers, provided that no product underflows (boxes at least 1 wide and high suffice). Length and RelativeLength of horizontal and vertical lines are computed as zero exactly if the parameter is the length, respectively its correctly rounded multiple, provided that the squares neither underflow nor overflow, and Grid is computed as zero exactly if the boxes are aligned and the given fractions and gaps are the correctly rounded ones. Exceptions: Parallel and Orthogonal multiply, so that very short lines are computed to be parallel and orthogonal; and on a processor that flushes small results to zero two different points are computed to coincide. The 64-bit coordinates of a layout are converted first: two points are computed to coincide exactly if their converted coordinates are the same, so that in jax's default precision (float32) points that differ by 2^-25 do.", "quantifier": "every floating point format with monotone rounding and gradual underflow, all primitives with coordinates of the format, all parameters of the format", "why_tests_cant": "quantifies over all pairs of floating point numbers and all rounding rules; tests sample a few", "anchors": ["src/mpllayout/constraints.py: Coincident, CoincidentLines, Horizontal, Vertical, Box, Fix, XLength, YLength, XDistance, YDistance, Width, Height, InnerMargin, OuterMargin, OuterMarginArray, CoincidentOutwardFaces, PositionAxis, Align, RectilinearGrid, Collinear, Parallel, Orthogonal, Length, RelativeLength, Grid", "src/mpllayout/constructions.py: LineVector, DirectedLength, DirectedDistance, Midpoint, MidpointDirectedDistance, transform_constraint"]}
{"id": "C100", "title": "A layout that is computed to be satisfied stays exactly as it is", "statement": "In floating point arithmetic (any format): the residual of a layout is computed as all zeros exactly if every constraint of the layout, called with the primitives under its keys, is computed as zero; and if it is, solve(layout, method='newton') returns exactly the same coordinates, for all tolerances and iteration limits, provided that the computed derivatives are finite.", "quantifier": "every floating point format, every sequence of calls that adds primitives and shipped constraints, all tolerances and iteration limits, all numerical routines that map a zero right hand side to zero", "why_tests_cant": "quantifies over all layouts and all floating point numbers; a test sees one layout, and rounding drift shows up only for particular numbers", "anchors": ["src/mpllayout/solver.py: solve_newton, solve", "src/mpllayout/layout.py: Layout.flat_constraints"]}
{"id": "C101", "title": "Figures with alignments, grids and lengths are laid out from the default geometry", "statement": "If a program makes points, quadrilaterals and axes with their default coordinates and asks for affine constraints, alignments, grids, non-negative lengths, non-negative ratios of lengths, square boxes (aspect ratio 1) and pairs of edges on the same side lying on one line, and some placement satisfies the corresponding equations between coordinates, then solve(layout) returns, for every iteration limit of at least one and all tolerances, a layout in which all the constraints hold, with lengths as differences of coordinates: a line whose length is asked for runs the right way, and two lines with a ratio run the same way. The lines whose lengths are measured must not shrink to points; other boxes may be flat. In particular the figures of two_axes.ipynb, contour_colorbar.ipynb, grid_axes.ipynb (for every number of rows and columns) and ten_simple_rules_demo.ipynb (before and after measuring the axes) come out at the places that follow from their numbers, and so does the layout of profile_solver.py for every shape and all numbers with which the margins do not use up exactly the width; with the numbers and the shape in that file the margins take more than the width, and solve returns frames that are turned over instead of failing. Aspect ratios other than 1 are not laid out like this: one iteration gives a box of width W and ratio v the height W + 1 - v (so a box of width 1 and ratio 2 becomes flat).", "quantifier": "every such program of any length, all numbers in it, all tolerances and all iteration limits from 1, all exact numerical routines", "why_tests_cant": "the residuals are curved and the system may be singular, so that convergence of Newton's method from the default geometry is not implied by any finite number of runs", "anchors": ["src/mpllayout/solver.py: solve, solve_newton", "src/mpllayout/primitives.py: Quadrilateral, Axes", "src/mpllayout/constraints.py: Align, RectilinearGrid, Grid, Length, RelativeLength, Collinear, AspectRatio", "examples/two_axes.ipynb", "examples/contour_colorbar.ipynb", "examples/ten_simple_rules_demo.ipynb", "examples/grid_axes.ipynb", "examples/profile_solver.py: gen_layout"]}
{"id": "C102", "title": "Figures with axis labels are laid out by two Newton steps", "statement": "A layout whose constraints are affine, distances of points from edges of boxes (PointToLineDistance) and positions of axis labels as a fraction of the frame (PositionXAxisLabel, PositionYAxisLabel) is solved by solve with the Newton method: if the constraints other than the label positions determine the length of each labelled frame, leave it and the edges that are measured from with a positive length, and the labels can be placed, then every run of at least two iterations (whose tolerances do not stop it after the first step) returns a geometry in which every constraint holds, with no box turned over. For the tutorial's figure (an x axis on top, a y axis on the right, both labelled), whatever the figure size, the margins, the pads, the label fractions and the measured thicknesses are, as long as there is room for the frame: the frame, both axis boxes and both labels are exactly where the constraints put them.", "quantifier": "all figure programs with such constraints; all sizes, margins, pads, fractions and thicknesses; all tolerances (absolute below the label fraction, relative below 1); all iteration limits from 2", "why_tests_cant": "the residual of a label position is a quotient whose Jacobian depends on the geometry reached so far; a test checks that a few figures converge, not that every figure does, nor that two steps suffice", "anchors": ["examples/tutorial.ipynb", "src/mpllayout/solver.py:solve", "src/mpllayout/solver.py:solve_newton", "src/mpllayout/constraints.py:PointToLineDistance", "src/mpllayout/constraints.py:RelativePointOnLineDistance", "src/mpllayout/constraints.py:PositionXAxisLabel", "src/mpllayout/constraints.py:PositionYAxisLabel", "src/mpllayout/primitives.py:Quadrilateral"]}
{"id": "C103", "title": "The second pass of any figure: measure, update, solve and draw again", "statement": "For every program that makes points, quadrilaterals and axes and adds constraints: update_layout_constraints(layout, axs) succeeds if the axes that the thickness constraints name are in axs, and solving the updated layout gives, for every method, what solving the layout of the same program with the measured axes as thickness parameters gives; so every guarantee about solving a program holds for the second pass. For the tutorial's figure with its label constraints, any sizes, margins, pads and label fractions: every call succeeds; solve and subplots draw it as if tick labels took no space; and after the user plotted, whatever thicknesses matplotlib measured (as long as there is room), update_layout_constraints, solve and update_subplots draw the same figure size, the frame inside the margins and the axis boxes of the measured thickness, the ticks on the requested sides, and both labels at the requested distance outside the axis boxes and the requested fraction of the new frame. For ten_simple_rules_demo.ipynb: in the first pass the three frames get widths in the requested ratios that fill the room between the margins, and in the second pass, whatever was measured, their top is lowered by the measured thickness of the right x axis and nothing else changes.", "quantifier": "all figure programs; all dictionaries of measured axes; all sizes, margins, pads, fractions and thicknesses; all tolerances and iteration limits from 2", "why_tests_cant": "the result depends on measured sizes and the whole chain of calls; a test fixes one figure, one font and one set of numbers", "anchors": ["examples/tutorial.ipynb", "src/mpllayout/layout.py:update_layout_constraints", "src/mpllayout/solver.py:solve", "src/mpllayout/matplotlibutils.py:subplots", "src/mpllayout/matplotlibutils.py:update_subplots", "src/mpllayout/constraints.py:XAxisThickness", "src/mpllayout/constraints.py:YAxisThickness", "examples/ten_simple_rules_demo.ipynb"]}
{"id": "C104", "title": "A box with a width and an aspect ratio: what the solver returns after any number of iterations", "statement": "For the program that makes a quadrilateral, makes it a box, fixes its lower left corner at the origin and asks for the width W and the aspect ratio v, solve (Newton method, default start) returns after n iterations, n being the length of the error list it reports, a box at the origin of width W and the height h_n, where h_1 = W + 1 - v and h_{k+1} = h_k (2 - v |h_k| / |W|), as long as no h_k is 0. So if |(v-1)(v-W)| < W it returns, for every tolerance and iteration limit, the requested height W / v up to the relative error ((v-1)(v-W)/W)^(2^(n-1)), which vanishes quadratically; if W + 1 < v and v (v-W-1) < 2 W, it returns the requested aspect ratio up to such an error but with the top below the bottom; and if 3 W <= v |W + 1 - v|, the requested box exists but solve never returns an aspect ratio above v / 3, with any tolerance and any number of iterations. More generally, on figures whose other constraints are linear in the coordinates every iteration solves the linearised aspect ratios together with these constraints.", "quantifier": "all widths and aspect ratios; all tolerances and iteration limits; any number of iterations", "why_tests_cant": "a test runs a few sizes, and those near the unit square converge; the sizes for which the iteration turns the box over or diverges form regions of the plane of (W, v)", "anchors": ["src/mpllayout/solver.py:solve", "src/mpllayout/solver.py:solve_newton", "src/mpllayout/constraints.py:AspectRatio", "src/mpllayout/constraints.py:Width", "src/mpllayout/constraints.py:Fix", "src/mpllayout/constraints.py:Box"]}
