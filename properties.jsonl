{"id": "C01", "title": "symdiff derivative is the mathematical derivative", "statement": "For every expression the symbolic engine can hold, the expression returned by diff(expr,x) evaluates, at every real point where all sub-expressions are differentiable (no log of a non-positive number, no zero denominator, ...), to the derivative of the value of expr with respect to x.", "quantifier": "all expression trees (any depth, any mix of constants, variables, models, sums, products, exp, log, pow, logical operators and functions with a declared derivative table), all variables, all real environments in the differentiability domain", "why_tests_cant": "expression trees are unbounded; a test samples a few formulas and points, and a wrong rule in one nesting is invisible", "anchors": ["src/adiff/EquationObject.cc: Constant::Derivative, Variable::Derivative, Product::Derivative, Add::Derivative, Exponent::Derivative, Log::Derivative, Pow::Derivative", "src/adiff/UserFunc.cc: UserFunc::Derivative", "src/adiff/LogicalFunc.cc: BinaryLogical::Derivative, UnaryLogical::Derivative"]}
{"id": "C02", "title": "simplify never changes the value of an expression", "statement": "simplify(expr) evaluates to the same real number as expr in every environment, for every expression (including collection of like terms, combination of powers and constant folding).", "quantifier": "all expression trees and all real environments", "why_tests_cant": "simplification rewrites depend on structural coincidences between sub-terms; the space of trees is infinite", "anchors": ["src/adiff/EquationObject.cc: Product::Simplify, Add::Simplify, Exponent::Simplify, Log::Simplify, Pow::Simplify, UserFunc::Simplify, CombineProduct, CombineAdd"]}
{"id": "C03", "title": "substitution commutes with evaluation", "statement": "Substituting sub-expression v for name x in expr gives an expression whose value in any environment equals the value of expr in the environment where x is bound to the value of v; other names are untouched.", "quantifier": "all expressions, names, replacement expressions and environments", "why_tests_cant": "must hold for every tree and nesting of replacement", "anchors": ["src/adiff/EquationObject.cc: subst methods"]}
{"id": "C04", "title": "expand preserves value", "statement": "expand(expr) (distribution of products over sums) evaluates to the same value as expr in every environment, and terminates.", "quantifier": "all expression trees and environments", "why_tests_cant": "distribution of k-fold products has unboundedly many shapes", "anchors": ["src/adiff/EquationObject.cc: expand methods"]}
{"id": "C05", "title": "reported references are complete", "statement": "The variables reported as referenced by an expression (those the dependency engine registers callbacks for) include every variable its value can depend on; the derivative with respect to an unreported variable has the value zero everywhere, and is an object the engine itself recognises as zero when the functions involved have one argument.", "quantifier": "all expression trees, all pairs of environments agreeing on the reported names", "why_tests_cant": "a universally quantified independence claim over environments", "anchors": ["src/adiff/EquationObject.cc: getReferencedType, Derivative"]}
{"id": "C06", "title": "identity of printed form implies identity of value", "statement": "Whenever the engine treats two expressions as the same because they print the same text, they have the same value; in particular a numeric constant's printed form reads back to the same number.", "quantifier": "all pairs of constants / expressions", "why_tests_cant": "only fails for values beyond the printing precision, which tests with small literals never reach", "anchors": ["src/adiff/EquationObject.cc: Constant::createStringValue, CombineAdd, CombineProduct"]}
{"id": "C07", "title": "printed expressions parse back to the same expression value", "statement": "The text printed for any expression, when parsed again by the symdiff grammar, denotes an expression with the same value (parentheses and operator precedence are sufficient).", "quantifier": "all expression trees", "why_tests_cant": "precedence and parenthesisation interact at arbitrary depth", "anchors": ["src/adiff/EquationObject.cc: createStringValue", "src/adiff/mcParser.y", "src/adiff/mcScanner.l"]}
{"id": "C08", "title": "base64 round trip", "statement": "Decoding the base64 text produced for any byte sequence returns exactly that byte sequence, whatever its length; the encoded text has length 4*ceil(n/3) and uses only the base64 alphabet.", "quantifier": "all byte sequences of any length", "why_tests_cant": "all lengths and byte values, including the three padding cases", "anchors": ["src/utility/base64.cc: base64_encode, decode4, base64_decode"]}
{"id": "C09", "title": "compressed VTK array data contains every byte", "statement": "The blocks handed to the compressor when a data array is written concatenate to exactly the bytes of the array, and the header block counts and sizes describe that split, for every array size.", "quantifier": "all array sizes, in particular exact multiples of the block size", "why_tests_cant": "boundary sizes are data dependent; tests rarely have an array whose byte length is a multiple of the block size", "anchors": ["src/utility/base64.cc: convertVectorToZlibBase64"]}
{"id": "C10", "title": "parameter lookup returns the innermost, most recent setting", "statement": "After any sequence of set_parameter/delete device calls, get_parameter(device,region,name) returns the last value set at region scope, else at device scope, else global scope, and settings on one device or region never change what another device or region sees.", "quantifier": "all histories of parameter operations, all devices, regions and names", "why_tests_cant": "all histories", "anchors": ["src/Data/GlobalData.cc: SetEntryOnRegion, AddDBEntryOnDevice, AddDBEntryOnGlobal, GetDBEntryOnRegion, GetDBEntryOnDevice, GetDBEntryOnGlobal, DeleteDevice"]}
{"id": "C11", "title": "a parameter change invalidates every region that sees it", "statement": "Whenever set_parameter changes the value that a region sees for a name, dependent models of that region are signalled; a region whose visible value is shadowed by an inner setting is not affected.", "quantifier": "all parameter databases and all set operations", "why_tests_cant": "all histories and scope combinations", "anchors": ["src/Data/GlobalData.cc: SignalCallbacksOnGlobal, SignalCallbacksOnDevice, SignalCallbacksOnRegion"]}
{"id": "C12", "title": "threaded array kernels equal the serial result", "statement": "For every array length, thread count and task size, the ranges given to worker threads partition the array exactly (no gap, no overlap), and every interleaving of the workers' element writes gives the serial result.", "quantifier": "all lengths, thread counts, task sizes and schedules", "why_tests_cant": "races and partition gaps depend on schedule and on size/thread ratios", "anchors": ["src/models/ParallelOpEqual.cc: OpEqualRun::operator()", "src/MathEval/MathPacket.cc"]}
{"id": "C13", "title": "uniform-value fast paths agree with elementwise arithmetic", "statement": "Arithmetic on model data gives, at every index, the elementwise operation on the operands, whether operands are stored as one uniform value, as a reference to a model or as an array, and never modifies the referenced model.", "quantifier": "all operand representations, lengths and values", "why_tests_cant": "combinations of representations and lengths are unbounded", "anchors": ["src/models/ScalarData.cc: plus_equal_model, times_equal_model, plus_equal_data, times_equal_data, op_equal_scalar, MakeAssignable"]}
{"id": "C14", "title": "model values read back as last written", "statement": "After any sequence of whole-array, uniform and single-index writes to a model in standard or extended precision, reading the values in either precision returns, at every index, the last value written to it.", "quantifier": "all histories of writes and reads in both precisions, all lengths", "why_tests_cant": "stale-cache bugs depend on the order of reads and writes", "anchors": ["src/models/ModelDataHolder.cc", "src/models/NodeModel.cc: SetValues, SetNodeValue, GetScalarValues"]}
{"id": "C15", "title": "no stale model values", "statement": "After any sequence of changes to models and parameters, reading an expression model returns the value its expression has in the current values of its inputs.", "quantifier": "all acyclic dependency graphs and all histories of edits and reads", "why_tests_cant": "depends on the order of invalidations and evaluations over unbounded histories", "anchors": ["src/models/NodeModel.cc: CalculateValues, MarkOld, SetValues, GetScalarValues", "src/Geometry/Region.cc: SignalCallbacks, RegisterCallback, UnregisterCallback"]}
{"id": "C16", "title": "invalidation always terminates", "statement": "Invalidating a model terminates for every dependency graph, including cyclic ones, and marks out of date exactly the up-to-date models reachable through up-to-date dependents.", "quantifier": "all finite callback graphs including cycles", "why_tests_cant": "termination over all graphs is not testable", "anchors": ["src/Geometry/Region.cc: SignalCallbacks", "src/models/NodeModel.cc: MarkOld"]}
{"id": "C17", "title": "a model name has one kind per region", "statement": "In every reachable state a name denotes at most one of a node, edge, triangle-edge or tetrahedron-edge model of a region; creating a model under a name used by another kind is refused.", "quantifier": "all histories of model creations and deletions", "why_tests_cant": "all histories", "anchors": ["src/Geometry/Region.cc: AddNodeModel, AddEdgeModel, AddTriangleEdgeModel, AddTetrahedronEdgeModel, Delete*Model"]}
{"id": "C18", "title": "equation indices stay a permutation of 0..n-1", "statement": "After any sequence of equation creations, replacements and deletions in a region, the equations of the region have distinct indices 0..n-1, and the variable-to-equation table names only existing equations whose variable it is.", "quantifier": "all histories of equation/delete_equation calls", "why_tests_cant": "all histories", "anchors": ["src/Geometry/Region.cc: AddEquation, DeleteEquation, GetEquationIndex, GetEquationNumber"]}
{"id": "C19", "title": "every unknown has its own matrix row", "statement": "The global equation numbers assigned before a solve to (device, region, equation, node) and to circuit nodes are pairwise distinct and cover exactly 0..N-1 where N is the dimension of the matrix.", "quantifier": "all sets of devices, regions, equations, node counts and circuit nodes", "why_tests_cant": "all configurations", "anchors": ["src/math/Newton.cc: NumberEquationsAndSetDimension", "src/Geometry/Device.cc: CalcMaxEquationNumber", "src/Geometry/Region.cc: SetBaseEquationNumber, GetEquationNumber", "src/Circuit/data/NodeKeeper.cc: SetNodeNumbers"]}
{"id": "C20", "title": "circuit node names and aliases resolve consistently", "statement": "Ground names resolve to ground; an alias resolves to its node; distinct non-ground, non-aliased nodes have distinct numbers, after any history of node creation and aliasing.", "quantifier": "all histories of add_circuit_node / circuit_node_alias", "why_tests_cant": "all histories", "anchors": ["src/Circuit/data/NodeKeeper.cc: AddNode, AddNodeAlias, GetIndexNumber, SetNodeNumbers"]}
{"id": "C21", "title": "circuit solution updates terminate and keep their guarantees", "statement": "Applying a Newton update to the circuit nodes terminates; positive-type nodes stay positive and log-damped updates are bounded and keep the sign of the update.", "quantifier": "all solutions, updates and update types", "why_tests_cant": "real-valued inputs and loop termination", "anchors": ["src/Circuit/data/NodeKeeper.cc: UpdateSolution"]}
{"id": "C22", "title": "assembled matrix is the sum of its contributions", "statement": "After any sequence of entry insertions in any order and at any stage (before or after compression), the finalized compressed matrix holds at each (row,column) the sum of the inserted values, with strictly increasing indices in each compressed line and valid pointers.", "quantifier": "all insertion sequences, matrix sizes and both storage orders", "why_tests_cant": "all insertion orders and sizes, including insertion of an entry outside the compressed pattern", "anchors": ["src/math/CompressedMatrix.cc: AddEntryImpl, AddEntry, Finalize, CreateMatrix, DecompressMatrix, SetCompressed"]}
{"id": "C23", "title": "clearing and re-assembling a matrix is like assembling a new one", "statement": "Clearing a matrix and assembling again gives the same mathematical matrix as assembling into a new matrix, and never accesses memory outside its arrays.", "quantifier": "all histories of assemble/finalize/clear", "why_tests_cant": "depends on relation between non-zero count and dimension across histories", "anchors": ["src/math/CompressedMatrix.cc: ClearMatrix, AddEntryImpl"]}
{"id": "C24", "title": "matrix-vector products use the assembled matrix", "statement": "Multiply(x) and TransposeMultiply(x) of a finalized matrix return A x and A^T x for the assembled matrix A, for both storage orders.", "quantifier": "all matrices, vectors, storage orders", "why_tests_cant": "all matrices", "anchors": ["src/math/CompressedMatrix.cc: Multiply, TransposeMultiply, CCM_Multiply, CCM_TransposeMultiply"]}
{"id": "C25", "title": "contact and interface equations replace or add rows as declared", "statement": "When bulk contributions are loaded through the contact/interface permutation, a row with no entry stays, a moved row's contributions all go to the target row, a dropped row receives no bulk contribution, a kept copy is also added at the original row; matrix and right-hand side are treated alike.", "quantifier": "all permutation tables and contribution lists", "why_tests_cant": "all tables", "anchors": ["src/math/Newton.cc: LoadIntoMatrixPermutated, LoadIntoRHSPermutated", "src/Geometry/Permutation.hh"]}
{"id": "C26", "title": "edge assembly is conservative", "statement": "For every mesh, edge model and element edge model, the flux contributions added to the two end-node rows of an edge are equal and opposite, so the bulk residual and every Jacobian column summed over all nodes of an equation vanish for pure edge models.", "quantifier": "all meshes, fluxes and couples", "why_tests_cant": "all meshes", "anchors": ["src/Equation/Equation.cc: EdgeAssembleRHS, UnSymmetricEdgeAssembleJacobian, NodeAssemble..."]}
{"id": "C27", "title": "a failed solve leaves the solution unchanged", "statement": "If solve does not report convergence, the solution variables of all devices and the circuit have exactly the values they had before the call.", "quantifier": "all iteration histories, failure points (linear solver failure, divergence, iteration limit) and sets of solution variables", "why_tests_cant": "all failure points", "anchors": ["src/math/Newton.cc: Solve, BackupSolutions, RestoreSolutions"]}
{"id": "C28", "title": "convergence is reported only when all error limits are met", "statement": "solve reports success only if in the last iteration every device's and the circuit's absolute and relative errors are below the requested limits, and the number of iterations never exceeds the maximum.", "quantifier": "all error histories, limits, numbers of devices", "why_tests_cant": "all iteration histories", "anchors": ["src/math/Newton.cc: Solve"]}
{"id": "C29", "title": "transient history is advanced only by accepted steps", "statement": "A converged transient step moves the stored charge/current history one step back and stores the new one; a step that fails or raises an error leaves the history unchanged, so the next step uses the last accepted state; an accepted transient_dc solve restarts the history, a dc solve leaves it alone.", "quantifier": "all sequences of accepted and rejected steps and methods", "why_tests_cant": "all step histories", "anchors": ["src/math/Newton.cc: Solve, UpdateTransientCurrent", "src/math/TimeData.cc: CopyI, CopyQ, AssembleI, AssembleQ, ClearI, ClearQ"]}
{"id": "C30", "title": "device solution updates preserve positivity / bound log damping", "statement": "positive-type variables that are positive stay positive after an update, or the solve stops with an error; log-damped updates never exceed the undamped step in size and keep its sign; default updates add the step exactly.", "quantifier": "all old values and updates", "why_tests_cant": "real-valued inputs", "anchors": ["src/Equation/Equation.cc: DefaultUpdate, LogDampUpdate, PositiveUpdate"]}
{"id": "C31", "title": "integration formulas are consistent", "statement": "The coefficients used by each transient method (backward Euler, trapezoidal, BDF) reproduce exactly the time derivative of charges that are polynomial in time up to the order of the method, and for smooth charges the error is bounded by the corresponding power of the step times a derivative bound.", "quantifier": "all step sizes and polynomial charges", "why_tests_cant": "all step sizes", "anchors": ["src/math/Newton.hh: TimeMethods"]}
{"id": "C32", "title": "1D mesh contains the requested lines, regions, contacts and interfaces with the requested spacing", "statement": "finalize_mesh/create_device of a 1D mesh: the node positions increase strictly and include every mesh line; every element lies between two neighbouring lines and, when the lines leave room for both requested spacings, its length exceeds neither their maximum, nor the requested spacing at the line it touches (up to the code's tolerance); the regions of the device are exactly the requested ones, each from one tagged line to the other, together covering the mesh, neighbours sharing their end point; the contacts sit at the two ends, an interface joins each pair of neighbouring regions, and every requested interface is used. Lines with different positions and tags are always placed in finitely many steps.", "quantifier": "all sets of mesh lines, spacings, regions, contacts and interfaces", "why_tests_cant": "all inputs; termination of the spacing loop", "anchors": ["src/meshing/Mesh1d.cc: SetLocationsAndTags, SanityCheckingAndSetInterfaceIndices, Instantiate_", "src/meshing/MeshUtil.cc: getPoints", "src/commands/MeshingCommands.cc"]}
{"id": "C33", "title": "write_devices/load_devices round trip", "statement": "Writing a device in devsim format and loading the file yields the same coordinates, regions, elements, contacts, interfaces, models and equations.", "quantifier": "all devices", "why_tests_cant": "all devices and names", "anchors": ["src/meshing/DevsimWriter.cc", "src/meshing/DevsimLoader.cc", "src/meshing/DevsimReader"]}
{"id": "C34", "title": "reading circuit data does not disturb later analyses", "statement": "get_circuit_node_list, get_circuit_solution_list and get_circuit_node_value leave the circuit as it was: any later command gives the same result as if the query had not been made.", "quantifier": "all sessions of circuit commands", "why_tests_cant": "every point of every session is a possible place for a query", "anchors": ["src/commands/CircuitCommands.cc: AddGroundNode, circuitGetCircuitNodeListCmd, circuitGetCircuitNodeValueCmd", "src/Circuit/data/NodeKeeper.cc: HaveNodes, CreateSolution"]}
{"id": "C35", "title": "circuit elements assemble the exact Jacobian and conserve current", "statement": "For every circuit of resistors, capacitors, inductors, voltage and current sources and every solution vector, the assembled matrix is the exact Jacobian of the assembled residual (static and dynamic parts), every element puts opposite currents into its two terminals, and a zero of the static residual satisfies Kirchhoff's current law at every node and the branch law of every source and inductor.", "quantifier": "all circuits (any number of elements, any topology, grounded or not), all solutions", "why_tests_cant": "all topologies and all real solutions", "anchors": ["src/Circuit/models/ideal/IdealResistor.cc", "src/Circuit/models/ideal/IdealCapacitor.cc", "src/Circuit/models/ideal/IdealInductor.cc", "src/Circuit/models/sources/IdealVoltage.cc", "src/Circuit/models/sources/IdealCurrent.cc", "src/Circuit/data/InstanceKeeper.cc: AssembleDCMatrix, AssembleTRMatrix"]}
{"id": "C36", "title": "reported unchanged sparsity is really unchanged", "statement": "When a solver matrix reports that its symbolic structure is the same as at the last factorization, the column pointers and row indices handed to the linear solver are exactly those of the last report of a new structure.", "quantifier": "all sequences of insertions, clears, finalizations and reads", "why_tests_cant": "every history", "anchors": ["src/math/CompressedMatrix.cc: Finalize, ClearMatrix, GetSymbolicStatus, CreateMatrix, AddEntry"]}
{"id": "C37", "title": "every node equation has one owner", "statement": "For one equation of one region, no node is governed by two contacts, or by two interfaces, or by a contact and an interface; and a contact node at which every contact of the region defines the equation is governed by one of them.", "quantifier": "all sets of contacts and interfaces, any overlap of their nodes, any order in which the device keeps them", "why_tests_cant": "all overlaps and all orders (the order depends on memory addresses)", "anchors": ["src/Equation/ContactEquation.cc: GetActiveNodes", "src/Equation/InterfaceEquation.cc: GetActiveNodesFromList", "src/Geometry/Device.cc: AddContact"]}
{"id": "C38", "title": "contact currents are the fluxes that leave the device", "statement": "The current reported for a contact from an edge or element model is the sum of the fluxes the same model contributes to the bulk equations of the contact's nodes; the currents of all contacts and the residuals at the other nodes add up to zero; and the quantity loaded at the contact's circuit node is the reported one.", "quantifier": "all meshes, model values, sets of contact nodes (edges with both ends on the contact included)", "why_tests_cant": "all meshes and all model values", "anchors": ["src/Equation/ContactEquation.cc: integrateEdgeModelOverNodes, integrateTriangleEdgeModelOverNodes, integrateTetrahedronEdgeModelOverNodes, AssembleEdgeEquationOnCircuit", "src/AutoEquation/ExprContactEquation.cc: calcCurrent, calcCharge"]}
{"id": "C39", "title": "the assembled matrix is the Jacobian of the assembled residual", "statement": "Whenever the derivative models used by the bulk, contact and interface equations are exact, the matrix handed to the linear solver is the exact Jacobian of the residual handed to it, for every combination of node, edge, edge volume, element and element volume models, in one, two and three dimensions, static and time dependent, after the row permutation of contacts and interfaces.", "quantifier": "all meshes, equations, model values, curves of solutions", "why_tests_cant": "all models and all solutions", "anchors": ["src/Equation/Equation.cc", "src/AutoEquation/ExprEquation.cc", "src/Equation/ContactEquation.cc", "src/AutoEquation/ExprContactEquation.cc", "src/Equation/InterfaceEquation.cc", "src/AutoEquation/InterfaceExprEquation.cc", "src/math/Newton.cc: LoadMatrixAndRHS"]}
{"id": "C40", "title": "the residual at a node is its control volume balance", "statement": "The entry of the right hand side for an equation and a node is the sum of the node model times the node volume, of the signed edge models times their edge couples over the edges at the node, of the edge volume models times their edge node volumes, and of the element models times their element couples over the elements at the node - each edge and element counted once, with opposite signs at its two ends.", "quantifier": "all meshes in one, two and three dimensions, all subsets of models given to the equation, static and time dependent", "why_tests_cant": "all meshes and all model values", "anchors": ["src/AutoEquation/ExprEquation.cc: assemble", "src/Equation/Equation.cc: NodeCoupleAssemble, UnsymmetricEdgeCoupleAssemble, NodeVolumeAssemble, EdgeNodeVolumeAssemble, ElementEdgeCoupleAssemble"]}
{"id": "C41", "title": "assembling only the matrix or only the right hand side gives the same parts", "statement": "Loading only the right hand side, or only the matrix, of an equation gives exactly the entries that loading both gives.", "quantifier": "all equations, contacts, interfaces, meshes and model values", "why_tests_cant": "all models", "anchors": ["src/AutoEquation/ExprEquation.cc", "src/AutoEquation/ExprContactEquation.cc", "src/AutoEquation/InterfaceExprEquation.cc", "src/Equation/Equation.cc"]}
{"id": "C42", "title": "a diverging solve stops after maximum_divergence iterations", "statement": "If the errors of a device exceed the limits and grow in maximum_divergence consecutive iterations, solve stops there and reports failure; it does not stop for divergence before that many consecutive diverging iterations.", "quantifier": "all error histories and numbers of devices", "why_tests_cant": "all iteration histories", "anchors": ["src/math/Newton.cc: Solve"]}
{"id": "C43", "title": "a time step solves the discretised equation", "statement": "In every iteration of a time step the right hand side handed to the linear solver is minus (b0 I + b1 I' + b2 I'' + a0 Q + a1 Q' + a2 Q''), with the present assembled equations and those of the last accepted time points, and the matrix is b0 dI + a0 dQ; a dc solve uses I and dI; a small-signal solve uses dI + 2 pi f j dQ.", "quantifier": "all devices, circuits, row permutations, histories, methods and frequencies", "why_tests_cant": "all systems and histories", "anchors": ["src/math/Newton.cc: Solve, InitializeTransientAssemble, LoadMatrixAndRHS, LoadMatrixAndRHSAC"]}
{"id": "C45", "title": "a failed or unfinished load and the loads after it", "statement": "After a load_devices that stopped inside a device description (a syntax error, a name that is already taken, a file whose end is missing) every later load_devices call in the session fails or does nothing, whatever the file, and it changes no device; loading the same file twice in one session is such a case. A file whose end_device line is missing is reported as loaded although no device was created.", "quantifier": "all session states with an unfinished mesh or a left-over scanner state, all later file contents, all sequences of later loads", "why_tests_cant": "needs every possible later file text and every sequence of loads", "anchors": ["src/meshing/DevsimScanner.l:DevsimParseFile", "src/meshing/DevsimParser.y", "src/meshing/DevsimReader.cc:DevsimLoaderSingleton"]}
{"id": "C44", "title": "connectivity tables of a region are complete and exact", "statement": "After a region is created, the edges, triangles and tetrahedra listed for a node are exactly those containing it; the triangles and tetrahedra listed for an edge or triangle are exactly those containing all its nodes; the edge (triangle) stored at position j of a triangle (tetrahedron) is the one opposite to node j; every tetrahedron has its six edges, each with the two faces that meet in it and their opposite nodes. Mesh creation succeeds exactly when, in two dimensions, every edge is part of one or two triangles and, in three, every triangle of one or two tetrahedra.", "quantifier": "all meshes of any size in one, two or three dimensions, all orders of the elements", "why_tests_cant": "needs every possible mesh; tests only look at a few", "anchors": ["src/Geometry/Region.cc: FinalizeMesh, CreateNodeToEdgeList, CreateEdgeToTriangleList, CreateTriangleToEdgeList, CreateTetrahedronToEdgeDataList, FindEdge, GetEdgeIndexOnTriangle"]}
{"id": "C46", "title": "centers of triangles and tetrahedra are circumcenters", "statement": "The center used for every triangle that is not degenerate is the point of its plane with the same distance to its three nodes (whichever formula, for planes parallel to the axes or not, is chosen); the center of every tetrahedron that is not flat has the same distance to its four nodes. Coordinates that differ by less than the mesh tolerance are excluded.", "quantifier": "all positions of the nodes", "why_tests_cant": "the choice of formula depends on the position of the plane; continuum of inputs", "anchors": ["src/Geometry/Triangle.cc: GetTriangleCenter", "src/Geometry/Tetrahedron.cc: GetTetrahedronCenter", "src/Geometry/Region.cc: SetTriangleCenters, SetTetrahedronCenters"]}
{"id": "C47", "title": "node volumes partition the region", "statement": "In one dimension the node volumes of a region add up to the total length of its edges. In two and three dimensions they add up to at least the area (volume) of the region, and exactly to it if and only if no triangle has an obtuse angle (no tetrahedron has its center outside, and no face with an obtuse angle unless the center lies in its plane). Each volume is the sum of the boxes of its edges, edge length times couple divided by twice the dimension.", "quantifier": "all meshes of any size and all positions of the nodes", "why_tests_cant": "a sum identity over every possible mesh", "anchors": ["src/GeomModels/NodeVolume.cc", "src/GeomModels/EdgeNodeVolume.cc", "src/GeomModels/EdgeCouple.cc", "src/GeomModels/TriangleEdgeCouple.cc", "src/GeomModels/TriangleNodeVolume.cc", "src/GeomModels/TetrahedronEdgeCouple.cc", "src/GeomModels/TetrahedronNodeVolume.cc", "src/GeomModels/EdgeLength.cc"]}
{"id": "C48", "title": "surface areas and normals of contacts and interfaces", "statement": "The surface areas of the nodes of a contact or interface add up to its length (in three dimensions at least its area, exactly if none of its triangles is obtuse), each edge or triangle counting once even if it belongs to several contacts. The surface normal of each node on it is a unit vector, perpendicular to the surface where this is flat; it is zero for the other nodes. The unit vector of an edge points from its first to its second node.", "quantifier": "all meshes, all lists of contact and interface elements, all positions", "why_tests_cant": "sum identities and the sign handling of normals over every possible surface", "anchors": ["src/GeomModels/SurfaceAreaUtil.cc", "src/GeomModels/SurfaceArea.cc", "src/GeomModels/UnitVec.cc", "src/GeomModels/EdgeInverseLength.cc"]}
{"id": "C49", "title": "distance to an interface and contact nodes", "statement": "interface_normal_model gives for every edge the distance of its center to the nearest node of the interface, and the normal of a nearest node oriented from the edge to that node. AtContactNode is the number of the region's contacts that have the node.", "quantifier": "all regions, interfaces, contacts and positions of the nodes", "why_tests_cant": "minimum over an unbounded set of nodes, ties and orientation", "anchors": ["src/GeomModels/InterfaceNormal.cc", "src/GeomModels/AtContactNode.cc"]}
{"id": "C50", "title": "averages of a node model on the edges", "statement": "edge_average_model gives on every edge the arithmetic mean, the geometric mean (values whose product is not negative), or the difference of the values from the first to the second node over the length of the edge (with the opposite sign for negative_gradient). With a derivative given, the models @n0 and @n1 are the derivatives of that value by the variable on the first and second node (geometric: for positive values). The gradient of a linear function is the projection of its gradient on the direction of the edge. edge_from_node_model gives the two values in the order of the nodes of the edge.", "quantifier": "all meshes, positions, node models and variables", "why_tests_cant": "continuum of values; derivatives", "anchors": ["src/GeomModels/AverageEdgeModel.cc", "src/models/EdgeFromNodeModel.cc"]}
{"id": "C51", "title": "vector fields on the elements", "statement": "On every triangle with an area (tetrahedron with a volume) element_from_edge_model gives a vector on each edge whose component along the edge is the value of the edge model, and element_pair_from_edge_model the vectors at the two ends, each with the values of all edges of the element at that end as components. An edge model that is the projection of a constant vector (for instance the gradient of a linear function) gives that vector everywhere. The derivative models @en0, @en1, @en2 (@en3) are the derivatives of these vectors by the variable on the nodes for which element_from_node_model uses the same names, which are all nodes of the element. No value depends on the element computed before on the same thread.", "quantifier": "all meshes, elements, positions, edge models and variables", "why_tests_cant": "schedule of elements over threads, all positions and values, derivatives", "anchors": ["src/Geometry/TriangleElementField.cc", "src/Geometry/TetrahedronElementField.cc", "src/models/TriangleEdgeFromEdgeModel.cc", "src/models/TetrahedronEdgeFromEdgeModel.cc", "src/models/TriangleEdgeFromNodeModel.cc", "src/models/TetrahedronEdgeFromNodeModel.cc"]}
{"id": "C52", "title": "vector_gradient", "statement": "vector_gradient gives on every node the average of the gradients of the model on the elements at the node; with calc_type avoidzero only of the elements where the model is zero on no node, and zero if there are none. For a model that is linear on these elements the result is its gradient exactly.", "quantifier": "all meshes in one, two and three dimensions, all positions and node models", "why_tests_cant": "all meshes and values", "anchors": ["src/Geometry/GradientField.cc", "src/GeomModels/VectorGradient.cc"]}
{"id": "C53", "title": "the value of an expression model", "statement": "Whenever a node, edge or element edge model given by an expression gets values (node_model, edge_model, element_model), it gets one for each node (edge, element edge) of the region, and each is the value of the expression there: parameters and circuit nodes by their value, a name of a node model by its value at the node, of an edge model by its value at the edge (in an element model: at the edge of the region the element edge lies on; x@en0 and x@en1 stand for the edge models x@n0 and x@n1 when there is no such element model), functions applied point by point. Models at a contact are right at the nodes or edges of the contact. The evaluation succeeds when the parameters exist, the models are of the right kind and the functions are defined at each point; mixing node and edge models is refused. vec_sum, vec_max and vec_min give the sum, largest and smallest entry. The sharing of values of common subexpressions and the short cuts for uniform values change nothing. A model whose expression is a symbolic derivative holds the derivative at each point.", "quantifier": "all expressions, regions, models of all kinds, functions and orders of evaluation", "why_tests_cant": "all expressions and data; states of the cache; contact, uniform and array data in any mixture", "anchors": ["src/AutoEquation/ModelExprEval.cc", "src/AutoEquation/ModelExprData.cc", "src/MathEval/MathEval.cc", "src/AutoEquation/NodeExprModel.cc", "src/AutoEquation/EdgeExprModel.cc", "src/AutoEquation/TriangleEdgeExprModel.cc", "src/AutoEquation/TetrahedronEdgeExprModel.cc"]}
{"id": "C54", "title": "the Bernoulli function is accurate", "statement": "In double and in extended precision B(x) differs from x/(exp(x)-1) (1 at x = 0) by at most six units of rounding of the result, for every x, whichever of the five formulas is used; it is positive.", "quantifier": "all arguments, all ways to break ties in rounding", "why_tests_cant": "a continuum of arguments, branches chosen by rounding", "anchors": ["src/MathEval/Bernoulli.cc: Bernoulli"]}
{"id": "C55", "title": "the derivative of the Bernoulli function is accurate", "statement": "dBdx(x) is the derivative of the Bernoulli function to within a few units of rounding, for every x.", "quantifier": "all arguments", "why_tests_cant": "cancellation only shows for special arguments", "anchors": ["src/MathEval/Bernoulli.cc: derBernoulli"]}
{"id": "C56", "title": "Fermi and InvFermi", "statement": "InvFermi is an increasing function of its positive argument that takes every value, dInvFermidx is its derivative; Fermi ends for every argument and InvFermi(Fermi(x)) = x up to the tolerance; dFermidx is the derivative of Fermi.", "quantifier": "all arguments", "why_tests_cant": "a continuum of arguments, termination of a nested iteration", "anchors": ["src/MathEval/Fermi.cc"]}
{"id": "C57", "title": "the Gauss-Fermi integral and its inverse", "statement": "For every nonzero s gfi(x,s) is increasing in x and between 0 and 1, and dgfidx is its derivative, also where the formula changes. The results do not depend on the calls before, although values are kept per thread. igfi(g,s) is the argument where gfi is g, for g between 0 and 1, and digfidx is its derivative.", "quantifier": "all arguments, all sequences of calls", "why_tests_cant": "a continuum of arguments, all call histories", "anchors": ["src/MathEval/GaussFermi.cc", "src/MathEval/MiscMathFunc.cc"]}
{"id": "C58", "title": "kahan3 and kahan4 are accurate", "statement": "kahan3(a,b,c) and kahan4(a,b,c,d) differ from the exact sum by at most one rounding of the sum and a term of second order in the unit of rounding times the sum of the absolute values.", "quantifier": "all floating point arguments, all ways to break ties", "why_tests_cant": "all arguments", "anchors": ["src/MathEval/kahan.cc"]}
{"id": "C59", "title": "derivatives of the functions that come with the program", "statement": "diff of a call of one of the functions B, abs, sgn, step, erf, erfc, erf_inv, erfc_inv, InvFermi, Fermi, dot2d, max, min, kahan3, kahan4, asinh, acosh, atanh, sinh, cosh, tanh, gfi, igfi and of the functions that are their derivatives gives, by the chain rule, the derivative of the function by each argument, wherever it has one.", "quantifier": "all functions of the table, all argument expressions and all points", "why_tests_cant": "a continuum of points; composition with all expressions", "anchors": ["src/AutoEquation/DefaultDerivatives.cc: CreateDefaultDerivatives", "src/MathEval/AdditionalMath.hh", "src/adiff/UserFunc.cc"]}
{"id": "C60", "title": "small-signal AC analysis", "statement": "When solve(type='ac', frequency=f) reports success, the complex numbers that can be read afterwards (<variable>_Real and <variable>_Imag of every region, ssac_real and ssac_imag of the circuit) solve the equations linearized at the operating point: Jacobian of the static terms plus 2 pi i f times the Jacobian of the time derivative terms, contacts, interfaces, circuit and custom equations included, with the amplitudes acreal + i acimag of the voltage sources as only excitation; that is, they are the steady sinusoidal response. All other solutions keep their values; when it reports failure, so do all.", "quantifier": "all devices, circuits, custom equations, frequencies, operating points and correct direct solvers", "why_tests_cant": "all systems and frequencies; the numbers of a single run do not show which equations they solve", "anchors": ["src/math/Newton.cc: ACSolve, LoadMatrixAndRHSAC, LoadCircuitRHSAC, LoadMatrixAndRHS", "src/Circuit/IdealVoltage.cc: assembleACRHS", "src/Equation/Equation.cc: ACUpdate", "src/math/CompressedMatrix.cc", "src/math/MKLPardiso.cc"]}
{"id": "C61", "title": "noise analysis", "statement": "When solve(type='noise', frequency=f, output_node=n) reports success, the values <n>_<equation>_real and _imag at a node are the response of circuit node n to a unit source of this equation at this node (after the rows of contacts and interfaces are merged), and noise_<n>_real, noise_<n>_imag of the circuit are the response to a unit current into each circuit node. An output node that does not exist, or ground, is refused.", "quantifier": "all devices, circuits, frequencies, output nodes", "why_tests_cant": "one transposed solution stands for as many ordinary ones as there are equations", "anchors": ["src/math/Newton.cc: NoiseSolve", "src/Equation/Equation.cc: NoiseUpdate", "src/math/MKLPardiso.cc: Backsolve"]}
{"id": "C62", "title": "get_matrix_and_rhs returns the assembled system", "statement": "get_matrix_and_rhs returns, in the compressed format it was asked for, the Jacobians of the static terms and of the time derivative terms and minus the residuals, exactly those that solve would use, and the arrays that describe how rows are merged; for every device, circuit and set of custom equations.", "quantifier": "all systems and both formats", "why_tests_cant": "all systems, among them those where the two matrices have different patterns", "anchors": ["src/math/Newton.cc: GetMatrixAndRHSForExternalUse", "src/math/CompressedMatrix.cc: ClearMatrix"]}
{"id": "C63", "title": "custom equations", "statement": "Each time the equations are assembled, every custom equation is called with what is wanted and the kind of analysis, and the entries in its result [matrix, rhs, permuted] are added to the system, each list entry to the row (and column) it names, through the merging of rows at contacts and interfaces exactly when permuted is true. A call that fails, a result of another form, a row that is no integer or a value that is no number ends the solution with an error.", "quantifier": "all sets of custom equations, all results, all analyses", "why_tests_cant": "arbitrary scripts and results", "anchors": ["src/math/Newton.cc: AssembleTclEquations, AssembleTclEquation, LoadMatrixAndRHS", "src/pythonapi/ObjectHolder.cc"]}
{"id": "C64", "title": "options of commands", "statement": "A command runs only if every keyword given is one of its options, every value can be converted to the type of the option, every required option is given and all checks accept; otherwise it raises an error and changes nothing. When it runs, each option has the value given, exactly, or its default.", "quantifier": "all option tables, all calls", "why_tests_cant": "all combinations of keywords and types of values", "anchors": ["src/pythonapi/GetArgs.cc: processOptions", "src/common_api/GetArgsCommon.cc", "src/pythonapi/ObjectHolder.cc: GetInteger, GetDouble, GetBoolean"]}
{"id": "C65", "title": "vectors of numbers from the script", "statement": "A vector given as list, tuple, array.array or numpy vector is received as exactly the numbers in it, converted to double or integer, and is refused if that is not possible (set_node_values, create_gmsh_mesh, contacts and interfaces from nodes).", "quantifier": "all vectors of all types", "why_tests_cant": "all contents and types; bytes are reinterpreted", "anchors": ["src/pythonapi/ObjectHolder.cc: GetDoubleList, GetLongList, GetUnsignedLongList, GetArrayFromBytes, GetFromList"]}
{"id": "C66", "title": "the mesh of a two-dimensional description", "statement": "finalize_mesh of a two-dimensional mesh either reports an error (exactly if the lines of a direction are all at one position or no part of the grid is inside a region) or makes this mesh: the points are all crossings of grid positions; the positions in a direction include all lines, begin and end at a line and obey the spacings of the neighbouring lines; the halves of all cells tile the rectangle of the lines without overlap; each half cell is a triangle of the region in which its centre lies, of the one described last if several contain it, and of no other; a region has exactly the corners of its triangles as nodes and their sides as edges, each edge with one or two triangles; a contact has exactly the nodes of its region at points inside it where two regions meet, that no earlier contact takes; an interface has exactly the pairs of nodes of its two regions at points inside it that no contact and no earlier interface takes, and the two nodes of a pair are at the same point. create_device makes a device of it.", "quantifier": "all lists of lines, regions, contacts and interfaces; all spacings and rectangles; any order in which lines of equal position are sorted", "why_tests_cant": "infinitely many descriptions; coverage, disjointness and completeness are statements about all cells", "anchors": ["src/meshing/Mesh2d.cc: Finalize_, GetLocations, FindRegion, AddRegion", "src/meshing/Mesh2dStructs.hh", "src/meshing/Mesh1dStructs.cc: GetPoints", "src/meshing/DevsimLoader.cc: Finalize_, Instantiate_"]}
{"id": "C67", "title": "the commands that describe a two-dimensional mesh", "statement": "After any script of add_2d_mesh_line, add_2d_region, add_2d_contact and add_2d_interface, the mesh consists of the lines, regions, contacts and interfaces of the commands that succeeded, in their order, and every rectangle given for a name belongs to it. Rectangles with their sides on grid lines and a margin of at most a third of every cell hold exactly the half cells that lie in them. Contacts are made where they are described.", "quantifier": "all scripts of commands", "why_tests_cant": "all sequences of commands, valid and invalid, with repeated names", "anchors": ["src/commands/MeshingCommands.cc: add2dMeshLineCmd, add2dRegionCmd, add2dContactCmd, add2dInterfaceCmd", "src/meshing/Mesh2d.cc: AddRegion, AddContact, AddInterface, AddLine"]}
{"id": "C68", "title": "the groups of a Gmsh mesh", "statement": "finalize_mesh of a Gmsh mesh succeeds if and only if elements that have the same physical name are all of the same type. Then the dimension of the mesh is that of the largest element, and the points, lines, triangles and tetrahedra of each physical group are exactly the corners and sides of its elements, each once. A second finalize_mesh fails.", "quantifier": "all meshes of all elements and names", "why_tests_cant": "all sets of elements; completeness is a statement about all sides", "anchors": ["src/meshing/GmshLoader.cc: Finalize_, GetDimension, DecomposeAndUniquify", "src/meshing/GmshLoader.hh"]}
{"id": "C69", "title": "the device of a Gmsh mesh", "statement": "create_device of a finalized Gmsh mesh succeeds if and only if the name is free, all nodes of all regions have coordinates, the regions pass the topological checks, and contacts and interfaces name existing regions and lie on them. The device has the regions, contacts and interfaces of the description, each made of exactly the elements of its physical groups; a region has one node for each coordinate index that its elements use, at this coordinate; the two nodes of a pair of an interface are at the same coordinate index. Otherwise it reports an error and no device is made.", "quantifier": "all finalized meshes, all names, all sets of devices", "why_tests_cant": "all meshes and descriptions; exactness of the elements is a statement about all of them", "anchors": ["src/meshing/GmshLoader.cc: Instantiate_, GetUniqueNodesFromPhysicalNames, GetUniqueTetrahedraFromPhysicalNames, GetUniqueTrianglesFromPhysicalNames, GetUniqueEdgesFromPhysicalNames"]}
{"id": "C70", "title": "create_gmsh_mesh from lists, and the commands that describe the mesh", "statement": "create_gmsh_mesh with coordinates, physical_names and elements succeeds if and only if the coordinates are triples, every element has an existing type, group and coordinates and enough entries, and each group has one dimension; otherwise it reports an error. The mesh has exactly these coordinates, groups and elements. add_gmsh_region, add_gmsh_contact and add_gmsh_interface succeed on it before finalize_mesh if no option is empty, and add the group to the object named.", "quantifier": "all lists and all scripts of commands", "why_tests_cant": "all lists, well formed and not; all sequences of commands", "anchors": ["src/meshing/GmshReader.cc: LoadMeshesFromArgs", "src/commands/MeshingCommands.cc: createGmshMeshCmd, addGmshRegionCmd, addGmshContactCmd, addGmshInterfaceCmd", "src/meshing/GmshLoader.hh: MapPhysicalNameToContact, MapPhysicalNameToInterface, MapPhysicalNameToRegion"]}
{"id": "C71", "title": "create_gmsh_mesh from a file", "statement": "A file of Gmsh, version 2.1 or 2.2, is read as the mesh that it describes: names, coordinates and elements with their groups; and with the commands that describe it it leads to the device described. Any other file is refused, and whatever the file, the mesh left behind is one that later commands can deal with. Files are read independently of each other.", "quantifier": "all files, all histories of reading files", "why_tests_cant": "all texts; a scanner with states that survive from one file to the next", "anchors": ["src/meshing/GmshScanner.l", "src/meshing/GmshParser.y: processElement, processCoordinate, processPhysicalName", "src/meshing/GmshLoader.hh"]}
{"id": "C72", "title": "the iterative solver reports what it did", "statement": "With set_parameter solver_type iterative, for every nonsingular system in exact arithmetic: no operation is undefined and the iteration ends; the relative tolerance that is reported is the relative preconditioned residual of the solution returned, and the reported convergence flag says whether it is below the requested one; the residual is not larger than that of the first guess and is the smallest of all corrections in the Krylov space of a cycle; a system of at most 50 unknowns is solved. A linear solve that did not reach the tolerance makes the solve command fail.", "quantifier": "all nonsingular matrices, right hand sides, preconditioners and first guesses, of all sizes", "why_tests_cant": "the claims are about all systems; breakdowns need special systems", "anchors": ["src/math/gmres.cc: GMRES, Update, GeneratePlaneRotation, ApplyPlaneRotation", "src/math/IterativeLinearSolver.cc: SolveImpl"]}
{"id": "C73", "title": "the preconditioner of the iterative solver", "statement": "The preconditioner is made of entries of the matrix with their values. An entry that couples two regions is always kept. Of the others, exactly those are left out that are smaller than half of the largest entry of their row in the same equation, and are not on the diagonal. This holds also for devices in circuits.", "quantifier": "all matrices, all numbers of regions, equations and nodes", "why_tests_cant": "all matrices; the order of equal entries after std::sort is not determined", "anchors": ["src/math/BlockPreconditioner.cc: CreateBlockInfo, ProcessBlockInfo", "src/math/BlockPreconditioner.hh: BlockInfo"]}
{"id": "C74", "title": "VTK files", "statement": "write_devices with type vtk writes, for every region of the device in order, a file that a reader of VTK XML takes for the grid of this region: its points, its lines, triangles or tetrahedra with their types, and, bit by bit, the values of all models on it that are displayed and that include_test accepts, with their names and numbers of components; and the files .vtm and .visit list exactly these files, so that opening them gives all regions.", "quantifier": "all devices of one to three dimensions, with any regions, models and display types, any include_test, file name and lossless compressor", "why_tests_cant": "the values, names and sizes that break the format (arrays of 4096 values, markup in names, directories) are not in any test; a test opens one file", "anchors": ["src/meshing/VTKWriter.cc: VTK::WriteSingleDevice, WriteRegionWithEdgeData, WritePointData, WriteElementData, WriteDataArray, WriteLines, WriteTriangles, WriteTetrahedrons", "src/utility/base64.cc: convertVectorToZlibBase64"]}
{"id": "C75", "title": "Tecplot files", "statement": "write_devices with type tecplot writes a file that a reader of Tecplot ASCII takes for the device: one zone for each region, in order, with its name, numbers of nodes and elements, element type and corners; the variables are the coordinates and, each once, the models that include_test accepts, displayed as in the first region that has them; in each zone every variable has, in order, the values (as printed) of the model at the nodes or on the elements, zeros where the region has no such model; and long lines are broken so that nothing is lost and no line is longer than 30000 characters.", "quantifier": "all devices of one to three dimensions with any regions, models, display types and include_test", "why_tests_cant": "conflicts of display types between regions, lengths of lines and combinations of node, edge and element variables are unbounded", "anchors": ["src/meshing/TecplotWriter.cc: Tecplot::WriteSingleDevice, BreakLine, WriteBlock, WriteUniform, WriteNodeBlock, WriteEdgeBlockScalar, WriteEdgeBlockVector, WriteTriangleEdgeBlockScalar, WriteTetrahedronEdgeBlockScalar, WriteEdges, WriteTriangles, WriteTetrahedra"]}
{"id": "C76", "title": "Elements of contacts and interfaces", "statement": "The elements of a contact, or of a side of an interface, that was made from nodes are exactly the outer edges (in two dimensions) or outer triangles with their sides (in three) of the region all of whose nodes belong to it, in increasing order; elements that came from a file are kept. Every question is answered so, in every history of questions to either side.", "quantifier": "all regions as the loaders make them, all lists of nodes, all histories of questions about edges and triangles", "why_tests_cant": "the elements are found on the first question and stored; regions and histories are unbounded", "anchors": ["src/Geometry/Contact.cc: FindEdges, FindTriangles, GetEdges, GetTriangles", "src/Geometry/Interface.cc: FindEdges, FindTriangles, GetEdges0, GetEdges1, GetTriangles0, GetTriangles1, AddTriangles, AddEdges", "src/commands/GeometryCommands.cc: getElementNodeListCmd"]}
{"id": "C77", "title": "Contacts from interfaces, interfaces from nodes, and keeping them", "statement": "create_contact_from_interface makes a contact on the region with the nodes and elements of that side of the interface and changes nothing else; create_interface_from_nodes makes an interface of the given nodes; both report wrong arguments as errors and leave the device as it is; and writing a device keeps its interfaces: by nodes when they were made from nodes, by elements otherwise.", "quantifier": "all devices, names, regions, interfaces and lists of nodes", "why_tests_cant": "the commands meet every combination of dimension, stored elements and names in use", "anchors": ["src/commands/MeshingCommands.cc: createContactFromInterfaceCmd, createInterfaceFromNodesCmd", "src/Geometry/Device.cc: AddContact, AddInterface", "src/meshing/DevsimRestartWriter.cc: WriteSingleDevice"]}
{"id": "C78", "title": "Volumes in cylindrical coordinates", "statement": "With a rotation axis at raxis_zero of coordinate raxis_variable, the values of CylindricalNodeVolume of a two dimensional region, added over the nodes, are the volume of the solid that the region makes when it turns around the axis, and CylindricalEdgeNodeVolume@n0 and @n1 have for every edge the volume at its two ends.", "quantifier": "every mesh of triangles without obtuse angles, every position and choice of the axis", "why_tests_cant": "the formula has to hold for triangles of every shape, in every direction and at every distance from the axis", "anchors": ["src/GeomModels/TriangleCylindricalNodeVolume.cc:calcCylindricalTriangleVolume", "src/GeomModels/CylindricalNodeVolume.cc", "src/GeomModels/CylindricalEdgeNodeVolume.cc"]}
{"id": "C79", "title": "Areas in cylindrical coordinates", "statement": "CylindricalEdgeCouple of an edge is the area of the surface that the face between the two boxes of the edge makes when it turns around the axis, added over the triangles of the edge; CylindricalSurfaceArea of a node is the area made by the halves of the contact and interface edges at the node, an edge that belongs to several contacts or interfaces counting once, so that the values over all the nodes add up to the area of the boundary.", "quantifier": "every mesh, position, axis (not crossed by the segments) and list of boundary edges", "why_tests_cant": "the areas have to be right for every mesh and every way in which contacts and interfaces share edges", "anchors": ["src/GeomModels/TriangleCylindricalEdgeCouple.cc", "src/GeomModels/CylindricalEdgeCouple.cc", "src/GeomModels/CylindricalSurfaceArea.cc:CalcAreasOnEdges"]}
{"id": "C80", "title": "Values of interface models", "statement": "Whenever an interface model has values, it has one for each pair of nodes of the interface, and it is the value of its expression there, where x@r0 and x@r1 stand for the value of the node model x of the first and second region at their node of the pair, p@r0 and p@r1 for the parameters of a region, other names for interface models or for parameters with the same value in both regions. An expression all of whose names and functions are defined always has values.", "quantifier": "every expression, interface, pair of nodes, set of models and parameters, content of the cache", "why_tests_cant": "the same expression is evaluated for arrays, uniform values and numbers and through a cache keyed by text; the values must be right for every mix", "anchors": ["src/AutoEquation/InterfaceModelExprEval.cc:eval_function", "src/AutoEquation/InterfaceModelExprData.cc:op_equal", "src/AutoEquation/InterfaceNodeExprModel.cc:calcNodeScalarValues"]}
{"id": "C81", "title": "Derivatives of interface models", "statement": "A derivative of an interface model holds at each pair of nodes the derivative of the value of the model: by y@r0 the node models x@r0 contribute the node model x:y of the first region, the models of the other region nothing, and an interface model m the interface model m:y@r0.", "quantifier": "every expression, variable and motion of the quantities of a pair", "why_tests_cant": "a wrong name for one derivative gives a Jacobian that is wrong at some points only", "anchors": ["src/AutoEquation/EquationFunctions.cc:DefaultDevsimDerivative", "src/AutoEquation/InterfaceModelExprEval.cc:GetRegionAndName"]}
{"id": "C82", "title": "Models computed together are current", "statement": "The models that one command creates together (edge_from_node_model, edge_average_model, element_from_edge_model, vector_gradient and others) always have the values that follow from the present inputs, whichever of them is asked first; asking changes no answer; values the user gives to a model of that name are not overwritten by the group.", "quantifier": "every history of creating, setting, asking and deleting models, every depth of groups of groups", "why_tests_cant": "one member computes all; which one is asked, what was deleted, redefined or set in between, and the order of notifications all matter", "anchors": ["src/models/EdgeSubModel.cc:calcEdgeScalarValues", "src/models/EdgeFromNodeModel.cc:calcEdgeScalarValues", "src/models/TriangleEdgeFromEdgeModel.cc:calcTriangleEdgeScalarValues", "src/GeomModels/VectorGradient.cc", "src/Geometry/Region.cc:SignalCallbacks"]}
{"id": "C83", "title": "Models computed together always have values", "statement": "As long as nothing was deleted or redefined each member of a group of models computed together has values, without error and without end of the program; when a model that the values are made of was deleted, asking gives no values.", "quantifier": "every history of creating, setting and asking, every depth of groups of groups", "why_tests_cant": "pointers between members of a group may be expired, and the recursion between members must come to an end for every history", "anchors": ["src/models/EdgeSubModel.cc:calcEdgeScalarValues", "src/models/EdgeFromNodeModel.cc:calcEdgeScalarValues", "src/GeomModels/VectorGradient.cc", "src/Geometry/Region.cc:DeleteEdgeModel"]}
{"id": "C84", "title": "A custom solver is told the assembled system", "statement": "The function set as solver_callback is called with init first, then with factor and solve in turns; factor has the matrix of the iteration (csc or csr as asked, complex entries as two numbers), solve its right hand side, and every call the object that init returned; is_same_symbolic is true only if the structure is that of the factor call before. If each answer solves the system it was told, the solutions used solve the assembled systems.", "quantifier": "every function as a solver (its answers may depend on all earlier calls), every sequence of systems and right hand sides, every size", "why_tests_cant": "the arrays are built from sparse storage that is kept, cleared and rebuilt between iterations; a test sees a few matrices", "anchors": ["src/math/ExternalPreconditioner.cc:init", "src/math/ExternalPreconditioner.cc:DerivedLUFactor", "src/math/ExternalPreconditioner.cc:DerivedLUSolve", "src/math/Newton.cc:Solve", "src/math/CompressedMatrix.cc"]}
{"id": "C85", "title": "The solution used is the one the custom solver returned", "statement": "Each solution of a linear system that is used is, number by number, the x of the dictionary that the custom solver returned for this system, and has one number for each unknown; otherwise the solve fails or is an error.", "quantifier": "every function as a solver, every answer that Python can give, real and complex systems", "why_tests_cant": "every kind of Python object may be returned", "anchors": ["src/math/ExternalPreconditioner.cc:DerivedLUSolve", "src/math/Preconditioner.cc:LUSolve", "src/pythonapi/ObjectHolder.cc:GetComplexDoubleList"]}
{"id": "C86", "title": "No refusal of a custom solver is overlooked", "statement": "If the custom solver raises an exception, returns a status that is not true, or returns no usable x, this was its last call, the command ends with an error and no solution is used for this system; an unusable answer to init is an error before the first system.", "quantifier": "every function as a solver, every history of calls, every answer", "why_tests_cant": "the refusal may come at any call of any iteration", "anchors": ["src/math/ExternalPreconditioner.cc", "src/math/DirectLinearSolver.cc:SolveImpl"]}
{"id": "C87", "title": "The direct solver is the one asked for", "statement": "With the parameter direct_solver the solver of this name is used or the command is an error; without it MKL is used if it was found and else the custom solver; the custom solver must be set and callable.", "quantifier": "every value of the parameters direct_solver and solver_callback, every build", "why_tests_cant": "depends on the build, the libraries found and the parameters", "anchors": ["src/math/SolverUtil.cc:GetDirectSolver", "src/math/SolverUtil.cc:CreateDirectPreconditioner"]}
{"id": "C88", "title": "The values of models as the script sets and reads them", "statement": "set_node_values, set_edge_values, set_element_values and set_node_value set the values they are given (or those of the init_from model), one for each node, edge or element in order; get_*_model_values and print_*_values give, for a model set this way, the values last set, and for every other model the value of its definition from the values now set, until they are set again.", "quantifier": "every history of definitions, deletions, assignments and reads on a region, every number of nodes, edges and elements", "why_tests_cant": "values are cached in models and invalidated over the dependency graph; a test sees a few histories", "anchors": ["src/commands/ModelCommands.cc:setNodeValuesCmd", "src/commands/ModelCommands.cc:setNodeValueCmd", "src/commands/ModelCommands.cc:printNodeValuesCmd", "src/Data/NodeModel.cc:SetValues", "src/Data/EdgeModel.cc:SetValues"]}
{"id": "C89", "title": "Setting values touches nothing else; a refused call changes nothing", "statement": "A call that sets values changes only the values of this model and of the models computed from it, of this region of this device; a call that is refused changes no value.", "quantifier": "every call with every argument value, every world of devices and regions, every history", "why_tests_cant": "the interplay of options, defaults and error texts is only sampled by tests", "anchors": ["src/commands/ModelCommands.cc:setNodeValuesCmd", "src/commands/ModelCommands.cc:setNodeValueCmd", "src/commands/Validate.cc", "src/commands/CheckFunctions.cc"]}
{"id": "C90", "title": "solve(info=True) tells what the iterations did", "statement": "The dictionary that solve returns with info=True has the number of equations, an entry for each iteration, numbered from 0, whose linear system was solved, with the largest change and relative change of each equation, the node of each of the two, their sums per region, the largest change and the sum of the relative ones per device, those of the circuit; charge_error exactly if the method integrates and the iteration met its limits, being the largest relative difference of a charge and its projection; converged is true exactly if the errors of the last iteration are below the limits and the charge error is not above its limit. Asking for it changes nothing in the program.", "quantifier": "every world of devices, regions, equations and update types, every linear system, limits, method and history", "why_tests_cant": "a test compares a few numbers of one converged run; that each number is the extremum or sum over the right nodes, equations and regions, for every state the iteration passes, needs induction over the iteration", "anchors": ["src/math/Newton.cc:Solve", "src/math/Newton.cc:PrintDeviceErrors", "src/math/Newton.cc:PrintCircuitErrors", "src/math/Newton.cc:CheckTransientProjection", "src/Equation/Equation.cc:DefaultUpdate", "src/Geometry/Region.cc:Update"]}
{"id": "C91", "title": "The solve command does the analysis its options ask for", "statement": "solve(type=...) runs the analysis of its type: a Newton iteration with the time method of the type, tdelta and gamma, or the small-signal or noise analysis at frequency and output_node, with the limits and the linear solver of its options, each being what was given or its default. Without info it answers None exactly if the solve converged and an error otherwise; with info it answers the dictionary. An unknown type or solver, a zero tdelta or gamma of a transient type, info for ac or noise, and bad options are errors that leave the program as it was.", "quantifier": "every set of keyword arguments and values, every world, every behaviour of the solvers", "why_tests_cant": "options interact (type, info, tdelta, gamma, solver_type): a test covers a few combinations; the claim ranges over all texts and values and over what the solve did", "anchors": ["src/commands/MathCommands.cc:solveCmd", "src/commands/MathCommands.cc:solveCmdImpl", "src/math/Newton.hh:TimeMethods"]}
{"id": "C92", "title": "Equations are as they were told", "statement": "Whatever equations are created, told again and deleted, by equation, contact_equation, interface_equation and their delete commands, get_equation_list lists exactly the equations there are, in the order of their creation (those of contacts and interfaces by name), and get_equation_command and its likes tell for each the texts of all options of the command that created it last, so that the equation can be created again from what is told. A name told again keeps its place; a refused command changes nothing; other regions, contacts and interfaces are not affected.", "quantifier": "every history of these commands with any options, on any devices, regions, contacts and interfaces", "why_tests_cant": "the tables of names, positions and variables are changed by every command: a test follows one history", "anchors": ["src/commands/EquationCommands.cc:createEquationCmd", "src/commands/EquationCommands.cc:deleteEquationCmd", "src/commands/EquationCommands.cc:getEquationListCmd", "src/Geometry/Region.cc:AddEquation", "src/Geometry/Region.cc:DeleteEquation", "src/AutoEquation/ExprEquation.cc:GetCommandOptions_Impl", "src/AutoEquation/ExprContactEquation.cc:GetCommandOptions_Impl", "src/AutoEquation/InterfaceExprEquation.cc:GetCommandOptions_Impl"]}
{"id": "C93", "title": "get_equation_numbers tells the rows of an equation", "statement": "get_equation_numbers tells for the equation, or the equation of the variable, one number for each node of the region in the order of the nodes: the number of the first row of the region in the last solve, plus the position of the equation in get_equation_list times the number of nodes, plus the position of the node; equations of a region have no row in common. Both or none of variable and equation, an unknown one, and a region that was never solved are errors; nothing is changed.", "quantifier": "every history of equation commands, every region, variable and equation", "why_tests_cant": "positions change with deletions; a test looks at one order", "anchors": ["src/commands/EquationCommands.cc:getEquationNumbersCmd", "src/Geometry/Region.cc:GetEquationNumber", "src/Geometry/Region.cc:GetEquationNameFromVariable"]}
{"id": "C94", "title": "Circuit elements are as they were told", "statement": "Whatever elements are created by circuit_element and changed by circuit_alter, in whatever order with other circuit commands and analyses, the equations of the circuit are those of exactly the elements there are, between the nodes they were told, with the value, acreal and acimag told last; in every solution of these equations the currents at each node add up to zero and each source has the voltage told last. An element is refused exactly if its name begins with no letter of a kind, the name is there already, the circuit has a solution already, or ac numbers are given to one that is not a voltage source; circuit_alter is refused exactly if there is no such element or no such parameter of its kind. Options that are not given are 0.", "quantifier": "every history of circuit commands and analyses, every element and number", "why_tests_cant": "nodes, elements and parameters live in two registries that every command may change; a test follows one circuit", "anchors": ["src/commands/CircuitCommands.cc:circuitElementCmd", "src/commands/CircuitCommands.cc:circuitAlterCmd", "src/Circuit/data/InstanceKeeper.cc", "src/Circuit/models/sources/IdealVoltage.cc:addParam", "src/Circuit/models/ideal/IdealInductor.cc:addParam"]}
{"id": "C95", "title": "Materials, parameters and lists are as they were told", "statement": "Whatever devices are made and deleted and whatever is told in whatever order, get_material answers the material told last for the region named, or for the contact if no region is named, and its first material if none was told; get_parameter answers the very object set last on the region, else on the device, else globally; get_parameter_list the names set at the place itself; get_device_list, get_region_list, get_contact_list and get_interface_list the names there are, each once and in order, get_region_list for a contact its region and for an interface its two; get_dimension the dimension. A command is refused exactly if the keywords are not its own, one that must be given is not, or the device, region, contact or interface named is not there, and then changes nothing. Telling the material of a contact makes the models displayed on it be computed anew.", "quantifier": "every history of devices made and deleted and of these commands, every keyword and name", "why_tests_cant": "names are looked up in several registries that any command may change; a test looks at one history", "anchors": ["src/commands/MaterialCommands.cc:getParameterCmd", "src/commands/GeometryCommands.cc:getDeviceListCmd", "src/commands/GeometryCommands.cc:getRegionListCmd", "src/commands/Validate.cc", "src/Geometry/Contact.cc:SetMaterial", "src/Geometry/Region.cc:SetMaterial"]}
{"id": "C96", "title": "A mesh is told, finalized once and made into devices", "statement": "Whatever commands are given in whatever order, create_1d_mesh and create_2d_mesh are done exactly for a name that is free; a command that describes a mesh exactly if its spacing is positive, its names are not empty and the mesh is there, of its dimension and not finalized; finalize_mesh is refused exactly if there is no such mesh or it is finalized; delete_mesh, delete_device exactly if there is none; create_device exactly if the mesh is not there or not finalized or the name of the device is taken. A refused command changes nothing. get_mesh_list and get_device_list are what there is, each once and in order. A device is made of exactly what the mesh had been told when it was finalized: its regions, contacts and interfaces; and it stays so whatever happens to the mesh, to others and to other devices.", "quantifier": "every script of the commands on meshes and devices, every name and number", "why_tests_cant": "the answer to a command depends on the whole script before it; tests make one mesh and one device", "anchors": ["src/commands/MeshingCommands.cc:create1dMeshCmd", "src/commands/MeshingCommands.cc:finalizeMeshCmd", "src/commands/MeshingCommands.cc:createDeviceCmd", "src/commands/CheckFunctions.cc", "src/meshing/MeshKeeper.cc", "src/meshing/Mesh.cc"]}
{"id": "C97", "title": "What the caller of a command sees", "statement": "A call of a command gives an object or raises devsim.error. Positional arguments are refused before the command does anything. Otherwise an object is given exactly if the last answer of the command is that object, no exception came out of it and no floating point exception (invalid, division by zero, overflow) is pending at its end; the message of an error is that of the exception or of the last answer, followed by the names of the exceptions pending. What came up before the call does not count, after it nothing is pending, and so a script is its calls one by one. If a floating point exception comes up in a command that takes none down and calls nothing, the caller gets an error, though what was changed stays changed.", "quantifier": "every body of a command, every state and flags before it, every script, commands called by Python called by commands to any depth", "why_tests_cant": "the flags of the processor outlive the computation that sets them; tests see few commands and no nested ones", "anchors": ["src/pythonapi/PythonCommands.cc:CmdDispatch", "src/pythonapi/CommandHandler.cc", "src/common_api/CommandHandlerCommon.cc", "src/utility/FPECheck.cc"]}
{"id": "C98", "title": "The time points a transient step starts from", "statement": "set_initial_condition is done exactly for two lists of numbers, not empty and equally long, else it changes nothing. At any time the history of each precision is the (up to three) newest of its time points: those of the accepted solves and of the initial conditions given while it was in use, since its last accepted transient_dc and the last reset_devsim. The next time step is made of the numbers given; a first order step right after is an error exactly if they are not one for each row.", "quantifier": "every session of solves of all types, initial conditions, changes of extended_solver and resets", "why_tests_cant": "the step depends on everything done before; tests use one precision and fitting lists", "anchors": ["src/commands/MathCommands.cc:setInitialConditionCmd", "src/math/TimeData.cc", "src/math/Newton.cc:UpdateTransientCurrent", "src/math/Newton.cc:InitializeTransientAssemble", "src/main/ResetAllData.cc"]}
{"id": "C99", "title": "Functions registered from Python", "statement": "register_function is done exactly if nargs is at least one and the procedure is callable, else it changes nothing. A name then means what was told last of it that could be done, also if a built in function has the name. In an expression with data it is called once for each point, in order, with the values of its arguments there, and the result is what the calls give; in an expression of numbers it is called once. If a call raises or gives no number, no further call is made and there is an error that tells it; with a wrong number of arguments nothing is called.", "quantifier": "every history of registrations, every procedure (with a state of its own), every list of arguments of fitting lengths, every number of points, both precisions", "why_tests_cant": "procedures can do anything and keep state; tests use few points and functions that never fail", "anchors": ["src/commands/ModelCommands.cc:registerFunctionCmd", "src/MathEval/MathEval.cc:AddTclMath", "src/MathEval/MathEval.cc:EvaluateTclMathFunc", "src/MathEval/MathEval.cc:EvaluateMathFunc", "src/pythonapi/Interpreter.cc:RunCommand"]}
{"id": "C100", "title": "The vector of an element model", "statement": "vector_element_model is done exactly if the element model is there and the dimension is two or three. Each entry of the _x, _y (and _z) models belongs to one edge of one element: along the edge the vector has the value of the element model there. In two dimensions it is the mean, weighted with ElementEdgeCouple, of the vectors at the two ends of the edge, each of which has the given values along both edges of the triangle at that end. If the values on an element are the components of one vector, the models are that vector on the element, exactly. They depend on the values on the same element and on nothing computed before.", "quantifier": "every mesh with triangles that have an area or tetrahedra that have a volume, all values, whatever was computed before", "why_tests_cant": "the layout of the values and the scratch memory kept between elements matter only on meshes of several elements with different values", "anchors": ["src/commands/ModelCommands.cc:createVectorElementModelCmd", "src/models/VectorTriangleEdgeModel.cc", "src/models/VectorTetrahedronEdgeModel.cc", "src/Geometry/TriangleElementField.cc", "src/Geometry/TetrahedronElementField.cc"]}
{"id": "C101", "title": "Models at a contact", "statement": "The values of a contact_node_model are those of its expression on the nodes of the contact and zero on all other nodes; those of a contact_edge_model are those on the edges with a node on the contact, and zero elsewhere. A function of data of that kind is called in the order of the points and no more after the first error; the model fails exactly if a call fails. For a contact_node_model only the nodes of the contact are looked at, so a function that fails elsewhere does no harm.", "quantifier": "every mesh, every contact, every function", "why_tests_cant": "it depends on which edges lie on the contact and on what the function does away from it", "anchors": ["src/models/NodeModel.cc:GetContactIndexes", "src/models/EdgeModel.cc:GetContactIndexes", "src/AutoEquation/ModelExprEval.cc", "src/models/ModelDataHolder.cc:set_indexes"]}
