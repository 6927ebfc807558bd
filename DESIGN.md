# Formal model of devsim — design

Everything is Lean 4 (`lean/Verif/**`, imported by `lean/Verif.lean`). Each area has
* model files: total functions (or inductive relations) that follow the C++ function by function; every
  definition cites file and lines of `/repo`, simplifications are stated in that comment;
* specification files (`Spec.lean`, or the first definitions of the theorem file) that do not use the model's helpers;
* lemma files, and theorem files whose `example`s / `Examples.lean` show that the hypotheses are met by concrete
  non-trivial cases, and where the English claim is false of the code, a proved counterexample.

`properties.jsonl` lists the properties, `MANIFEST.json` the theorems for each, `seeded/LOG.jsonl` the wrong
programs against which the theorems were tried.

## Trusted base
* Lean's kernel. Axioms used by every theorem: at most `propext`, `Classical.choice`, `Quot.sound`. No axioms of our
  own, no `native_decide`, no `bv_decide`.
* The reading of the C++ recorded in the citations. The code is not executed and not extracted.
* C++ `double`/`float128` are an arbitrary commutative ring, a field, an ordered field or ℝ, as stated in each file:
  rounding, NaN, infinities and -0.0 are not modelled unless a theorem says so (`MeshIO.digits_lossy`,
  `Sym.fmtNat6_collision`, `ModelData`/`ScalarData` treat the two precisions as two types with a conversion).
* `std::map`/`std::set` are sorted association lists (`MeshIO.SMap`) or association lists (`Util.FMap`);
  pointers and `shared_ptr` graphs become names and indices. `std::sort` with an invalid comparator is an arbitrary
  permutation. Integers are unbounded except where a wrap-around is modelled (`Numbering`).

## What is modelled, what is not, per area
| area | modelled code | left out / abstract |
|---|---|---|
| Base64 | `utility/base64.cc`: encoder, decoder, block splitting of `convertVectorToZlibBase64` | zlib is a parameter with a left inverse |
| Parallel | `OpEqualRun`/`ThreadInfo` partition, task interleaving, joined error flags | a write of one element is atomic |
| ScalarData, ModelData | `ScalarData.cc`, `ModelDataHolder`, `NodeModel`/`EdgeModel` value access in both precisions | values: two types with conversions |
| Deps | `Region` model tables, `RegisterCallback`, `SignalCallbacks`, `CalculateValues` of expression models | expressions are arbitrary functions of the models they read |
| Params | `MaterialDB`/`GlobalData` three-level tables, the commands that change them and the signals they send | values are opaque |
| Equations | `Region::AddEquation/DeleteEquation`, numbering of unknowns (`Device`, `NodeKeeper`, `Newton`) | |
| Circuit | `NodeKeeper`, `InstanceKeeper`, circuit commands, element stamps (R, L, C, V, I), solution update | external (file) elements; AC sources only as stamps |
| Matrix | `CompressedMatrix` real and complex, both storage formats, out-of-band storage, symbolic reuse | the linear solvers |
| Assembly | `EquationHolder`/`ExprEquation`, contact and interface equations, permutations, row loading, circuit rows | Tcl custom equations; models are arrays over a commutative ring |
| Newton | `Newton.cc` dc/transient/ac drivers, convergence tests, back-up and restore, time integration | assembly and linear solver are arbitrary functions with effects; one precision |
| Mesh | `Mesh1d.cc`, `MeshUtil.cc` | coordinates are reals |
| MeshIO | `DevsimWriter.cc`, `DevsimScanner.l`, `DevsimParser.y`, `DevsimLoader.cc`, `MeshLoaderStructs.cc`, `DevsimRestartWriter.cc` with the `Serialize` of models and equations, character by character | number text ↔ value (`Env.atof`, `Fmt.fmt`), built-in models, topology checks and file commands are parameters; interface node models as data |
| Geom | `Region::FinalizeMesh` and its tables, `FindEdge`/`FindTriangle`, `Triangle.cc`, `Tetrahedron.cc`, `EdgeLength`, `EdgeCouple`, `*NodeVolume`, `Triangle/TetrahedronEdgeCouple`, `SurfaceAreaUtil`, `UnitVec`, `EdgeInverseLength`, `AtContactNode`, `InterfaceNormal` | coordinates are reals (no rounding), solution of the 3×3 system (LAPACK) by its determinant formula; null slots are not dereferenced; extended precision only as the same reals; cylindrical variants |
| Fields | `AverageEdgeModel.cc`, `EdgeFromNodeModel.cc`, `TriangleElementField.cc`, `TetrahedronElementField.cc` and the models built on them (`element_from_edge_model`, `element_pair_from_edge_model`, derivatives, `element_from_node_model`), `GradientField.cc`, `VectorGradient.cc` | reals; `DenseMatrix` solves a regular system and fails on a singular one; the scratch arrays (`thread_local`) are modelled with arbitrary contents |
| Eval | `ModelExprEval.cc`, `ModelExprData.cc`, `MathEval.cc`/`MathPacket.cc` (evaluation), `NodeExprModel.cc`, `EdgeExprModel.cc`, `TriangleEdgeExprModel.cc`, `TetrahedronEdgeExprModel.cc` | reals; the models referred to are up to date (C15); scripts are functions of their arguments; a built in function fails exactly when it raises a floating point exception; the class of expressions is a parameter (`Texts`): the text determines the value, as proved for `src/adiff`; floating point exceptions of `+=` and `*=` not modelled (the code clears them before they are looked at) |
| MathFn | `Bernoulli.cc`, `Fermi.cc`, `GaussFermi.cc`, `MiscMathFunc.cc`, `kahan.hh`, `AdditionalMath.hh`, `DefaultDerivatives.cc` (as text, read by the grammar of Sym) | Bernoulli and Kahan: rounding to nearest in any precision (any tie breaking), exponents unbounded (no overflow, underflow or denormal numbers), library `exp`, `expm1`, `pow` correctly rounded, no fused multiply-add; Fermi and Gauss: exact arithmetic, inverse error functions by their specification (shown to exist); Android branch; `vec_*` |
| SmallSignal | `Newton.cc` 306-421 (loading with custom equations), 521-610 (`GetMatrixAndRHSForExternalUse`), 1153-1349 (`ACSolve`, `NoiseSolve`), `Equation::ACUpdate`/`NoiseUpdate`, `IdealVoltage::assembleACRHS`, storage of circuit solutions | reals and complex numbers; what devices assemble is given (C25, C39); the factorization is a `Backend` known by its specification; `MKLPardiso.cc` by the documented behaviour of the library; iterative solvers are not modelled |
| PyArg | `ObjectHolder.cc` (conversions), `GetArgs.cc`, `GetArgsCommon.cc`, `Newton.cc` 1352-1490 | Python objects reduced to what is observed; parsing and rounding of the Python library are parameters; reference counts, pending exceptions and the interpreter lock are not modelled |
| Mesh2d | `Mesh2d.cc`, `Mesh2dStructs.{cc,hh}`, `MeshingCommands.cc` 239-306, 404-637; `Mesh1dStructs.cc` GetPoints and `DevsimLoader.cc` from the areas Mesh and MeshIO | exact arithmetic; `std::sort` is any sort by position; ids of meshes, dimension and state checks and messages left out |
| Gmsh | `GmshLoader.{cc,hh}`, `GmshReader.cc`, `GmshScanner.l`, `GmshParser.y`, `MeshingCommands.cc` create_gmsh_mesh and add_gmsh_* | elements are lists of node indices; `std::sort`/`unique` and maps as in MeshIO; the flex/bison automata are a longest-match scanner with start states and a state machine for the grammar; integers of a file are unbounded; messages left out; topological checks of `Region::FinalizeMesh` are a parameter |
| Iter | `gmres.cc`, `IterativeLinearSolver.cc`, `BlockPreconditioner.cc` | real numbers, vectors of a real inner product space; `drotg` is any function that gives a rotation; the direct factorization of the preconditioner matrix and `M.solve` are a parameter; extended precision and complex systems (not implemented in the code) left out |
| Vtk | `VTKWriter.cc`, `base64.cc` | files as texts of characters; values of models on nodes and elements given; the compressor is any lossless function; a reader of XML and of VTK files is written as specification |
| Tec | `TecplotWriter.cc` | files as texts of characters; names, display types and values of models of a region given; printing of a number is any function to words; a reader of Tecplot files is written as specification |
| Bnd | `Contact.cc`, `Interface.cc`, `Device::AddContact`, `AddInterface`, `createContactFromInterfaceCmd`, `createInterfaceFromNodesCmd`, choice made by the writer of interfaces | nodes and elements by number in a region, tables of area Geom; reading beyond a vector, null pointers and assertions are crashes; table of contacts at coordinates and warnings left out |
| Cyl | `TriangleCylindricalNodeVolume.cc`, `CylindricalNodeVolume.cc`, `CylindricalEdgeNodeVolume.cc`, `TriangleCylindricalEdgeCouple.cc`, `CylindricalEdgeCouple.cc`, `CylindricalSurfaceArea.cc` | real numbers, mesh and centers of area Geom; `std::sort` is insertion sort of three pairs; the two parameters are arguments |
| Ifm | `InterfaceModelExprEval.cc`, `InterfaceModelExprData.cc`, `InterfaceNodeExprModel.cc`, `DefaultDevsimDerivative` of `EquationFunctions.cc` | real numbers; the values of the other models are given; tables of functions of area Eval; dead `IF`/`IFELSE` branches left out |
| Multi | `EdgeSubModel.cc`, `TriangleEdgeSubModel.cc`, `NodeSolution.cc`, `EdgeFromNodeModel.cc`, `AverageEdgeModel.cc`, `TriangleEdgeFromEdgeModel.cc` and its relatives, `VectorGradient.cc`, `UnitVec.cc`, `CylindricalEdgeNodeVolume.cc`, `NodePosition.cc` (how the members find each other), callbacks of `Region.cc` | the function of a group is any function; one table with kinds; inputs found by name; one precision; no floating point exceptions |
| ExtSolver | `ExternalPreconditioner.cc`, `Preconditioner.cc`, `DirectLinearSolver.cc`, `SolverUtil.cc`, `GetHashMap` and `GetComplexDoubleList` of `ObjectHolder.cc`, linear algebra of the loop of `Newton.cc` 634-802, 1153-1343 | the callback is any function of the history of calls; Python objects as in PyArg; whether a floating point exception was raised is part of the answer; conversions between `double` and `float128` are arbitrary functions; the solvers of MKL and SuperLU are not modelled |
| SetVals | `ModelCommands.cc` setNodeValuesCmd, setNodeValueCmd, printNodeValuesCmd, getNodeModelListCmd and their edge and element likes; `CheckFunctions.cc`, `Validate.cc`; `SetValues`, `SetNodeValue` of `NodeModel.cc` | models on nodes, edges and elements over the invalidation machine of Deps; numbers as bits; parameters as a model of one value each; extended precision only in the choice between `values` and `init_from` (`decide`) |
| Solve | `MathCommands.cc` 36-270; `Newton.cc` 613-1076 (the dictionaries); `Equation.cc` 239-316 (errors and nodes) | the iteration of Newton with everything it reports, and the command on top of the options of PyArg; ac, noise and the linear systems are parameters; verbose printing is not modelled; counts do not wrap as `int` |
| EqCmd | `EquationCommands.cc` without `custom_equation`; `ExprEquation.cc`, `ExprContactEquation.cc`, `InterfaceExprEquation.cc`: constructors and `GetCommandOptions_Impl`; `Region.cc` 1126-1258 with whole equations | the commands on the tables of a region, a contact and an interface, on top of the options of PyArg; models are only asked for existence |
| Ckt | `CircuitCommands.cc` 145-352, `addParam` of the five elements, the loops of `InstanceKeeper.cc` | the parameters of elements on top of the node table and the constructors of Circuit, the entries of Elements, the options of PyArg |
| Mat | `MaterialCommands.cc` 25-280, `GeometryCommands.cc` 62-212, `Validate.cc`, `SetMaterial` of `Contact.cc`, `Region.cc` | materials, dimension, regions, contacts, interfaces; parameters by Params, keywords by PyArg; not `get_element_node_list`, `reset_devsim` |
| Msh | `MeshingCommands.cc` 38-716, `Mesh.cc`, `MeshKeeper.cc`, `CheckFunctions.cc` 17-187 | the registers of meshes and devices and the checks; `Finalize_` and `Instantiate_` are an engine, given by areas Mesh and Mesh2d for a first try; messages and the contents of Gmsh meshes not |
| Disp | `PythonCommands.cc` 61-169, `CommandHandler.cc`, `CommandHandlerCommon.cc`, `FPECheck.cc` | bodies of commands are any programs over the interface; reference counts and the interpreter lock not |
| Past | `MathCommands.cc` 327-348, 436-526, `TimeData.cc`, `ResetAllData.cc` | the solve is that of area Newton; rounding and messages not |
| Reg | `ModelCommands.cc` 2107-2163, `MathEval.cc` 436-596, `Interpreter.cc` 132-171 | procedures are any functions on a state of Python; the built in functions are a black box, numbers are ℝ |
| Vec | `ModelCommands.cc` 1676-1765, `VectorTriangleEdgeModel.cc`, `VectorTetrahedronEdgeModel.cc` | the computation on one element is that of area Fields; what the scratch memory held is anything |
| Cont | `GetContactIndexes` (`NodeModel.cc` 177-190, `EdgeModel.cc` 332-351), `ModelExprEval.cc` 686-762, `set_indexes` | one function, a black box with a number and an error text; values of any type |
| Sym | `src/adiff`: all expression classes, `Derivative`, `subst`, `Simplify`, `expand`, `getReferencedType`, printing, scanner and grammar | this is the engine of the model compiler in the repository; the runtime's `external/symdiff` submodule is empty in the pinned checkout. Constants exact; `std::sort` an arbitrary permutation; scanner: strings, comments, UTF-8 and `^` rules omitted |

(Further areas are listed with their properties below.)

## Plan per property
| id | model | proof |
|---|---|---|
| C01 | `Sym.Expr`, `deriv` following each `Derivative` method | structural induction, `HasDerivAt` over ℝ along curves |
| C02 | `simp` following each `Simplify`, loop of the command | induction on fuel and expression; value at "good" points; false elsewhere (witnesses); one call returns for every expression: well-founded induction on (nesting of exponents and arguments, nesting of sums, products and bases within one such level), `SimpMeasure`/`SimpTotal`/`SimpReturns` |
| C03 | `subst` | structural induction |
| C04 | `expandF` | structural induction, measure for termination |
| C05 | `refs` | structural induction |
| C06 | constant printing with 6 or 16 significant digits | negation by witness, theorem for faithful printing |
| C07 | printer, scanner, recursive-descent equivalent of the yacc grammar | induction over trees |
| C08 | byte-level encoder/decoder | induction over groups of three bytes |
| C09 | block splitter | arithmetic; negation at multiples of 4096, exact iff |
| C10, C11 | three-level map state machine | refinement to "last write in the innermost scope" over histories |
| C12 | partition loop, interleaving semantics | loop invariant; induction over schedules |
| C13 | tagged-union representation | refinement to functions `Fin n → α` |
| C14 | two-precision holder | refinement; negation by witness for the stale cache |
| C15–C17 | region state machine: model table, flags, callbacks | invariants over histories; measure = number of up-to-date flags |
| C18, C19 | equation registry, numbering pass | invariants; bijection with a range |
| C20, C21, C34, C35 | circuit tables, update loops, queries, stamps | invariants over sessions; negation by witness |
| C22–C24, C36 | matrix state machine | refinement to `row → col → value` |
| C25, C43 | permuted load, whole system | sums over contribution lists |
| C26, C38, C40 | element assembly | finite sums |
| C37 | active-node sets | case analysis on the ownership loop |
| C39, C41 | Jacobian and right hand side of each assembly function | formal derivative in the ring of values; equality of parts |
| C27–C30, C42 | Newton driver over abstract assembly/solver | induction over iterations and sessions |
| C31 | time coefficients | Taylor bounds over ℝ |
| C32 | spacing generator, layout, instantiation | loop invariants, termination measure |
| C33 | text of the data format and of the restart format, scanner, parser, loader, decomposition of elements into faces | composition of lexing lemmas, token-step simulation, loader lemmas; for restart files the specification `replay` (restore data, run commands in order) |
| C45 | the same reader started in left-over states | first-token analysis for arbitrary text |
| C44 | lists of node numbers, table construction loops | specification of set intersection and slot filling by induction |
| C46 | formulas for each plane, 3×3 system | polynomial identities; uniqueness of the circumcenter |
| C47, C48 | couples, boxes and sums over the tables | double counting over incidence; signed areas of the parts of a triangle or tetrahedron |
| C49 | loops over contacts and interface nodes | fold invariants |
| C50 | per-edge formulas | calculus (`HasDerivAt`) along each node value |
| C51 | loops writing the scratch arrays, 2×2 and 3×3 systems | write lemmas for loops, determinants of edge directions, linearity of the solution |
| C52 | loops over elements, nodes and marks | fold invariants; uniqueness of the gradient on a triangle |
| C53 | the evaluator with its cache, error count and conversions; `modelValues` | induction over the expression with the invariant that every value and every cache entry is right at the points of the model (`Denotes`, `CacheOK`); a second induction for success; counterexamples for F21, F67, F68, F69 |
| C54 | the five formulas with a rounding after each operation | relative errors composed (`Rel.units`); the branch `expm1 x = x` bounds `x` |
| C55 | the same for the derivative | error bound with the cancelled part; counterexample by exact rounding at 3·2⁻⁵³ |
| C56 | both formulas, the nested loops with fuel | monotonicity by derivatives; bounds of π; loop induction; counterexamples |
| C57 | `calcH` with the kept pair, `gfi`, `dgfidx`, `igfi` loop | derivative on both sides and equality of values and slopes at the change of formula; invariant of the kept pair |
| C58 | compensated sum with a rounding after each operation | error-free transformation (`two_sum`) |
| C59 | the text of the table read by the modelled scanner and parser, renamed formals, empty entries of `declare` | one lemma for reading a row (checked by evaluation in the kernel), one `HasFDerivAt` per function, then C01 |
| C60 | static matrix, scaled dynamic matrix, right hand side of the sources, storing the solution, all on the compressed matrix of C22 | C25 and C22 composed; Kirchhoff's laws as a corollary; the real part of X exp(iωt) solves the linear differential equation |
| C61 | the same matrix, transposed solution, values gathered through the permutation | adjoint identity; counterexample at kept rows |
| C62 | both loads on one matrix, cleared between | C22, C23; counterexample with an empty static matrix |
| C63 | reading of the result lists, direct and permuted entries | induction over scripts and lists; sums of rows with C25 |
| C64 | the three passes of `processOptions` | equivalence with an independent description of a good call |
| C65 | list and byte paths, item codes and sizes | encoding/decoding of little endian words; counterexamples for numpy |
| C66 | lines, grid, regions by centre, contacts and interfaces at shared points, loader checks, instantiation | invariants over the triangles and the points; geometry of half cells; edge has one or two triangles because two corners tell the cell |
| C67 | the four commands as steps of a script | reverse induction over the script; counterexamples |
| C68 | grouping by name, decomposition into sides, sort and unique | fold over elements as a map from names; membership in each list |
| C69 | loops over regions, contacts, interfaces; index maps; null pointers as a separate outcome | specification of a region, contact, interface by membership; success characterized |
| C70 | the list loop with its bounds as they are, narrowing; commands as steps | induction over elements; reverse induction over scripts; counterexamples |
| C71 | scanner with stack of start states, parser as state machine | composition of lexed pieces, runs of the parser; invariant of `step` for any text; histories |
| C72 | loops of GMRES with columns of `H`, rotations and vectors | invariant of the inner loop (orthonormal vectors, rotated basis, residual), minimality, finite dimension; a shift as counterexample |
| C73 | list of blocks, map of equation numbers, loop over sorted entries for any `std::sort` | induction over the sorted list; blocks are the equations of regions |
| C74 | all functions of `VTKWriter.cc`, text by text; encoding of arrays from the area Base64 | reading by two machines (characters to markup, markup to elements); each function writes text that takes the machine from one state to another, composition |
| C75 | all functions of `TecplotWriter.cc`, text by text, with the sets of names and `BreakLine` | lexer as machine, each function writes text with these tokens; `BreakLine` changes blanks to newlines only, outside of strings; invariant of the sets of names by the models seen so far |
| C76 | `FindEdges`, `FindTriangles` and the questions of contacts and interfaces | the loops are filters, by the theorems on tables of Geom; invariant: nothing stored, or the boundary on both sides |
| C77 | the two commands on a device, `Itf.write` | cases; the elements by C76 |
| C78 | `triVolume`, `nodeVolume`, `edgeNodeVolumes`; specification: Pappus, checked against the integral of rings (`revolve_washers`) and additive under cuts (`revolve_cut`) | the formula is the volume and an excess; the pieces fill a triangle when its center is in it; sums over nodes by Geom |
| C79 | `elementEdgeCouple`, `surfaceArea`; specification: integral `sweep` | sums over triangles and edges by Geom; the integral of the distance from the axis |
| C80 | `Ifm.evalE`, `modelValues`; specification: `Sym.eval` with the names of `ienv` | induction over the expression with a cache that is right; totality by a second induction |
| C81 | `derivRule`; specification: `Motion` | the rule makes the motion a `Sym.Curve`; `Sym.deriv_correct` and C80 |
| C82, C83 | `Multi.step`, `read`, `signal`; specification: `Decl`, `Val`, `declare` | invariant `Inv` (structure of the groups, flags closed under dependencies, members current when the producer is), kept by each command; reading by induction on the fuel with a rank of the names; signalling by the number of flags |
| C84, C85, C86, C87 | `ExtSolver.newton`, `acSolve`, `create`; specification: `Spec.History`, `Answers`, `FactorRefused`, `SolveRefused` | induction over the iterations with the state of the matrix between rounds (`Ready`) and the history so far; each answer by cases; the false part linked to `Newton.solve` |
| C88, C89 | `SetVals.step`, `setValuesCmd`, `setValueCmd`, `showCmd`; specification: `Spec.Acct`, `Values`, `Assigned`, `Story` | the account of a call is a relation between what was told before and after, proved deterministic; refinement of the invalidation machine to it by induction over histories; commands by cases on the options |
| C90, C91 | `Solve.solveI`, `solveCmd`; specification: `Spec.EqTells` … `IterTells`, `Trail`, `Below`, `ChargeTells`; `Cmds.Asks`, `Reads`, `Does` | the iteration with reports is shown to be that of Newton (so C27–C30, C42 hold for it); the reports by induction over equations, regions, devices and iterations; the command by cases on its options |
| C92, C93 | `EqCmd.act`, `run`; specification: an account of what was told, `Spec.Does`, `Story`; `Cmds.Numbers` | the tables show the account (`Shows`), an invariant of every command; the story by induction over the history |
| C94 | `Ckt.step`, `run`, `elements`, `acRhs`; specification: an account of what was told, `Spec.Does`, `Story` | the registries show the account (`Shows`), kept by every command; the assembled lists are those of the account; the laws by C35 and the rows by C20 |
| C95 | `Mat.command`, `call`, `run`; specification by the history alone: `Spec.described`, `regionMaterial`, `contactMaterial`, `paramOp` | the state shows the history (`Shows`), kept by every event; parameters by C10 |
| C96 | `Msh.step`, `start`; specification by the commands and their answers alone: `Spec.life`, `origin`, `lines`, `regions`, `told2` | the registers agree with the history (`Inv`), kept by every command; contents by C32 and C66 |
| C97 | `Disp.dispatch`, `session`; specification by what happened in a run: `Spec.Runs`, `Calls`, `Seen` | the flags stored are those pending (`Abs`), by induction over the body; the account is unique |
| C98 | `Past.step`, `runs`; specification: `Main.Account`, `Story` | the histories show the account, kept by every step, with C29 |
| C99 | `Reg.register`, `after`, `evalData`, `evalNumbers`; specification: `Main.Last`, `Calls`, `Bad`, `points` | induction over the history and over the points from any one on |
| C100 | `Vec.vector2`, `vector3`, `command`; specification by projections on the edges and weighted means | the loop keeps a layout of entries (`loop_spec`); the vectors are those of C51 |
| C101 | `Cont.nodeIndexes`, `edgeIndexes`, `loop`, `store`, `compute`; specification by membership and `Called` | induction over the points, with the index at which the loop stays |

## Disagreements between the code and what a user would expect
Found while modelling; "(proved)" means there is a theorem or counterexample in the development.

* F1 integer-valued constants print with six digits, so `1234567` prints as `1.23457e+06` (proved).
* F2 derivative of a one-factor product is 0 (proved; no operation builds such a product).
* F3 VTK array data whose length is a non-zero multiple of 4096 bytes loses its last block (proved).
* F4 base64 decoding of bytes ≥ 0x80 indexes out of bounds (proved).
* F5 a single-value write leaves the cached copy in the other precision stale (proved).
* F6 `Region::AddEquation` with a known name and a new variable erases the new variable's mapping (proved).
* F7 positive-type circuit nodes: the halving loop does not end when the old value is not positive (proved).
* F8 an element attached to an alias makes a new node (proved).
* F9 `ClearMatrix` resizes the out-of-band table to the number of non-zeros (proved).
* F10 `TransposeMultiply` is wrong (proved).
* F11, F34 back-ups `<var>_prev` clobber variables or models of that name (proved).
* F12 the count of diverging iterations is shared by all devices (proved).
* F13, F22 replacing or creating a model does not invalidate dependents; stale registrations stay (proved).
* F14 `setRelErrorNodeIndex(aerr_node)`. F15 single-index writes to contact models set every value (proved).
* F16 `IsOne`/`IsZero` tests in extended precision look at the double copy (proved).
* F17 `set_node_values`: the error string is overwritten. F18 alias fallback `@en0`→`@n0` is not registered as a dependency.
* F19–F21 expression caches keyed by text; shallow copies; tetrahedron edge data uses the triangle count.
* F23 `circuit_node_alias` continues after an error. F24 `add_circuit_node` ignores `variable_update` (proved).
* F25 queries create ground nodes (proved). F26 a user node `V1.I` becomes the branch unknown (proved).
* F27 a node shared by contacts is dropped when one does not define the equation (proved). F28 null checks look at one of two models.
* F29 `edge_volume_model` is ignored without `edge_model` (proved). F30 circuit-node derivative is loaded once per variable (proved).
* F31 contact functions skip a variable whose `@n0` derivative is missing (proved). F32 contact ownership depends on addresses.
* F33 `RestoreSolutions` does not signal circuit callbacks. F35 BDF2 with the default gamma divides by zero (proved).
* F36 errors during a solve leave solutions modified (proved). F37 negative `maximum_iterations` wraps.
* F38 `Mesh1d` region comparator is not irreflexive. F39, F40 no-room spacing and sliver elements (proved). F41 a failed `finalize_mesh` cannot be retried (proved).
* F42 `definefuncdiff` capture (proved). F43, F44 integer exponents are recognised by six-digit text (proved). F45 derivative w.r.t. an unrelated variable may be a sum of zeros (proved). F46 `atoi` for integer tokens.
* F47 simplification changes values: sqrt(x²)→x, pow(0,y)→0 (proved).
* F48 interface nodes given through elements are paired by index (`FixNodePairs` works on a copy). F49, F58 after a failed load every later load fails (proved).
* F50 missing `YYABORT` in the edge solution rule. F51 sixteen digits do not determine a double (proved). F52 tetrahedron index checks only by assertion.
* F53 restart writer drops isolated contact nodes. F54 a truncated file is accepted (proved). F55 a user model that replaced a built-in one is lost (proved).
* F56 a failing load leaves a partial device. F57 command results overwrite earlier errors. F59 contact elements are not written.
* F60 a region with a missing triangle edge is accepted, the edge slot stays null and is dereferenced later (proved). F61 couples have no sign, so the node volumes of regions with obtuse triangles add up to more than the region (proved). F62 `interface_normal_model` of an interface without nodes gives the square root of the largest number (proved).
* F63 `vector_gradient` in three dimensions takes `z` from the model `y`: the matrix is singular and the result is always zero (proved). F64 in one dimension the division by the count is inside the loop: wrong with three or more edges at a node (proved). F65 the derivative of the geometric mean has the wrong sign for two negative values (proved). F66 `TetrahedronEdgeFromEdgeModelDerivative::Serialize` writes the command `element_pair_from_edge_model`.
* F67 `!=` and functions that are not registered evaluate to 0 on numbers, without any message (MathEval.cc:449-473; `!=` is in no table), and are errors on model data (proved). F68 the cache of subexpressions is keyed by text and shared between the evaluation of a contact model, which computes functions at the contact only, and of the ordinary models it asks for: these get zeros away from the contact (proved on the model, `contact_cache`). F69 a factor that is the number 0 ends a product and hides the failure of an earlier factor: the model is 0, the error is only printed (proved).
* F70 `dBdx` loses all digits by cancellation near 0: at x = 3·2⁻⁵³ it gives less than −0.88 instead of −0.5 (proved for exact rounding to nearest). F71 `InvFermi`: the Joyce series has 0.5/√π where the series has 1/√8, and above 8.463 the expansion uses 3π/4 where the formula has ¾√π: the function jumps from 4.24 to 7.23, `Fermi` has wrong values for arguments in between, and `dInvFermidx` above is less than half of the derivative (proved). F72 the derivatives of `gfi` and `igfi` by the second argument are declared to be 0 and are not (proved for gfi). F73 the functions `dBdx`, `derfdx`, ... are declared without derivatives: `diff` of an expression with them gives 0 (proved). F74 an `ifelse` is in the function table of the evaluator but not in the table of derivatives.
* F75 noise values at the nodes of a hybrid interface ignore that the equation is also kept (Equation.cc:409 says TODO): 0 is stored where the response is 1 (proved). F76 `get_matrix_and_rhs` accesses memory out of bounds when the static matrix stores fewer entries than there are equations, e.g. a circuit of one capacitor (proved). F77 `IterativeLinearSolver::SolveImpl` declares an inner `ret`: failure of GMRES to converge is reported as success. F78 current sources have no AC amplitude, they contribute nothing to AC analysis.
* F79 `ObjectHolder::GetInteger` starts with `ok = true`: a value that is no int (a float, a numpy integer, None) is read as 0 without error; `solve(maximum_iterations=10.0)` allows no iteration, custom equations with numpy rows all go to row 0 (proved). F80 integers beyond 64 bits are read as −1 (proved). F81 `set_node_values` and `create_gmsh_mesh` take the bytes of a numpy vector of 64 bit integers for doubles (1 becomes 5e-324), and those of doubles for integers (proved). F82 the default `MAXDOUBLE` of an option cannot be given (proved). F83 rows of custom equations are not compared with the number of equations.
* F84 `add_2d_region`, `add_2d_contact` and `add_2d_interface` give the object to the mesh before they give it its rectangle. For a name that exists, `AddRegion` copies the rectangles of the new object, of which there are none yet; the rectangle given is added to an object nobody uses. So a second command with the same name succeeds and has no effect (proved, `second_box_lost`), although `AddRegion` is written to unite the rectangles. F85 Contacts and interfaces are looked for only at points that belong to two regions, so a two-dimensional mesh of one region gets no contacts, without a message (proved, `one_region_no_contacts`); a contact that contains such a point without a node of its region is made empty, and if its region is not in the mesh `create_device` fails later (proved, `device_refused`).
* F86 `create_device` of a Gmsh mesh: a contact or interface with an element that is not on its region leads to a null pointer that is followed (proved, `create_crash`); triangles of a contact on a region without triangles are read out of range. F87 after a failure the half-made device stays in the list (proved, `create_leaves_device`). F88 an unknown physical group silently gives an empty region (proved). F89 only in one and two dimensions is the dimension of a contact checked: in three, a group of tetrahedra is accepted as a contact. F90 `LoadMeshesFromArgs` (GmshReader.cc:86) checks for one entry too few and reads one past the end of the list (proved, `load_short`); `physical_number > size` (line 96) should be `>=`; node indices are narrowed to `int`, 4294967296 becomes 0 (proved). F91 the mesh stays in the list of meshes after a failed load; of coordinates with the same index the last counts; elements with repeated nodes are accepted; after a failed `finalize_mesh` every further one fails (proved).
* F92 Gmsh files: the counts are ignored, a file cut at the end of a line is accepted, an empty file is a mesh (proved). F93 the start state of the scanner is not reset: after a file that was cut or refused inside a section every later file is refused (proved, `cut_poison`). F94 outside of names a byte above 127 is a negative `char`, which the parser takes for the end of the file: the rest is ignored without an error (proved, `load_tail`, `load_cut`). F95 names with blanks or hyphens, and blank lines in sections, are syntax errors (proved on examples).
* F96 Restart files: `Instantiate_` calls `AddTriangles` for every interface, so an interface given by pairs of nodes counts as given by elements after a reload and the next restart file has no nodes for it. F97 an interface with different numbers of edges on its sides is written with nothing and comes back empty. F98 the nodes of an interface given by elements are paired by their sorted index: the result of `FixNodePairs` is not used, and it calls `erase(end())` (DevsimLoader.cc:366-369). F99 isolated nodes of contacts and interfaces in two and three dimensions are not in the file; `display_type` of element models and solutions is not in the file; the result of a command overwrites earlier failures (only the last one decides, `runCmds`), and so does each device in `WriteMeshes_`.
* F100 (F77 is now proved, `solveImpl_false_success`.) `ProcessBlockInfo` looks at `done_with_row` before `row != col`, so a diagonal entry after a small entry of its row is left out although line 218 is written to keep it; the preconditioner may become singular (proved, `process_diag_false`). F101 with a circuit the rows of its equations have the block `size_t(-1)`, at which `blockInfoList_` is read (proved, `process_circuit`). F102 when the convergence of GMRES is seen at a restart, the number of iterations reported is one too large; for limits that are no multiple of the restart length `Update` would use vectors of an earlier cycle (not reachable, 50 and 100 are fixed).
* F103 VTK: `include_test` is not asked for vectors on edges and for models on tetrahedra (proved, `vector_not_asked`, `tet_not_asked`). F104 names of models are written without escapes: `<` or `&` in a name makes the file unreadable (proved, `name_unreadable`). F105 the file `.vtm` names the other files by the whole path given, but they are looked up relative to the file itself: a relative directory is applied twice (proved, `relative_dir_unreadable`). F106 all writers test `bad()` after `open`, which sets `failbit` only: files that cannot be opened are reported as written (proved, `failed_open_not_reported`).
* F107 Tecplot: an edge model that is `VECTOR` in the first region and not in another stops the program by an assertion (`TecplotWriter.cc:276`; proved, `conflict_stops`). F108 a model displayed in a region is not written when an earlier region has it as `NODISPLAY` (reported as information only; proved, `displayed_lost`). F109 `BreakLine` does not end when a word has 30000 characters: `rfind` returns the blank before `start` again, `substr(start, pos - start)` wraps around and the rest of the text is appended in each round (proved, `long_word_hangs`). F110 values are printed with six digits: the line that sets fifteen is commented out (`TecplotWriter.cc:407`); not in the model, where printing is any function.
* F111 `create_contact_from_interface` on a two dimensional device asks the interface for triangles; `FindTriangles` reads the table from triangles to tetrahedra, which is empty in two dimensions, so that the program ends (`MeshingCommands.cc:1179-1186`, `Interface.cc:316-322`; proved, `contact_from_interface_crashes`). F112 `create_interface_from_nodes` with the name of an interface of the device fails an assertion in `Device::AddInterface` (proved, `interface_from_nodes_crashes`). F113 the loader calls `AddTriangles` and `AddEdges` with empty lists, which sets `elements_provided_`; an interface whose nodes span no element is then left out when the device is written again (`DevsimRestartWriter.cc:326-369`; proved, `interface_lost`).
* F114 `calcCylindricalTriangleVolumeFlat` takes the absolute value of `(r2-r0)^2-(r1-r0)^2`; it is negative for a triangle whose tip is further from the axis than its flat side, so that the volume is too large (up to three times) for triangles that point to the axis; a full cylinder of two triangles does not have the volume `pi r^2 h` (`TriangleCylindricalNodeVolume.cc:112-126`; proved, `wrong_triangle`, `sq_exceeds`). F115 `CylindricalEdgeNodeVolume` ends with `SetValues(nv)`, where `nv` is a vector of zeros, one for each node; the values for the first end of the edges are lost and their number is wrong (`CylindricalEdgeNodeVolume.cc:63-77`; proved, `edge_node_volume_zero`).
* F116 An interface model with a misspelled name, or that depends on itself, gets values: the name counts as 0.0 and an error is only printed; a node model that depends on itself is a fatal error (`InterfaceModelExprEval.cc:167-223`; proved, `misspelled_model_is_zero`, `cyclic_model_is_zero`). F117 `vec_sum` of a uniform interface model is its value, not the value times the number of nodes, unlike for node models (`InterfaceModelExprEval.cc:625-635`, `ModelExprEval.cc:783`; proved, `vec_sum_of_uniform`). F118 `create_interface_from_nodes` accepts one region for both sides, but `x@r1` is then read at the nodes of the first side (`InterfaceModelExprEval.cc:186-198`; proved, `same_region_reads_first_nodes`).
* F119 The groups that find their outputs by name (`element_from_edge_model` and the other element groups, `TriangleEdgeFromEdgeModel.cc:42-66`) overwrite a model the user has put in place of an output, without a message; the edge groups report an error (`EdgeFromNodeModel.cc:62-75`) and `vector_gradient` uses a null pointer (proved, `replaced_output`). F120 When the first model of a group is redefined (`EdgeSubModel.cc:71-76`, a message only) or is given values after an input has changed, the other members keep the values made from the old inputs and count as up to date (proved, `replaced_producer`, `written_producer`). F121 A group with a name that belongs to a model of another kind is refused after its first models were created; what is left answers, fails or ends the program when asked (proved, `half_a_group`). F122 `vector_gradient`, the cylindrical volumes and the node positions use an expired pointer after one of their outputs was deleted or redefined and an input has changed (`VectorGradient.cc:190`, `CylindricalEdgeNodeVolume.cc`, `NodePosition.cc`; proved, `deleted_output`).
* F123 An answer of the custom solver to `solve` that is not a dictionary (for example `None` from a missing `return`) is neither an error nor a failure: the message is built and dropped, `ret` is not returned (`ExternalPreconditioner.cc:268-274`), and the vector of zeros is used; `solve` then reports convergence in the first iteration (proved, `none_converges`). For `factor` the same answer lets the factorization fail. A subclass of `dict` (`OrderedDict`) counts as no dictionary (`PyDict_CheckExact`). F124 Complex solutions are only taken as bytes or as a vector of eight byte items: a list or a numpy vector of `complex128` is refused; with 2n+1 numbers the last one is ignored (proved, `run_ac`). F125 A missing `message` in the answer to `factor` makes a good factorization fail (`Matrix factorization failed`), in the answer to `solve` it does not matter; the texts about missing keys are never printed when the status is true.
* F126 `set_node_values` and its likes with both `values` and `init_from`, or with a `values` that cannot be converted: the message is stored and then overwritten by the check of device and region (`ModelCommands.cc:928`), so the call is accepted: `init_from` wins for a data model, the list for all others (`both_options_init_wins`, `both_options_values_win`, `unreadable_values`). As the missing `values` option is the text "", which counts as a list, keeping the message would make every `init_from` an error. F127 A text is accepted as the list of its characters: `values="123"` sets 1, 2, 3 (`text_as_list`). F128 `init_from` for a model that is not a data model is refused with `wrong number of elements` (`init_of_expression_refused`). F129 `set_element_values` in one dimension gives two messages, F130 `get_element_model_list` there is an error with an empty text (`element_list_1d`). F131 `set_node_value` on a contact model ignores the index and sets all nodes of the contact (`set_one_on_contact`). F132 Values set on a model with an expression are accepted, can be read, and vanish when anything it depends on changes (`set_on_expression`).
* F133 `relative_error_node` in the dictionary of `solve(info=True)` is the node of the absolute error: `Equation.cc:314` calls `setRelErrorNodeIndex(aerr_node)` (`Solve.Examples.wrong_node`).
* F134 `maximum_iterations` and `maximum_divergence` are `int` given to `size_t`: −1 means 2^64 − 1, practically no limit (`Solve.Examples.negative_iterations`).
* F135 the default of `absolute_error` and `relative_error` is 0 and the test is strict: with a device, `solve` without limits never converges, even if nothing changes (`Solve.Examples.zero_limit_never_converges`, `default_limits_fail`).
* F136 if several options of `solve` are wrong, only the last complaint is told: `gamma` replaces `tdelta` (`Solve.Examples.one_complaint`). The message of an unknown `solver_type` says "simulation types".
* F137 An equation told again with another variable leaves its old variable in the table: no other equation can be created for it, and an equation whose variable was taken over cannot be deleted after the other one is gone: an assertion fails (`Region.cc:1150-1156, 1191-1200`; proved, `EqCmd.stale_variable`, `lost_equation`; the table alone: C18).
* F138 `get_equation_numbers` with an unknown variable is an error with an empty message (`EquationCommands.cc:762-797`; proved, `no_words`). After equations are created or deleted and before the next solve it tells numbers made of the new positions and the old first row.
* F139 `contact_equation` looks at none of its models and `equation` not at `element_model` and the volume models: any text is accepted (proved, `contact_unchecked`, `element_unchecked`) and the error comes at the solve.
* F140 `interface_model` of `interface_equation` is declared optional but an empty one is refused (proved, `optional_required`).
* F141 A refused `circuit_element` (unknown kind, or a name that is there) leaves its nodes behind, and the branch node of a refused source: each gets a row with nothing in it in the next analysis (`CircuitCommands.cc:200-245`; proved, `Ckt.Examples.refused_leaves_nodes`).
* F142 `circuit_element` and `circuit_alter` accept a resistor of 0 Ohm; `pow(R, -1)` is then infinite and the equations of its nodes have no numbers (`IdealResistor.cc:27`). `delete_circuit` with bad options reports an error and deletes the circuit all the same (`CircuitCommands.cc:570-578`).
* F143 `set_material` and `get_material` with region and contact: the message "region and contact cannot be specified at same time" is overwritten by the next assignment (`MaterialCommands.cc:131-146`); the call is accepted and the region counts (proved, `Mat.both_accepted`).
* F144 `set_material` with neither region nor contact succeeds and sets nothing; `get_material` answers the empty text (proved, `Mat.neither_accepted`).
* F145 The new material of a region makes no model be computed anew, that of a contact the models displayed on it (proved, `Mat.region_marks_nothing`, `Mat.marked`).
* F146 `get_dimension` declares `device` as an option that may be left out, but its check refuses the empty text (proved, `Mat.dimension_needs_device`). `set_parameter` refuses the empty text as a value (`Mat.checked`).
* F147 A one-dimensional mesh whose lines have no tags can be finalized after a failed try, once lines with tags have been added; the positions of the failed try stay in front of the new ones, so that nodes are there twice and in the wrong order and a contact is at the wrong place (proved, `Msh.retry_wrong`; with tags the second try fails, F41).
* F148 After a `create_device` that has failed the name is taken and the device is listed; only `delete_device` helps (proved, `Msh.failed_device`; see F56, F87).
* F149 If a floating point exception is pending at the end of a command the call is an error, but what the command has changed stays changed (proved, `Disp.changed_refused`).
* F150 A command called by Python called by a command, and every model that is computed, takes the flags down (`FPECheck::ClearFPE`): an overflow of the outer command before it is not reported (proved, `Disp.hidden`). A command that sets no result is an error with an empty message (`Disp.silent`).
* F151 The history is one for each precision: an initial condition (or a `transient_dc`) in double precision is not there after `extended_solver` is set, and the next time step ends with "UNEXPECTED missing time data" (proved, `Past.switch_loses`).
* F152 `set_initial_condition` does not check the number of rows; lists that do not fit are accepted and the next time step ends with "UNEXPECTED time data mismatch" (proved, `Past.wrong_size`). Its own message that a list could not be converted is overwritten by that of the sizes.
* F153 On data with no points a registered procedure is called once, with the element at index 0 of an empty vector (proved, `Reg.empty_fault`).
* F154 If all arguments are numbers but data are wanted the result has one element, however many points there are (proved, `Reg.one_element`; `ModelExprEval.cc` does not call it so). Not proved: registering a name again does not mark the models that use it, so their values stay those of the procedure before; with extended precision the message that a procedure is not callable is given twice.
* F155 The edges of a contact are counted once for each of their nodes on it (`EdgeModel.cc` 337-347), and the loop over the indexes (`ModelExprEval.cc` 714-728) does not advance past an index that is there twice: if an edge lies on the contact, as is usual in two and three dimensions, functions are called on all edges after it, and an error far from the contact makes the model fail (proved, `Cont.edge_everywhere`, `Cont.joined_fails`). The values stored are right (`Cont.edge_model`). Area Eval (C53) has the indexes sorted and without repetitions.
