{
 "claims": [
  {
   "property": "C08",
   "status": "proved",
   "theorems": [
    "Verif.Base64.encode_is_rfc4648",
    "Verif.Base64.decode_encode",
    "Verif.Base64.encode_length",
    "Verif.Base64.encode_alphabet",
    "Verif.Base64.encode_injective",
    "Verif.Base64.decode_ignores_whitespace",
    "Verif.Base64.decode_no_ub_ascii",
    "Verif.Base64.decode_ub_witness",
    "Verif.Base64.decode4_ub_witness",
    "Verif.Base64.decode_is_rfc4648"
   ],
   "note": "Round trip for all byte strings; decoder on bytes >= 0x80 is undefined behaviour (witnesses), which the encoder never produces."
  },
  {
   "property": "C09",
   "status": "partial",
   "theorems": [
    "Verif.Base64.blocks_concat_iff",
    "Verif.Base64.blocks_drop_last_full",
    "Verif.Base64.vtk_roundtrip_partial",
    "Verif.Base64.vtk_reader_fails_on_full_blocks"
   ],
   "note": "Full claim is FALSE of the code at non-empty multiples of 4096 bytes (last full block dropped, proved); proved for every other length (exact iff). zlib is a parameter."
  },
  {
   "property": "C12",
   "status": "proved",
   "theorems": [
    "Verif.Parallel.taskRanges_partition",
    "Verif.Parallel.schedule_serial",
    "Verif.Parallel.threaded_kernel_eq_serial",
    "Verif.Parallel.taskRanges_nonempty_ranges",
    "Verif.Parallel.joined_flag_iff",
    "Verif.Parallel.joined_count",
    "Verif.Parallel.joined_errors"
   ],
   "note": "Memory model: writes of tasks are atomic per element; any interleaving."
  },
  {
   "property": "C13",
   "status": "partial",
   "theorems": [
    "Verif.ScalarData.times_equal_data_elementwise",
    "Verif.ScalarData.plus_equal_data_elementwise",
    "Verif.ScalarData.times_equal_scalar_elementwise",
    "Verif.ScalarData.plus_equal_scalar_elementwise",
    "Verif.ScalarData.plus_equal_model_elementwise",
    "Verif.ScalarData.times_equal_model_elementwise_partial",
    "Verif.ScalarData.exact_of_standard_precision",
    "Verif.ScalarData.set_spec",
    "Verif.ScalarData.get_in_bounds",
    "Verif.ScalarData.times_equal_model_extended_counterexample"
   ],
   "note": "False in extended precision for times_equal_model (IsOne/IsZero tests look at the double copy; counterexample proved); proved in standard precision and all other operations."
  },
  {
   "property": "C14",
   "status": "partial",
   "theorems": [
    "Verif.ModelData.read_last_written_partial",
    "Verif.ModelData.read_last_written_standard",
    "Verif.ModelData.setOne_on_extended_lost",
    "Verif.ModelData.setOne_after_extended_read_lost",
    "Verif.ModelData.setOne_on_contact_sets_all",
    "Verif.ModelData.uniform_value_is_every_entry_partial"
   ],
   "note": "Full claim is FALSE when both precisions of one model are touched (stale cache, witnesses proved) and for single-index writes to contact models; proved otherwise."
  },
  {
   "property": "C15",
   "status": "partial",
   "theorems": [
    "Verif.Deps.read_fresh_partial",
    "Verif.Deps.read_stable_partial",
    "Verif.Deps.read_complete_partial",
    "Verif.Deps.Denotes.det",
    "Verif.Deps.stale_after_redefinition",
    "Verif.Deps.stale_after_late_definition",
    "Verif.Deps.stale_after_spurious_registration"
   ],
   "note": "Full claim is FALSE of the code: redefining a model, or creating a model that is already mentioned, does not invalidate its dependents (three witnesses proved). Proved (soundness, and completeness for acyclic definitions with the needed recursion depth) for all histories in which a name is created only when unused."
  },
  {
   "property": "C16",
   "status": "proved",
   "theorems": [
    "Verif.Deps.signal_terminates",
    "Verif.Deps.signal_exact",
    "Verif.Deps.signal_frontier",
    "Verif.Deps.signal_only_clears",
    "Verif.Deps.signal_leaves_rest"
   ],
   "note": "For every registration table including cycles; signal_exact gives the exact set of models marked out of date."
  },
  {
   "property": "C17",
   "status": "proved",
   "theorems": [
    "Verif.Deps.one_kind_per_name",
    "Verif.Deps.define_other_kind_refused",
    "Verif.Deps.define_same_kind_accepted"
   ],
   "note": ""
  },
  {
   "property": "C10",
   "status": "proved",
   "theorems": [
    "Verif.Params.lookup_region",
    "Verif.Params.lookup_device",
    "Verif.Params.lookup_global",
    "Verif.Params.set_region_local",
    "Verif.Params.set_device_local",
    "Verif.Params.list_region",
    "Verif.Params.list_device",
    "Verif.Params.list_global"
   ],
   "note": "Lookup is stated against the command history (newest first), including device deletion and re-creation and refused commands."
  },
  {
   "property": "C11",
   "status": "proved",
   "theorems": [
    "Verif.Params.change_is_signalled",
    "Verif.Params.signalled_iff",
    "Verif.Params.signalled_device_iff",
    "Verif.Params.signalled_region_iff",
    "Verif.Params.shadowed_unchanged"
   ],
   "note": ""
  },
  {
   "property": "C18",
   "status": "partial",
   "theorems": [
    "Verif.Equations.indices_are_permutation",
    "Verif.Equations.delete_keeps_order",
    "Verif.Equations.add_appends",
    "Verif.Equations.variable_table_partial",
    "Verif.Equations.variable_in_use_refused",
    "Verif.Equations.variable_table_counterexample",
    "Verif.Equations.variable_entered"
   ],
   "note": "The index and order half is proved in full. The variable-table half is FALSE of the code (AddEquation with an existing name and another variable erases the mapping of the NEW variable; counterexample proved); the proved part covers histories without such a replacement."
  },
  {
   "property": "C19",
   "status": "proved",
   "theorems": [
    "Verif.Numbering.rows_are_range",
    "Verif.Numbering.ground_has_no_row",
    "Verif.Numbering.bulk_numbers_injective",
    "Verif.Numbering.numbers_in_range"
   ],
   "note": ""
  },
  {
   "property": "C20",
   "status": "partial",
   "theorems": [
    "Verif.Circuit.ground_reads_zero",
    "Verif.Circuit.rows_after_analysis",
    "Verif.Circuit.alias_resolves_partial",
    "Verif.Circuit.alias_refused",
    "Verif.Circuit.terminal_resolves_partial",
    "Verif.Circuit.value_after_set",
    "Verif.Circuit.value_defined",
    "Verif.Circuit.terminal_on_alias_counterexample",
    "Verif.Circuit.alias_of_shadowed_counterexample",
    "Verif.Circuit.branch_name_shared",
    "Verif.Circuit.branch_unknown"
   ],
   "note": "For all sessions. Full claim is FALSE: an element attached to an alias name makes a new node of that name and is not connected to the aliased node (two counterexamples proved); proved for names that are not aliases."
  },
  {
   "property": "C21",
   "status": "partial",
   "theorems": [
    "Verif.Circuit.updateSolution_partial",
    "Verif.Circuit.session_update",
    "Verif.Circuit.halve_diverges",
    "Verif.Circuit.logDamp_spec",
    "Verif.Circuit.logDamp_not_monotone",
    "Verif.Circuit.update_type_ignored"
   ],
   "note": "Termination is FALSE for positive-type nodes whose value is not positive (proved). Proved for positive values, all update types; and unconditionally for every session, because the commands never create a node with a non-default update type (update_type_ignored, itself a defect)."
  },
  {
   "property": "C34",
   "status": "partial",
   "theorems": [
    "Verif.Circuit.query_readonly_partial",
    "Verif.Circuit.query_breaks_analysis_counterexample"
   ],
   "note": "FALSE on an empty circuit: a query creates the ground nodes and a later analysis then fails (proved); proved for every circuit that has a node."
  },
  {
   "property": "C35",
   "status": "proved",
   "theorems": [
    "Verif.Elements.dc_jacobian_exact",
    "Verif.Elements.tran_jacobian_exact",
    "Verif.Elements.currents_conserved",
    "Verif.Elements.dc_solution_laws"
   ],
   "note": "Over any field; row numbering and offsets are C19/C20."
  },
  {
   "property": "C22",
   "status": "proved",
   "theorems": [
    "Verif.Matrix.assembled_sum"
   ],
   "note": "Any insertion/finalize sequence, real or complex, both storage formats; only needs x+0 = 0+x = x, values are added in program order."
  },
  {
   "property": "C23",
   "status": "partial",
   "theorems": [
    "Verif.Matrix.assemble_history",
    "Verif.Matrix.reassemble",
    "Verif.Matrix.clear_small_out_of_bounds",
    "Verif.Matrix.clear_counterexample",
    "Verif.Matrix.clear_unfinalized_out_of_bounds"
   ],
   "note": "FALSE in general: clearing a matrix resizes its overflow table to the number of non-zeros, later insertions then go out of bounds (counterexamples proved). Proved when the first assembly touches every line."
  },
  {
   "property": "C24",
   "status": "partial",
   "theorems": [
    "Verif.Matrix.multiply_correct",
    "Verif.Matrix.multiply_assembled",
    "Verif.Matrix.represents_complex",
    "Verif.Matrix.transpose_wrong_ccm",
    "Verif.Matrix.transpose_wrong_crm",
    "Verif.Matrix.transpose_not_correct",
    "Verif.Matrix.multiply_assembled_complex"
   ],
   "note": "multiply is correct for every finalized matrix; transpose multiplication is FALSE of the code (counterexamples proved)."
  },
  {
   "property": "C36",
   "status": "proved",
   "theorems": [
    "Verif.Matrix.same_symbolic_same_pattern",
    "Verif.Matrix.same_positions_same_symbolic"
   ],
   "note": ""
  },
  {
   "property": "C25",
   "status": "proved",
   "theorems": [
    "Verif.Assembly.loadSystem_rows",
    "Verif.Assembly.loadSystem_cells",
    "Verif.Assembly.contact_row",
    "Verif.Assembly.continuous_rows",
    "Verif.Assembly.hybrid_rows",
    "Verif.Assembly.pass_spec",
    "Verif.Assembly.setPerms_eq",
    "Verif.Assembly.system_rows",
    "Verif.SmallSignal.loadAll_rows",
    "Verif.PyArg.custom_rows"
   ],
   "note": "Matrix and right hand side go through one row operator, for any number of devices plus the circuit; custom equations included (custom_rows); row offset arithmetic as in the code."
  },
  {
   "property": "C26",
   "status": "proved",
   "theorems": [
    "Verif.Assembly.couple_conserves",
    "Verif.Assembly.edge_conserves",
    "Verif.Assembly.element_conserves",
    "Verif.Assembly.fluxterm_conserves"
   ],
   "note": "Edges, triangle edges, tetrahedron edges, and flux-term interfaces; over any commutative ring."
  },
  {
   "property": "C37",
   "status": "partial",
   "theorems": [
    "Verif.Assembly.contact_governs_iff",
    "Verif.Assembly.contact_owner_unique",
    "Verif.Assembly.contact_owner_exists_partial",
    "Verif.Assembly.shared_node_lost",
    "Verif.Assembly.iface_yields_to_contacts",
    "Verif.Assembly.iface_owner_unique"
   ],
   "note": "Uniqueness holds. Existence is FALSE when a contact at the node does not define the equation (shared_node_lost); proved when all contacts at the node define it."
  },
  {
   "property": "C38",
   "status": "proved",
   "theorems": [
    "Verif.Assembly.contact_current_is_bulk_flux",
    "Verif.Assembly.device_currents_balance",
    "Verif.Assembly.circuit_row_is_reported_current",
    "Verif.Assembly.contact_loads"
   ],
   "note": ""
  },
  {
   "property": "C39",
   "status": "partial",
   "theorems": [
    "Verif.Assembly.bulk_jacobian",
    "Verif.Assembly.region_jacobian",
    "Verif.Assembly.contact_interior_jacobian",
    "Verif.Assembly.contact_circuit_jacobian_partial",
    "Verif.Assembly.contact_dc_jacobian_partial",
    "Verif.Assembly.circuitSite_jacobian_partial",
    "Verif.Assembly.iface_jacobian",
    "Verif.Assembly.system_jacobian",
    "Verif.Assembly.circuit_row_counterexample",
    "Verif.Assembly.contact_incomplete_counterexample"
   ],
   "note": "Bulk, contact interior and interface equations: proved. FALSE on circuit rows of edge and triangle contact equations with several variables (the derivative with respect to the circuit node is loaded once per variable; circuit_row_counterexample) and for contacts with incomplete derivative models (contact_incomplete_counterexample); proved under the hypotheses that exclude these."
  },
  {
   "property": "C40",
   "status": "partial",
   "theorems": [
    "Verif.Assembly.bulk_residual_partial",
    "Verif.Assembly.region_residual_partial",
    "Verif.Assembly.contact_residual",
    "Verif.Assembly.iface_residual",
    "Verif.Assembly.edge_volume_ignored"
   ],
   "note": "FALSE when an edge volume model is given without an edge model: it is silently ignored (edge_volume_ignored); proved otherwise."
  },
  {
   "property": "C41",
   "status": "proved",
   "theorems": [
    "Verif.Assembly.bulk_modes_agree",
    "Verif.Assembly.contact_modes_agree",
    "Verif.Assembly.iface_modes_agree"
   ],
   "note": ""
  },
  {
   "property": "C27",
   "status": "partial",
   "theorems": [
    "Verif.Newton.failed_solve_restores_partial",
    "Verif.Newton.prev_variable_counterexample",
    "Verif.Newton.prev_model_counterexample",
    "Verif.Newton.unlisted_counterexample",
    "Verif.Newton.error_counterexample"
   ],
   "note": "Proved for every iteration history that ends with a report of non-convergence, for regions whose variable names do not clash with the backups <var>_prev. FALSE otherwise (four counterexamples proved): a variable or model called <var>_prev, a variable missing from the variable table, an error raised during the call."
  },
  {
   "property": "C28",
   "status": "proved",
   "theorems": [
    "Verif.Newton.solve_iterations",
    "Verif.Newton.converged_step_small"
   ],
   "note": "For every linear solver behaviour; solve_iterations characterises the whole iteration log, converged_step_small says what the limits mean for the solution values."
  },
  {
   "property": "C29",
   "status": "proved",
   "theorems": [
    "Verif.Newton.history_is_trail"
   ],
   "note": "For every session of solves of all types, failures and errors included."
  },
  {
   "property": "C30",
   "status": "proved",
   "theorems": [
    "Verif.Newton.iteration_updates",
    "Verif.Newton.iteration_raises",
    "Verif.Newton.positive_stays_positive"
   ],
   "note": "Per-iteration effect on every solution, cause of errors, and the invariant over whole solves. Log damping is not monotone at the threshold (Verif.Circuit.logDamp_not_monotone)."
  },
  {
   "property": "C31",
   "status": "proved",
   "theorems": [
    "Verif.Newton.bdf1_error",
    "Verif.Newton.tr_error",
    "Verif.Newton.bdf2_error",
    "Verif.Newton.formulas_exact",
    "Verif.Newton.constant_charge",
    "Verif.Newton.bdf2_default_gamma_degenerate"
   ],
   "note": "Exactness on polynomials and explicit error bounds for all smooth charges. bdf2_default_gamma_degenerate: the default gamma=1 makes BDF2 divide by zero and is not rejected."
  },
  {
   "property": "C42",
   "status": "partial",
   "theorems": [
    "Verif.Newton.divergence_stops_partial",
    "Verif.Newton.divergence_two_devices_counterexample"
   ],
   "note": "Proved for one device. FALSE with several devices: the count of diverging iterations is shared and reset by any converging device (counterexample proved)."
  },
  {
   "property": "C43",
   "status": "proved",
   "theorems": [
    "Verif.Newton.transient_system",
    "Verif.Newton.dc_system",
    "Verif.Newton.ac_system"
   ],
   "note": "Composed from the loading theorems of C25 and the history of C29."
  },
  {
   "property": "C32",
   "status": "proved",
   "theorems": [
    "Verif.Mesh.points_spec",
    "Verif.Mesh.points_terminate",
    "Verif.Mesh.mkLine_positive",
    "Verif.Mesh.place_spec",
    "Verif.Mesh.place_complete",
    "Verif.Mesh.finalize_spec",
    "Verif.Mesh.instantiate_spec",
    "Verif.Mesh.second_finalize_fails",
    "Verif.Mesh.no_room_counterexample",
    "Verif.Mesh.sliver_counterexample",
    "Verif.Mesh.ex_finalize"
   ],
   "note": "Coordinates as real numbers. no_room_counterexample: without room one element is made silently; sliver_counterexample: elements shorter than the tolerance can appear; second_finalize_fails: after a failed finalize_mesh no retry can succeed. std::sort with the invalid comparator is any permutation."
  },
  {
   "property": "C01",
   "status": "proved",
   "theorems": [
    "Verif.Sym.deriv_correct",
    "Verif.Sym.Examples.regular",
    "Verif.Sym.Examples.deriv_singleton",
    "Verif.Sym.Examples.capture"
   ],
   "note": "For every expression object, as HasDerivAt along every curve that moves the variable, at every point where the parts are differentiable (Regular); user functions with the declared derivative table. Constants are exact. deriv_singleton (a product of one factor, which no operation makes) and capture (definefuncdiff of an already declared function does not rename its formal arguments) show why two hypotheses are there."
  },
  {
   "property": "C03",
   "status": "proved",
   "theorems": [
    "Verif.Sym.subst_eval",
    "Verif.Sym.subst_same"
   ],
   "note": "subst_eval for names, subst_same for whole sub-expressions (the engine matches by printed text)."
  },
  {
   "property": "C05",
   "status": "proved",
   "theorems": [
    "Verif.Sym.eval_refs",
    "Verif.Sym.deriv_fresh",
    "Verif.Sym.deriv_fresh_isZero",
    "Verif.Sym.Examples.two_args_not_zero"
   ],
   "note": "Recognised as the literal zero only when functions have one argument; two_args_not_zero shows the sum of zeros made otherwise."
  },
  {
   "property": "C06",
   "status": "partial",
   "theorems": [
    "Verif.Sym.eval_of_str_eq",
    "Verif.Sym.eval_of_str_eq_partial",
    "Verif.Sym.str_eq_value_ne",
    "Verif.Sym.fmtNat6_collision"
   ],
   "note": "FALSE of the code for integers of a million and more, which print with six digits (str_eq_value_ne). Proved for any set of numbers that prints faithfully, and without that assumption for the integers below a million in the format of the code."
  },
  {
   "property": "C07",
   "status": "partial",
   "theorems": [
    "Verif.Sym.parse_print",
    "Verif.Sym.parse_print_partial"
   ],
   "note": "The grammar, precedences and scanner are modelled; holds whenever the constants print faithfully (see C06 for where the code's number format does not)."
  },
  {
   "property": "C04",
   "status": "partial",
   "theorems": [
    "Verif.Sym.expandF_eval",
    "Verif.Sym.expandLoop_eval",
    "Verif.Sym.expandF_terminates",
    "Verif.Sym.expandLoop_terminates",
    "Verif.Sym.realCfg_intText",
    "Verif.Sym.expand_tiny_exponent",
    "Verif.Sym.ExpandEx.square"
   ],
   "note": "Value and termination of every expand method and of the loop of the command, for all expressions; the simplification at the end of the command is C02. FALSE for exponents whose text with six digits looks like an integer: pow(x,2e-07) becomes x*x (expand_tiny_exponent); proved when the text test recognises integers only (Cfg.IntText, met by the code's format for all numbers whose six digits show a point, realCfg_intText). Loop termination assumes that std::sort leaves a sorted list as it is."
  },
  {
   "property": "C02",
   "status": "partial",
   "theorems": [
    "Verif.Sym.simp_eval_partial",
    "Verif.Sym.simpLoop_eval_partial",
    "Verif.Sym.simp_poly_partial",
    "Verif.Sym.simp_pos_partial",
    "Verif.Sym.simp_WF",
    "Verif.Sym.simp_zero_pow",
    "Verif.Sym.simp_sqrt_square",
    "Verif.Sym.simp_returns",
    "Verif.Sym.simplify_returns_value_partial",
    "Verif.Sym.simplify_poly_returns_value_partial",
    "Verif.Sym.SimpEx.exact",
    "Verif.Sym.SimpEx.faithful",
    "Verif.Sym.SimpEx.closed",
    "Verif.Sym.SimpEx.wf",
    "Verif.Sym.SimpEx.good_e"
   ],
   "note": "Value of Simplify of every class and of the loop of the command, for all expressions, at every point where logarithms and powers with exponents that are no integers are taken of expressions made of positive parts, and powers with integer exponents of non-zero ones (or the exponent is a positive literal): all sums, products and exponentials, everywhere. FALSE elsewhere: sqrt of a square becomes the number itself (simp_sqrt_square), pow(0,y) becomes 0 at y=0 (simp_zero_pow). One call of Simplify returns for every expression (simp_returns, no assumptions). Missing: termination of the loop of the command; the numbers computed must print faithfully, because like terms are recognised by their text (see C06)."
  },
  {
   "property": "C33",
   "status": "partial",
   "theorems": [
    "Verif.MeshIO.load_written",
    "Verif.MeshIO.load_written_fresh",
    "Verif.MeshIO.load_written_same",
    "Verif.MeshIO.rep_geo",
    "Verif.MeshIO.rep_val",
    "Verif.MeshIO.write_rep",
    "Verif.MeshIO.digits_lossy",
    "Verif.MeshIO.lossy_fmt",
    "Verif.MeshIO.load_restart",
    "Verif.MeshIO.load_restart_mesh",
    "Verif.MeshIO.replay_keeps",
    "Verif.MeshIO.load_restart_plain",
    "Verif.MeshIO.plainDev_exact",
    "Verif.MeshIO.Example.writable",
    "Verif.MeshIO.Example.devOK",
    "Verif.MeshIO.Example.numbers",
    "Verif.MeshIO.Example.plain",
    "Verif.MeshIO.Example.example_load",
    "Verif.MeshIO.Example.replaced_builtin_lost",
    "Verif.MeshIO.Example.serWritable",
    "Verif.MeshIO.Example.restartOK",
    "Verif.MeshIO.Example.plainX",
    "Verif.MeshIO.Example.example_restart",
    "Verif.MeshIO.Example.serWritableC",
    "Verif.MeshIO.Example.restartOKC",
    "Verif.MeshIO.Example.tameC",
    "Verif.MeshIO.Example.example_replay"
   ],
   "note": "For write_devices with the data format, character by character: scanner, grammar, loader and instantiation of all devices, regions, contacts, interfaces and node and edge models of any size. FALSE without the assumptions: values that sixteen digits do not determine change (digits_lossy, lossy_fmt) and a user model that replaced a built-in one is lost (replaced_builtin_lost). The topology checks of the region and the built-in models are parameters. For the restart format (type devsim): the loaded state is that of restoring the data and then running the commands in the written order (load_restart), the mesh is the same whatever the commands return (load_restart_mesh), data that no command changes are kept (replay_keeps), devices of data only come back exactly (load_restart_plain, plainDev_exact). What a command in the file does is a parameter. Missing: interface node models as data (they are always commands)."
  },
  {
   "property": "C45",
   "status": "proved",
   "theorems": [
    "Verif.MeshIO.load_blocked",
    "Verif.MeshIO.loads_blocked",
    "Verif.MeshIO.load_stuck",
    "Verif.MeshIO.load_name_taken",
    "Verif.MeshIO.load_twice",
    "Verif.MeshIO.load_truncated",
    "Verif.MeshIO.truncated_spec"
   ],
   "note": "load_blocked and load_stuck hold for every later file text; load_twice and load_truncated show how the state is reached."
  },
  {
   "property": "C44",
   "status": "proved",
   "theorems": [
    "Verif.Geom.node_edges",
    "Verif.Geom.node_tris",
    "Verif.Geom.node_tets",
    "Verif.Geom.edge_tris",
    "Verif.Geom.edge_tets",
    "Verif.Geom.tri_tets",
    "Verif.Geom.tri_edges",
    "Verif.Geom.tet_tris",
    "Verif.Geom.tri_edge_missing",
    "Verif.Geom.tet_tri_missing",
    "Verif.Geom.tet_edges",
    "Verif.Geom.tet_edge_data",
    "Verif.Geom.tet_six_edges",
    "Verif.Geom.finalize_iff",
    "Verif.Geom.findElem_iff",
    "Verif.Geom.edgeIndexOnTriangle_iff",
    "Verif.Geom.exMesh_good",
    "Verif.Geom.exMesh_complete",
    "Verif.Geom.exHole_accepted"
   ],
   "note": "All meshes with increasing node numbers and no element given twice (what the constructors and AddEdgeList etc. give). finalize_iff needs that no edge or face is missing; exHole_accepted shows that a region with a missing edge is accepted and has an empty slot."
  },
  {
   "property": "C46",
   "status": "proved",
   "theorems": [
    "Verif.Geom.triCenter_spec",
    "Verif.Geom.triCenter_unique",
    "Verif.Geom.tetCenter_spec",
    "Verif.Geom.tetCenter_unique",
    "Verif.Geom.triCenter2d_dist",
    "Verif.Geom.triCenter3d_spec"
   ],
   "note": "Exact real arithmetic."
  },
  {
   "property": "C47",
   "status": "proved",
   "theorems": [
    "Verif.Geom.nodeVolume_sum_1d",
    "Verif.Geom.nodeVolume_sum_2d_le",
    "Verif.Geom.nodeVolume_sum_2d",
    "Verif.Geom.nodeVolume_sum_3d_le",
    "Verif.Geom.nodeVolume_sum_3d",
    "Verif.Geom.sum_onEdges",
    "Verif.Geom.sum_onNodes",
    "Verif.Geom.sum_onEdges3",
    "Verif.Geom.sq_tris",
    "Verif.Geom.sq_nonObtuse",
    "Verif.Geom.te_tets",
    "Verif.Geom.te_ok",
    "Verif.Geom.ob_exceeds",
    "Verif.Geom.edgeNodeVolume_1d",
    "Verif.Geom.edgeNodeVolume_2d",
    "Verif.Geom.edgeNodeVolume_3d",
    "Verif.Geom.nodeVolume_edges",
    "Verif.Geom.nodeVolume3_edges"
   ],
   "note": "Exact real arithmetic. The exact condition for equality is proved; ob_exceeds is a region whose node volumes are too large (couples have no sign)."
  },
  {
   "property": "C48",
   "status": "proved",
   "theorems": [
    "Verif.Geom.surface2d_area",
    "Verif.Geom.surface2d_total",
    "Verif.Geom.surface2d_normal",
    "Verif.Geom.surface2d_perp",
    "Verif.Geom.surface3d_area",
    "Verif.Geom.surface3d_total",
    "Verif.Geom.surface3d_normal",
    "Verif.Geom.surface3d_perp",
    "Verif.Geom.unitVec_spec",
    "Verif.Geom.edgeInverseLength_spec"
   ],
   "note": "Exact real arithmetic; the list of edges or triangles of all contacts (interfaces) of the region is the input."
  },
  {
   "property": "C49",
   "status": "proved",
   "theorems": [
    "Verif.Geom.interfaceNormal_spec",
    "Verif.Geom.interfaceNormal_nil",
    "Verif.Geom.atContactNode_spec",
    "Verif.Geom.atContactNode_pos"
   ],
   "note": ""
  },
  {
   "property": "C50",
   "status": "proved",
   "theorems": [
    "Verif.Fields.arithmetic_spec",
    "Verif.Fields.geometric_spec",
    "Verif.Fields.gradient_spec",
    "Verif.Fields.gradient_linear",
    "Verif.Fields.averageModelD_spec",
    "Verif.Fields.averageModelD_self",
    "Verif.Fields.averageModel_local",
    "Verif.Fields.edgeFromNode_spec",
    "Verif.Fields.geometric_negative_wrong"
   ],
   "note": "Exact real arithmetic. geometric_negative_wrong: for two negative values the derivative of the geometric mean has the wrong sign."
  },
  {
   "property": "C51",
   "status": "proved",
   "theorems": [
    "Verif.Fields.goodWeights_couple",
    "Verif.Fields.elementField_spec",
    "Verif.Fields.elementField_constant",
    "Verif.Fields.elementPairs_spec",
    "Verif.Fields.elementPairs_constant",
    "Verif.Fields.elementField_gradient",
    "Verif.Fields.elementField_scratch",
    "Verif.Fields.elementField_weights",
    "Verif.Fields.elementFromNode_spec",
    "Verif.Fields.elementFieldD_spec",
    "Verif.Fields.elementPairsD_spec",
    "Verif.Fields.elementField3_spec",
    "Verif.Fields.elementField3_constant",
    "Verif.Fields.elementPairs3_spec",
    "Verif.Fields.elementPairs3_constant",
    "Verif.Fields.elementField3_gradient",
    "Verif.Fields.elementField3_scratch",
    "Verif.Fields.elementFromNode3_spec",
    "Verif.Fields.elementFieldD3_spec",
    "Verif.Fields.elementPairsD3_spec",
    "Verif.Fields.product_derivs",
    "Verif.Fields.sq_plane",
    "Verif.Fields.te_goodTet"
   ],
   "note": "Exact real arithmetic; DenseMatrix by its specification. In two dimensions components are in the plane (the regions of the code have z = 0)."
  },
  {
   "property": "C52",
   "status": "partial",
   "theorems": [
    "Verif.Fields.triGradient_spec",
    "Verif.Fields.triGradient_flat",
    "Verif.Fields.gradient2d_spec",
    "Verif.Fields.gradient2d_linear",
    "Verif.Fields.gradient1d_spec_partial",
    "Verif.Fields.gradient1d_linear_partial",
    "Verif.Fields.gradient3d_zero",
    "Verif.Fields.gradient3d_wrong",
    "Verif.Fields.gradient1d_three_wrong",
    "Verif.Fields.gradient2d_example"
   ],
   "note": "Proved in two dimensions, and in one dimension for nodes with at most two edges. FALSE in three dimensions (gradient3d_zero: the result is always zero) and in one dimension with three or more edges at a node (gradient1d_three_wrong)."
  },
  {
   "property": "C53",
   "status": "partial",
   "theorems": [
    "Verif.Eval.model_value_from",
    "Verif.Eval.model_value",
    "Verif.Eval.model_value_exists",
    "Verif.Eval.derivative_model_value",
    "Verif.Eval.texts_wf",
    "Verif.Eval.evalE_good",
    "Verif.Eval.evalE_total",
    "Verif.Eval.mval_missing",
    "Verif.Eval.mval_node",
    "Verif.Eval.mval_edge",
    "Verif.Eval.mval_edge_tri",
    "Verif.Eval.mval_en",
    "Verif.Eval.mval_wrong_kind",
    "Verif.Eval.sum_of_kinds",
    "Verif.Eval.function_of_kinds",
    "Verif.Eval.vec_sum_value",
    "Verif.Eval.vec_max_value",
    "Verif.Eval.vec_min_value",
    "Verif.Eval.uniform_edge_with_tetrahedra",
    "Verif.Eval.unknown_function_of_numbers",
    "Verif.Eval.not_equal_of_numbers",
    "Verif.Eval.unknown_function_of_data",
    "Verif.Eval.zero_hides_failure",
    "Verif.Eval.Examples.contact_cache"
   ],
   "note": "Exact real arithmetic; the values of the models an expression uses are up to date (C15); the text of an expression determines its value (proved for src/adiff, C06). Proved from any right cache. FALSE in four cases, proved as such: a uniform edge model in an expression on tetrahedron edges (uniform_edge_with_tetrahedra), != and unknown functions of numbers (not_equal_of_numbers), a zero factor hides a failure (zero_hides_failure), a cache left by a contact model (contact_cache)."
  },
  {
   "property": "C54",
   "status": "proved",
   "theorems": [
    "Verif.MathFn.B_accurate",
    "Verif.MathFn.ieee_accurate",
    "Verif.MathFn.B_double_accurate",
    "Verif.MathFn.B_quad_accurate",
    "Verif.MathFn.B_machine_pos",
    "Verif.MathFn.rnd_nearest",
    "Verif.MathFn.Nearest.rel",
    "Verif.MathFn.bern_hasDerivAt",
    "Verif.MathFn.bern_pos",
    "Verif.MathFn.bern_neg",
    "Verif.MathFn.bern_strictAnti"
   ],
   "note": "Rounding to nearest with unbounded exponents (no overflow or underflow); exp, expm1 and pow correctly rounded. Non-vacuous: rnd_nearest."
  },
  {
   "property": "C55",
   "status": "partial",
   "theorems": [
    "Verif.MathFn.dBdx_error_partial",
    "Verif.MathFn.dBdx_accurate_away_partial",
    "Verif.MathFn.dBdx_double_at_tiny",
    "Verif.MathFn.dBdx_inaccurate",
    "Verif.MathFn.bern_hasDerivAt",
    "Verif.MathFn.dbern_neg"
   ],
   "note": "Proved: the error is at most (14+9/|x|) units, so the result is accurate for |x| at least 1. FALSE near zero by cancellation (dBdx_double_at_tiny: at 3*2^-53 the result is below -0.88, the derivative above -0.51)."
  },
  {
   "property": "C56",
   "status": "partial",
   "theorems": [
    "Verif.MathFn.fermi_returns",
    "Verif.MathFn.dFermidx_returns",
    "Verif.MathFn.dInvFermidx_below",
    "Verif.MathFn.dInvFermidx_pos",
    "Verif.MathFn.fermi_stop_partial",
    "Verif.MathFn.dFermidx_is_derivative_partial",
    "Verif.MathFn.invFermi_skips",
    "Verif.MathFn.dInvFermidx_above_wrong",
    "Verif.MathFn.fermi_not_inverse",
    "Verif.MathFn.fermi_error_large"
   ],
   "note": "Termination, derivative below the break point and the stopping condition are proved. FALSE: InvFermi jumps from below 4.3 to above 7 (invFermi_skips), so Fermi is no inverse there (fermi_not_inverse, fermi_error_large), and dInvFermidx is less than half of the derivative above the break point (dInvFermidx_above_wrong). Exact arithmetic."
  },
  {
   "property": "C57",
   "status": "partial",
   "theorems": [
    "Verif.MathFn.gfi_hasDerivAt",
    "Verif.MathFn.dgfidx_pos",
    "Verif.MathFn.gfi_strictMono",
    "Verif.MathFn.gfi_range",
    "Verif.MathFn.gauss_cache_transparent",
    "Verif.MathFn.erfInv_hasDerivAt",
    "Verif.MathFn.erfcInv_hasDerivAt",
    "Verif.MathFn.invErf_exists",
    "Verif.MathFn.igfiArg_inside",
    "Verif.MathFn.igfi_inverse_degenerate_partial",
    "Verif.MathFn.igfi_no_root",
    "Verif.MathFn.digfidx_is_derivative",
    "Verif.MathFn.igfi_stop_partial"
   ],
   "note": "Everything about gfi is proved. Missing: that the iteration of igfi ends at the root in the nondegenerate range (proved only for the degenerate range, and what holds when it stops). Exact arithmetic."
  },
  {
   "property": "C58",
   "status": "proved",
   "theorems": [
    "Verif.MathFn.Nearest.two_sum",
    "Verif.MathFn.kahan3_accurate",
    "Verif.MathFn.kahan4_accurate",
    "Verif.MathFn.kahan_exact"
   ],
   "note": "Rounding to nearest with unbounded exponents."
  },
  {
   "property": "C59",
   "status": "partial",
   "theorems": [
    "Verif.MathFn.default_derivatives",
    "Verif.MathFn.regular_default",
    "Verif.MathFn.stdU_std",
    "Verif.MathFn.Ex.e_deriv",
    "Verif.MathFn.gfi_second_wrong",
    "Verif.MathFn.declared_wrong",
    "Verif.MathFn.dInvFermidx_above_wrong",
    "Verif.Sym.deriv_correct"
   ],
   "note": "Proved for all functions of the table but Fermi and igfi, and for gfi with a second argument that does not move. FALSE for gfi by its second argument (gfi_second_wrong), for the functions that are only declared (declared_wrong: derfdx, dBdx), for InvFermi above the break point. The text of the table is read by the grammar of src/adiff."
  },
  {
   "property": "C60",
   "status": "proved",
   "theorems": [
    "Verif.SmallSignal.ac_analysis",
    "Verif.SmallSignal.ac_circuit_laws",
    "Verif.SmallSignal.ac_steady_state",
    "Verif.SmallSignal.ac_first_order",
    "Verif.SmallSignal.acRhs_rows",
    "Verif.SmallSignal.pardiso_correct",
    "Verif.SmallSignal.exact_correct",
    "Verif.SmallSignal.ac_succeeds",
    "Verif.SmallSignal.loadAll_rows"
   ],
   "note": "Backend.Correct (the factorization solves the system it is given when it reports success) is the only assumption on the linear solver; it is met by an exact solver, and by MKL Pardiso given its documented behaviour. Exact arithmetic."
  },
  {
   "property": "C61",
   "status": "partial",
   "theorems": [
    "Verif.SmallSignal.noise_analysis_partial",
    "Verif.SmallSignal.noise_refused",
    "Verif.SmallSignal.noise_keep_counterexample",
    "Verif.SmallSignal.adjoint"
   ],
   "note": "FALSE at the nodes of a hybrid interface, where the equation is added to another row and kept (noise_keep_counterexample: 0 is stored, the response is 1); proved at all other nodes."
  },
  {
   "property": "C62",
   "status": "partial",
   "theorems": [
    "Verif.SmallSignal.external_partial",
    "Verif.SmallSignal.static_stored",
    "Verif.SmallSignal.external_counterexample"
   ],
   "note": "FALSE when the static matrix stores fewer entries than there are equations: out of bounds access (external_counterexample, a circuit of one capacitor). Proved otherwise, in particular when every row or column has a nonzero static entry (static_stored)."
  },
  {
   "property": "C63",
   "status": "partial",
   "theorems": [
    "Verif.PyArg.custom_assembled_partial",
    "Verif.PyArg.custom_refused",
    "Verif.PyArg.custom_value_refused",
    "Verif.PyArg.custom_matrix_value_refused",
    "Verif.PyArg.custom_rows",
    "Verif.PyArg.row_counterexample",
    "Verif.SmallSignal.loadAll_rows"
   ],
   "note": "Proved for rows that are exactly Python ints. FALSE for rows that are numpy integers, floats or other objects: they are taken for row 0 without error (row_counterexample)."
  },
  {
   "property": "C64",
   "status": "partial",
   "theorems": [
    "Verif.PyArg.options_accepted_iff",
    "Verif.PyArg.option_value",
    "Verif.PyArg.integer_option_partial",
    "Verif.PyArg.integer_option_counterexample",
    "Verif.PyArg.maxdouble_refused"
   ],
   "note": "Acceptance is characterized and values are as given. FALSE for integer options: what is not exactly an int is accepted and read as 0 (integer_option_counterexample), an integer beyond 64 bits as -1."
  },
  {
   "property": "C65",
   "status": "partial",
   "theorems": [
    "Verif.PyArg.doubles_partial",
    "Verif.PyArg.double_list",
    "Verif.PyArg.longs_partial",
    "Verif.PyArg.long_list",
    "Verif.PyArg.numpy_int64_counterexample",
    "Verif.PyArg.numpy_float64_counterexample",
    "Verif.PyArg.long_overflow_counterexample"
   ],
   "note": "FALSE for numpy vectors of 64 bit integers read as doubles and of doubles read as integers (bit patterns are taken), and for integers beyond 64 bits (-1); proved for all other lists and vectors of four element types."
  },
  {
   "property": "C66",
   "status": "proved",
   "theorems": [
    "Verif.Mesh2d.finalize_spec",
    "Verif.Mesh2d.finalize_total",
    "Verif.Mesh2d.build_spec",
    "Verif.Mesh2d.locations_spec",
    "Verif.Mesh2d.locations_terminate",
    "Verif.Mesh2d.tiles_cover",
    "Verif.Mesh2d.tiles_disjoint",
    "Verif.Mesh2d.edge_topology",
    "Verif.Mesh2d.tri_nodup",
    "Verif.Mesh2d.device_made",
    "Verif.Mesh2d.device_refused",
    "Verif.Mesh2d.loader_finalize",
    "Verif.Mesh2d.Example.example_mesh",
    "Verif.Mesh2d.isSort_mergeSort"
   ],
   "note": "Exact arithmetic. std::sort is any function that sorts by position. create_device succeeds if every contact and interface in the mesh names regions in it, fails otherwise (device_refused)."
  },
  {
   "property": "C67",
   "status": "partial",
   "theorems": [
    "Verif.Mesh2d.script_says",
    "Verif.Mesh2d.script_mesh",
    "Verif.Mesh2d.second_box_lost",
    "Verif.Mesh2d.aligned_box",
    "Verif.Mesh2d.one_region_no_contacts",
    "Verif.Mesh2d.inside_mkBox",
    "Verif.Mesh2d.step_region_again",
    "Verif.Mesh2d.step_contact_again",
    "Verif.Mesh2d.step_iface_again"
   ],
   "note": "FALSE for names given twice: the second command succeeds and its rectangle is lost (second_box_lost). FALSE for contacts of a mesh of one region: none is made (one_region_no_contacts). Everything else is proved (script_says: the first command of each name counts)."
  },
  {
   "property": "C68",
   "status": "proved",
   "theorems": [
    "Verif.Gmsh.decompose_ok",
    "Verif.Gmsh.finalize_iff",
    "Verif.Gmsh.finalize_shapes",
    "Verif.Gmsh.finalize_dim",
    "Verif.Gmsh.finalize_rest",
    "Verif.Gmsh.finalize_again",
    "Verif.Gmsh.Example.finalizes",
    "Verif.Gmsh.Example.mixed_fails"
   ],
   "note": "For meshes as they are made by create_gmsh_mesh (Fresh), which C70 and C71 show."
  },
  {
   "property": "C69",
   "status": "partial",
   "theorems": [
    "Verif.Gmsh.create_ok_iff",
    "Verif.Gmsh.create_ok",
    "Verif.Gmsh.create_leaves_device",
    "Verif.Gmsh.create_crash",
    "Verif.Gmsh.unknown_group_empty",
    "Verif.Gmsh.region_unique",
    "Verif.Gmsh.Example.creates",
    "Verif.Gmsh.Example.crashes"
   ],
   "note": "Success is characterized and the device is as described (for elements without repeated nodes). FALSE on failure: the half-made device stays registered (create_leaves_device), and a contact or interface partly off its region follows a null pointer (create_crash). An unknown group makes an empty region without an error (unknown_group_empty). Topological checks of Region::FinalizeMesh are a parameter here."
  },
  {
   "property": "C70",
   "status": "partial",
   "theorems": [
    "Verif.Gmsh.load_ok_iff",
    "Verif.Gmsh.load_ok",
    "Verif.Gmsh.load_short",
    "Verif.Gmsh.commands_ok",
    "Verif.Gmsh.loaded_pos",
    "Verif.Gmsh.create_from_lists",
    "Verif.Gmsh.Example.accepted",
    "Verif.Gmsh.Example.small",
    "Verif.Gmsh.Example.full",
    "Verif.Gmsh.Example.short",
    "Verif.Gmsh.Example.narrowed",
    "Verif.Gmsh.Example.off_by_one"
   ],
   "note": "FALSE for lists that end in the middle of an element (load_short: one entry past the end is read) and for entries that do not fit an int (narrowed silently). Acceptance of complete lists is characterized."
  },
  {
   "property": "C71",
   "status": "partial",
   "theorems": [
    "Verif.Gmsh.File.load_doc",
    "Verif.Gmsh.File.session_ok",
    "Verif.Gmsh.File.load_sane",
    "Verif.Gmsh.File.create_from_file",
    "Verif.Gmsh.File.load_cut",
    "Verif.Gmsh.File.cut_poison",
    "Verif.Gmsh.File.load_poison",
    "Verif.Gmsh.File.session_poison",
    "Verif.Gmsh.File.load_tail",
    "Verif.Gmsh.File.renderTo_prefix",
    "Verif.Gmsh.File.Example.doc_ok",
    "Verif.Gmsh.File.Example.spelled",
    "Verif.Gmsh.File.Example.blank_line",
    "Verif.Gmsh.File.Example.quoted_blank",
    "Verif.Gmsh.File.Example.unknown_type"
   ],
   "note": "Files of Gmsh are read, in any number (load_doc, session_ok), and any text leaves a sane mesh (load_sane). FALSE: files cut at the end of a line of the nodes are accepted without elements, counts are ignored, a character outside ASCII counts as the end of the file (load_cut, load_tail); and after a cut or refused file no later file is read (cut_poison, load_poison)."
  },
  {
   "property": "C72",
   "status": "partial",
   "theorems": [
    "Verif.Iter.gmres_spec",
    "Verif.Iter.gmres_small",
    "Verif.Iter.gmres_minimal",
    "Verif.Iter.solveImpl_partial",
    "Verif.Iter.solveImpl_false_success",
    "Verif.Iter.rotgRef_ok"
   ],
   "note": "FALSE for the last sentence: failure of the iteration is reported as success (solveImpl_false_success: for every number of unknowns above 100). The rest is proved in exact arithmetic, for iteration limits that are a multiple of the restart length (the code has 100 and 50)."
  },
  {
   "property": "C73",
   "status": "partial",
   "theorems": [
    "Verif.Iter.process_subperm",
    "Verif.Iter.process_keep",
    "Verif.Iter.process_dropped",
    "Verif.Iter.process_small",
    "Verif.Iter.process_diag",
    "Verif.Iter.process_defined",
    "Verif.Iter.process_diag_false",
    "Verif.Iter.process_circuit",
    "Verif.Iter.classify_has",
    "Verif.Iter.blockMap_eq_iff",
    "Verif.Iter.sortRef_ok"
   ],
   "note": "FALSE for the diagonal: it is left out when a small entry of its row comes before it (process_diag_false; process_diag says when it stays). FALSE with circuits: the list of blocks is read at size_t(-1) (process_circuit). Otherwise proved."
  },
  {
   "property": "C74",
   "status": "partial",
   "theorems": [
    "Verif.Vtk.vtu_read",
    "Verif.Vtk.device_read",
    "Verif.Vtk.device_files_partial",
    "Verif.Vtk.vtm_read",
    "Verif.Vtk.visit_lists",
    "Verif.Vtk.arr_read",
    "Verif.Vtk.arr_unreadable",
    "Verif.Vtk.vector_not_asked",
    "Verif.Vtk.tet_not_asked",
    "Verif.Vtk.name_unreadable",
    "Verif.Vtk.relative_dir_unreadable",
    "Verif.Vtk.failed_open_not_reported"
   ],
   "note": "The files are read back, bit by bit, as the regions with the models asked for (device_files_partial, through a reader of XML, VTK and base64 given as a specification). FALSE: vectors on edges and models on tetrahedra are written even when include_test refuses them (vector_not_asked, tet_not_asked), names with markup make the file unreadable (name_unreadable), arrays of 4096 n values are lost (arr_unreadable), with a relative directory in the name the list of files is wrong (relative_dir_unreadable), a file that cannot be opened is not reported (failed_open_not_reported)."
  },
  {
   "property": "C75",
   "status": "partial",
   "theorems": [
    "Verif.Tec.file_read",
    "Verif.Tec.tec_read",
    "Verif.Tec.vars_shown",
    "Verif.Tec.collect_inv",
    "Verif.Tec.breakLine_ok",
    "Verif.Tec.lines_short",
    "Verif.Tec.conflict_stops",
    "Verif.Tec.displayed_lost",
    "Verif.Tec.long_word_hangsVerif.Tec.Example.dev_plain",
    "Verif.Tec.Example.conflict_none",
    "Verif.Tec.Example.hidden_lost",
    "Verif.Tec.Example.long_name_hangs"
   ],
   "note": "The file is read back as the device (file_read), its variables are exactly the models to be shown (vars_shown), breaking of lines changes blanks to newlines only (breakLine_ok, lines_short). FALSE: the program stops when an edge model is a vector in the first region and not in another (conflict_stops, conflict_none), a model that is displayed is left out when an earlier region does not display it (displayed_lost, hidden_lost), a word of 30000 characters makes BreakLine run for ever (long_word_hangs, long_name_hangs)."
  },
  {
   "property": "C76",
   "status": "proved",
   "theorems": [
    "Verif.Bnd.contact_elements",
    "Verif.Bnd.contact_kept",
    "Verif.Bnd.interface_elements",
    "Verif.Bnd.interface_kept",
    "Verif.Bnd.findEdges_spec",
    "Verif.Bnd.findTriangles_specVerif.Bnd.Example.sq_boundary",
    "Verif.Bnd.Example.te_boundary",
    "Verif.Bnd.Example.Verif.Bnd.element_node_list",
    "Verif.Bnd.Example.Verif.Bnd.loaded_kept"
   ],
   "note": "Every answer in every history is the increasing list of the boundary (contact_elements, interface_elements); given elements stay (contact_kept, interface_kept). Triangles are not asked for in two dimensions by the commands other than create_contact_from_interface, see C77."
  },
  {
   "property": "C77",
   "status": "partial",
   "theorems": [
    "Verif.Bnd.contact_from_interface_partial",
    "Verif.Bnd.contact_from_file",
    "Verif.Bnd.contact_from_interface_crashes",
    "Verif.Bnd.contact_from_interface_error",
    "Verif.Bnd.interface_from_nodes_error",
    "Verif.Bnd.interface_from_nodes_partial",
    "Verif.Bnd.interface_from_nodes_crashes",
    "Verif.Bnd.write_nodes",
    "Verif.Bnd.write_elems",
    "Verif.Bnd.interface_lostVerif.Bnd.Example.two_dimensions",
    "Verif.Bnd.Example.same_name",
    "Verif.Bnd.Example.one_pair"
   ],
   "note": "Proved in one and three dimensions. FALSE: in two dimensions create_contact_from_interface always ends the program (contact_from_interface_crashes), a name in use ends create_interface_from_nodes by an assertion (interface_from_nodes_crashes), an interface without elements that was read from a file is not written (interface_lost)."
  },
  {
   "property": "C78",
   "status": "partial",
   "theorems": [
    "Verif.Cyl.node_volumes_partial",
    "Verif.Cyl.sum_nodes",
    "Verif.Cyl.triVolume_ge",
    "Verif.Cyl.triVolume_exact",
    "Verif.Cyl.fan_triangle",
    "Verif.Cyl.revolve_washers",
    "Verif.Cyl.revolve_cut",
    "Verif.Cyl.edge_node_volume_zero",
    "Verif.Cyl.edge_node_volume_tail",
    "Verif.Cyl.wrong_triangle",
    "Verif.Cyl.sq_exceeds",
    "Verif.Cyl.sq_edge_node_volume",
    "Verif.Cyl.out_exact"
   ],
   "note": "FALSE: the volumes add up to at least the volume of the solid and to exactly that if and only if every piece of every triangle points away from the axis (node_volumes_partial); a full cylinder of two triangles gets more (sq_exceeds, F114), and CylindricalEdgeNodeVolume@n0 is overwritten by zeros, one for each node (edge_node_volume_zero, sq_edge_node_volume, F115). CylindricalEdgeNodeVolume@n1 is right. Real numbers, no rounding."
  },
  {
   "property": "C79",
   "status": "proved",
   "theorems": [
    "Verif.Cyl.element_couple",
    "Verif.Cyl.edge_couple",
    "Verif.Cyl.surface_area",
    "Verif.Cyl.surface_total",
    "Verif.Cyl.sweep_eq"
   ],
   "note": "For segments that do not cross the axis. Real numbers, no rounding."
  },
  {
   "property": "C80",
   "status": "partial",
   "theorems": [
    "Verif.Ifm.interface_value",
    "Verif.Ifm.interface_value_from",
    "Verif.Ifm.interface_value_exists",
    "Verif.Ifm.mval_region",
    "Verif.Ifm.mval_interface",
    "Verif.Ifm.vars_region",
    "Verif.Ifm.vars_shared",
    "Verif.Ifm.shared_parameter_must_agree",
    "Verif.Ifm.sum_invalid",
    "Verif.Ifm.vec_sum_value",
    "Verif.Ifm.split_none_iffVerif.Ifm.Examples.misspelled_model_is_zero",
    "Verif.Ifm.Examples.cyclic_model_is_zero",
    "Verif.Ifm.Examples.vec_sum_of_uniform",
    "Verif.Ifm.Examples.same_region_reads_first_nodes"
   ],
   "note": "Proved for expressions without vec_sum, vec_max, vec_min on interfaces of two regions. FALSE: on an interface of a region with itself x@r1 is read at the nodes of the first list (same_region_reads_first_nodes, F118), vec_sum of a uniform model is not the sum (vec_sum_of_uniform, F117), a name that refers to nothing or a model that depends on itself counts as 0 and the model gets values (F116). Real numbers, no rounding; text determines value as for C53."
  },
  {
   "property": "C81",
   "status": "proved",
   "theorems": [
    "Verif.Ifm.interface_derivative_value",
    "Verif.Ifm.Motion.curve",
    "Verif.Ifm.region_derivative_name",
    "Verif.Ifm.self_derivative",
    "Verif.Ifm.other_region_derivative",
    "Verif.Ifm.split_suffix"
   ],
   "note": "Real numbers; for models whose expression is evaluated as in C80."
  },
  {
   "property": "C82",
   "status": "partial",
   "theorems": [
    "Verif.Multi.outputs_current",
    "Verif.Multi.answers_stable",
    "Verif.Multi.Val.unique",
    "Verif.Multi.revive_keeps_replacement",
    "Verif.Multi.replaced_output",
    "Verif.Multi.replaced_producer",
    "Verif.Multi.written_producer",
    "Verif.Multi.half_a_group",
    "Verif.Multi.example_reach"
   ],
   "note": "Proved for all histories in which no name is used twice and only solutions are given values (deletions included). FALSE otherwise: a group that finds its outputs by name overwrites the values of a model the user put in place of an output (replaced_output, F119), the members stay at old values when the first model of the group is redefined or set (replaced_producer, written_producer, F120), a refused group stays in half (half_a_group, F121). For the groups with weak pointers it is proved for every state that they never overwrite a replacement (revive_keeps_replacement)."
  },
  {
   "property": "C83",
   "status": "proved",
   "theorems": [
    "Verif.Multi.always_answers",
    "Verif.Multi.missing_input_no_answer",
    "Verif.Multi.deleted_output"
   ],
   "note": "Names are used once and only solutions are given values, as in C82. What happens after a member of the group itself was deleted differs between the classes and is the end of the program for vector_gradient (deleted_output, F122)."
  },
  {
   "property": "C84",
   "status": "proved",
   "theorems": [
    "Verif.ExtSolver.solve_history",
    "Verif.ExtSolver.init_iff",
    "Verif.ExtSolver.ac_history",
    "Verif.ExtSolver.honest_solver",
    "Verif.ExtSolver.interleave_get"
   ],
   "note": "For all callbacks (functions of the history of calls) and all drives; assumes that the first assembly has a non-zero number in every row and column (without it clearing the matrix is undefined behaviour, C23)."
  },
  {
   "property": "C85",
   "status": "partial",
   "theorems": [
    "Verif.ExtSolver.used_is_returned_partial",
    "Verif.ExtSolver.solve_history",
    "Verif.ExtSolver.ac_history",
    "Verif.ExtSolver.complex_read",
    "Verif.ExtSolver.complex_refused",
    "Verif.ExtSolver.not_a_dictionary",
    "Verif.ExtSolver.none_converges",
    "Verif.ExtSolver.Examples.used_is_returned_counterexample",
    "Verif.ExtSolver.Examples.run_ac",
    "Verif.ExtSolver.Examples.run_ac_list"
   ],
   "note": "FALSE for an answer to solve that is not a dictionary: zeros are used, and solve reports convergence in the first iteration (none_converges, F123). A complex answer with one number too many is accepted (Examples.run_ac, F124). Proved for all answers that are dictionaries."
  },
  {
   "property": "C86",
   "status": "proved",
   "theorems": [
    "Verif.ExtSolver.refusal_stops",
    "Verif.ExtSolver.solve_history",
    "Verif.ExtSolver.init_iff",
    "Verif.ExtSolver.ac_history"
   ],
   "note": "For all callbacks and all histories. An answer to solve that is not a dictionary is not counted as a refusal here: it is the counterexample of C85."
  },
  {
   "property": "C87",
   "status": "proved",
   "theorems": [
    "Verif.ExtSolver.solver_used"
   ],
   "note": "For all parameter values and builds; the name is the text of the parameter."
  },
  {
   "property": "C88",
   "status": "partial",
   "theorems": [
    "Verif.SetVals.story_new_partial",
    "Verif.SetVals.story",
    "Verif.SetVals.Acct.det",
    "Verif.SetVals.read_what_was_set",
    "Verif.SetVals.set_values_command",
    "Verif.SetVals.set_value_command",
    "Verif.SetVals.show_command",
    "Verif.SetVals.keywords",
    "Verif.SetVals.given_iff",
    "Verif.SetVals.model_list",
    "Verif.SetVals.Examples.set_on_expression",
    "Verif.SetVals.Examples.set_on_expression_told"
   ],
   "note": "FALSE when values are set on a model that has an expression: they are accepted and vanish at the next invalidation (Examples.set_on_expression, F132). Proved for all histories in which values are set on data models only and names are created unused (see C15)."
  },
  {
   "property": "C89",
   "status": "proved",
   "theorems": [
    "Verif.SetVals.set_touches_only_users",
    "Verif.SetVals.refused_changes_nothing",
    "Verif.SetVals.set_values_command",
    "Verif.SetVals.set_value_command",
    "Verif.SetVals.show_command"
   ],
   "note": "For all worlds, calls and histories of the model; values as bits, text conversion is a parameter."
  },
  {
   "property": "C90",
   "status": "partial",
   "theorems": [
    "Verif.Solve.info_tells_partial",
    "Verif.Solve.converged_iff",
    "Verif.Solve.info_changes_nothing",
    "Verif.Solve.Examples.wrong_node",
    "Verif.Solve.Examples.zero_limit_never_converges"
   ],
   "note": "FALSE for relative_error_node, which is the node of the absolute error (Examples.wrong_node, F133). Proved for everything else in the dictionary, for regions where no two equations share a variable (with two, the change told by the first is the first of two changes)."
  },
  {
   "property": "C91",
   "status": "proved",
   "theorems": [
    "Verif.Solve.solve_command",
    "Verif.Solve.keywords",
    "Verif.Solve.bound_total",
    "Verif.Solve.Examples.negative_iterations",
    "Verif.Solve.Examples.default_limits_fail"
   ],
   "note": "For all keywords, worlds and solvers; the linear systems, ac and noise analyses are parameters (modelled in Assembly, SmallSignal). Numbers of options are doubles, used as real numbers."
  },
  {
   "property": "C92",
   "status": "partial",
   "theorems": [
    "Verif.EqCmd.equations_story",
    "Verif.EqCmd.after",
    "Verif.EqCmd.step",
    "Verif.EqCmd.told_again",
    "Verif.EqCmd.dict_again",
    "Verif.EqCmd.told_same",
    "Verif.EqCmd.equation_command",
    "Verif.EqCmd.good_there",
    "Verif.EqCmd.keywords",
    "Verif.EqCmd.stale_variable",
    "Verif.EqCmd.lost_equation"
   ],
   "note": "Proved for every history, with one exception that is FALSE of the code: after an equation of a region was told again with another variable, equations may be refused for a variable nobody has (stale_variable) and equations may be impossible to delete (lost_equation). Until then the refusals are exactly the stated ones. custom_equation is not modelled."
  },
  {
   "property": "C93",
   "status": "partial",
   "theorems": [
    "Verif.EqCmd.equation_numbers",
    "Verif.EqCmd.numbers_disjoint",
    "Verif.EqCmd.base_kept",
    "Verif.EqCmd.keywords_numbers",
    "Verif.EqCmd.numbers_example",
    "Verif.EqCmd.no_words"
   ],
   "note": "Proved, by variable as long as no equation was told again with another variable; by equation always. Between a change of equations and the next solve the first row is that of the last solve (base_kept), so the numbers are not those of any solve. Numbers do not wrap as int."
  },
  {
   "property": "C94",
   "status": "proved",
   "theorems": [
    "Verif.Ckt.story",
    "Verif.Ckt.after",
    "Verif.Ckt.does_one",
    "Verif.Ckt.shows_init",
    "Verif.Ckt.locked_iff",
    "Verif.Ckt.assembled",
    "Verif.Ckt.solution_laws",
    "Verif.Ckt.element_call",
    "Verif.Ckt.alter_call",
    "Verif.Ckt.keywords_required",
    "Verif.Ckt.keywords_enough",
    "Verif.Ckt.keywords_defaults"
   ],
   "note": "Proved for every history and every field in the place of double. Numbers in the text of an error are left out. A refused element leaves the nodes behind that it made (Examples.refused_leaves_nodes): the account of elements is not affected, the node table is (C20)."
  },
  {
   "property": "C95",
   "status": "proved",
   "theorems": [
    "Verif.Mat.set_material",
    "Verif.Mat.get_material",
    "Verif.Mat.set_parameter",
    "Verif.Mat.get_parameter",
    "Verif.Mat.params_history",
    "Verif.Mat.get_parameter_list",
    "Verif.Mat.get_dimension",
    "Verif.Mat.lists",
    "Verif.Mat.get_region_list",
    "Verif.Mat.marked",
    "Verif.Mat.keywords",
    "Verif.Mat.keywords_fixed",
    "Verif.Mat.checked",
    "Verif.Mat.keywords_known",
    "Verif.Mat.keywords_accepted"
   ],
   "note": "Proved for every history. A device comes with its regions, contacts and interfaces. Region and contact in one call are accepted and the region counts (Examples.both_accepted), neither is accepted too (neither_accepted)."
  },
  {
   "property": "C96",
   "status": "partial",
   "theorems": [
    "Verif.Msh.create_answer",
    "Verif.Msh.describe_answer",
    "Verif.Msh.finalize_answer",
    "Verif.Msh.delete_answer",
    "Verif.Msh.device_answer",
    "Verif.Msh.deleteDevice_answer",
    "Verif.Msh.refused_nothing",
    "Verif.Msh.lists",
    "Verif.Msh.closed",
    "Verif.Msh.history",
    "Verif.Msh.device_content",
    "Verif.Msh.device_one",
    "Verif.Msh.device_two",
    "Verif.Msh.retry_wrong",
    "Verif.Msh.failed_device"
   ],
   "note": "Proved for every script, except that a device of a mesh that was finalized at a second try may be something else than was told: FALSE of the code (F147, Examples.retry_wrong); device_one, device_two are for the first try; in two dimensions for contacts and interfaces that name regions of the mesh (see F85). Of Gmsh meshes only that they are there."
  },
  {
   "property": "C97",
   "status": "proved",
   "theorems": [
    "Verif.Disp.call_iff",
    "Verif.Disp.positional_nothing",
    "Verif.Disp.own_call",
    "Verif.Disp.clean_after",
    "Verif.Disp.session_calls",
    "Verif.Disp.plain_trouble",
    "Verif.Disp.value_iff"
   ],
   "note": "Proved for every body over the interface of a command. The flags pending are those of the history of the run, so those of a body whose flags were taken down by a command it called, or by a model it computed, are not seen (F150, proved); exceptions that are not derived of std::exception are not modelled."
  },
  {
   "property": "C98",
   "status": "proved",
   "theorems": [
    "Verif.Past.initial_answer",
    "Verif.Past.history_story",
    "Verif.Past.account_unique",
    "Verif.Past.initial_used",
    "Verif.Past.initial_size",
    "Verif.Past.no_constant"
   ],
   "note": "Proved for every session. Systems have at least one row; rounding is not modelled."
  },
  {
   "property": "C99",
   "status": "proved",
   "theorems": [
    "Verif.Reg.register_answer",
    "Verif.Reg.registered",
    "Verif.Reg.last_unique",
    "Verif.Reg.wrong_count",
    "Verif.Reg.wrong_count_numbers",
    "Verif.Reg.data_calls",
    "Verif.Reg.number_calls",
    "Verif.Reg.before_builtin"
   ],
   "note": "Proved for every procedure and every history. Data have at least one point: on empty data the procedure is called with an element that does not exist (F153, proved). Numbers are real; the rounding to double for Python is not modelled. At a contact the evaluator calls the number form for each point of the contact (ModelExprEval.cc 696-757); that loop is in area Eval, with functions that have no state."
  },
  {
   "property": "C100",
   "status": "proved",
   "theorems": [
    "Verif.Vec.triangle_vectors",
    "Verif.Vec.triangle_constant",
    "Verif.Vec.triangle_local",
    "Verif.Vec.tetrahedron_vectors",
    "Verif.Vec.tetrahedron_constant",
    "Verif.Vec.tetrahedron_scratch",
    "Verif.Vec.command_answer"
   ],
   "note": "Proved for every complete mesh in real numbers. In three dimensions the mean at the two ends is that of the model (C51), the theorem here gives the value along the edge."
  },
  {
   "property": "C101",
   "status": "proved",
   "theorems": [
    "Verif.Cont.node_indexes",
    "Verif.Cont.edge_indexes",
    "Verif.Cont.edge_count",
    "Verif.Cont.contact_values",
    "Verif.Cont.once",
    "Verif.Cont.node_model",
    "Verif.Cont.edge_model",
    "Verif.Cont.edge_everywhere"
   ],
   "note": "Proved for every contact with at least one point and for one function of data of the kind of the model; nested expressions and data of another kind are in area Eval. That only the edges of the contact are looked at is false of the code (F155, proved) and is not claimed for edges."
  }
 ]
}