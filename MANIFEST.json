{
 "claims": [
  {
   "property": "C01",
   "status": "proved",
   "theorems": [
    "Verif.Sampling.distributeSamples_partition"
   ],
   "note": "All totals and process counts; includes failure-freedom, contiguity and balance."
  },
  {
   "property": "C02",
   "status": "proved",
   "theorems": [
    "Verif.Sampling.sampleIndex_roundtrip_flat",
    "Verif.Sampling.sampleIndex_roundtrip_nested",
    "Verif.Sampling.sampleIndex_injective",
    "Verif.Sampling.sampleIndex_rowMajor",
    "Verif.Sampling.sampleIndex_accepts_out_of_range"
   ],
   "note": "Inverse bijections; the weak range check is recorded as a negative theorem."
  },
  {
   "property": "C03",
   "status": "proved",
   "theorems": [
    "Verif.Sampling.randomIndex_roundtrip",
    "Verif.Sampling.randomIndex_sound"
   ],
   "note": ""
  },
  {
   "property": "C04",
   "status": "partial",
   "theorems": [
    "Verif.Sampling.generateSamples_safe",
    "Verif.Sampling.generateSamples_diverges",
    "Verif.Sampling.generateSamples_parallel_hangs",
    "Verif.Sampling.generateSamples_partial"
   ],
   "note": "The pinned code violates termination on any rank that does not own all samples (proved); termination and completeness are proved for a rank owning all samples."
  },
  {
   "property": "C05",
   "status": "proved",
   "theorems": [
    "Verif.ParamReal.doubleParam_linear",
    "Verif.ParamReal.doubleParam_linear_equispaced",
    "Verif.ParamReal.doubleParam_log",
    "Verif.ParamReal.doubleParam_rejects",
    "Verif.ParamReal.doubleParam_random"
   ],
   "note": "Over the reals; rounding not modelled."
  },
  {
   "property": "C06",
   "status": "proved",
   "theorems": [
    "Verif.Sampling.integerParam_range",
    "Verif.Sampling.integerParam_rejects",
    "Verif.Sampling.integerParam_last",
    "Verif.Sampling.integerParam_last_not_max",
    "Verif.Sampling.filenameParam_range",
    "Verif.Sampling.parseFilenames_all",
    "Verif.Sampling.setMaximumSize_misses_max"
   ],
   "note": "Range and monotonicity proved; the last-sample claim holds exactly under divisibility."
  },
  {
   "property": "C07",
   "status": "proved",
   "theorems": [
    "Verif.Snapshots.saveSnapshot_history",
    "Verif.Snapshots.saveSnapshot_history_succeeds"
   ],
   "note": "Any history of saves, any number of tags and blocks; libROM's generator is the list of its columns."
  },
  {
   "property": "C08",
   "status": "proved",
   "theorems": [
    "Verif.Snapshots.portColumns_history",
    "Verif.Snapshots.portColumns_unknown",
    "Verif.Snapshots.portColumns_succeeds"
   ],
   "note": "Any history of samples, topologies and variable lists."
  },
  {
   "property": "C09",
   "status": "partial",
   "theorems": [
    "Verif.Snapshots.collectByPort_merge_partial",
    "Verif.Snapshots.generate_write_merge_partial",
    "Verif.Snapshots.merge_mixed_variables_misaligned"
   ],
   "note": "Proved when the merged files agree on the variable names of each component and the snapshot file names are distinct; the code checks neither, and the unrestricted claim is refuted by a concrete merge."
  },
  {
   "property": "C10",
   "status": "partial",
   "theorems": [
    "Verif.Snapshots.coverage_partial",
    "Verif.Snapshots.coverage_zero_when_larger"
   ],
   "note": "Holds for basis sizes up to the number of singular values; the pinned code reports 0 beyond (proved)."
  },
  {
   "property": "C11",
   "status": "proved",
   "theorems": [
    "Verif.Snapshots.basisTag_order",
    "Verif.Snapshots.portTag_order"
   ],
   "note": ""
  },
  {
   "property": "C12",
   "status": "partial",
   "theorems": [
    "Verif.Snapshots.print_not_injective",
    "Verif.Snapshots.print_collision_loses_snapshots",
    "Verif.Snapshots.print_injective_partial",
    "Verif.Snapshots.filename_injective_partial"
   ],
   "note": "Refuted in general; proved for component names without underscore."
  },
  {
   "property": "C13",
   "status": "proved",
   "theorems": [
    "Verif.Blocks.blockIndex_decode",
    "Verif.Blocks.blockIndex_encode",
    "Verif.Blocks.blockIndex_unified",
    "Verif.Blocks.blockIndex_unified_default_aborts",
    "Verif.Blocks.blockIndex_out_of_range_aliases"
   ],
   "note": "Inverse bijections in both orderings; two negative theorems record that arguments are not range checked and that the unified-mode round trip aborts on the default variable argument."
  },
  {
   "property": "C14",
   "status": "proved",
   "theorems": [
    "Verif.Blocks.setBlockSizes_separate",
    "Verif.Blocks.setBlockSizes_unified"
   ],
   "note": "Both orderings, any component types."
  },
  {
   "property": "C15",
   "status": "proved",
   "theorems": [
    "Verif.Blocks.sortBySubdomains_spec",
    "Verif.Blocks.sortByVariables_spec",
    "Verif.Blocks.sort_roundTrip",
    "Verif.Blocks.sort_roundTrip'",
    "Verif.Blocks.sortBySubdomains_mismatch",
    "Verif.Blocks.sort_wrong_count"
   ],
   "note": ""
  },
  {
   "property": "C16",
   "status": "proved",
   "theorems": [
    "Verif.Blocks.getVariableVector_spec",
    "Verif.Blocks.setVariableVector_spec",
    "Verif.Blocks.variableVector_roundTrip",
    "Verif.Blocks.variableVector_rejects"
   ],
   "note": ""
  },
  {
   "property": "C17",
   "status": "proved",
   "theorems": [
    "Verif.Blocks.stokes_offsets",
    "Verif.Blocks.stokes_offsets_consistent",
    "Verif.Blocks.stokes_offsetsByVar",
    "Verif.Blocks.poisson_offsets"
   ],
   "note": "Space dimensions are parameters (MFEM). The unsteady solver's re-use of the same offsets is covered by stokes_offsetsByVar; it has no offsets of its own beyond these."
  },
  {
   "property": "C18",
   "status": "proved",
   "theorems": [
    "Verif.LinAlg.rtap_spec",
    "Verif.LinAlg.rtap_matrix",
    "Verif.LinAlg.rtap_rejects",
    "Verif.LinAlg.addwRtAP_spec",
    "Verif.LinAlg.addwRtAP_rejects_target",
    "Verif.LinAlg.sparseRtAP_spec",
    "Verif.LinAlg.addwRtAPSparse_spec"
   ],
   "note": "Over any commutative ring; operators are arbitrary maps on vectors of the right length."
  },
  {
   "property": "C19",
   "status": "proved",
   "theorems": [
    "Verif.LinAlg.multSubMatrix_spec",
    "Verif.LinAlg.addMultTransposeSubMatrix_spec",
    "Verif.LinAlg.multTransposeSubMatrix_spec",
    "Verif.LinAlg.subMatrix_rejects",
    "Verif.LinAlg.subMatrix_empty_ub",
    "Verif.LinAlg.addSubMatrixRtAP_spec",
    "Verif.LinAlg.addSubMatrixRtAP_target",
    "Verif.LinAlg.addSubMatrixRtAP_stale",
    "Verif.LinAlg.addSubMatrixRtAPSparse_spec"
   ],
   "note": "Proved for non-empty row lists; an empty list is undefined behaviour (proved), and the resized target of AddSubMatrixRtAP can keep stale entries (proved)."
  },
  {
   "property": "C20",
   "status": "proved",
   "theorems": [
    "Verif.LinAlg.tensorContract_spec",
    "Verif.LinAlg.tensorAddScaledContract_spec",
    "Verif.LinAlg.tensorContract_rejects",
    "Verif.LinAlg.tensorMult_spec",
    "Verif.LinAlg.tensorAddScaledMultTranspose_spec",
    "Verif.LinAlg.tensorAddScaledMultTranspose_rejects",
    "Verif.LinAlg.tensor_jacobian"
   ],
   "note": "All shapes, over any commutative ring. TensorAddScaledContract adds to uninitialised memory when the target must grow; the statement makes that explicit."
  },
  {
   "property": "C21",
   "status": "partial",
   "theorems": [
    "Verif.LinAlg.tensorAddMultOnJ_actual",
    "Verif.LinAlg.tensorAddMultOnJ_partial",
    "Verif.LinAlg.tensorAddMultOnJ_wrong"
   ],
   "note": "The pinned code reads x[0] for every j (proved); the claim holds for vectors with equal entries only."
  },
  {
   "property": "C22",
   "status": "proved",
   "theorems": [
    "Verif.GramSchmidt.modifiedGramSchmidt_spec",
    "Verif.GramSchmidt.modifiedGramSchmidt_iff",
    "Verif.GramSchmidt.orthonormalize_spec",
    "Verif.GramSchmidt.orthonormalize_zero_fails",
    "Verif.GramSchmidt.orthonormalize_needs_orthogonal"
   ],
   "note": "Over the reals; rounding not modelled."
  },
  {
   "property": "C23",
   "status": "proved",
   "theorems": [
    "Verif.LinAlg.setBlockMat_spec",
    "Verif.LinAlg.setBlockMat_rejects",
    "Verif.LinAlg.setBlockMat_window_overflow",
    "Verif.LinAlg.setBlockVec_spec",
    "Verif.LinAlg.setBlockVec_rejects",
    "Verif.LinAlg.copyMatrix_spec",
    "Verif.LinAlg.computeCtAB_spec",
    "Verif.LinAlg.computeCtAB_rejects",
    "Verif.LinAlg.addToBlockMatrix_spec",
    "Verif.LinAlg.addToBlockMatrix_rejects",
    "Verif.LinAlg.addToBlockMatrix_shape"
   ],
   "note": "A window larger than the block is not rejected and reads outside it (proved)."
  },
  {
   "property": "C24",
   "status": "proved",
   "theorems": [
    "Verif.Hdf5.array_roundTrip",
    "Verif.Hdf5.array2_roundTrip",
    "Verif.Hdf5.vector_roundTrip",
    "Verif.Hdf5.dense_roundTrip",
    "Verif.Hdf5.tensor_roundTrip",
    "Verif.Hdf5.attr_roundTrip",
    "Verif.Hdf5.existing_name_aborts",
    "Verif.Hdf5.create_keeps",
    "Verif.Hdf5.array2_empty_ub",
    "Verif.Hdf5.dense_empty_ub",
    "Verif.Hdf5.tensor_empty_ub",
    "Verif.Hdf5.vector_empty_aborts"
   ],
   "note": "Round trips hold for all non-empty shapes (arrays: all sizes), into any target and after any later writes. Empty rank-two arrays, matrices and tensors are undefined behaviour and empty vectors abort in the pinned code (proved)."
  },
  {
   "property": "C25",
   "status": "proved",
   "theorems": [
    "Verif.Hdf5.sparse_roundTrip",
    "Verif.Hdf5.matrixBlocks_roundTrip",
    "Verif.Hdf5.blockMatrix_roundTrip",
    "Verif.Hdf5.sameCsr_entry",
    "Verif.Hdf5.sameBlocks_entry",
    "Verif.Hdf5.sparse_degenerate_aborts",
    "Verif.Hdf5.sparse_unfinalized_aborts",
    "Verif.Hdf5.blockMatrix_wrong_offsets_abort"
   ],
   "note": "Proved for matrices with rows and columns; a sparse matrix without rows or columns is written but cannot be read (proved). Block matrices must have equal row and column offsets, as the code documents."
  },
  {
   "property": "C26",
   "status": "partial",
   "theorems": [
    "Verif.Hdf5.legacySparse_overflow",
    "Verif.Hdf5.legacySparse_roundTrip_partial"
   ],
   "note": "The pinned reader overflows its buffer when there are fewer entries than rows plus one (proved); the round trip is proved otherwise."
  },
  {
   "property": "C27",
   "status": "proved",
   "theorems": [
    "Verif.Hdf5.samples_roundTrip",
    "Verif.Hdf5.samples_bad_type"
   ],
   "note": ""
  },
  {
   "property": "C28",
   "status": "proved",
   "theorems": [
    "Verif.Topology.updateAttributes_spec",
    "Verif.Topology.bdrAttrCheck_iff",
    "Verif.Topology.updated_passes_check"
   ],
   "note": "The result of the duplicate check on component meshes is ignored by its only caller (SetupComponents)."
  },
  {
   "property": "C29",
   "status": "proved",
   "theorems": [
    "Verif.Topology.inverse_transform2D",
    "Verif.Topology.transform_inverse2D",
    "Verif.Topology.transform2D_isometry",
    "Verif.Topology.transform2D_quarter_turn",
    "Verif.Topology.transform2D_translation",
    "Verif.Topology.inverse_transform3D",
    "Verif.Topology.transform3D_ignores_rotation",
    "Verif.Topology.transform_wrong_size",
    "Verif.Topology.readConfig_spec"
   ],
   "note": "Over the reals. The three-dimensional transformation ignores the configured rotation (proved)."
  },
  {
   "property": "C30",
   "status": "proved",
   "theorems": [
    "Verif.Topology.countComponents_spec",
    "Verif.Topology.local_index_injective",
    "Verif.Topology.local_index_range",
    "Verif.Topology.bad_component_ub"
   ],
   "note": "A component index outside the component list is undefined behaviour (proved)."
  },
  {
   "property": "C31",
   "status": "proved",
   "theorems": [
    "Verif.SubMesh.submeshes2D_correct",
    "Verif.SubMesh.interfaces_correct",
    "Verif.SubMesh.buildFaceMap2D_spec",
    "Verif.SubMesh.buildSubMeshBoundary2D_spec",
    "Verif.SubMesh.covered_face_not_coupled"
   ],
   "note": "MFEM's SubMesh enters through an explicit contract; the two-dimensional face map and boundary attributes are modelled, in three dimensions MFEM supplies them. Faces between submeshes that carry a boundary element of the parent mesh are never coupled (proved on an example, and by the soundness clause)."
  },
  {
   "property": "C32",
   "status": "proved",
   "theorems": [
    "Verif.Ports.buildPort_joins",
    "Verif.Ports.buildPort_bijective",
    "Verif.Ports.buildPort_complete",
    "Verif.Ports.refInterfaces_segment",
    "Verif.Ports.demo_port",
    "Verif.Ports.demo_congruent"
   ],
   "note": "Coordinates in a linearly ordered field. The vertices of each side must be further apart than the matching threshold (stated in Congruent). MFEM's orientation of triangles and quadrilaterals is external; segments are modelled."
  },
  {
   "property": "C33",
   "status": "proved",
   "theorems": [
    "Verif.Boundary.poisson_paired",
    "Verif.Boundary.stokes_paired",
    "Verif.Boundary.rom_agrees",
    "Verif.Boundary.markers_spec",
    "Verif.Boundary.reachable_wf"
   ],
   "note": "All histories of AddBCFunction, SetBdrType and SetParameterizedProblem. The elasticity solver is C57."
  },
  {
   "property": "C34",
   "status": "proved",
   "theorems": [
    "Verif.Boundary.lastAssignment_wins",
    "Verif.Boundary.lastAssignment_wins_stokes",
    "Verif.Boundary.unknown_attribute_ignored",
    "Verif.Boundary.no_boundary_aborts"
   ],
   "note": ""
  },
  {
   "property": "C35",
   "status": "proved",
   "theorems": [
    "Verif.Boundary.pressureFlag_correct",
    "Verif.Boundary.allNeumann_aborts",
    "Verif.Boundary.allNeumann_after_mixed",
    "Verif.Boundary.removeMean_spec",
    "Verif.Boundary.removeMean_pinned"
   ],
   "note": "The stale flag for problems without any function is recorded by allNeumann_aborts."
  },
  {
   "property": "C36",
   "status": "proved",
   "theorems": [
    "Verif.Boundary.complementaryFlux_sound",
    "Verif.Boundary.complementaryFlux_incompressible",
    "Verif.Boundary.complementaryFlux_all_homogeneous"
   ],
   "note": "Over an ordered field; division by zero is a separate outcome. Quadrature data of MFEM enter as arbitrary points, weights and normals."
  },
  {
   "property": "C37",
   "status": "partial",
   "theorems": [
    "Verif.Boundary.zeroMarks_partial",
    "Verif.Boundary.zeroMarks_wrong_boundary",
    "Verif.Boundary.zeroMarks_overflow",
    "Verif.Boundary.zeroMarks_default_hides"
   ],
   "note": "Proved when homogeneous entries stand at the global position of their boundary; refuted otherwise, including an out-of-bounds write with the list of ComponentFlow."
  },
  {
   "property": "C38",
   "status": "partial",
   "theorems": [
    "Verif.TimeLoop.restart_partial",
    "Verif.TimeLoop.restart_default",
    "Verif.TimeLoop.restart_contents",
    "Verif.TimeLoop.restart_stale",
    "Verif.TimeLoop.restart_never_updated"
   ],
   "note": "Proved for every restart file written at a step where visualisation is due, which includes the default interval -1; the pinned code writes an outdated solution otherwise (restart_contents says which, restart_stale shows a run that resumes wrongly). One time step is an arbitrary function; the reordering of the solution vector is C15."
  },
  {
   "property": "C39",
   "status": "proved",
   "theorems": [
    "Verif.TimeLoop.snapshots_on_schedule",
    "Verif.TimeLoop.final_state",
    "Verif.TimeLoop.steps_spec"
   ],
   "note": "One time step is an arbitrary function of time and state."
  },
  {
   "property": "C40",
   "status": "proved",
   "theorems": [
    "Verif.Smoother.gs_keeps_solution",
    "Verif.Smoother.gs_solves_lower",
    "Verif.Smoother.gs_solves_upper",
    "Verif.Smoother.gs_forward_rows",
    "Verif.Smoother.gs_symmetric",
    "Verif.Smoother.jacobi_spec",
    "Verif.Smoother.setOperator_default_does_nothing",
    "Verif.Smoother.setOperator_keeps_inverses"
   ],
   "note": "Over any commutative ring; MFEM's DenseMatrix::Invert enters as a function returning a two-sided inverse."
  },
  {
   "property": "C41",
   "status": "proved",
   "theorems": [
    "Verif.RomAssembly.poisson_assembly",
    "Verif.RomAssembly.stokes_assembly",
    "Verif.RomAssembly.assembly_is_projection"
   ],
   "note": "Element matrices are arbitrary (MFEM integrators are external); subdomains are copies of components, which is a hypothesis (FormsOk): for rotated copies of vector-valued problems it fails. Stokes with separate and with unified bases."
  },
  {
   "property": "C42",
   "status": "proved",
   "theorems": [
    "Verif.InterfaceForm.assemble_spec",
    "Verif.InterfaceForm.assembleMixed_spec",
    "Verif.InterfaceForm.assemble_untouched",
    "Verif.InterfaceForm.assemble_local",
    "Verif.InterfaceForm.assemble_order",
    "Verif.InterfaceForm.self_port_aborts",
    "Verif.InterfaceForm.missing_block_aborts",
    "Verif.InterfaceForm.null_integrator_aborts",
    "Verif.InterfaceForm.assembleAtPort_spec"
   ],
   "note": "Element matrices are arbitrary functions of the two face transformations (MFEM geometry is external); covers InterfaceForm and MixedInterfaceForm. Over any commutative ring, so the order of summation does not matter; floating point rounding is not modelled."
  },
  {
   "property": "C43",
   "status": "proved",
   "theorems": [
    "Verif.InterfaceForm.addMult_eq_assembled",
    "Verif.InterfaceForm.addMult_spec",
    "Verif.InterfaceForm.gradient_spec"
   ],
   "note": ""
  },
  {
   "property": "C44",
   "status": "proved",
   "theorems": [
    "Verif.RomHandler.load_ready",
    "Verif.RomHandler.load_missing",
    "Verif.RomHandler.project_spec",
    "Verif.RomHandler.lift_spec",
    "Verif.RomHandler.project_lift",
    "Verif.RomHandler.lift_project_span",
    "Verif.RomHandler.lift_project_idempotent",
    "Verif.RomHandler.lift_project_orthogonal",
    "Verif.RomHandler.project_local",
    "Verif.RomHandler.project_lift_reject",
    "Verif.RomHandler.project_needs_basis",
    "Verif.RomHandler.solve_spec"
   ],
   "note": "Over any commutative ring, for both orderings and for separate or unified variables; the linear solver is an arbitrary function."
  },
  {
   "property": "C45",
   "status": "proved",
   "theorems": [
    "Verif.Eqp.mult_spec",
    "Verif.Eqp.getGradient_spec",
    "Verif.Eqp.mult_perm",
    "Verif.Eqp.getGradient_perm",
    "Verif.Eqp.precompute_spec",
    "Verif.Eqp.fast_eq_slow",
    "Verif.Eqp.fast_grad_eq_slow",
    "Verif.Eqp.getGradient_exact",
    "Verif.Eqp.mult_ok_trained",
    "Verif.Eqp.triInteg_preOk",
    "Verif.Eqp.invInteg_preOk",
    "Verif.Eqp.triInteg_quadratic",
    "Verif.Eqp.invInteg_quadratic",
    "Verif.Eqp.triInteg_sampleOk",
    "Verif.Eqp.invInteg_sampleOk",
    "Verif.Eqp.getGradient_null_basis_ub",
    "Verif.Eqp.null_face_fast_ub",
    "Verif.Eqp.preEntry_null_face",
    "Verif.EqpItf.addMult_spec",
    "Verif.EqpItf.gradient_spec",
    "Verif.EqpItf.addMult_perm",
    "Verif.EqpItf.gradient_perm",
    "Verif.EqpItf.fast_eq_slow",
    "Verif.EqpItf.setBases_spec",
    "Verif.EqpItf.updateBlockOffsets_spec",
    "Verif.EqpItf.no_offsets"
   ],
   "note": "Over any commutative ring. Integrators are arbitrary functions; triInteg_preOk and invInteg_preOk show that the convection integrators meet the contract of precomputed coefficients. The *_ub and no_offsets theorems record missing checks."
  },
  {
   "property": "C46",
   "status": "proved",
   "theorems": [
    "Verif.Eqp.full_quadrature_exact"
   ],
   "note": "Over any commutative ring, for domain, interior face and boundary face integrators."
  },
  {
   "property": "C47",
   "status": "proved",
   "theorems": [
    "Verif.Training.train_samples",
    "Verif.Training.train_entryOk",
    "Verif.Training.trainEntry_eq",
    "Verif.Training.candidates_eq",
    "Verif.Training.samplesOf_extracted",
    "Verif.Training.convection_trainable"
   ],
   "note": "ROMNonlinearForm: domain, interior face and (marked) boundary face integrators, any distribution over processes; the NNLS solver is an arbitrary function that returns one weight per row. ROMInterfaceForm shares the extraction loop."
  },
  {
   "property": "C48",
   "status": "proved",
   "theorems": [
    "Verif.Training.train_error",
    "Verif.Training.train_form_error",
    "Verif.Training.exists_solver",
    "Verif.Training.convection_trainable"
   ],
   "note": "Stated over any ordered field; the contract of the NNLS solver is a hypothesis, shown satisfiable (exists_solver). Termination criteria of libROM's solver are not modelled."
  },
  {
   "property": "C49",
   "status": "proved",
   "theorems": [
    "Verif.Convection.triFastVec_correct",
    "Verif.Convection.triFastGrad_correct",
    "Verif.Convection.invFastVec_correct",
    "Verif.Convection.invFastGrad_correct",
    "Verif.Convection.triFastVec_wrong_with_vq"
   ],
   "note": "MFEM's dense kernels and geometry enter through their contract (chain rule, adjugate). triFastVec_wrong_with_vq shows that the restriction to no prescribed advection field is needed."
  },
  {
   "property": "C50",
   "status": "proved",
   "theorems": [
    "Verif.Convection.triVec_spec",
    "Verif.Convection.invVec_spec",
    "Verif.Convection.triGrad_exact",
    "Verif.Convection.invGrad_exact",
    "Verif.Convection.triElemGrad_exact",
    "Verif.Convection.invElemGrad_exact",
    "Verif.Convection.triFast_exact",
    "Verif.Convection.invFast_exact",
    "Verif.Convection.triGrad_not_exact_with_vq"
   ],
   "note": "Over any commutative ring. triGrad_not_exact_with_vq shows that the restriction to no prescribed advection field is needed."
  },
  {
   "property": "C51",
   "status": "proved",
   "theorems": [
    "Verif.EqpStore.views_latest",
    "Verif.EqpStore.run_total",
    "Verif.EqpStore.update_rejects",
    "Verif.EqpStore.destroy_frees_all",
    "Verif.EqpStore.load_range_ub",
    "Verif.EqpStore.save_unset_ub"
   ],
   "note": "Pointers are addresses in an explicit heap. load_range_ub and save_unset_ub record findings: LoadEQPForIntegrator does not check the integrator index, SaveEQPForIntegrator dereferences a missing sample list; such calls do not return."
  },
  {
   "property": "C52",
   "status": "partial",
   "theorems": [
    "Verif.RomOperator.operator_safe_partial",
    "Verif.RomOperator.load_double_free_iff",
    "Verif.RomOperator.uses_last_operator",
    "Verif.RomOperator.iterative_no_leak",
    "Verif.RomOperator.direct_solver_leaks",
    "Verif.RomOperator.nonlinear_detaches"
   ],
   "note": "The pinned code violates the property: LoadOperatorFromFile frees the monolithic copy twice exactly when one exists (load_double_free_iff). operator_safe_partial covers all histories that load only while no copy exists."
  },
  {
   "property": "C53",
   "status": "proved",
   "theorems": [
    "Verif.Options.required_iff",
    "Verif.Options.required_missing",
    "Verif.Options.option_iff",
    "Verif.Options.at_unique",
    "Verif.Options.setOption_ok_iff",
    "Verif.Options.set_get",
    "Verif.Options.set_other",
    "Verif.Options.set_below",
    "Verif.Options.overwrite_iff",
    "Verif.Options.overwrite_last",
    "Verif.Options.lookUp_first",
    "Verif.Options.lookUpValue_spec",
    "Verif.Options.pieces_iff",
    "Verif.Options.lookup_keeps",
    "Verif.Options.lookup_turns_list_into_map",
    "Verif.Options.empty_key_replaces_all"
   ],
   "note": "Reading text into YAML values is external (an arbitrary conversion). lookup_turns_list_into_map and empty_key_replaces_all record findings."
  },
  {
   "property": "C54",
   "status": "proved",
   "theorems": [
    "Verif.Timer.accepted_iff",
    "Verif.Timer.report_spec",
    "Verif.Timer.report_running_aborts",
    "Verif.Timer.report_parallel_aborts"
   ],
   "note": "Clock readings are arbitrary integers; MFEM's StopWatch enters through its contract. report_parallel_aborts records a finding: with several processes the report uses MPI_IN_PLACE off the root, which MPI forbids."
  },
  {
   "property": "C55",
   "status": "proved",
   "theorems": [
    "Verif.Options.snapshotFiles_cases",
    "Verif.Options.snapshotFiles_entry",
    "Verif.Options.snapshotFiles_default"
   ],
   "note": ""
  },
  {
   "property": "C56",
   "status": "partial",
   "theorems": [
    "Verif.Params.set_spec",
    "Verif.Params.no_cross_talk",
    "Verif.Params.unknown_problem",
    "Verif.Params.last_wins",
    "Verif.Params.set_by_index_partial",
    "Verif.Params.set_by_index_rejects",
    "Verif.Params.bad_index_ub",
    "Verif.Params.elasticity_index_ub",
    "Verif.Params.component_boundary",
    "Verif.Params.array_boundary"
   ],
   "note": "Proved for the parameter tables of all seventeen problems. The pinned code violates the part on indices: elasticity problems never set their number of parameters, so setting by index is undefined (elasticity_index_ub), and so is an index out of range (bad_index_ub)."
  },
  {
   "property": "C57",
   "status": "partial",
   "theorems": [
    "Verif.Boundary.elast_paired",
    "Verif.Boundary.elast_unpaired_continuous",
    "Verif.Boundary.elast_rom_differs",
    "Verif.Boundary.elast_missing_function"
   ],
   "note": "Proved for the discontinuous discretisation; the two violations of the pinned code are proved."
  },
  {
   "property": "C58",
   "status": "partial",
   "theorems": [
    "Verif.Boundary.poisson_latest",
    "Verif.Boundary.stokes_latest",
    "Verif.Boundary.default_entry_keeps_types",
    "Verif.Boundary.elast_keeps_functions"
   ],
   "note": "Proved for problems listing every boundary; the two violations of the pinned code are proved."
  },
  {
   "property": "C59",
   "status": "proved",
   "theorems": [
    "Verif.CompSetup.elem_attr",
    "Verif.CompSetup.elem_count",
    "Verif.CompSetup.battrs_spec",
    "Verif.CompSetup.port_attrs",
    "Verif.CompSetup.ports_attached",
    "Verif.CompSetup.global_iff_not_port",
    "Verif.CompSetup.unassigned_rejected",
    "Verif.CompSetup.setup_total",
    "Verif.CompSetup.overridden_boundary"
   ],
   "note": "overridden_boundary records a finding: a boundary-table row for a boundary that also belongs to a port is overridden without notice."
  },
  {
   "property": "C60",
   "status": "proved",
   "theorems": [
    "Verif.EqpStore.save_stores",
    "Verif.EqpStore.save_load",
    "Verif.EqpStore.portName_eq_iff",
    "Verif.EqpStore.portName_inj",
    "Verif.EqpStore.colon_collision"
   ],
   "note": "HDF5 enters through the file model of C24-C27 (names containing a slash are not modelled). colon_collision shows why the restriction on names is needed."
  },
  {
   "property": "C61",
   "status": "proved",
   "theorems": [
    "Verif.EqpComp.assemble_spec",
    "Verif.EqpComp.assemble_total",
    "Verif.EqpComp.run_total",
    "Verif.EqpComp.seen_latest",
    "Verif.EqpComp.destroy_frees_all",
    "Verif.EqpComp.retrain_dangles"
   ],
   "note": "retrain_dangles records a finding: after a further training or load the subdomain forms hold dangling pointers until the operator is assembled again."
  },
  {
   "property": "C62",
   "status": "proved",
   "theorems": [
    "Verif.EqpComp.save_stores",
    "Verif.EqpComp.save_load",
    "Verif.EqpComp.dsetName_inj",
    "Verif.EqpComp.save_unset_ub"
   ],
   "note": "save_unset_ub shows why samples on every integrator are required: otherwise a null pointer is dereferenced."
  },
  {
   "property": "C63",
   "status": "proved",
   "theorems": [
    "Verif.LaxF.faceVec_flux",
    "Verif.LaxF.itfVec_flux",
    "Verif.LaxF.faceVec_consistent",
    "Verif.LaxF.itfVec_consistent",
    "Verif.LaxF.faceVec_conserves",
    "Verif.LaxF.itfVec_conserves",
    "Verif.LaxF.itfVec_swap"
   ],
   "note": "Over any ordered field, with the square root an arbitrary function."
  },
  {
   "property": "C64",
   "status": "partial",
   "theorems": [
    "Verif.LaxF.faceGrad_exact_partial",
    "Verif.LaxF.itfGrad_exact_partial",
    "Verif.LaxF.faceGrad_rest_ub"
   ],
   "note": "Over the reals, as Frechet derivatives. Proved where speeds differ, or velocities agree and do not vanish, at each quadrature point. The pinned code violates the property at rest: with zero velocity on both sides, or next to a no-slip wall, the vector is differentiable with Jacobian zero but the routine divides zero by zero (faceGrad_rest_ub)."
  },
  {
   "property": "C65",
   "status": "partial",
   "theorems": [
    "Verif.LaxF.fastVec_projects",
    "Verif.LaxF.itfFastVec_projects",
    "Verif.LaxF.fastGrad_projects_partial",
    "Verif.LaxF.itfFastGrad_projects",
    "Verif.LaxF.fastGrad_uninit_ub",
    "Verif.LaxF.fastGrad_stale_wrong"
   ],
   "note": "The pinned code violates the property for matrices of interior faces: AddAssembleGrad_Fast reads the member ndofs2, which the fast routines never assign (fastGrad_uninit_ub) and which a boundary face leaves at zero (fastGrad_stale_wrong)."
  },
  {
   "property": "C66",
   "status": "proved",
   "theorems": [
    "Verif.TensorRom.reducedTensor_isTensor",
    "Verif.TensorRom.reducedTensor_rejects",
    "Verif.TensorRom.components_isTensor",
    "Verif.TensorRom.domains_isTensor"
   ],
   "note": "Over any commutative ring."
  },
  {
   "property": "C67",
   "status": "proved",
   "theorems": [
    "Verif.TensorRom.mult_galerkin",
    "Verif.TensorRom.conv_block",
    "Verif.TensorRom.conv_outside"
   ],
   "note": "Over any commutative ring."
  },
  {
   "property": "C68",
   "status": "partial",
   "theorems": [
    "Verif.TensorRom.getGradient_eq",
    "Verif.TensorRom.getGradient_exact_partial",
    "Verif.TensorRom.conv_smul",
    "Verif.TensorRom.getGradient_dropped_aborts"
   ],
   "note": "Proved whenever the linear operator stores every position of the velocity diagonal blocks. The pinned code violates the property otherwise: it adds into a finalized sparse copy of the linear operator, so a dropped zero entry ends the program (getGradient_dropped_aborts). getGradient_eq shows this is the only way it fails."
  },
  {
   "property": "C69",
   "status": "proved",
   "theorems": [
    "Verif.TensorRom.tensors_roundTrip",
    "Verif.TensorRom.isTensor_loaded"
   ],
   "note": "Tensors with at least one entry per direction; names without a slash."
  },
  {
   "property": "C70",
   "status": "partial",
   "theorems": [
    "Verif.EqpRom.mult_galerkin_partial",
    "Verif.EqpRom.res_block",
    "Verif.EqpRom.res_outside",
    "Verif.EqpRom.domOk_of",
    "Verif.EqpRom.itfOk_of",
    "Verif.EqpRom.mult_variable_aborts"
   ],
   "note": "Proved for every layout except an interface form with separate variables ordered by variable. There the pinned code violates the property: it takes the velocity sizes from blocks k*num_var, which are then not velocity blocks (mult_variable_aborts)."
  },
  {
   "property": "C71",
   "status": "partial",
   "theorems": [
    "Verif.EqpRom.getGradient_eq",
    "Verif.EqpRom.getGradient_exact_partial",
    "Verif.EqpRom.getGradient_quadratic_partial",
    "Verif.EqpRom.formVec_quadratic"
   ],
   "note": "Same layout restriction as C70, and the linear operator must store the positions where something is added, as in C68. getGradient_eq shows a missing position is the only way it fails."
  },
  {
   "property": "C72",
   "status": "proved",
   "theorems": [
    "Verif.Unsteady.step_spec",
    "Verif.Unsteady.step_pressure_mean",
    "Verif.Unsteady.step_stored_pressure",
    "Verif.Unsteady.step_fixed"
   ],
   "note": "Exact arithmetic over any ordered field; the direct solver is assumed to solve every system that has a solution, and sees one triangle of the matrix (hence the restriction to symmetric discretisations; for others it is wrong, see C95)."
  },
  {
   "property": "C73",
   "status": "proved",
   "theorems": [
    "Verif.Unsteady.solveRom_spec",
    "Verif.Unsteady.assembleROMMat_total",
    "Verif.Unsteady.buildMass_spec",
    "Verif.Unsteady.solveRom_ordering",
    "Verif.Unsteady.step_fixed_rom"
   ],
   "note": "Exact arithmetic; direct solver as in C72 (the kind of system named in the options must describe the reduced operator, see C96). Restart files and the visualisation of SolveROM are not modelled."
  },
  {
   "property": "C74",
   "status": "partial",
   "theorems": [
    "Verif.Unsteady.solveRom_mean_partial",
    "Verif.Unsteady.nodalSum_normalised",
    "Verif.Unsteady.mean_not_zero"
   ],
   "note": "Proved when the bases are orthonormal and constants lie in the span of every pressure basis. In general the pinned code violates the property: it subtracts the projection of the constant, which multiplies the nodal sum by 1 - |c|^2/N (nodalSum_normalised, mean_not_zero)."
  },
  {
   "property": "C75",
   "status": "proved",
   "theorems": [
    "Verif.Online.poisson_online",
    "Verif.Online.stokes_online",
    "Verif.Online.online_galerkin",
    "Verif.Online.online_reproduces",
    "Verif.Online.galerkin_unique"
   ],
   "note": "Exact arithmetic over any field; the linear solver is assumed to solve every system that has a solution. The zero-mean pressure treatment of the full-order Stokes solver is not part of the ROM."
  },
  {
   "property": "C76",
   "status": "proved",
   "theorems": [
    "Verif.SteadyNS.mult_spec",
    "Verif.SteadyNS.gradient_spec",
    "Verif.SteadyNS.gradient_derivative",
    "Verif.SteadyNS.solve_spec",
    "Verif.SteadyNS.solve_converged",
    "Verif.SteadyNS.solve_restart"
   ],
   "note": "The domain forms (MFEM NonlinearForm) and the nonlinear solver are assumed to keep their contracts; the contract of the interface form is what the InterfaceForm theorems prove of it. Exact arithmetic; sparsity patterns are not modelled."
  },
  {
   "property": "C77",
   "status": "proved",
   "theorems": [
    "Verif.Penalty.diffusion_form",
    "Verif.Penalty.vecDiffusion_form",
    "Verif.Penalty.elasticity_form",
    "Verif.Penalty.normalFlux_form",
    "Verif.Penalty.vecFace_eq_interface",
    "Verif.Penalty.vecFace_boundary",
    "Verif.Penalty.fluxFace_eq_interface",
    "Verif.Penalty.fluxFace_boundary",
    "Verif.Penalty.symmetric",
    "Verif.Penalty.zero_of_no_jump",
    "Verif.Penalty.energy_nonsymmetric",
    "Verif.Penalty.orientation",
    "Verif.Penalty.orientation_flux"
   ],
   "note": "Field arithmetic instead of floating point; the quadrature points, shape functions and geometry MFEM supplies are arbitrary inputs. The references the code binds to unallocated penalty matrices are modelled as empty matrices, whose entries it never touches."
  },
  {
   "property": "C78",
   "status": "proved",
   "theorems": [
    "Verif.Temam.elemVec_form",
    "Verif.Temam.elemGrad_form",
    "Verif.Temam.faceVec_form",
    "Verif.Temam.faceGrad_form",
    "Verif.Temam.bdrVec_form",
    "Verif.Temam.bdrGrad_form",
    "Verif.Temam.itfVec_form",
    "Verif.Temam.itfGrad_form",
    "Verif.Temam.load_form",
    "Verif.Temam.elem_newton",
    "Verif.Temam.face_newton",
    "Verif.Temam.bdr_newton",
    "Verif.Temam.elem_energy",
    "Verif.Temam.face_energy",
    "Verif.Temam.itf_energy",
    "Verif.Temam.bdr_energy",
    "Verif.Temam.itfVec_eq_face",
    "Verif.Temam.itfGrad_eq_face",
    "Verif.Temam.face_swap",
    "Verif.Temam.itfVec_swap",
    "Verif.Temam.itfVec_depends_on_order",
    "Verif.Temam.load_consistent"
   ],
   "note": "Field arithmetic instead of floating point; quadrature points, shape functions and geometry are arbitrary inputs. The restriction to a continuous normal velocity in the independence of the order of the sides is necessary: itfVec_depends_on_order."
  },
  {
   "property": "C79",
   "status": "proved",
   "theorems": [
    "Verif.Loads.dirichlet_form",
    "Verif.Loads.normal_form",
    "Verif.Loads.stress_form",
    "Verif.Loads.dirichlet_consistent",
    "Verif.Loads.normal_consistent",
    "Verif.Loads.dirichlet_scale"
   ],
   "note": "Field arithmetic; the data are arbitrary values at the quadrature points, so the different transformations through which the two loads evaluate the same coefficient are not distinguished."
  },
  {
   "property": "C80",
   "status": "proved",
   "theorems": [
    "Verif.PortFile.port_roundtrip",
    "Verif.PortFile.readFile_first",
    "Verif.PortFile.first_source",
    "Verif.PortFile.rerun",
    "Verif.PortFile.names_spec",
    "Verif.PortFile.names_distinct"
   ],
   "note": "The HDF5 library and the file system are modelled as finite maps; string attributes are assumed to work although the code hands HDF5 the address of a std::string."
  },
  {
   "property": "C81",
   "status": "partial",
   "theorems": [
    "Verif.PortFile.unknown_description_rejected",
    "Verif.PortFile.file_components_partial",
    "Verif.PortFile.unknown_file_accepted",
    "Verif.PortFile.unknown_becomes_known"
   ],
   "note": "The code violates the claim for port files: `comp_name2idx[name]` inserts an unknown name with index 0, so the port is attached to component 0, and the name counts as known from then on."
  },
  {
   "property": "C82",
   "status": "proved",
   "theorems": [
    "Verif.RomElems.init_ok",
    "Verif.RomElems.save_succeeds",
    "Verif.RomElems.save_load",
    "Verif.RomElems.save_load_same",
    "Verif.RomElems.load_covers",
    "Verif.RomElems.no_boundary_rejected",
    "Verif.RomElems.colon_aborts"
   ],
   "note": "A component without boundaries can be saved but not loaded (`no_boundary_rejected`): the assertion at src/rom_element_collection.cpp:217 assigns instead of comparing."
  },
  {
   "property": "C83",
   "status": "proved",
   "theorems": [
    "Verif.SingleRun.compare_spec",
    "Verif.SingleRun.compare_same_blocks",
    "Verif.SingleRun.relErr_finite",
    "Verif.SingleRun.relErr_self",
    "Verif.SingleRun.vmax_spec",
    "Verif.SingleRun.vmax_nan",
    "Verif.SingleRun.saved_is_solution",
    "Verif.SingleRun.other_files",
    "Verif.SingleRun.compare_harmless",
    "Verif.SingleRun.no_compare",
    "Verif.SingleRun.reported",
    "Verif.SingleRun.stored_fom_same",
    "Verif.SingleRun.load_missing",
    "Verif.SingleRun.load_wrong_size",
    "Verif.SingleRun.run_succeeds",
    "Verif.SingleRun.fom_save_system_ub",
    "Verif.SingleRun.reduced_never",
    "Verif.SingleRun.zero_first_nan"
   ],
   "note": "Real arithmetic with the exact square root; the solvers are parameters. The code has three faults, proved beside: a full-order run asked to save the reduced system dereferences a null pointer, saving the reduced full-order solution never succeeds with one basis for several variables, and a first variable that vanishes in both solutions makes the returned error NaN."
  },
  {
   "property": "C84",
   "status": "proved",
   "theorems": [
    "Verif.Supremizer.enrich_ok",
    "Verif.Supremizer.enrich_load",
    "Verif.Supremizer.reduced_gradient",
    "Verif.Supremizer.load_needs",
    "Verif.Supremizer.enrich_oob",
    "Verif.Supremizer.more_modes_not_orthonormal"
   ],
   "note": "Real arithmetic. Two faults are proved beside: more supremizers than pressure modes make training read out of bounds, and a velocity basis that has grown since training gives, without any message, a basis that is not orthonormal and may be dependent."
  },
  {
   "property": "C85",
   "status": "proved",
   "theorems": [
    "Verif.Supremizer.numbers_separate",
    "Verif.Supremizer.numbers_joint",
    "Verif.Supremizer.rowValue_unique",
    "Verif.Supremizer.numbers_supremizer"
   ],
   "note": "The tag list is taken as a YAML list (or absent)."
  },
  {
   "property": "C86",
   "status": "proved",
   "theorems": [
    "Verif.SampleConfig.generator_reads",
    "Verif.SampleConfig.sample_config",
    "Verif.SampleConfig.sample_possible",
    "Verif.SampleConfig.grid_covered",
    "Verif.SampleConfig.sample_fresh",
    "Verif.SampleConfig.random_config",
    "Verif.SampleConfig.samples_differ",
    "Verif.SampleConfig.file_names_differ",
    "Verif.SampleConfig.generator_files",
    "Verif.SampleConfig.file_named",
    "Verif.SampleConfig.generate_samples",
    "Verif.SampleConfig.generate_ends",
    "Verif.SampleConfig.related_keys_stop"
   ],
   "note": "Real arithmetic; the conversions between YAML nodes and values are parameters; lookups between samples are taken not to change the tree (C53 shows that a lookup through a list would). That keys must not contain one another is necessary: related_keys_stop gives two keys for which the second sample cannot be set up after the first."
  },
  {
   "property": "C87",
   "status": "proved",
   "theorems": [
    "Verif.TrainRom.trained_basis",
    "Verif.TrainRom.trained",
    "Verif.TrainRom.loaded",
    "Verif.TrainRom.written",
    "Verif.TrainRom.training_tags",
    "Verif.TrainRom.component_names",
    "Verif.TrainRom.print_unique",
    "Verif.TrainRom.unsampled_stops",
    "Verif.TrainRom.train_possible",
    "Verif.TrainRom.load_possible",
    "Verif.TrainRom.trained_by_port",
    "Verif.TrainRom.solver_variables",
    "Verif.TrainRom.adv_diff_stops"
   ],
   "note": "libROM's decomposition is a parameter; reading a basis with more columns than stored is taken as an error of libROM. Port mode needs that runs having a component have it with the same variables, as in C09."
  },
  {
   "property": "C88",
   "status": "partial",
   "theorems": [
    "Verif.Optimizer.step_descends",
    "Verif.Optimizer.step_bracketed",
    "Verif.Optimizer.bracketed_minimum",
    "Verif.Optimizer.step_near_minimum_partial",
    "Verif.Optimizer.line_search_safe_partial",
    "Verif.Optimizer.exact_on_quadratic",
    "Verif.Optimizer.first_step_found",
    "Verif.Optimizer.first_step_never",
    "Verif.Optimizer.no_bracket_overruns",
    "Verif.Optimizer.stationary_overruns",
    "Verif.Optimizer.solved_overruns",
    "Verif.Optimizer.tie_aborts",
    "Verif.Optimizer.misses_minimum"
   ],
   "note": "Exact real arithmetic. The array overrun, the failing assertion and the missed minimum are proved of the model; the positive theorems name the objectives for which they do not happen."
  },
  {
   "property": "C89",
   "status": "proved",
   "theorems": [
    "Verif.Optimizer.gradient_exact",
    "Verif.Optimizer.descends",
    "Verif.Optimizer.converged",
    "Verif.Optimizer.not_converged"
   ],
   "note": "Exact real arithmetic, whenever the solver returns; when the line search does not is part of C88."
  },
  {
   "property": "C90",
   "status": "proved",
   "theorems": [
    "Verif.Optimizer.linear_converges",
    "Verif.Optimizer.linear_total"
   ],
   "note": "Exact real arithmetic."
  },
  {
   "property": "C91",
   "status": "proved",
   "theorems": [
    "Verif.TrainItf.train_port_samples",
    "Verif.TrainItf.train_port_error",
    "Verif.TrainItf.train_ports",
    "Verif.TrainItf.port_error",
    "Verif.TrainItf.residual_error",
    "Verif.TrainItf.history_recorded",
    "Verif.TrainItf.basis_mode_stops"
   ],
   "note": "The least squares solver is external: train_port_samples holds for any solver, the error bounds for one that finds weights within the bounds. That snapshots collected by basis cannot be used is a finding, stated in basis_mode_stops."
  },
  {
   "property": "C92",
   "status": "proved",
   "theorems": [
    "Verif.CompLoad.subdomain_meshes",
    "Verif.CompLoad.accepted_loads",
    "Verif.CompLoad.missing_component_ub",
    "Verif.CompLoad.one_dimensional_ub"
   ],
   "note": "Reading and refining a mesh are external and arbitrary. Rotation angles are ignored in three dimensions (Topology.transform3D_ignores_rotation)."
  },
  {
   "property": "C93",
   "status": "proved",
   "theorems": [
    "Verif.Pipeline.poisson_component",
    "Verif.Pipeline.stokes_component",
    "Verif.Pipeline.linear_global",
    "Verif.Pipeline.poisson_global",
    "Verif.Pipeline.stokes_global",
    "Verif.Pipeline.none_writes_nothing",
    "Verif.Pipeline.missing_file_aborts",
    "Verif.Pipeline.submesh_aborts",
    "Verif.Pipeline.poisson_wrong_level",
    "Verif.Pipeline.stokes_wrong_level"
   ],
   "note": "MFEM's Finalize of a sparse matrix and the linear solver are external and enter by their contracts (Finalizes, Exact), over a field. The reduced system must be regular."
  },
  {
   "property": "C94",
   "status": "proved",
   "theorems": [
    "Verif.NsPipeline.ns_component",
    "Verif.NsPipeline.ns_global",
    "Verif.NsPipeline.ns_stokes_global",
    "Verif.NsPipeline.solution_is_root",
    "Verif.NsPipeline.none_writes_nothing",
    "Verif.NsPipeline.missing_tensors_stop",
    "Verif.NsPipeline.lax_friedrichs_rejected",
    "Verif.NsPipeline.ns_wrong_level"
   ],
   "note": "MFEM's Finalize and CreateMonolithic enter by their contracts (Finalizes, Sparse); the nonlinear solver is external, the theorem speaks about runs in which it solves its system (Solved), over a field."
  },
  {
   "property": "C95",
   "status": "partial",
   "theorems": [
    "Verif.FomSolve.direct_solve_partial",
    "Verif.FomSolve.iterative_solve",
    "Verif.FomSolve.iterative_solve_method",
    "Verif.FomSolve.not_assembled",
    "Verif.FomSolve.stokes_direct_partial",
    "Verif.FomSolve.stokes_iterative_partial",
    "Verif.FomSolve.assembled_symmetric",
    "Verif.FomSolve.direct_wrong",
    "Verif.FomSolve.stokes_direct_wrong"
   ],
   "note": "False with the direct solver when discretization/interface/sigma (alpha for elasticity) is not -1: MUMPS is told that the matrix is symmetric and uses one triangle of it, so a wrong state is reported as the solution (direct_wrong, stokes_direct_wrong). Proved for symmetric operators, and that the default parameter gives one (assembled_symmetric). MINRES (Stokes, iterative) is only trusted with symmetric operators."
  },
  {
   "property": "C96",
   "status": "partial",
   "theorems": [
    "Verif.RomSolve.direct_galerkin_partial",
    "Verif.RomSolve.iterative_partial",
    "Verif.RomSolve.unknown_stops",
    "Verif.RomSolve.unknown_preconditioner",
    "Verif.RomSolve.spd_wrong",
    "Verif.RomSolve.unconverged_lifted"
   ],
   "note": "False in two cases: the default linear_system_type 'spd' (and 'sid') makes MUMPS use one triangle, so an unsymmetric operator gives a wrong state without complaint (spd_wrong); the convergence of CG and MINRES is not looked at, an unconverged result is lifted and reported like any other (unconverged_lifted). Proved for 'us', for symmetric full-order operators, and for converged iterative solves."
  },
  {
   "property": "C97",
   "status": "partial",
   "theorems": [
    "Verif.Visual.individual_history_partial",
    "Verif.Visual.unified_history",
    "Verif.Visual.unified_component",
    "Verif.Visual.unnamed_stops",
    "Verif.Visual.insensible_stops",
    "Verif.Visual.off_nothing",
    "Verif.Visual.skipped_null",
    "Verif.Visual.advdiff_shows_partial",
    "Verif.Visual.advdiff_unified",
    "Verif.Visual.advdiff_skipped",
    "Verif.Visual.error_signed",
    "Verif.Visual.basis_shows_partial",
    "Verif.Visual.basis_separate_wrong",
    "Verif.Visual.basis_unloaded"
   ],
   "note": "False in four cases: saving with step and time while some subdomain is not asked for dereferences a null collection (skipped_null); the advection-diffusion solver stops in that case even without step and time (advdiff_skipped); the field called _abs_error is the signed difference (error_signed); visualising bases that are separate for each variable never succeeds (basis_separate_wrong). Proved in all other cases. Before the first comparison the error field shows whatever was in memory."
  },
  {
   "property": "C98",
   "status": "partial",
   "theorems": [
    "Verif.AdvDiff.flow_computed",
    "Verif.AdvDiff.history_partial",
    "Verif.AdvDiff.stale_flow",
    "Verif.AdvDiff.unconverged_used",
    "Verif.AdvDiff.wrong_size_stops",
    "Verif.AdvDiff.given_all",
    "Verif.AdvDiff.given_one",
    "Verif.AdvDiff.given_outside",
    "Verif.AdvDiff.unset_stops",
    "Verif.AdvDiff.file_required"
   ],
   "note": "False in two cases: a run that may load takes whatever flow the file holds, also that of another problem, for example of the previous sample (stale_flow); the result of a Stokes solve that did not converge is used and stored (unconverged_used). Proved for histories in which runs that share a file share the flow problem and all Stokes solves converge. The Stokes solve itself is a parameter (C95)."
  },
  {
   "property": "C99",
   "status": "partial",
   "theorems": [
    "Verif.ElastRom.full_order",
    "Verif.ElastRom.component_partial",
    "Verif.ElastRom.global",
    "Verif.ElastRom.stored_material",
    "Verif.ElastRom.material_ignored",
    "Verif.ElastRom.unused_component"
   ],
   "note": "False in two cases: the material is a parameter of the problem, but a stored ROM keeps the material it was built with and is used for any other without notice (stored_material in general, material_ignored with numbers); with more listed components than subdomains the building run reads the coefficients past the end of the array (unused_component). Proved for runs with the same material and at most as many components as subdomains (component_partial; global does not need the latter)."
  },
  {
   "property": "C100",
   "status": "proved",
   "theorems": [
    "Verif.Decompose.decomposition",
    "Verif.Decompose.constructed",
    "Verif.Decompose.unknown_kind",
    "Verif.Decompose.topology_kind",
    "Verif.Decompose.interfaces",
    "Verif.Decompose.nonpositive_lost"
   ],
   "note": "Refinement and extraction of a submesh are MFEM's: a refined element has the attribute of its parent, a submesh has the elements with the listed attributes in their order. The interfaces assume what C31 assumes about faces, but no longer that submeshes are disjoint."
  },
  {
   "property": "C101",
   "status": "proved",
   "theorems": [
    "Verif.Terms.poisson_terms",
    "Verif.Terms.stokes_velocity_terms",
    "Verif.Terms.stokes_divergence_terms",
    "Verif.Terms.convective_terms",
    "Verif.Terms.unset_boundary_stops",
    "Verif.Terms.tensor_terms"
   ],
   "note": "A form is the list of its integrators with their arguments; what an integrator computes is the subject of C77-C79 or external. Boundary attributes of the problem are distinct. Elasticity has C99, advection-diffusion C98."
  },
  {
   "property": "C102",
   "status": "partial",
   "theorems": [
    "Verif.Terms.settings",
    "Verif.Terms.poisson_settings",
    "Verif.Terms.unknown_operator",
    "Verif.Terms.viscosity_partial",
    "Verif.Terms.viscosity_violation",
    "Verif.Terms.quadrature_degree",
    "Verif.Terms.quadrature_partial",
    "Verif.Terms.quadrature_violation"
   ],
   "note": "The option stokes/nu has no effect: every program replaces the viscosity by that of the problem, which is 1 unless given as a parameter (viscosity_violation). The check for equal geometries looks at the first element of as many subdomains as there are components: mixed meshes and further subdomains are not noticed, and with fewer subdomains than components it reads past the array (quadrature_violation). All other settings are proved for every configuration; viscosity if given as a parameter or 1; quadrature for meshes of one geometry each, one subdomain for every component."
  },
  {
   "property": "C103",
   "status": "partial",
   "theorems": [
    "Verif.Terms.samples_at_boundaries",
    "Verif.Terms.samples_partial",
    "Verif.Terms.samples_violation"
   ],
   "note": "Boundaries agree always, terms for prescribed stress and no-slip. At a boundary with a non-zero velocity the samples are those trained for the flux without velocity (samples_violation)."
  },
  {
   "property": "C104",
   "status": "partial",
   "theorems": [
    "Verif.Problems.scalar_conditions",
    "Verif.Problems.flow_conditions_partial",
    "Verif.Problems.flow_accepted",
    "Verif.Problems.elasticity_conditions_partial",
    "Verif.Problems.volume_terms",
    "Verif.Problems.elasticity_volume_partial",
    "Verif.Problems.unknown_name",
    "Verif.Problems.lid_violation",
    "Verif.Problems.disp_violation",
    "Verif.Problems.body_force_violation"
   ],
   "note": "Proved for all problems except three places: attribute 1 of the lid-driven cavity moves like the lid (lid_violation); the boundary linelast_disp declares zero gets no condition, because its function is null (disp_violation); the body force of linelast_cwtrain is not on the right-hand side but initialises the unknowns (body_force_violation)."
  },
  {
   "property": "C105",
   "status": "partial",
   "theorems": [
    "Verif.Problems.determined_partial",
    "Verif.Problems.train_partial",
    "Verif.Problems.train_values",
    "Verif.Problems.train_violation",
    "Verif.Problems.channel_profile",
    "Verif.Problems.lid_profile",
    "Verif.Problems.step_profile_partial",
    "Verif.Problems.step_violation",
    "Verif.Problems.step_initial",
    "Verif.Problems.clamps",
    "Verif.Problems.loads",
    "Verif.Problems.component_velocity",
    "Verif.Problems.scalar_waves"
   ],
   "note": "The functions of linelast_cwtrain do not write components whose switch is off, which is the default (train_violation); they are determined exactly if both are on (train_partial). The perturbation of the step vanishes at the upper wall only for integer wave numbers (step_violation). poisson_spiral::rhs is not modelled; exact arithmetic."
  },
  {
   "property": "C106",
   "status": "partial",
   "theorems": [
    "Verif.BlockProj.component_reference",
    "Verif.BlockProj.interface_reference",
    "Verif.BlockProj.component_domain_partial",
    "Verif.BlockProj.interface_domain_partial",
    "Verif.BlockProj.variable_domain_partial",
    "Verif.BlockProj.global_domain",
    "Verif.BlockProj.reference_vectors",
    "Verif.BlockProj.sizes_refused",
    "Verif.BlockProj.order_violation",
    "Verif.BlockProj.missing_violation"
   ],
   "note": "The projections of subdomains, interfaces and variables index the bases subdomain by subdomain in either order, so they are proved for that order only; in the order of variables they use the bases of other blocks (order_violation). The projections on reference bases dereference a missing operator before they test for it (missing_violation)."
  },
  {
   "property": "C107",
   "status": "proved",
   "theorems": [
    "Verif.EqpPipeline.trained_samples_used",
    "Verif.EqpPipeline.train_cases",
    "Verif.EqpPipeline.tolerances_eq",
    "Verif.EqpPipeline.trained_within_tolerance",
    "Verif.EqpPipeline.run_cases",
    "Verif.EqpPipeline.run_without_file",
    "Verif.EqpPipeline.other_operator_accepted"
   ],
   "note": "The later run has the operator of the training run; nothing in the file tells it (other_operator_accepted)."
  },
  {
   "property": "C108",
   "status": "proved",
   "theorems": [
    "Verif.GenConf.scaleUp_covers",
    "Verif.GenConf.scaleUp_geometry",
    "Verif.GenConf.scaleUp_accepted",
    "Verif.GenConf.lattice_covers",
    "Verif.GenConf.lattice_geometry",
    "Verif.GenConf.lattice_accepted",
    "Verif.GenConf.lattice_needs_cells",
    "Verif.GenConf.single_cell",
    "Verif.GenConf.permute_spec",
    "Verif.GenConf.rotate_latin",
    "Verif.GenConf.rotate_covers",
    "Verif.GenConf.cantilever_size_ignored"
   ],
   "note": "The command-line sizes of the cantilever script are ignored (cantilever_size_ignored)."
  },
  {
   "property": "C109",
   "status": "proved",
   "theorems": [
    "Verif.Config.fill_spec",
    "Verif.Config.registered_spec",
    "Verif.Config.box_accepted",
    "Verif.Config.no_boundary_rejected",
    "Verif.Config.single_cell_rejected",
    "Verif.Config.generate_all",
    "Verif.Config.digits_all"
   ],
   "note": "The script writes the two kinds of file that the program rejects without complaint."
  },
  {
   "property": "C110",
   "status": "proved",
   "theorems": [
    "Verif.Config.lay_spec",
    "Verif.Config.lay_only",
    "Verif.Config.channel_accepted",
    "Verif.Config.generate_walks",
    "Verif.Config.random_spec",
    "Verif.Config.random_trapped",
    "Verif.Config.inlet_covered",
    "Verif.Config.outlet_covered"
   ],
   "note": "random_trapped, inlet_covered and outlet_covered are the limits named at the end of the statement."
  },
  {
   "property": "C111",
   "status": "proved",
   "theorems": [
    "Verif.Divide.operator_spec",
    "Verif.Divide.divisions_agree",
    "Verif.Divide.boundary_between_not_coupled"
   ],
   "note": "Composes C31 (interfaces of submeshes), C42 (interface forms) and the boundary part of the operator with the assembly over elements and interior faces. The integrals are arbitrary; that the interior-face and interface integrators of the code compute the same blocks in both orientations is C77. boundary_between_not_coupled is the limit named at the end of the statement."
  },
  {
   "property": "C112",
   "status": "proved",
   "theorems": [
    "Verif.Divide.rhs_spec",
    "Verif.Divide.solution_iff",
    "Verif.Divide.solutions_agree",
    "Verif.Divide.stokes_solution_iff",
    "Verif.Divide.stokes_solutions_agree"
   ],
   "note": "Composes C111 with the right-hand side. The integrals are arbitrary; the solvers (CG, MINRES, MUMPS) are external."
  },
  {
   "property": "C113",
   "status": "proved",
   "theorems": [
    "Verif.Config.closed_iff",
    "Verif.Config.interface_rejected",
    "Verif.Config.tables_named"
   ],
   "note": "Negative mesh numbers, which Python counts from the end, are not modelled."
  },
  {
   "property": "C114",
   "status": "proved",
   "theorems": [
    "Verif.Divide.convection_spec",
    "Verif.Divide.convection_agree",
    "Verif.Divide.ns_solution_iff",
    "Verif.Divide.ns_solutions_agree",
    "Verif.Divide.convection_needs_functions"
   ],
   "note": "Meshes are divided by SubMesh in two dimensions, as in C111. What MFEM and the integrators deliver is a hypothesis; every division and every choice of integrals has a realisation that meets it. The integrals are over a commutative ring, not floating point."
  },
  {
   "property": "C115",
   "status": "proved",
   "theorems": [
    "Verif.Divide.gradient_spec",
    "Verif.Divide.gradient_agree",
    "Verif.Divide.newton_step_iff",
    "Verif.Divide.newton_steps_agree",
    "Verif.Divide.gradient_is_derivative",
    "Verif.Divide.gradient_needs_functions"
   ],
   "note": "As in C114. The derivative is over the real numbers, along every line; that the integrators' gradients are derivatives is the hypothesis Differentiates (see C50, C64 and C78 for integrators of the code). The matrices M and B and the right-hand sides are those of C112."
  },
  {
   "property": "C116",
   "status": "proved",
   "theorems": [
    "Verif.Divide.flow_step",
    "Verif.Divide.flow_steps",
    "Verif.Divide.flows_agree"
   ],
   "note": "As in C72, C112 and C114, over an ordered field; the Lax-Friedrichs flux and full discontinuous Galerkin are on, every boundary condition that is not Neumann has a function. The right-hand sides are assembled once, at setup, as in the code; the convective integrals may depend on the time. Uniqueness is assumed of the undivided mesh only. Output, checks and initial projection are not part of a run here (C73)."
  },
  {
   "property": "C117",
   "status": "proved",
   "theorems": [
    "Verif.Divide.elast_solution_iff",
    "Verif.Divide.elast_solutions_agree",
    "Verif.Divide.continuous_ignores_conditions"
   ],
   "note": "As in C111 and C112 for what MFEM delivers on a division, now as functions of the two coefficients. full-discrete-galerkin is off by default (src/multiblock_solver.cpp:84); continuous_ignores_conditions says what the elasticity solver then does with prescribed displacements."
  },
  {
   "property": "C118",
   "status": "proved",
   "theorems": [
    "Verif.Divide.poisson_run",
    "Verif.Divide.poisson_runs_agree",
    "Verif.Divide.elast_run",
    "Verif.Divide.elast_runs_agree",
    "Verif.Divide.stokes_run",
    "Verif.Divide.stokes_runs_agree",
    "Verif.Divide.entry_symmetric",
    "Verif.Divide.nonsingular_of_energy"
   ],
   "note": "Composes C111, C112, C117 and C95. Exact arithmetic; rounding and iterative solvers are not modelled. Symmetry is needed because the solvers tell MUMPS that the matrix is symmetric (C95 has the counterexample); entry_symmetric derives it from symmetric integrals, nonsingular_of_energy derives uniqueness from positive energy."
  },
  {
   "property": "C119",
   "status": "proved",
   "theorems": [
    "Verif.Divide.steady_operator",
    "Verif.Divide.steady_run",
    "Verif.Divide.steady_converges",
    "Verif.Divide.residual_zero",
    "Verif.Divide.steady_runs_near",
    "Verif.Divide.steady_runs_agree"
   ],
   "note": "Composes C111, C112, C114 and the solver of C76. The nonlinear solver is MFEM's and appears by its contract; exact arithmetic."
  },
  {
   "property": "C120",
   "status": "proved",
   "theorems": [
    "Verif.Divide.steady_gradient",
    "Verif.Divide.newton_run",
    "Verif.Divide.newton_runs_agree",
    "Verif.Divide.newton_converged",
    "Verif.Divide.linearised_is_derivative"
   ],
   "note": "Composes C115, C119 and the solver of C76. Newton's method is the model of MFEM's NewtonSolver; the direct solver appears by its contract; exact arithmetic. Enclosed flows, whose linearised equations leave the pressure free, are outside the hypothesis."
  },
  {
   "property": "C121",
   "status": "proved",
   "theorems": [
    "Verif.Cfl.cfl_is_largest",
    "Verif.Cfl.cfl_divisions_agree",
    "Verif.Cfl.cfl_scales",
    "Verif.Cfl.flows_report_same"
   ],
   "note": "The values of a grid function, element sizes and rules are MFEM's and enter through CflFits; exact arithmetic. The code takes the order of the first element of a subdomain for all of its elements, which is harmless because every space is built with one order; the statement is for such spaces."
  },
  {
   "property": "C122",
   "status": "partial",
   "theorems": [
    "Verif.EqpCoords.coords_saved_partial",
    "Verif.EqpCoords.coords_saved_3d",
    "Verif.EqpCoords.coords_2d_undetermined",
    "Verif.EqpCoords.no_samples_ub"
   ],
   "note": "Proved in full in three dimensions. In two dimensions the first two columns are the coordinates and the third is uninitialised memory: the row is read from a buffer of three entries of which only two were written (coords_2d_undetermined). A component without samples is undefined behaviour (no_samples_ub). MFEM's debug builds abort in two dimensions instead; Transform and SetRow are modelled from MFEM's documentation and source as known."
  },
  {
   "property": "C123",
   "status": "proved",
   "theorems": [
    "Verif.PrintEqp.trained_coords_printed",
    "Verif.PrintEqp.print_cases",
    "Verif.PrintEqp.linear_prints_nothing"
   ],
   "note": "Composes C107's training with C62's round trip and C122. The training run is assumed to have ended normally; that each component has a sample and that the printing run's meshes contain the trained points are hypotheses. The Lax-Friedrichs operator with a discontinuous velocity space is excluded, as SaveEQPCoords rejects it. The unused third column in the plane is C122's finding."
  },
  {
   "property": "C124",
   "status": "partial",
   "theorems": [
    "Verif.SchurSolve.schur_solves_partial",
    "Verif.SchurSolve.schur_momentum",
    "Verif.SchurSolve.schur_unchecked",
    "Verif.SchurSolve.schur_returns",
    "Verif.SchurSolve.schur_aborts"
   ],
   "note": "Whether the pressure solver converged is not looked at (the check is commented out), so the full claim is false: schur_unchecked exhibits a solvable system after which Solve_obsolete returns and the continuity equations do not hold. The momentum equations hold in any case (schur_momentum), both hold if the pressure solver converges (schur_solves_partial)."
  },
  {
   "property": "C125",
   "status": "partial",
   "theorems": [
    "Verif.PreItf.precompute_fills",
    "Verif.PreItf.precompute_ready_partial",
    "Verif.PreItf.precompute_fast_partial",
    "Verif.PreItf.precompute_ignores_offset",
    "Verif.PreItf.precompute_needs_bases",
    "Verif.PreItf.precompute_needs_samples",
    "Verif.PreItf.precompute_needs_input",
    "Verif.PreItf.lax_pre_ok",
    "Verif.PreItf.lax_fast_partial"
   ],
   "note": "PrecomputeCoefficients ignores comp_basis_dof_offsets, which the slow evaluation uses, so the claim is false for bases whose first rows belong to another variable: precompute_ignores_offset exhibits a form where the fast and the slow evaluation return different vectors. With offsets zero the claim holds (precompute_ready_partial, precompute_fast_partial); that every sample gets coefficients holds for all offsets (precompute_fills). The contract on the coefficients is proved for the Lax-Friedrichs flux (lax_pre_ok)."
  }
 ]
}