'Verif.Sampling.distributeSamples_partition' depends on axioms: [propext, Classical.choice, Quot.sound]
'Verif.Sampling.sampleIndex_roundtrip_flat' depends on axioms: [propext, Classical.choice, Quot.sound]
'Verif.Sampling.sampleIndex_roundtrip_nested' depends on axioms: [propext, Classical.choice, Quot.sound]
'Verif.Sampling.sampleIndex_injective' depends on axioms: [propext, Classical.choice, Quot.sound]
'Verif.Sampling.sampleIndex_rowMajor' depends on axioms: [propext, Classical.choice, Quot.sound]
'Verif.Sampling.sampleIndex_accepts_out_of_range' depends on axioms: [propext, Quot.sound]
'Verif.Sampling.randomIndex_roundtrip' depends on axioms: [propext, Classical.choice, Quot.sound]
'Verif.Sampling.randomIndex_sound' depends on axioms: [propext, Quot.sound]
'Verif.Sampling.generateSamples_safe' depends on axioms: [propext, Quot.sound]
'Verif.Sampling.generateSamples_diverges' depends on axioms: [propext, Quot.sound]
'Verif.Sampling.generateSamples_parallel_hangs' depends on axioms: [propext, Classical.choice, Quot.sound]
'Verif.Sampling.generateSamples_partial' depends on axioms: [propext, Classical.choice, Quot.sound]
'Verif.ParamReal.doubleParam_linear' depends on axioms: [propext, Classical.choice, Quot.sound]
'Verif.ParamReal.doubleParam_linear_equispaced' depends on axioms: [propext, Classical.choice, Quot.sound]
'Verif.ParamReal.doubleParam_log' depends on axioms: [propext, Classical.choice, Quot.sound]
'Verif.ParamReal.doubleParam_rejects' depends on axioms: [propext, Classical.choice, Quot.sound]
'Verif.ParamReal.doubleParam_random' depends on axioms: [propext, Classical.choice, Quot.sound]
'Verif.Sampling.integerParam_range' depends on axioms: [propext, Classical.choice, Quot.sound]
'Verif.Sampling.integerParam_rejects' depends on axioms: [propext, Quot.sound]
'Verif.Sampling.integerParam_last' depends on axioms: [propext, Classical.choice, Quot.sound]
'Verif.Sampling.integerParam_last_not_max' does not depend on any axioms
'Verif.Sampling.filenameParam_range' depends on axioms: [propext, Classical.choice, Quot.sound]
'Verif.Sampling.parseFilenames_all' depends on axioms: [propext, Quot.sound]
'Verif.Sampling.setMaximumSize_misses_max' depends on axioms: [propext, Classical.choice, Quot.sound]
'Verif.Snapshots.saveSnapshot_history' depends on axioms: [propext, Classical.choice, Quot.sound]
'Verif.Snapshots.saveSnapshot_history_succeeds' depends on axioms: [propext, Classical.choice, Quot.sound]
'Verif.Snapshots.portColumns_history' depends on axioms: [propext, Classical.choice, Quot.sound]
'Verif.Snapshots.portColumns_unknown' depends on axioms: [propext, Classical.choice, Quot.sound]
'Verif.Snapshots.portColumns_succeeds' depends on axioms: [propext, Classical.choice, Quot.sound]
'Verif.Snapshots.collectByPort_merge_partial' depends on axioms: [propext, Classical.choice, Quot.sound]
'Verif.Snapshots.generate_write_merge_partial' depends on axioms: [propext, Classical.choice, Quot.sound]
'Verif.Snapshots.merge_mixed_variables_misaligned' depends on axioms: [propext, Classical.choice, Quot.sound]
'Verif.Snapshots.coverage_partial' depends on axioms: [propext, Classical.choice, Quot.sound]
'Verif.Snapshots.coverage_zero_when_larger' depends on axioms: [propext, Classical.choice, Quot.sound]
'Verif.Snapshots.basisTag_order' depends on axioms: [propext, Classical.choice, Quot.sound]
'Verif.Snapshots.portTag_order' depends on axioms: [propext, Classical.choice, Quot.sound]
'Verif.Snapshots.print_not_injective' depends on axioms: [propext]
'Verif.Snapshots.print_collision_loses_snapshots' depends on axioms: [propext, Classical.choice, Quot.sound]
'Verif.Snapshots.print_injective_partial' depends on axioms: [propext, Classical.choice, Quot.sound]
'Verif.Snapshots.filename_injective_partial' depends on axioms: [propext, Classical.choice, Quot.sound]
'Verif.Blocks.blockIndex_decode' depends on axioms: [propext, Quot.sound]
'Verif.Blocks.blockIndex_encode' depends on axioms: [propext, Quot.sound]
'Verif.Blocks.blockIndex_unified' depends on axioms: [propext, Quot.sound]
'Verif.Blocks.blockIndex_unified_default_aborts' does not depend on any axioms
'Verif.Blocks.blockIndex_out_of_range_aliases' does not depend on any axioms
'Verif.Blocks.setBlockSizes_separate' depends on axioms: [propext, Classical.choice, Quot.sound]
'Verif.Blocks.setBlockSizes_unified' depends on axioms: [propext, Classical.choice, Quot.sound]
'Verif.Blocks.sortBySubdomains_spec' depends on axioms: [propext, Classical.choice, Quot.sound]
'Verif.Blocks.sortByVariables_spec' depends on axioms: [propext, Classical.choice, Quot.sound]
'Verif.Blocks.sort_roundTrip' depends on axioms: [propext, Classical.choice, Quot.sound]
'Verif.Blocks.sort_roundTrip'' depends on axioms: [propext, Classical.choice, Quot.sound]
'Verif.Blocks.sortBySubdomains_mismatch' depends on axioms: [propext, Classical.choice, Quot.sound]
'Verif.Blocks.sort_wrong_count' depends on axioms: [propext, Classical.choice, Quot.sound]
'Verif.Blocks.getVariableVector_spec' depends on axioms: [propext, Classical.choice, Quot.sound]
'Verif.Blocks.setVariableVector_spec' depends on axioms: [propext, Classical.choice, Quot.sound]
'Verif.Blocks.variableVector_roundTrip' depends on axioms: [propext, Classical.choice, Quot.sound]
'Verif.Blocks.variableVector_rejects' depends on axioms: [propext, Classical.choice, Quot.sound]
'Verif.Blocks.stokes_offsets' depends on axioms: [propext, Classical.choice, Quot.sound]
'Verif.Blocks.stokes_offsets_consistent' depends on axioms: [propext, Classical.choice, Quot.sound]
'Verif.Blocks.stokes_offsetsByVar' depends on axioms: [propext, Classical.choice, Quot.sound]
'Verif.Blocks.poisson_offsets' depends on axioms: [propext, Classical.choice, Quot.sound]
'Verif.LinAlg.rtap_spec' depends on axioms: [propext, Classical.choice, Quot.sound]
'Verif.LinAlg.rtap_matrix' depends on axioms: [propext, Classical.choice, Quot.sound]
'Verif.LinAlg.rtap_rejects' depends on axioms: [propext, Classical.choice, Quot.sound]
'Verif.LinAlg.addwRtAP_spec' depends on axioms: [propext, Classical.choice, Quot.sound]
'Verif.LinAlg.addwRtAP_rejects_target' depends on axioms: [propext, Classical.choice, Quot.sound]
'Verif.LinAlg.sparseRtAP_spec' depends on axioms: [propext, Classical.choice, Quot.sound]
'Verif.LinAlg.addwRtAPSparse_spec' depends on axioms: [propext, Classical.choice, Quot.sound]
'Verif.LinAlg.multSubMatrix_spec' depends on axioms: [propext, Classical.choice, Quot.sound]
'Verif.LinAlg.addMultTransposeSubMatrix_spec' depends on axioms: [propext, Classical.choice, Quot.sound]
'Verif.LinAlg.multTransposeSubMatrix_spec' depends on axioms: [propext, Classical.choice, Quot.sound]
'Verif.LinAlg.subMatrix_rejects' depends on axioms: [propext, Classical.choice, Quot.sound]
'Verif.LinAlg.subMatrix_empty_ub' depends on axioms: [propext, Classical.choice, Quot.sound]
'Verif.LinAlg.addSubMatrixRtAP_spec' depends on axioms: [propext, Classical.choice, Quot.sound]
'Verif.LinAlg.addSubMatrixRtAP_target' depends on axioms: [propext]
'Verif.LinAlg.addSubMatrixRtAP_stale' depends on axioms: [propext]
'Verif.LinAlg.addSubMatrixRtAPSparse_spec' depends on axioms: [propext, Classical.choice, Quot.sound]
'Verif.LinAlg.tensorContract_spec' depends on axioms: [propext, Classical.choice, Quot.sound]
'Verif.LinAlg.tensorAddScaledContract_spec' depends on axioms: [propext, Classical.choice, Quot.sound]
'Verif.LinAlg.tensorContract_rejects' depends on axioms: [propext, Classical.choice, Quot.sound]
'Verif.LinAlg.tensorMult_spec' depends on axioms: [propext, Classical.choice, Quot.sound]
'Verif.LinAlg.tensorAddScaledMultTranspose_spec' depends on axioms: [propext, Classical.choice, Quot.sound]
'Verif.LinAlg.tensorAddScaledMultTranspose_rejects' depends on axioms: [propext, Classical.choice, Quot.sound]
'Verif.LinAlg.tensor_jacobian' depends on axioms: [propext, Classical.choice, Quot.sound]
'Verif.LinAlg.tensorAddMultOnJ_actual' depends on axioms: [propext, Classical.choice, Quot.sound]
'Verif.LinAlg.tensorAddMultOnJ_partial' depends on axioms: [propext, Classical.choice, Quot.sound]
'Verif.LinAlg.tensorAddMultOnJ_wrong' depends on axioms: [propext, Classical.choice, Quot.sound]
'Verif.GramSchmidt.modifiedGramSchmidt_spec' depends on axioms: [propext, Classical.choice, Quot.sound]
'Verif.GramSchmidt.modifiedGramSchmidt_iff' depends on axioms: [propext, Classical.choice, Quot.sound]
'Verif.GramSchmidt.orthonormalize_spec' depends on axioms: [propext, Classical.choice, Quot.sound]
'Verif.GramSchmidt.orthonormalize_zero_fails' depends on axioms: [propext, Classical.choice, Quot.sound]
'Verif.GramSchmidt.orthonormalize_needs_orthogonal' depends on axioms: [propext, Classical.choice, Quot.sound]
'Verif.LinAlg.setBlockMat_spec' depends on axioms: [propext, Classical.choice, Quot.sound]
'Verif.LinAlg.setBlockMat_rejects' depends on axioms: [propext, Quot.sound]
'Verif.LinAlg.setBlockMat_window_overflow' depends on axioms: [propext]
'Verif.LinAlg.setBlockVec_spec' depends on axioms: [propext, Classical.choice, Quot.sound]
'Verif.LinAlg.setBlockVec_rejects' depends on axioms: [propext, Quot.sound]
'Verif.LinAlg.copyMatrix_spec' depends on axioms: [propext, Classical.choice, Quot.sound]
'Verif.LinAlg.computeCtAB_spec' depends on axioms: [propext, Classical.choice, Quot.sound]
'Verif.LinAlg.computeCtAB_rejects' depends on axioms: [propext, Quot.sound]
'Verif.LinAlg.addToBlockMatrix_spec' depends on axioms: [propext, Classical.choice, Quot.sound]
'Verif.LinAlg.addToBlockMatrix_rejects' depends on axioms: [propext, Quot.sound]
'Verif.LinAlg.addToBlockMatrix_shape' depends on axioms: [propext, Classical.choice, Quot.sound]
'Verif.Hdf5.array_roundTrip' depends on axioms: [propext, Classical.choice, Quot.sound]
'Verif.Hdf5.array2_roundTrip' depends on axioms: [propext, Classical.choice, Quot.sound]
'Verif.Hdf5.vector_roundTrip' depends on axioms: [propext, Classical.choice, Quot.sound]
'Verif.Hdf5.dense_roundTrip' depends on axioms: [propext, Classical.choice, Quot.sound]
'Verif.Hdf5.tensor_roundTrip' depends on axioms: [propext, Classical.choice, Quot.sound]
'Verif.Hdf5.attr_roundTrip' depends on axioms: [propext]
'Verif.Hdf5.existing_name_aborts' depends on axioms: [propext, Quot.sound]
'Verif.Hdf5.create_keeps' depends on axioms: [propext]
'Verif.Hdf5.array2_empty_ub' depends on axioms: [propext]
'Verif.Hdf5.dense_empty_ub' depends on axioms: [propext]
'Verif.Hdf5.tensor_empty_ub' depends on axioms: [propext]
'Verif.Hdf5.vector_empty_aborts' depends on axioms: [propext]
'Verif.Hdf5.sparse_roundTrip' depends on axioms: [propext, Classical.choice, Quot.sound]
'Verif.Hdf5.matrixBlocks_roundTrip' depends on axioms: [propext, Classical.choice, Quot.sound]
'Verif.Hdf5.blockMatrix_roundTrip' depends on axioms: [propext, Classical.choice, Quot.sound]
'Verif.Hdf5.sameCsr_entry' depends on axioms: [propext, Classical.choice, Quot.sound]
'Verif.Hdf5.sameBlocks_entry' depends on axioms: [propext, Classical.choice, Quot.sound]
'Verif.Hdf5.sparse_degenerate_aborts' depends on axioms: [propext, Classical.choice, Quot.sound]
'Verif.Hdf5.sparse_unfinalized_aborts' depends on axioms: [propext, Quot.sound]
'Verif.Hdf5.blockMatrix_wrong_offsets_abort' depends on axioms: [propext, Classical.choice, Quot.sound]
'Verif.Hdf5.legacySparse_overflow' depends on axioms: [propext, Classical.choice, Quot.sound]
'Verif.Hdf5.legacySparse_roundTrip_partial' depends on axioms: [propext, Classical.choice, Quot.sound]
'Verif.Hdf5.samples_roundTrip' depends on axioms: [propext, Classical.choice, Quot.sound]
'Verif.Hdf5.samples_bad_type' depends on axioms: [propext, Quot.sound]
'Verif.Topology.updateAttributes_spec' depends on axioms: [propext, Classical.choice, Quot.sound]
'Verif.Topology.bdrAttrCheck_iff' depends on axioms: [propext, Classical.choice, Quot.sound]
'Verif.Topology.updated_passes_check' depends on axioms: [propext, Classical.choice, Quot.sound]
'Verif.Topology.inverse_transform2D' depends on axioms: [propext, Classical.choice, Quot.sound]
'Verif.Topology.transform_inverse2D' depends on axioms: [propext, Classical.choice, Quot.sound]
'Verif.Topology.transform2D_isometry' depends on axioms: [propext, Classical.choice, Quot.sound]
'Verif.Topology.transform2D_quarter_turn' depends on axioms: [propext, Classical.choice, Quot.sound]
'Verif.Topology.transform2D_translation' depends on axioms: [propext, Classical.choice, Quot.sound]
'Verif.Topology.inverse_transform3D' depends on axioms: [propext, Classical.choice, Quot.sound]
'Verif.Topology.transform3D_ignores_rotation' depends on axioms: [propext, Classical.choice, Quot.sound]
'Verif.Topology.transform_wrong_size' depends on axioms: [propext, Classical.choice, Quot.sound]
'Verif.Topology.readConfig_spec' depends on axioms: [propext, Classical.choice, Quot.sound]
'Verif.Topology.countComponents_spec' depends on axioms: [propext, Classical.choice, Quot.sound]
'Verif.Topology.local_index_injective' depends on axioms: [propext, Classical.choice, Quot.sound]
'Verif.Topology.local_index_range' depends on axioms: [propext, Classical.choice, Quot.sound]
'Verif.Topology.bad_component_ub' depends on axioms: [propext, Classical.choice, Quot.sound]
'Verif.SubMesh.submeshes2D_correct' depends on axioms: [propext, Classical.choice, Quot.sound]
'Verif.SubMesh.interfaces_correct' depends on axioms: [propext, Classical.choice, Quot.sound]
'Verif.SubMesh.buildFaceMap2D_spec' depends on axioms: [propext, Quot.sound]
'Verif.SubMesh.buildSubMeshBoundary2D_spec' depends on axioms: [propext, Classical.choice, Quot.sound]
'Verif.SubMesh.covered_face_not_coupled' depends on axioms: [propext]
'Verif.Ports.buildPort_joins' depends on axioms: [propext, Classical.choice, Quot.sound]
'Verif.Ports.buildPort_bijective' depends on axioms: [propext, Classical.choice, Quot.sound]
'Verif.Ports.buildPort_complete' depends on axioms: [propext, Classical.choice, Quot.sound]
'Verif.Ports.refInterfaces_segment' depends on axioms: [propext, Classical.choice, Quot.sound]
'Verif.Ports.demo_port' depends on axioms: [propext, Classical.choice, Quot.sound]
'Verif.Ports.demo_congruent' depends on axioms: [propext, Classical.choice, Quot.sound]
'Verif.Boundary.poisson_paired' depends on axioms: [propext, Classical.choice, Quot.sound]
'Verif.Boundary.stokes_paired' depends on axioms: [propext, Classical.choice, Quot.sound]
'Verif.Boundary.rom_agrees' depends on axioms: [propext, Classical.choice, Quot.sound]
'Verif.Boundary.markers_spec' depends on axioms: [propext, Classical.choice, Quot.sound]
'Verif.Boundary.reachable_wf' depends on axioms: [propext, Quot.sound]
'Verif.Boundary.lastAssignment_wins' depends on axioms: [propext, Classical.choice, Quot.sound]
'Verif.Boundary.lastAssignment_wins_stokes' depends on axioms: [propext, Classical.choice, Quot.sound]
'Verif.Boundary.unknown_attribute_ignored' depends on axioms: [propext, Classical.choice, Quot.sound]
'Verif.Boundary.no_boundary_aborts' depends on axioms: [propext, Quot.sound]
'Verif.Boundary.pressureFlag_correct' depends on axioms: [propext, Classical.choice, Quot.sound]
'Verif.Boundary.allNeumann_aborts' depends on axioms: [propext]
'Verif.Boundary.allNeumann_after_mixed' depends on axioms: [propext]
'Verif.Boundary.removeMean_spec' depends on axioms: [propext, Classical.choice, Quot.sound]
'Verif.Boundary.removeMean_pinned' depends on axioms: [propext, Quot.sound]
'Verif.Boundary.complementaryFlux_sound' depends on axioms: [propext, Classical.choice, Quot.sound]
'Verif.Boundary.complementaryFlux_incompressible' depends on axioms: [propext, Classical.choice, Quot.sound]
'Verif.Boundary.complementaryFlux_all_homogeneous' depends on axioms: [propext, Classical.choice, Quot.sound]
'Verif.Boundary.zeroMarks_partial' depends on axioms: [propext, Quot.sound]
'Verif.Boundary.zeroMarks_wrong_boundary' depends on axioms: [propext]
'Verif.Boundary.zeroMarks_overflow' depends on axioms: [propext]
'Verif.Boundary.zeroMarks_default_hides' depends on axioms: [propext]
'Verif.TimeLoop.restart_partial' depends on axioms: [propext, Classical.choice, Quot.sound]
'Verif.TimeLoop.restart_default' depends on axioms: [propext, Classical.choice, Quot.sound]
'Verif.TimeLoop.restart_contents' depends on axioms: [propext, Classical.choice, Quot.sound]
'Verif.TimeLoop.restart_stale' depends on axioms: [propext, Quot.sound]
'Verif.TimeLoop.restart_never_updated' depends on axioms: [propext, Classical.choice, Quot.sound]
'Verif.TimeLoop.snapshots_on_schedule' depends on axioms: [propext, Classical.choice, Quot.sound]
'Verif.TimeLoop.final_state' depends on axioms: [propext, Classical.choice, Quot.sound]
'Verif.TimeLoop.steps_spec' depends on axioms: [propext, Classical.choice, Quot.sound]
'Verif.Smoother.gs_keeps_solution' depends on axioms: [propext, Classical.choice, Quot.sound]
'Verif.Smoother.gs_solves_lower' depends on axioms: [propext, Classical.choice, Quot.sound]
'Verif.Smoother.gs_solves_upper' depends on axioms: [propext, Classical.choice, Quot.sound]
'Verif.Smoother.gs_forward_rows' depends on axioms: [propext, Classical.choice, Quot.sound]
'Verif.Smoother.gs_symmetric' depends on axioms: [propext, Classical.choice, Quot.sound]
'Verif.Smoother.jacobi_spec' depends on axioms: [propext, Classical.choice, Quot.sound]
'Verif.Smoother.setOperator_default_does_nothing' depends on axioms: [propext, Classical.choice, Quot.sound]
'Verif.Smoother.setOperator_keeps_inverses' depends on axioms: [propext, Classical.choice, Quot.sound]
'Verif.RomAssembly.poisson_assembly' depends on axioms: [propext, Classical.choice, Quot.sound]
'Verif.RomAssembly.stokes_assembly' depends on axioms: [propext, Classical.choice, Quot.sound]
'Verif.RomAssembly.assembly_is_projection' depends on axioms: [propext, Classical.choice, Quot.sound]
'Verif.InterfaceForm.assemble_spec' depends on axioms: [propext, Classical.choice, Quot.sound]
'Verif.InterfaceForm.assembleMixed_spec' depends on axioms: [propext, Classical.choice, Quot.sound]
'Verif.InterfaceForm.assemble_untouched' depends on axioms: [propext, Classical.choice, Quot.sound]
'Verif.InterfaceForm.assemble_local' depends on axioms: [propext, Classical.choice, Quot.sound]
'Verif.InterfaceForm.assemble_order' depends on axioms: [propext, Classical.choice, Quot.sound]
'Verif.InterfaceForm.self_port_aborts' depends on axioms: [propext, Classical.choice, Quot.sound]
'Verif.InterfaceForm.missing_block_aborts' depends on axioms: [propext, Classical.choice, Quot.sound]
'Verif.InterfaceForm.null_integrator_aborts' depends on axioms: [propext]
'Verif.InterfaceForm.assembleAtPort_spec' depends on axioms: [propext, Classical.choice, Quot.sound]
'Verif.InterfaceForm.addMult_eq_assembled' depends on axioms: [propext, Classical.choice, Quot.sound]
'Verif.InterfaceForm.addMult_spec' depends on axioms: [propext, Classical.choice, Quot.sound]
'Verif.InterfaceForm.gradient_spec' depends on axioms: [propext, Classical.choice, Quot.sound]
'Verif.RomHandler.load_ready' depends on axioms: [propext, Classical.choice, Quot.sound]
'Verif.RomHandler.load_missing' depends on axioms: [propext, Classical.choice, Quot.sound]
'Verif.RomHandler.project_spec' depends on axioms: [propext, Classical.choice, Quot.sound]
'Verif.RomHandler.lift_spec' depends on axioms: [propext, Classical.choice, Quot.sound]
'Verif.RomHandler.project_lift' depends on axioms: [propext, Classical.choice, Quot.sound]
'Verif.RomHandler.lift_project_span' depends on axioms: [propext, Classical.choice, Quot.sound]
'Verif.RomHandler.lift_project_idempotent' depends on axioms: [propext, Classical.choice, Quot.sound]
'Verif.RomHandler.lift_project_orthogonal' depends on axioms: [propext, Classical.choice, Quot.sound]
'Verif.RomHandler.project_local' depends on axioms: [propext, Classical.choice, Quot.sound]
'Verif.RomHandler.project_lift_reject' depends on axioms: [propext, Classical.choice, Quot.sound]
'Verif.RomHandler.project_needs_basis' depends on axioms: [propext, Classical.choice, Quot.sound]
'Verif.RomHandler.solve_spec' depends on axioms: [propext, Classical.choice, Quot.sound]
'Verif.Eqp.mult_spec' depends on axioms: [propext, Classical.choice, Quot.sound]
'Verif.Eqp.getGradient_spec' depends on axioms: [propext, Classical.choice, Quot.sound]
'Verif.Eqp.mult_perm' depends on axioms: [propext, Classical.choice, Quot.sound]
'Verif.Eqp.getGradient_perm' depends on axioms: [propext, Classical.choice, Quot.sound]
'Verif.Eqp.precompute_spec' depends on axioms: [propext, Classical.choice, Quot.sound]
'Verif.Eqp.fast_eq_slow' depends on axioms: [propext, Classical.choice, Quot.sound]
'Verif.Eqp.fast_grad_eq_slow' depends on axioms: [propext, Classical.choice, Quot.sound]
'Verif.Eqp.getGradient_exact' depends on axioms: [propext, Classical.choice, Quot.sound]
'Verif.Eqp.mult_ok_trained' depends on axioms: [propext, Classical.choice, Quot.sound]
'Verif.Eqp.triInteg_preOk' depends on axioms: [propext, Classical.choice, Quot.sound]
'Verif.Eqp.invInteg_preOk' depends on axioms: [propext, Classical.choice, Quot.sound]
'Verif.Eqp.triInteg_quadratic' depends on axioms: [propext, Classical.choice, Quot.sound]
'Verif.Eqp.invInteg_quadratic' depends on axioms: [propext, Classical.choice, Quot.sound]
'Verif.Eqp.triInteg_sampleOk' depends on axioms: [propext, Classical.choice, Quot.sound]
'Verif.Eqp.invInteg_sampleOk' depends on axioms: [propext, Classical.choice, Quot.sound]
'Verif.Eqp.getGradient_null_basis_ub' depends on axioms: [propext, Classical.choice, Quot.sound]
'Verif.Eqp.null_face_fast_ub' depends on axioms: [propext, Classical.choice, Quot.sound]
'Verif.Eqp.preEntry_null_face' depends on axioms: [propext]
'Verif.EqpItf.addMult_spec' depends on axioms: [propext, Classical.choice, Quot.sound]
'Verif.EqpItf.gradient_spec' depends on axioms: [propext, Classical.choice, Quot.sound]
'Verif.EqpItf.addMult_perm' depends on axioms: [propext, Classical.choice, Quot.sound]
'Verif.EqpItf.gradient_perm' depends on axioms: [propext, Classical.choice, Quot.sound]
'Verif.EqpItf.fast_eq_slow' depends on axioms: [propext, Classical.choice, Quot.sound]
'Verif.EqpItf.setBases_spec' depends on axioms: [propext, Classical.choice, Quot.sound]
'Verif.EqpItf.updateBlockOffsets_spec' depends on axioms: [propext, Classical.choice, Quot.sound]
'Verif.EqpItf.no_offsets' depends on axioms: [propext, Classical.choice, Quot.sound]
'Verif.Eqp.full_quadrature_exact' depends on axioms: [propext, Classical.choice, Quot.sound]
'Verif.Training.train_samples' depends on axioms: [propext, Classical.choice, Quot.sound]
'Verif.Training.train_entryOk' depends on axioms: [propext, Classical.choice, Quot.sound]
'Verif.Training.trainEntry_eq' depends on axioms: [propext, Classical.choice, Quot.sound]
'Verif.Training.candidates_eq' depends on axioms: [propext, Classical.choice, Quot.sound]
'Verif.Training.samplesOf_extracted' depends on axioms: [propext, Classical.choice, Quot.sound]
'Verif.Training.convection_trainable' depends on axioms: [propext, Classical.choice, Quot.sound]
'Verif.Training.train_error' depends on axioms: [propext, Classical.choice, Quot.sound]
'Verif.Training.train_form_error' depends on axioms: [propext, Classical.choice, Quot.sound]
'Verif.Training.exists_solver' depends on axioms: [propext, Classical.choice, Quot.sound]
'Verif.Convection.triFastVec_correct' depends on axioms: [propext, Classical.choice, Quot.sound]
'Verif.Convection.triFastGrad_correct' depends on axioms: [propext, Classical.choice, Quot.sound]
'Verif.Convection.invFastVec_correct' depends on axioms: [propext, Classical.choice, Quot.sound]
'Verif.Convection.invFastGrad_correct' depends on axioms: [propext, Classical.choice, Quot.sound]
'Verif.Convection.triFastVec_wrong_with_vq' depends on axioms: [propext, Classical.choice, Quot.sound]
'Verif.Convection.triVec_spec' depends on axioms: [propext, Classical.choice, Quot.sound]
'Verif.Convection.invVec_spec' depends on axioms: [propext, Classical.choice, Quot.sound]
'Verif.Convection.triGrad_exact' depends on axioms: [propext, Classical.choice, Quot.sound]
'Verif.Convection.invGrad_exact' depends on axioms: [propext, Classical.choice, Quot.sound]
'Verif.Convection.triElemGrad_exact' depends on axioms: [propext, Classical.choice, Quot.sound]
'Verif.Convection.invElemGrad_exact' depends on axioms: [propext, Classical.choice, Quot.sound]
'Verif.Convection.triFast_exact' depends on axioms: [propext, Classical.choice, Quot.sound]
'Verif.Convection.invFast_exact' depends on axioms: [propext, Classical.choice, Quot.sound]
'Verif.Convection.triGrad_not_exact_with_vq' depends on axioms: [propext, Classical.choice, Quot.sound]
'Verif.EqpStore.views_latest' depends on axioms: [propext, Classical.choice, Quot.sound]
'Verif.EqpStore.run_total' depends on axioms: [propext, Classical.choice, Quot.sound]
'Verif.EqpStore.update_rejects' depends on axioms: [propext, Classical.choice, Quot.sound]
'Verif.EqpStore.destroy_frees_all' depends on axioms: [propext, Classical.choice, Quot.sound]
'Verif.EqpStore.load_range_ub' depends on axioms: [propext, Quot.sound]
'Verif.EqpStore.save_unset_ub' depends on axioms: [propext, Quot.sound]
'Verif.RomOperator.operator_safe_partial' depends on axioms: [propext, Quot.sound]
'Verif.RomOperator.load_double_free_iff' depends on axioms: [propext, Classical.choice, Quot.sound]
'Verif.RomOperator.uses_last_operator' depends on axioms: [propext, Quot.sound]
'Verif.RomOperator.iterative_no_leak' depends on axioms: [propext, Quot.sound]
'Verif.RomOperator.direct_solver_leaks' depends on axioms: [propext]
'Verif.RomOperator.nonlinear_detaches' depends on axioms: [propext]
'Verif.Options.required_iff' depends on axioms: [propext, Classical.choice, Quot.sound]
'Verif.Options.required_missing' depends on axioms: [propext, Classical.choice, Quot.sound]
'Verif.Options.option_iff' depends on axioms: [propext, Classical.choice, Quot.sound]
'Verif.Options.at_unique' depends on axioms: [propext, Classical.choice, Quot.sound]
'Verif.Options.setOption_ok_iff' depends on axioms: [propext, Classical.choice, Quot.sound]
'Verif.Options.set_get' depends on axioms: [propext, Classical.choice, Quot.sound]
'Verif.Options.set_other' depends on axioms: [propext, Classical.choice, Quot.sound]
'Verif.Options.set_below' depends on axioms: [propext, Classical.choice, Quot.sound]
'Verif.Options.overwrite_iff' depends on axioms: [propext, Classical.choice, Quot.sound]
'Verif.Options.overwrite_last' depends on axioms: [propext, Classical.choice, Quot.sound]
'Verif.Options.lookUp_first' depends on axioms: [propext, Classical.choice, Quot.sound]
'Verif.Options.lookUpValue_spec' depends on axioms: [propext, Classical.choice, Quot.sound]
'Verif.Options.pieces_iff' depends on axioms: [propext, Quot.sound]
'Verif.Options.lookup_keeps' depends on axioms: [propext, Classical.choice, Quot.sound]
'Verif.Options.lookup_turns_list_into_map' depends on axioms: [propext, Classical.choice, Quot.sound]
'Verif.Options.empty_key_replaces_all' depends on axioms: [propext, Classical.choice, Quot.sound]
'Verif.Timer.accepted_iff' depends on axioms: [propext, Quot.sound]
'Verif.Timer.report_spec' depends on axioms: [propext, Quot.sound]
'Verif.Timer.report_running_aborts' depends on axioms: [propext, Classical.choice, Quot.sound]
'Verif.Timer.report_parallel_aborts' depends on axioms: [propext, Classical.choice, Quot.sound]
'Verif.Options.snapshotFiles_cases' depends on axioms: [propext, Classical.choice, Quot.sound]
'Verif.Options.snapshotFiles_entry' depends on axioms: [propext, Classical.choice, Quot.sound]
'Verif.Options.snapshotFiles_default' depends on axioms: [propext, Classical.choice, Quot.sound]
'Verif.Params.set_spec' depends on axioms: [propext, Quot.sound]
'Verif.Params.no_cross_talk' depends on axioms: [propext, Quot.sound]
'Verif.Params.unknown_problem' depends on axioms: [propext]
'Verif.Params.last_wins' depends on axioms: [propext, Quot.sound]
'Verif.Params.set_by_index_partial' depends on axioms: [propext, Classical.choice, Quot.sound]
'Verif.Params.set_by_index_rejects' depends on axioms: [propext, Classical.choice, Quot.sound]
'Verif.Params.bad_index_ub' depends on axioms: [propext]
'Verif.Params.elasticity_index_ub' depends on axioms: [propext]
'Verif.Params.component_boundary' depends on axioms: [propext, Classical.choice, Quot.sound]
'Verif.Params.array_boundary' depends on axioms: [propext, Quot.sound]
'Verif.Boundary.elast_paired' depends on axioms: [propext, Classical.choice, Quot.sound]
'Verif.Boundary.elast_unpaired_continuous' depends on axioms: [propext]
'Verif.Boundary.elast_rom_differs' depends on axioms: [propext]
'Verif.Boundary.elast_missing_function' depends on axioms: [propext, Classical.choice, Quot.sound]
'Verif.Boundary.poisson_latest' depends on axioms: [propext, Classical.choice, Quot.sound]
'Verif.Boundary.stokes_latest' depends on axioms: [propext, Classical.choice, Quot.sound]
'Verif.Boundary.default_entry_keeps_types' depends on axioms: [propext]
'Verif.Boundary.elast_keeps_functions' depends on axioms: [propext]
'Verif.CompSetup.elem_attr' depends on axioms: [propext, Classical.choice, Quot.sound]
'Verif.CompSetup.elem_count' depends on axioms: [propext, Classical.choice, Quot.sound]
'Verif.CompSetup.battrs_spec' depends on axioms: [propext, Classical.choice, Quot.sound]
'Verif.CompSetup.port_attrs' depends on axioms: [propext, Classical.choice, Quot.sound]
'Verif.CompSetup.ports_attached' depends on axioms: [propext, Classical.choice, Quot.sound]
'Verif.CompSetup.global_iff_not_port' depends on axioms: [propext, Classical.choice, Quot.sound]
'Verif.CompSetup.unassigned_rejected' depends on axioms: [propext, Classical.choice, Quot.sound]
'Verif.CompSetup.setup_total' depends on axioms: [propext, Classical.choice, Quot.sound]
'Verif.CompSetup.overridden_boundary' depends on axioms: [propext, Classical.choice, Quot.sound]
'Verif.EqpStore.save_stores' depends on axioms: [propext, Classical.choice, Quot.sound]
'Verif.EqpStore.save_load' depends on axioms: [propext, Classical.choice, Quot.sound]
'Verif.EqpStore.portName_eq_iff' depends on axioms: [propext, Classical.choice, Quot.sound]
'Verif.EqpStore.portName_inj' depends on axioms: [propext, Classical.choice, Quot.sound]
'Verif.EqpStore.colon_collision' depends on axioms: [propext]
'Verif.EqpComp.assemble_spec' depends on axioms: [propext, Classical.choice, Quot.sound]
'Verif.EqpComp.assemble_total' depends on axioms: [propext, Classical.choice, Quot.sound]
'Verif.EqpComp.run_total' depends on axioms: [propext, Classical.choice, Quot.sound]
'Verif.EqpComp.seen_latest' depends on axioms: [propext, Classical.choice, Quot.sound]
'Verif.EqpComp.destroy_frees_all' depends on axioms: [propext, Classical.choice, Quot.sound]
'Verif.EqpComp.retrain_dangles' depends on axioms: [propext, Quot.sound]
'Verif.EqpComp.save_stores' depends on axioms: [propext, Classical.choice, Quot.sound]
'Verif.EqpComp.save_load' depends on axioms: [propext, Classical.choice, Quot.sound]
'Verif.EqpComp.dsetName_inj' depends on axioms: [propext, Classical.choice, Quot.sound]
'Verif.EqpComp.save_unset_ub' depends on axioms: [propext, Quot.sound]
'Verif.LaxF.faceVec_flux' depends on axioms: [propext, Classical.choice, Quot.sound]
'Verif.LaxF.itfVec_flux' depends on axioms: [propext, Classical.choice, Quot.sound]
'Verif.LaxF.faceVec_consistent' depends on axioms: [propext, Classical.choice, Quot.sound]
'Verif.LaxF.itfVec_consistent' depends on axioms: [propext, Classical.choice, Quot.sound]
'Verif.LaxF.faceVec_conserves' depends on axioms: [propext, Classical.choice, Quot.sound]
'Verif.LaxF.itfVec_conserves' depends on axioms: [propext, Classical.choice, Quot.sound]
'Verif.LaxF.itfVec_swap' depends on axioms: [propext, Classical.choice, Quot.sound]
'Verif.LaxF.faceGrad_exact_partial' depends on axioms: [propext, Classical.choice, Quot.sound]
'Verif.LaxF.itfGrad_exact_partial' depends on axioms: [propext, Classical.choice, Quot.sound]
'Verif.LaxF.faceGrad_rest_ub' depends on axioms: [propext, Classical.choice, Quot.sound]
'Verif.LaxF.fastVec_projects' depends on axioms: [propext, Classical.choice, Quot.sound]
'Verif.LaxF.itfFastVec_projects' depends on axioms: [propext, Classical.choice, Quot.sound]
'Verif.LaxF.fastGrad_projects_partial' depends on axioms: [propext, Classical.choice, Quot.sound]
'Verif.LaxF.itfFastGrad_projects' depends on axioms: [propext, Classical.choice, Quot.sound]
'Verif.LaxF.fastGrad_uninit_ub' depends on axioms: [propext, Classical.choice, Quot.sound]
'Verif.LaxF.fastGrad_stale_wrong' depends on axioms: [propext, Classical.choice, Quot.sound]
'Verif.TensorRom.reducedTensor_isTensor' depends on axioms: [propext, Classical.choice, Quot.sound]
'Verif.TensorRom.reducedTensor_rejects' depends on axioms: [propext, Classical.choice, Quot.sound]
'Verif.TensorRom.components_isTensor' depends on axioms: [propext, Classical.choice, Quot.sound]
'Verif.TensorRom.domains_isTensor' depends on axioms: [propext, Classical.choice, Quot.sound]
'Verif.TensorRom.mult_galerkin' depends on axioms: [propext, Classical.choice, Quot.sound]
'Verif.TensorRom.conv_block' depends on axioms: [propext, Classical.choice, Quot.sound]
'Verif.TensorRom.conv_outside' depends on axioms: [propext, Classical.choice, Quot.sound]
'Verif.TensorRom.getGradient_eq' depends on axioms: [propext, Classical.choice, Quot.sound]
'Verif.TensorRom.getGradient_exact_partial' depends on axioms: [propext, Classical.choice, Quot.sound]
'Verif.TensorRom.conv_smul' depends on axioms: [propext, Classical.choice, Quot.sound]
'Verif.TensorRom.getGradient_dropped_aborts' depends on axioms: [propext, Classical.choice, Quot.sound]
'Verif.TensorRom.tensors_roundTrip' depends on axioms: [propext, Classical.choice, Quot.sound]
'Verif.TensorRom.isTensor_loaded' depends on axioms: [propext, Classical.choice, Quot.sound]
'Verif.EqpRom.mult_galerkin_partial' depends on axioms: [propext, Classical.choice, Quot.sound]
'Verif.EqpRom.res_block' depends on axioms: [propext, Classical.choice, Quot.sound]
'Verif.EqpRom.res_outside' depends on axioms: [propext, Classical.choice, Quot.sound]
'Verif.EqpRom.domOk_of' depends on axioms: [propext, Classical.choice, Quot.sound]
'Verif.EqpRom.itfOk_of' depends on axioms: [propext, Classical.choice, Quot.sound]
'Verif.EqpRom.mult_variable_aborts' depends on axioms: [propext, Classical.choice, Quot.sound]
'Verif.EqpRom.getGradient_eq' depends on axioms: [propext, Classical.choice, Quot.sound]
'Verif.EqpRom.getGradient_exact_partial' depends on axioms: [propext, Classical.choice, Quot.sound]
'Verif.EqpRom.getGradient_quadratic_partial' depends on axioms: [propext, Classical.choice, Quot.sound]
'Verif.EqpRom.formVec_quadratic' depends on axioms: [propext, Classical.choice, Quot.sound]
'Verif.Unsteady.step_spec' depends on axioms: [propext, Classical.choice, Quot.sound]
'Verif.Unsteady.step_pressure_mean' depends on axioms: [propext, Classical.choice, Quot.sound]
'Verif.Unsteady.step_stored_pressure' depends on axioms: [propext, Classical.choice, Quot.sound]
'Verif.Unsteady.step_fixed' depends on axioms: [propext, Classical.choice, Quot.sound]
'Verif.Unsteady.solveRom_spec' depends on axioms: [propext, Classical.choice, Quot.sound]
'Verif.Unsteady.assembleROMMat_total' depends on axioms: [propext, Classical.choice, Quot.sound]
'Verif.Unsteady.buildMass_spec' depends on axioms: [propext, Classical.choice, Quot.sound]
'Verif.Unsteady.solveRom_ordering' depends on axioms: [propext, Classical.choice, Quot.sound]
'Verif.Unsteady.step_fixed_rom' depends on axioms: [propext, Classical.choice, Quot.sound]
'Verif.Unsteady.solveRom_mean_partial' depends on axioms: [propext, Classical.choice, Quot.sound]
'Verif.Unsteady.nodalSum_normalised' depends on axioms: [propext, Classical.choice, Quot.sound]
'Verif.Unsteady.mean_not_zero' depends on axioms: [propext, Classical.choice, Quot.sound]
'Verif.Online.poisson_online' depends on axioms: [propext, Classical.choice, Quot.sound]
'Verif.Online.stokes_online' depends on axioms: [propext, Classical.choice, Quot.sound]
'Verif.Online.online_galerkin' depends on axioms: [propext, Classical.choice, Quot.sound]
'Verif.Online.online_reproduces' depends on axioms: [propext, Classical.choice, Quot.sound]
'Verif.Online.galerkin_unique' depends on axioms: [propext, Classical.choice, Quot.sound]
'Verif.SteadyNS.mult_spec' depends on axioms: [propext, Classical.choice, Quot.sound]
'Verif.SteadyNS.gradient_spec' depends on axioms: [propext, Classical.choice, Quot.sound]
'Verif.SteadyNS.gradient_derivative' depends on axioms: [propext, Classical.choice, Quot.sound]
'Verif.SteadyNS.solve_spec' depends on axioms: [propext, Classical.choice, Quot.sound]
'Verif.SteadyNS.solve_converged' depends on axioms: [propext, Classical.choice, Quot.sound]
'Verif.SteadyNS.solve_restart' depends on axioms: [propext, Classical.choice, Quot.sound]
'Verif.Penalty.diffusion_form' depends on axioms: [propext, Classical.choice, Quot.sound]
'Verif.Penalty.vecDiffusion_form' depends on axioms: [propext, Classical.choice, Quot.sound]
'Verif.Penalty.elasticity_form' depends on axioms: [propext, Classical.choice, Quot.sound]
'Verif.Penalty.normalFlux_form' depends on axioms: [propext, Classical.choice, Quot.sound]
'Verif.Penalty.vecFace_eq_interface' depends on axioms: [propext, Classical.choice, Quot.sound]
'Verif.Penalty.vecFace_boundary' depends on axioms: [propext, Classical.choice, Quot.sound]
'Verif.Penalty.fluxFace_eq_interface' depends on axioms: [propext, Classical.choice, Quot.sound]
'Verif.Penalty.fluxFace_boundary' depends on axioms: [propext, Classical.choice, Quot.sound]
'Verif.Penalty.symmetric' depends on axioms: [propext, Classical.choice, Quot.sound]
'Verif.Penalty.zero_of_no_jump' depends on axioms: [propext, Classical.choice, Quot.sound]
'Verif.Penalty.energy_nonsymmetric' depends on axioms: [propext, Classical.choice, Quot.sound]
'Verif.Penalty.orientation' depends on axioms: [propext, Classical.choice, Quot.sound]
'Verif.Penalty.orientation_flux' depends on axioms: [propext, Classical.choice, Quot.sound]
'Verif.Temam.elemVec_form' depends on axioms: [propext, Classical.choice, Quot.sound]
'Verif.Temam.elemGrad_form' depends on axioms: [propext, Classical.choice, Quot.sound]
'Verif.Temam.faceVec_form' depends on axioms: [propext, Classical.choice, Quot.sound]
'Verif.Temam.faceGrad_form' depends on axioms: [propext, Classical.choice, Quot.sound]
'Verif.Temam.bdrVec_form' depends on axioms: [propext, Classical.choice, Quot.sound]
'Verif.Temam.bdrGrad_form' depends on axioms: [propext, Classical.choice, Quot.sound]
'Verif.Temam.itfVec_form' depends on axioms: [propext, Classical.choice, Quot.sound]
'Verif.Temam.itfGrad_form' depends on axioms: [propext, Classical.choice, Quot.sound]
'Verif.Temam.load_form' depends on axioms: [propext, Classical.choice, Quot.sound]
'Verif.Temam.elem_newton' depends on axioms: [propext, Classical.choice, Quot.sound]
'Verif.Temam.face_newton' depends on axioms: [propext, Classical.choice, Quot.sound]
'Verif.Temam.bdr_newton' depends on axioms: [propext, Classical.choice, Quot.sound]
'Verif.Temam.elem_energy' depends on axioms: [propext, Classical.choice, Quot.sound]
'Verif.Temam.face_energy' depends on axioms: [propext, Classical.choice, Quot.sound]
'Verif.Temam.itf_energy' depends on axioms: [propext, Classical.choice, Quot.sound]
'Verif.Temam.bdr_energy' depends on axioms: [propext, Classical.choice, Quot.sound]
'Verif.Temam.itfVec_eq_face' depends on axioms: [propext, Classical.choice, Quot.sound]
'Verif.Temam.itfGrad_eq_face' depends on axioms: [propext, Classical.choice, Quot.sound]
'Verif.Temam.face_swap' depends on axioms: [propext, Classical.choice, Quot.sound]
'Verif.Temam.itfVec_swap' depends on axioms: [propext, Classical.choice, Quot.sound]
'Verif.Temam.itfVec_depends_on_order' depends on axioms: [propext, Classical.choice, Quot.sound]
'Verif.Temam.load_consistent' depends on axioms: [propext, Classical.choice, Quot.sound]
'Verif.Loads.dirichlet_form' depends on axioms: [propext, Classical.choice, Quot.sound]
'Verif.Loads.normal_form' depends on axioms: [propext, Classical.choice, Quot.sound]
'Verif.Loads.stress_form' depends on axioms: [propext, Classical.choice, Quot.sound]
'Verif.Loads.dirichlet_consistent' depends on axioms: [propext, Classical.choice, Quot.sound]
'Verif.Loads.normal_consistent' depends on axioms: [propext, Classical.choice, Quot.sound]
'Verif.Loads.dirichlet_scale' depends on axioms: [propext, Classical.choice, Quot.sound]
'Verif.PortFile.port_roundtrip' depends on axioms: [propext, Classical.choice, Quot.sound]
'Verif.PortFile.readFile_first' depends on axioms: [propext, Classical.choice, Quot.sound]
'Verif.PortFile.first_source' depends on axioms: [propext, Classical.choice, Quot.sound]
'Verif.PortFile.rerun' depends on axioms: [propext, Classical.choice, Quot.sound]
'Verif.PortFile.names_spec' depends on axioms: [propext, Classical.choice, Quot.sound]
'Verif.PortFile.names_distinct' depends on axioms: [propext, Classical.choice, Quot.sound]
'Verif.PortFile.unknown_description_rejected' depends on axioms: [propext, Classical.choice, Quot.sound]
'Verif.PortFile.file_components_partial' depends on axioms: [propext, Classical.choice, Quot.sound]
'Verif.PortFile.unknown_file_accepted' depends on axioms: [propext]
'Verif.PortFile.unknown_becomes_known' depends on axioms: [propext, Classical.choice, Quot.sound]
'Verif.RomElems.init_ok' depends on axioms: [propext, Quot.sound]
'Verif.RomElems.save_succeeds' depends on axioms: [propext, Classical.choice, Quot.sound]
'Verif.RomElems.save_load' depends on axioms: [propext, Classical.choice, Quot.sound]
'Verif.RomElems.save_load_same' depends on axioms: [propext, Classical.choice, Quot.sound]
'Verif.RomElems.load_covers' depends on axioms: [propext, Classical.choice, Quot.sound]
'Verif.RomElems.no_boundary_rejected' depends on axioms: [propext, Classical.choice, Quot.sound]
'Verif.RomElems.colon_aborts' depends on axioms: [propext, Quot.sound]
'Verif.SingleRun.compare_spec' depends on axioms: [propext, Classical.choice, Quot.sound]
'Verif.SingleRun.compare_same_blocks' depends on axioms: [propext, Classical.choice, Quot.sound]
'Verif.SingleRun.relErr_finite' depends on axioms: [propext, Classical.choice, Quot.sound]
'Verif.SingleRun.relErr_self' depends on axioms: [propext, Classical.choice, Quot.sound]
'Verif.SingleRun.vmax_spec' depends on axioms: [propext, Classical.choice, Quot.sound]
'Verif.SingleRun.vmax_nan' depends on axioms: [propext, Classical.choice, Quot.sound]
'Verif.SingleRun.saved_is_solution' depends on axioms: [propext, Classical.choice, Quot.sound]
'Verif.SingleRun.other_files' depends on axioms: [propext, Classical.choice, Quot.sound]
'Verif.SingleRun.compare_harmless' depends on axioms: [propext, Classical.choice, Quot.sound]
'Verif.SingleRun.no_compare' depends on axioms: [propext, Classical.choice, Quot.sound]
'Verif.SingleRun.reported' depends on axioms: [propext, Classical.choice, Quot.sound]
'Verif.SingleRun.stored_fom_same' depends on axioms: [propext, Classical.choice, Quot.sound]
'Verif.SingleRun.load_missing' depends on axioms: [propext, Classical.choice, Quot.sound]
'Verif.SingleRun.load_wrong_size' depends on axioms: [propext, Classical.choice, Quot.sound]
'Verif.SingleRun.run_succeeds' depends on axioms: [propext, Classical.choice, Quot.sound]
'Verif.SingleRun.fom_save_system_ub' depends on axioms: [propext, Classical.choice, Quot.sound]
'Verif.SingleRun.reduced_never' depends on axioms: [propext, Classical.choice, Quot.sound]
'Verif.SingleRun.zero_first_nan' depends on axioms: [propext, Classical.choice, Quot.sound]
'Verif.Supremizer.enrich_ok' depends on axioms: [propext, Classical.choice, Quot.sound]
'Verif.Supremizer.enrich_load' depends on axioms: [propext, Classical.choice, Quot.sound]
'Verif.Supremizer.reduced_gradient' depends on axioms: [propext, Classical.choice, Quot.sound]
'Verif.Supremizer.load_needs' depends on axioms: [propext, Classical.choice, Quot.sound]
'Verif.Supremizer.enrich_oob' depends on axioms: [propext, Classical.choice, Quot.sound]
'Verif.Supremizer.more_modes_not_orthonormal' depends on axioms: [propext, Classical.choice, Quot.sound]
'Verif.Supremizer.numbers_separate' depends on axioms: [propext, Classical.choice, Quot.sound]
'Verif.Supremizer.numbers_joint' depends on axioms: [propext, Classical.choice, Quot.sound]
'Verif.Supremizer.rowValue_unique' depends on axioms: [propext, Classical.choice, Quot.sound]
'Verif.Supremizer.numbers_supremizer' depends on axioms: [propext, Classical.choice, Quot.sound]
'Verif.SampleConfig.generator_reads' depends on axioms: [propext, Classical.choice, Quot.sound]
'Verif.SampleConfig.sample_config' depends on axioms: [propext, Classical.choice, Quot.sound]
'Verif.SampleConfig.sample_possible' depends on axioms: [propext, Classical.choice, Quot.sound]
'Verif.SampleConfig.grid_covered' depends on axioms: [propext, Classical.choice, Quot.sound]
'Verif.SampleConfig.sample_fresh' depends on axioms: [propext, Classical.choice, Quot.sound]
'Verif.SampleConfig.random_config' depends on axioms: [propext, Classical.choice, Quot.sound]
'Verif.SampleConfig.samples_differ' depends on axioms: [propext, Classical.choice, Quot.sound]
'Verif.SampleConfig.file_names_differ' depends on axioms: [propext, Classical.choice, Quot.sound]
'Verif.SampleConfig.generator_files' depends on axioms: [propext, Classical.choice, Quot.sound]
'Verif.SampleConfig.file_named' depends on axioms: [propext, Classical.choice, Quot.sound]
'Verif.SampleConfig.generate_samples' depends on axioms: [propext, Classical.choice, Quot.sound]
'Verif.SampleConfig.generate_ends' depends on axioms: [propext, Classical.choice, Quot.sound]
'Verif.SampleConfig.related_keys_stop' depends on axioms: [propext, Classical.choice, Quot.sound]
'Verif.TrainRom.trained_basis' depends on axioms: [propext, Classical.choice, Quot.sound]
'Verif.TrainRom.trained' depends on axioms: [propext, Classical.choice, Quot.sound]
'Verif.TrainRom.loaded' depends on axioms: [propext, Classical.choice, Quot.sound]
'Verif.TrainRom.written' depends on axioms: [propext, Classical.choice, Quot.sound]
'Verif.TrainRom.training_tags' depends on axioms: [propext, Classical.choice, Quot.sound]
'Verif.TrainRom.component_names' depends on axioms: [propext, Classical.choice, Quot.sound]
'Verif.TrainRom.print_unique' depends on axioms: [propext, Classical.choice, Quot.sound]
'Verif.TrainRom.unsampled_stops' depends on axioms: [propext, Classical.choice, Quot.sound]
'Verif.TrainRom.train_possible' depends on axioms: [propext, Classical.choice, Quot.sound]
'Verif.TrainRom.load_possible' depends on axioms: [propext, Quot.sound]
'Verif.TrainRom.trained_by_port' depends on axioms: [propext, Classical.choice, Quot.sound]
'Verif.TrainRom.solver_variables' depends on axioms: [propext]
'Verif.TrainRom.adv_diff_stops' depends on axioms: [propext, Classical.choice, Quot.sound]
'Verif.Optimizer.step_descends' depends on axioms: [propext, Classical.choice, Quot.sound]
'Verif.Optimizer.step_bracketed' depends on axioms: [propext, Classical.choice, Quot.sound]
'Verif.Optimizer.bracketed_minimum' depends on axioms: [propext, Classical.choice, Quot.sound]
'Verif.Optimizer.step_near_minimum_partial' depends on axioms: [propext, Classical.choice, Quot.sound]
'Verif.Optimizer.line_search_safe_partial' depends on axioms: [propext, Classical.choice, Quot.sound]
'Verif.Optimizer.exact_on_quadratic' depends on axioms: [propext, Classical.choice, Quot.sound]
'Verif.Optimizer.first_step_found' depends on axioms: [propext, Classical.choice, Quot.sound]
'Verif.Optimizer.first_step_never' depends on axioms: [propext, Classical.choice, Quot.sound]
'Verif.Optimizer.no_bracket_overruns' depends on axioms: [propext, Classical.choice, Quot.sound]
'Verif.Optimizer.stationary_overruns' depends on axioms: [propext, Classical.choice, Quot.sound]
'Verif.Optimizer.solved_overruns' depends on axioms: [propext, Classical.choice, Quot.sound]
'Verif.Optimizer.tie_aborts' depends on axioms: [propext, Classical.choice, Quot.sound]
'Verif.Optimizer.misses_minimum' depends on axioms: [propext, Classical.choice, Quot.sound]
'Verif.Optimizer.gradient_exact' depends on axioms: [propext, Classical.choice, Quot.sound]
'Verif.Optimizer.descends' depends on axioms: [propext, Classical.choice, Quot.sound]
'Verif.Optimizer.converged' depends on axioms: [propext, Classical.choice, Quot.sound]
'Verif.Optimizer.not_converged' depends on axioms: [propext, Classical.choice, Quot.sound]
'Verif.Optimizer.linear_converges' depends on axioms: [propext, Classical.choice, Quot.sound]
'Verif.Optimizer.linear_total' depends on axioms: [propext, Classical.choice, Quot.sound]
'Verif.TrainItf.train_port_samples' depends on axioms: [propext, Classical.choice, Quot.sound]
'Verif.TrainItf.train_port_error' depends on axioms: [propext, Classical.choice, Quot.sound]
'Verif.TrainItf.train_ports' depends on axioms: [propext, Classical.choice, Quot.sound]
'Verif.TrainItf.port_error' depends on axioms: [propext, Classical.choice, Quot.sound]
'Verif.TrainItf.residual_error' depends on axioms: [propext, Classical.choice, Quot.sound]
'Verif.TrainItf.history_recorded' depends on axioms: [propext, Classical.choice, Quot.sound]
'Verif.TrainItf.basis_mode_stops' depends on axioms: [propext, Classical.choice, Quot.sound]
'Verif.CompLoad.subdomain_meshes' depends on axioms: [propext, Classical.choice, Quot.sound]
'Verif.CompLoad.accepted_loads' depends on axioms: [propext, Classical.choice, Quot.sound]
'Verif.CompLoad.missing_component_ub' depends on axioms: [propext, Classical.choice, Quot.sound]
'Verif.CompLoad.one_dimensional_ub' depends on axioms: [propext, Classical.choice, Quot.sound]
'Verif.Pipeline.poisson_component' depends on axioms: [propext, Classical.choice, Quot.sound]
'Verif.Pipeline.stokes_component' depends on axioms: [propext, Classical.choice, Quot.sound]
'Verif.Pipeline.linear_global' depends on axioms: [propext, Classical.choice, Quot.sound]
'Verif.Pipeline.poisson_global' depends on axioms: [propext, Classical.choice, Quot.sound]
'Verif.Pipeline.stokes_global' depends on axioms: [propext, Classical.choice, Quot.sound]
'Verif.Pipeline.none_writes_nothing' depends on axioms: [propext, Classical.choice, Quot.sound]
'Verif.Pipeline.missing_file_aborts' depends on axioms: [propext, Classical.choice, Quot.sound]
'Verif.Pipeline.submesh_aborts' depends on axioms: [propext, Classical.choice, Quot.sound]
'Verif.Pipeline.poisson_wrong_level' depends on axioms: [propext, Classical.choice, Quot.sound]
'Verif.Pipeline.stokes_wrong_level' depends on axioms: [propext, Classical.choice, Quot.sound]
'Verif.NsPipeline.ns_component' depends on axioms: [propext, Classical.choice, Quot.sound]
'Verif.NsPipeline.ns_global' depends on axioms: [propext, Classical.choice, Quot.sound]
'Verif.NsPipeline.ns_stokes_global' depends on axioms: [propext, Classical.choice, Quot.sound]
'Verif.NsPipeline.solution_is_root' depends on axioms: [propext, Classical.choice, Quot.sound]
'Verif.NsPipeline.none_writes_nothing' depends on axioms: [propext, Classical.choice, Quot.sound]
'Verif.NsPipeline.missing_tensors_stop' depends on axioms: [propext, Classical.choice, Quot.sound]
'Verif.NsPipeline.lax_friedrichs_rejected' depends on axioms: [propext, Classical.choice, Quot.sound]
'Verif.NsPipeline.ns_wrong_level' depends on axioms: [propext, Classical.choice, Quot.sound]
'Verif.FomSolve.direct_solve_partial' depends on axioms: [propext, Classical.choice, Quot.sound]
'Verif.FomSolve.iterative_solve' depends on axioms: [propext, Classical.choice, Quot.sound]
'Verif.FomSolve.iterative_solve_method' depends on axioms: [propext, Classical.choice, Quot.sound]
'Verif.FomSolve.not_assembled' depends on axioms: [propext, Classical.choice, Quot.sound]
'Verif.FomSolve.stokes_direct_partial' depends on axioms: [propext, Classical.choice, Quot.sound]
'Verif.FomSolve.stokes_iterative_partial' depends on axioms: [propext, Classical.choice, Quot.sound]
'Verif.FomSolve.assembled_symmetric' depends on axioms: [propext, Classical.choice, Quot.sound]
'Verif.FomSolve.direct_wrong' depends on axioms: [propext, Classical.choice, Quot.sound]
'Verif.FomSolve.stokes_direct_wrong' depends on axioms: [propext, Classical.choice, Quot.sound]
'Verif.RomSolve.direct_galerkin_partial' depends on axioms: [propext, Classical.choice, Quot.sound]
'Verif.RomSolve.iterative_partial' depends on axioms: [propext, Classical.choice, Quot.sound]
'Verif.RomSolve.unknown_stops' depends on axioms: [propext, Classical.choice, Quot.sound]
'Verif.RomSolve.unknown_preconditioner' depends on axioms: [propext, Classical.choice, Quot.sound]
'Verif.RomSolve.spd_wrong' depends on axioms: [propext, Classical.choice, Quot.sound]
'Verif.RomSolve.unconverged_lifted' depends on axioms: [propext, Classical.choice, Quot.sound]
'Verif.Visual.individual_history_partial' depends on axioms: [propext, Classical.choice, Quot.sound]
'Verif.Visual.unified_history' depends on axioms: [propext, Classical.choice, Quot.sound]
'Verif.Visual.unified_component' depends on axioms: [propext]
'Verif.Visual.unnamed_stops' depends on axioms: [propext]
'Verif.Visual.insensible_stops' depends on axioms: [propext]
'Verif.Visual.off_nothing' depends on axioms: [propext]
'Verif.Visual.skipped_null' depends on axioms: [propext, Classical.choice, Quot.sound]
'Verif.Visual.advdiff_shows_partial' depends on axioms: [propext, Classical.choice, Quot.sound]
'Verif.Visual.advdiff_unified' depends on axioms: [propext, Classical.choice, Quot.sound]
'Verif.Visual.advdiff_skipped' depends on axioms: [propext, Classical.choice, Quot.sound]
'Verif.Visual.error_signed' depends on axioms: [propext, Classical.choice, Quot.sound]
'Verif.Visual.basis_shows_partial' depends on axioms: [propext, Classical.choice, Quot.sound]
'Verif.Visual.basis_separate_wrong' depends on axioms: [propext, Quot.sound]
'Verif.Visual.basis_unloaded' depends on axioms: [propext]
'Verif.AdvDiff.flow_computed' depends on axioms: [propext, Classical.choice, Quot.sound]
'Verif.AdvDiff.history_partial' depends on axioms: [propext, Classical.choice, Quot.sound]
'Verif.AdvDiff.stale_flow' depends on axioms: [propext, Classical.choice, Quot.sound]
'Verif.AdvDiff.unconverged_used' depends on axioms: [propext, Classical.choice, Quot.sound]
'Verif.AdvDiff.wrong_size_stops' depends on axioms: [propext, Classical.choice, Quot.sound]
'Verif.AdvDiff.given_all' depends on axioms: [propext, Classical.choice, Quot.sound]
'Verif.AdvDiff.given_one' depends on axioms: [propext, Classical.choice, Quot.sound]
'Verif.AdvDiff.given_outside' depends on axioms: [propext, Classical.choice, Quot.sound]
'Verif.AdvDiff.unset_stops' depends on axioms: [propext, Classical.choice, Quot.sound]
'Verif.AdvDiff.file_required' depends on axioms: [propext, Classical.choice, Quot.sound]
'Verif.ElastRom.full_order' depends on axioms: [propext, Classical.choice, Quot.sound]
'Verif.ElastRom.component_partial' depends on axioms: [propext, Classical.choice, Quot.sound]
'Verif.ElastRom.global' depends on axioms: [propext, Classical.choice, Quot.sound]
'Verif.ElastRom.stored_material' depends on axioms: [propext, Classical.choice, Quot.sound]
'Verif.ElastRom.material_ignored' depends on axioms: [propext, Classical.choice, Quot.sound]
'Verif.ElastRom.unused_component' depends on axioms: [propext, Classical.choice, Quot.sound]
'Verif.Decompose.decomposition' depends on axioms: [propext, Classical.choice, Quot.sound]
'Verif.Decompose.constructed' depends on axioms: [propext, Classical.choice, Quot.sound]
'Verif.Decompose.unknown_kind' depends on axioms: [propext, Classical.choice, Quot.sound]
'Verif.Decompose.topology_kind' depends on axioms: [propext, Classical.choice, Quot.sound]
'Verif.Decompose.interfaces' depends on axioms: [propext, Classical.choice, Quot.sound]
'Verif.Decompose.nonpositive_lost' depends on axioms: [propext, Classical.choice, Quot.sound]
'Verif.Terms.poisson_terms' depends on axioms: [propext, Classical.choice, Quot.sound]
'Verif.Terms.stokes_velocity_terms' depends on axioms: [propext, Classical.choice, Quot.sound]
'Verif.Terms.stokes_divergence_terms' depends on axioms: [propext, Classical.choice, Quot.sound]
'Verif.Terms.convective_terms' depends on axioms: [propext, Classical.choice, Quot.sound]
'Verif.Terms.unset_boundary_stops' depends on axioms: [propext, Classical.choice, Quot.sound]
'Verif.Terms.tensor_terms' depends on axioms: [propext]
'Verif.Terms.settings' depends on axioms: [propext, Classical.choice, Quot.sound]
'Verif.Terms.poisson_settings' depends on axioms: [propext, Classical.choice, Quot.sound]
'Verif.Terms.unknown_operator' depends on axioms: [propext, Classical.choice, Quot.sound]
'Verif.Terms.viscosity_partial' depends on axioms: [propext, Classical.choice, Quot.sound]
'Verif.Terms.viscosity_violation' depends on axioms: [propext, Classical.choice, Quot.sound]
'Verif.Terms.quadrature_degree' depends on axioms: [propext, Quot.sound]
'Verif.Terms.quadrature_partial' depends on axioms: [propext, Classical.choice, Quot.sound]
'Verif.Terms.quadrature_violation' depends on axioms: [propext, Quot.sound]
'Verif.Terms.samples_at_boundaries' depends on axioms: [propext, Classical.choice, Quot.sound]
'Verif.Terms.samples_partial' depends on axioms: [propext, Classical.choice, Quot.sound]
'Verif.Terms.samples_violation' depends on axioms: [propext, Quot.sound]
'Verif.Problems.scalar_conditions' depends on axioms: [propext, Classical.choice, Quot.sound]
'Verif.Problems.flow_conditions_partial' depends on axioms: [propext, Classical.choice, Quot.sound]
'Verif.Problems.flow_accepted' depends on axioms: [propext, Classical.choice, Quot.sound]
'Verif.Problems.elasticity_conditions_partial' depends on axioms: [propext, Classical.choice, Quot.sound]
'Verif.Problems.volume_terms' depends on axioms: [propext]
'Verif.Problems.elasticity_volume_partial' depends on axioms: [propext]
'Verif.Problems.unknown_name' depends on axioms: [propext]
'Verif.Problems.lid_violation' depends on axioms: [propext, Quot.sound]
'Verif.Problems.disp_violation' depends on axioms: [propext, Quot.sound]
'Verif.Problems.body_force_violation' depends on axioms: [propext]
'Verif.Problems.determined_partial' depends on axioms: [propext, Quot.sound]
'Verif.Problems.train_partial' depends on axioms: [propext, Classical.choice, Quot.sound]
'Verif.Problems.train_values' depends on axioms: [propext, Classical.choice, Quot.sound]
'Verif.Problems.train_violation' depends on axioms: [propext, Classical.choice, Quot.sound]
'Verif.Problems.channel_profile' depends on axioms: [propext, Classical.choice, Quot.sound]
'Verif.Problems.lid_profile' depends on axioms: [propext, Classical.choice, Quot.sound]
'Verif.Problems.step_profile_partial' depends on axioms: [propext, Classical.choice, Quot.sound]
'Verif.Problems.step_violation' depends on axioms: [propext, Classical.choice, Quot.sound]
'Verif.Problems.step_initial' depends on axioms: [propext, Classical.choice, Quot.sound]
'Verif.Problems.clamps' depends on axioms: [propext, Classical.choice, Quot.sound]
'Verif.Problems.loads' depends on axioms: [propext, Classical.choice, Quot.sound]
'Verif.Problems.component_velocity' depends on axioms: [propext, Classical.choice, Quot.sound]
'Verif.Problems.scalar_waves' depends on axioms: [propext, Classical.choice, Quot.sound]
'Verif.BlockProj.component_reference' depends on axioms: [propext, Classical.choice, Quot.sound]
'Verif.BlockProj.interface_reference' depends on axioms: [propext, Classical.choice, Quot.sound]
'Verif.BlockProj.component_domain_partial' depends on axioms: [propext, Classical.choice, Quot.sound]
'Verif.BlockProj.interface_domain_partial' depends on axioms: [propext, Classical.choice, Quot.sound]
'Verif.BlockProj.variable_domain_partial' depends on axioms: [propext, Classical.choice, Quot.sound]
'Verif.BlockProj.global_domain' depends on axioms: [propext, Classical.choice, Quot.sound]
'Verif.BlockProj.reference_vectors' depends on axioms: [propext, Classical.choice, Quot.sound]
'Verif.BlockProj.sizes_refused' depends on axioms: [propext, Quot.sound]
'Verif.BlockProj.order_violation' depends on axioms: [propext]
'Verif.BlockProj.missing_violation' depends on axioms: [propext]
'Verif.EqpPipeline.trained_samples_used' depends on axioms: [propext, Classical.choice, Quot.sound]
'Verif.EqpPipeline.train_cases' depends on axioms: [propext, Classical.choice, Quot.sound]
'Verif.EqpPipeline.tolerances_eq' depends on axioms: [propext, Classical.choice, Quot.sound]
'Verif.EqpPipeline.trained_within_tolerance' depends on axioms: [propext, Classical.choice, Quot.sound]
'Verif.EqpPipeline.run_cases' depends on axioms: [propext, Classical.choice, Quot.sound]
'Verif.EqpPipeline.run_without_file' depends on axioms: [propext, Classical.choice, Quot.sound]
'Verif.EqpPipeline.other_operator_accepted' depends on axioms: [propext, Classical.choice, Quot.sound]
'Verif.GenConf.scaleUp_covers' depends on axioms: [propext, Classical.choice, Quot.sound]
'Verif.GenConf.scaleUp_geometry' depends on axioms: [propext, Classical.choice, Quot.sound]
'Verif.GenConf.scaleUp_accepted' depends on axioms: [propext, Classical.choice, Quot.sound]
'Verif.GenConf.lattice_covers' depends on axioms: [propext, Classical.choice, Quot.sound]
'Verif.GenConf.lattice_geometry' depends on axioms: [propext, Classical.choice, Quot.sound]
'Verif.GenConf.lattice_accepted' depends on axioms: [propext, Classical.choice, Quot.sound]
'Verif.GenConf.lattice_needs_cells' depends on axioms: [propext, Classical.choice, Quot.sound]
'Verif.GenConf.single_cell' depends on axioms: [propext, Classical.choice, Quot.sound]
'Verif.GenConf.permute_spec' depends on axioms: [propext, Quot.sound]
'Verif.GenConf.rotate_latin' depends on axioms: [propext, Quot.sound]
'Verif.GenConf.rotate_covers' depends on axioms: [propext]
'Verif.GenConf.cantilever_size_ignored' depends on axioms: [propext, Classical.choice, Quot.sound]
'Verif.Config.fill_spec' depends on axioms: [propext, Classical.choice, Quot.sound]
'Verif.Config.registered_spec' depends on axioms: [propext, Classical.choice, Quot.sound]
'Verif.Config.box_accepted' depends on axioms: [propext, Classical.choice, Quot.sound]
'Verif.Config.no_boundary_rejected' depends on axioms: [propext, Classical.choice, Quot.sound]
'Verif.Config.single_cell_rejected' depends on axioms: [propext, Classical.choice, Quot.sound]
'Verif.Config.generate_all' depends on axioms: [propext, Classical.choice, Quot.sound]
'Verif.Config.digits_all' depends on axioms: [propext, Classical.choice, Quot.sound]
'Verif.Config.lay_spec' depends on axioms: [propext, Classical.choice, Quot.sound]
'Verif.Config.lay_only' depends on axioms: [propext, Classical.choice, Quot.sound]
'Verif.Config.channel_accepted' depends on axioms: [propext, Classical.choice, Quot.sound]
'Verif.Config.generate_walks' depends on axioms: [propext, Classical.choice, Quot.sound]
'Verif.Config.random_spec' depends on axioms: [propext, Classical.choice, Quot.sound]
'Verif.Config.random_trapped' depends on axioms: [propext, Quot.sound]
'Verif.Config.inlet_covered' depends on axioms: [propext, Classical.choice, Quot.sound]
'Verif.Config.outlet_covered' depends on axioms: [propext, Classical.choice, Quot.sound]
'Verif.Divide.operator_spec' depends on axioms: [propext, Classical.choice, Quot.sound]
'Verif.Divide.divisions_agree' depends on axioms: [propext, Classical.choice, Quot.sound]
'Verif.Divide.boundary_between_not_coupled' depends on axioms: [propext, Quot.sound]
'Verif.Divide.rhs_spec' depends on axioms: [propext, Classical.choice, Quot.sound]
'Verif.Divide.solution_iff' depends on axioms: [propext, Classical.choice, Quot.sound]
'Verif.Divide.solutions_agree' depends on axioms: [propext, Classical.choice, Quot.sound]
'Verif.Divide.stokes_solution_iff' depends on axioms: [propext, Classical.choice, Quot.sound]
'Verif.Divide.stokes_solutions_agree' depends on axioms: [propext, Classical.choice, Quot.sound]
'Verif.Config.closed_iff' depends on axioms: [propext, Classical.choice, Quot.sound]
'Verif.Config.interface_rejected' depends on axioms: [propext, Classical.choice, Quot.sound]
'Verif.Config.tables_named' depends on axioms: [propext, Classical.choice, Quot.sound]
'Verif.Divide.convection_spec' depends on axioms: [propext, Classical.choice, Quot.sound]
'Verif.Divide.convection_agree' depends on axioms: [propext, Classical.choice, Quot.sound]
'Verif.Divide.ns_solution_iff' depends on axioms: [propext, Classical.choice, Quot.sound]
'Verif.Divide.ns_solutions_agree' depends on axioms: [propext, Classical.choice, Quot.sound]
'Verif.Divide.convection_needs_functions' depends on axioms: [propext, Classical.choice, Quot.sound]
'Verif.Divide.gradient_spec' depends on axioms: [propext, Classical.choice, Quot.sound]
'Verif.Divide.gradient_agree' depends on axioms: [propext, Classical.choice, Quot.sound]
'Verif.Divide.newton_step_iff' depends on axioms: [propext, Classical.choice, Quot.sound]
'Verif.Divide.newton_steps_agree' depends on axioms: [propext, Classical.choice, Quot.sound]
'Verif.Divide.gradient_is_derivative' depends on axioms: [propext, Classical.choice, Quot.sound]
'Verif.Divide.gradient_needs_functions' depends on axioms: [propext, Classical.choice, Quot.sound]
'Verif.Divide.flow_step' depends on axioms: [propext, Classical.choice, Quot.sound]
'Verif.Divide.flow_steps' depends on axioms: [propext, Classical.choice, Quot.sound]
'Verif.Divide.flows_agree' depends on axioms: [propext, Classical.choice, Quot.sound]
'Verif.Divide.elast_solution_iff' depends on axioms: [propext, Classical.choice, Quot.sound]
'Verif.Divide.elast_solutions_agree' depends on axioms: [propext, Classical.choice, Quot.sound]
'Verif.Divide.continuous_ignores_conditions' depends on axioms: [propext, Quot.sound]
'Verif.Divide.poisson_run' depends on axioms: [propext, Classical.choice, Quot.sound]
'Verif.Divide.poisson_runs_agree' depends on axioms: [propext, Classical.choice, Quot.sound]
'Verif.Divide.elast_run' depends on axioms: [propext, Classical.choice, Quot.sound]
'Verif.Divide.elast_runs_agree' depends on axioms: [propext, Classical.choice, Quot.sound]
'Verif.Divide.stokes_run' depends on axioms: [propext, Classical.choice, Quot.sound]
'Verif.Divide.stokes_runs_agree' depends on axioms: [propext, Classical.choice, Quot.sound]
'Verif.Divide.entry_symmetric' depends on axioms: [propext, Classical.choice, Quot.sound]
'Verif.Divide.nonsingular_of_energy' depends on axioms: [propext, Classical.choice, Quot.sound]
'Verif.Divide.steady_operator' depends on axioms: [propext, Classical.choice, Quot.sound]
'Verif.Divide.steady_run' depends on axioms: [propext, Classical.choice, Quot.sound]
'Verif.Divide.steady_converges' depends on axioms: [propext, Classical.choice, Quot.sound]
'Verif.Divide.residual_zero' depends on axioms: [propext, Classical.choice, Quot.sound]
'Verif.Divide.steady_runs_near' depends on axioms: [propext, Classical.choice, Quot.sound]
'Verif.Divide.steady_runs_agree' depends on axioms: [propext, Classical.choice, Quot.sound]
'Verif.Divide.steady_gradient' depends on axioms: [propext, Classical.choice, Quot.sound]
'Verif.Divide.newton_run' depends on axioms: [propext, Classical.choice, Quot.sound]
'Verif.Divide.newton_runs_agree' depends on axioms: [propext, Classical.choice, Quot.sound]
'Verif.Divide.newton_converged' depends on axioms: [propext, Classical.choice, Quot.sound]
'Verif.Divide.linearised_is_derivative' depends on axioms: [propext, Classical.choice, Quot.sound]
'Verif.Cfl.cfl_is_largest' depends on axioms: [propext, Classical.choice, Quot.sound]
'Verif.Cfl.cfl_divisions_agree' depends on axioms: [propext, Classical.choice, Quot.sound]
'Verif.Cfl.cfl_scales' depends on axioms: [propext, Classical.choice, Quot.sound]
'Verif.Cfl.flows_report_same' depends on axioms: [propext, Classical.choice, Quot.sound]
'Verif.EqpCoords.coords_saved_partial' depends on axioms: [propext, Classical.choice, Quot.sound]
'Verif.EqpCoords.coords_saved_3d' depends on axioms: [propext, Classical.choice, Quot.sound]
'Verif.EqpCoords.coords_2d_undetermined' depends on axioms: [propext, Classical.choice, Quot.sound]
'Verif.EqpCoords.no_samples_ub' depends on axioms: [propext, Quot.sound]
'Verif.PrintEqp.trained_coords_printed' depends on axioms: [propext, Classical.choice, Quot.sound]
'Verif.PrintEqp.print_cases' depends on axioms: [propext, Classical.choice, Quot.sound]
'Verif.PrintEqp.linear_prints_nothing' depends on axioms: [propext, Classical.choice, Quot.sound]
'Verif.SchurSolve.schur_solves_partial' depends on axioms: [propext, Classical.choice, Quot.sound]
'Verif.SchurSolve.schur_momentum' depends on axioms: [propext, Classical.choice, Quot.sound]
'Verif.SchurSolve.schur_unchecked' depends on axioms: [propext, Classical.choice, Quot.sound]
'Verif.SchurSolve.schur_returns' depends on axioms: [propext, Classical.choice, Quot.sound]
'Verif.SchurSolve.schur_aborts' depends on axioms: [propext, Classical.choice, Quot.sound]
'Verif.PreItf.precompute_fills' depends on axioms: [propext, Classical.choice, Quot.sound]
'Verif.PreItf.precompute_ready_partial' depends on axioms: [propext, Classical.choice, Quot.sound]
'Verif.PreItf.precompute_fast_partial' depends on axioms: [propext, Classical.choice, Quot.sound]
'Verif.PreItf.precompute_ignores_offset' depends on axioms: [propext, Classical.choice, Quot.sound]
'Verif.PreItf.precompute_needs_bases' depends on axioms: [propext, Classical.choice, Quot.sound]
'Verif.PreItf.precompute_needs_samples' depends on axioms: [propext, Classical.choice, Quot.sound]
'Verif.PreItf.precompute_needs_input' depends on axioms: [propext, Classical.choice, Quot.sound]
'Verif.PreItf.lax_pre_ok' depends on axioms: [propext, Classical.choice, Quot.sound]
'Verif.PreItf.lax_fast_partial' depends on axioms: [propext, Classical.choice, Quot.sound]
