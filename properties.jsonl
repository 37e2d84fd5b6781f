{"id": "C01", "title": "Every sample index is owned by exactly one rank", "statement": "After DistributeSamples, for every number of samples and every number of processes, each sample index in [0,total) satisfies IsMyJob on exactly one rank; no index outside that range is owned by any rank; every rank owns a contiguous range and any two ranks' loads differ by at most one; the internal assertions never fire.", "quantifier": "every total_samples >= 0, every num_procs >= 1, every sample index and every pair of ranks", "why_tests_cant": "the claim ranges over all pairs (samples, processes); a test fixes a handful of process counts", "anchors": ["src/sample_generator.cpp:SampleGenerator::DistributeSamples", "include/sample_generator.hpp:SampleGenerator::IsMyJob"]}
{"id": "C02", "title": "Grid sample index and parameter multi-index are inverse bijections", "statement": "GetSampleIndex(int) maps every index in [0,total) to an in-range multi-index, GetSampleIndex(Array) maps it back, and vice versa; so all grid points are visited exactly once when indices run over [0,total). GetSampleIndex(Array) aborts exactly when the mixed-radix value is out of [0,total), which does NOT detect every out-of-range multi-index (two different multi-indices may be accepted with the same flat index).", "quantifier": "every list of positive sampling sizes, every index and every in-range multi-index", "why_tests_cant": "dimension count and sizes are unbounded", "anchors": ["src/sample_generator.cpp:SampleGenerator::GetSampleIndex", "src/sample_generator.cpp:SampleGenerator::SetParamSpaceSizes"]}
{"id": "C03", "title": "Random generator's index map round-trips", "statement": "For the random sample generator the multi-index of sample s is (s,...,s) and converting back gives s, for each s in [0,total); a multi-index whose entries disagree is rejected.", "quantifier": "every number of parameters >= 1 and every sample index", "why_tests_cant": "number of parameters and samples unbounded", "anchors": ["src/random_sample_generator.cpp:RandomSampleGenerator::GetSampleIndex"]}
{"id": "C04", "title": "Sample generation visits each owned sample and terminates", "statement": "GenerateSamples terminates on every rank and processes exactly the sample indices the rank owns, each once, in increasing order (retrying in random mode until converged). The pinned code violates this: a rank that does not own every index spins forever on the first index it does not own.", "quantifier": "every number of samples, every ownership interval, every convergence history", "why_tests_cant": "non-termination is not observable by a finite test, and the claim ranges over all rank/sample counts", "anchors": ["src/main_workflow.cpp:GenerateSamples"]}
{"id": "C05", "title": "Double parameters stay within and span their interval", "statement": "SetParam(i) of a double parameter with N>=2 samples writes minval at i=0, maxval at i=N-1, is strictly increasing in i, and always stays within [minval,maxval]; with log scale the samples form a geometric progression with the same end points. SetRandomParam stays in [minval,maxval] for every random number in [0,1]. Indices outside [0,N) abort.", "quantifier": "every interval, every sample count, every sample index, every random draw", "why_tests_cant": "real-valued interval and unbounded sample counts", "anchors": ["src/parameter.cpp:DoubleParam::SetParam", "src/parameter.cpp:DoubleParam::SetRandomParam"]}
{"id": "C06", "title": "Integer and filename parameters stay in range", "statement": "Integer parameters (and filename indices derived from them) always write an integer between minval and maxval, nondecreasing in the index, starting at minval. The claim that the last sample always equals maxval is false when (N-1) does not divide the range.", "quantifier": "every integer interval, sample count and index", "why_tests_cant": "unbounded integer ranges", "anchors": ["src/parameter.cpp:IntegerParam::GetInteger", "src/parameter.cpp:FilenameParam::SetParam"]}
{"id": "C07", "title": "Snapshots are filed under their own tag, in order, and the returned column finds them", "statement": "After any sequence of SaveSnapshot calls, the snapshot matrix looked up for a tag is exactly the list of vectors saved with that tag, in call order; the column index returned for each block retrieves that block's vector; tags never seen abort on lookup; the tag index map and the tag list stay mutually inverse with equal sizes.", "quantifier": "every finite history of SaveSnapshot calls with arbitrary tags and vectors", "why_tests_cant": "histories and tag sets are unbounded", "anchors": ["src/sample_generator.cpp:SampleGenerator::SaveSnapshot", "src/sample_generator.cpp:SampleGenerator::AddSnapshotGenerator", "src/sample_generator.cpp:SampleGenerator::LookUpSnapshot"]}
{"id": "C08", "title": "Port column pairs always point at the two sides of the same sample", "statement": "After any sequence of (SaveSnapshot, SaveSnapshotPorts) pairs, each column pair recorded for a port tag points, in the snapshot matrices of its two component tags, at the vectors that were saved in the same call for the two subdomains of a port of that tag; the number of recorded pairs equals the number of port occurrences.", "quantifier": "every finite history of samples with arbitrary topologies (numbers of subdomains, ports and component types)", "why_tests_cant": "histories and topologies are unbounded", "anchors": ["src/sample_generator.cpp:SampleGenerator::SaveSnapshotPorts", "src/sample_generator.cpp:SampleGenerator::SaveSnapshot"]}
{"id": "C09", "title": "Merging port files keeps every column pair aligned", "statement": "CollectSnapshotsByPort over any list of port files, each produced by a well-formed sample generator, yields snapshot matrices that are the concatenation of the files' matrices per tag, and each port's pair list is the concatenation of the files' pairs shifted so that every pair still points at the same two vectors it pointed at in its file.", "quantifier": "every finite list of port files, with arbitrary overlapping or disjoint tag sets", "why_tests_cant": "the list of files and their tag overlap is unbounded", "anchors": ["src/sample_generator.cpp:SampleGenerator::CollectSnapshotsByPort", "src/sample_generator.cpp:SampleGenerator::GetSnapshotOffset"]}
{"id": "C10", "title": "Singular-value coverage report is the energy fraction of the kept basis", "statement": "SaveSV reports coverage = (sum of the first ref_num_basis singular values)/(sum of all). The pinned code reports 0 when ref_num_basis exceeds the number of singular values.", "quantifier": "every spectrum and every requested basis size", "why_tests_cant": "spectra are arbitrary", "anchors": ["src/sample_generator.cpp:SampleGenerator::SaveSV"]}
{"id": "C11", "title": "Tag comparison is a strict total order compatible with equality", "statement": "operator< on PortTag and on BasisTag is irreflexive, transitive and total, and two tags are equivalent under it iff all their fields are equal; hence map lookups by tag never confuse two different tags.", "quantifier": "all pairs and triples of tags with arbitrary strings and integers", "why_tests_cant": "strings and integers are unbounded", "anchors": ["src/sample_generator.cpp:operator<(PortTag)", "include/hdf5_utils.hpp:BasisTag"]}
{"id": "C12", "title": "Distinct basis tags get distinct file names", "statement": "Two distinct basis tags print to distinct strings (which name the basis and snapshot files). The pinned code violates this: (component \"a_b\", no variable) and (component \"a\", variable \"b\") collide.  It holds if component names contain no underscore.", "quantifier": "all pairs of tags", "why_tests_cant": "strings are unbounded", "anchors": ["include/hdf5_utils.hpp:BasisTag::print"]}
{"id": "C13", "title": "ROM block index and (domain, variable) index are inverse", "statement": "In either ordering (by domain or by variable), GetBlockIndex is a bijection from (subdomain, variable) pairs onto [0, numSub*num_var) and GetDomainAndVariableIndex is its inverse; with unified variables the block index is the subdomain index.", "quantifier": "every number of subdomains and variables, both orderings", "why_tests_cant": "sizes unbounded", "anchors": ["src/rom_handler.cpp:ROMHandlerBase::GetBlockIndex", "src/rom_handler.cpp:ROMHandlerBase::GetDomainAndVariableIndex"]}
{"id": "C14", "title": "ROM block offsets tile the reduced vector", "statement": "SetBlockSizes produces offsets starting at 0, nondecreasing, where block k has exactly the number of basis vectors of its (component, variable), blocks are disjoint and cover the reduced vector in order; the component offsets tile the reference basis sizes in the same way.", "quantifier": "every topology, number of variables and basis sizes, both orderings", "why_tests_cant": "sizes unbounded", "anchors": ["src/rom_handler.cpp:ROMHandlerBase::SetBlockSizes"]}
{"id": "C15", "title": "Sorting by variable and sorting by subdomain are mutually inverse", "statement": "SortByVariables followed by SortBySubdomains (and conversely) restores the vector; each (subdomain, variable) block is moved intact to its place.", "quantifier": "every number of subdomains, variables, block sizes and vector contents", "why_tests_cant": "sizes and contents unbounded", "anchors": ["src/multiblock_solver.cpp:MultiBlockSolver::SortBySubdomains", "src/multiblock_solver.cpp:MultiBlockSolver::SortByVariables"]}
{"id": "C16", "title": "Getting and setting a variable touches only that variable", "statement": "SetVariableVector(v, x) followed by GetVariableVector(v) returns x; other variables' entries are unchanged; GetVariableVector reads exactly the v-th variable of each subdomain in order.", "quantifier": "every number of subdomains, variables and contents", "why_tests_cant": "sizes and contents unbounded", "anchors": ["src/multiblock_solver.cpp:MultiBlockSolver::GetVariableVector", "src/multiblock_solver.cpp:MultiBlockSolver::SetVariableVector"]}
{"id": "C17", "title": "Solution vector offsets are consistent", "statement": "The solver's var_offsets, domain_offsets, block_offsets and by-variable offsets all start at 0, are partial sums of the space sizes and end at the same total; each domain block is the union of its variable blocks.", "quantifier": "every number of subdomains, variables, vector dimensions and space sizes", "why_tests_cant": "sizes unbounded", "anchors": ["src/stokes_solver.cpp:StokesSolver::InitVariables", "src/poisson_solver.cpp:PoissonSolver::InitVariables", "src/unsteady_ns_solver.cpp:UnsteadyNSSolver::InitializeTimeIntegration"]}
{"id": "C18", "title": "RtAP routines compute the triple product and never read out of bounds", "statement": "RtAP/SparseRtAP/AddwRtAP return (accumulate) w * R^T A P entry by entry whenever the shapes agree, and abort otherwise.", "quantifier": "every shape and every entry over any commutative ring", "why_tests_cant": "matrix sizes and entries unbounded", "anchors": ["src/linalg_utils.cpp:RtAP", "src/linalg_utils.cpp:SparseRtAP", "src/linalg_utils.cpp:AddwRtAP", "src/linalg_utils.cpp:ComputeCtAB"]}
{"id": "C19", "title": "Row-subset matrix products equal the product with the gathered rows", "statement": "MultSubMatrix, MultTransposeSubMatrix, AddMultTransposeSubMatrix and AddSubMatrixRtAP, given a non-empty list of rows, compute y = A[rows,:] x, y = A[rows,:]^T x, y += A[rows,:]^T x and, into a target that already has the right shape, C += R[rows,:]^T A P[rows,:]; they stay within bounds, touch nothing else and abort on a row out of range. An empty row list is undefined behaviour, and a target that AddSubMatrixRtAP has to reshape may keep old entries.", "quantifier": "every matrix size, every (possibly repeated) non-empty row list, every vector", "why_tests_cant": "sizes unbounded; raw pointer walks", "anchors": ["src/linalg_utils.cpp:MultSubMatrix", "src/linalg_utils.cpp:AddMultTransposeSubMatrix", "src/linalg_utils.cpp:MultTransposeSubMatrix", "src/linalg_utils.cpp:AddSubMatrixRtAP"]}
{"id": "C20", "title": "Tensor kernels compute the trilinear form and its derivative", "statement": "TensorContract/TensorAddScaledContract compute (accumulate) sum_{ij} T_ijk x_i y_j, TensorAddMultTranspose accumulates its matrix in the selected axis, and the sum of the two axis matrices is the exact derivative of x -> T(x,x).", "quantifier": "every tensor size and entries over any commutative ring", "why_tests_cant": "sizes and entries unbounded; raw pointer walks", "anchors": ["src/linalg_utils.cpp:TensorContract", "src/linalg_utils.cpp:TensorAddScaledContract", "src/linalg_utils.cpp:TensorMult", "src/linalg_utils.cpp:TensorAddMultTranspose", "src/linalg_utils.cpp:TensorAddScaledMultTranspose"]}
{"id": "C21", "title": "TensorAddMultOnJ contracts the tensor on its middle index", "statement": "TensorAddMultOnJ(T, x, M) adds sum_j T_ijk x_j to M. The pinned code never advances x, so it uses only x_0.", "quantifier": "every tensor and vector", "why_tests_cant": "sizes and entries unbounded", "anchors": ["src/linalg_utils.cpp:TensorAddMultOnJ"]}
{"id": "C22", "title": "Gram-Schmidt returns an orthonormal basis of the same span", "statement": "modifiedGramSchmidt on linearly independent columns returns columns that are orthonormal and span the same subspaces (each prefix); Orthonormalize(mat1, mat) with orthonormal mat1 returns mat columns orthonormal and orthogonal to mat1.", "quantifier": "every real matrix with independent columns", "why_tests_cant": "infinite domain", "anchors": ["src/linalg_utils.cpp:modifiedGramSchmidt", "src/linalg_utils.cpp:Orthonormalize"]}
{"id": "C23", "title": "Block insertion writes exactly the requested window", "statement": "SetBlock writes the given block at the given offset and leaves every other entry unchanged; AddToBlockMatrix adds each sub-block to exactly the addressed block; shape mismatches abort.", "quantifier": "every matrix size, offset and block", "why_tests_cant": "sizes unbounded", "anchors": ["src/linalg_utils.cpp:SetBlock", "src/linalg_utils.cpp:AddToBlockMatrix", "src/linalg_utils.cpp:CopyMatrix"]}
{"id": "C24", "title": "Dense containers survive an HDF5 write/read round trip", "statement": "Reading what was written gives back the same array, 2-D array, vector, dense matrix and dense tensor, including shape and index order (column-major memory vs. row-major file), whatever the target held before and whatever else is written to the file in between; nothing else in the file changes and an existing name is never overwritten. One-dimensional arrays may be empty; an empty vector aborts, and an empty 2-D array, matrix or tensor is undefined behaviour.", "quantifier": "every non-empty shape (arrays: every size), contents, target and file", "why_tests_cant": "unbounded shapes and contents", "anchors": ["src/hdf5_utils.cpp:ReadDataset", "src/hdf5_utils.cpp:WriteDataset", "include/hdf5_utils.hpp"]}
{"id": "C25", "title": "Sparse and block matrices survive an HDF5 write/read round trip as operators", "statement": "Writing and reading a finalized CSR sparse matrix with at least one row and column restores the same (I,J,data,shape); writing a non-empty block matrix with equal row and column offsets, or MatrixBlocks, and reading it back restores the same operator (blocks with no nonzeros come back as missing blocks). Offsets that differ from the caller's are rejected, and a matrix without rows or columns can be written but never read.", "quantifier": "every CSR matrix and every block layout, whatever else is written in between", "why_tests_cant": "unbounded shapes, patterns", "anchors": ["src/hdf5_utils.cpp:ReadSparseMatrix", "src/hdf5_utils.cpp:WriteSparseMatrix", "src/hdf5_utils.cpp:ReadBlockMatrix", "src/hdf5_utils.cpp:WriteBlockMatrix"]}
{"id": "C26", "title": "The legacy sparse reader never writes outside its buffers", "statement": "ReadSparseMatrixFromHDF restores the matrix written by WriteSparseMatrixToHDF with no out-of-bounds write. The pinned code violates this when the matrix has fewer nonzeros than rows+1.", "quantifier": "every CSR matrix", "why_tests_cant": "requires adversarial shapes; UB is silent", "anchors": ["src/linalg_utils.cpp:ReadSparseMatrixFromHDF", "src/linalg_utils.cpp:WriteSparseMatrixToHDF"]}
{"id": "C27", "title": "Hyper-reduction samples survive save/load", "statement": "EQPElement::Load(EQPElement::Save(e)) restores the list of (element index, quadrature index, weight) triples in order, for each integration type.", "quantifier": "every sample list", "why_tests_cant": "unbounded lists", "anchors": ["src/hyperreduction_integ.cpp:EQPElement::Save", "src/hyperreduction_integ.cpp:EQPElement::Load"]}
{"id": "C28", "title": "Attribute lists are duplicate-free and complete", "statement": "UpdateAttributes and UpdateBdrAttributes produce lists with no duplicate that contain exactly the attributes occurring on elements/boundary elements.", "quantifier": "every mesh attribute assignment", "why_tests_cant": "unbounded lists", "anchors": ["src/topology_handler.cpp:TopologyHandler::UpdateAttributes", "src/topology_handler.cpp:TopologyHandler::UpdateBdrAttributes"]}
{"id": "C29", "title": "Component transforms invert each other", "statement": "Inverse 2-D (and 3-D) component transformation composed with the forward one is the identity for every translation and rotation angle.", "quantifier": "every angle, translation and point", "why_tests_cant": "infinite domain", "anchors": ["include/component_topology_handler.hpp:Transform2D", "include/component_topology_handler.hpp:InverseTransform2D"]}
{"id": "C30", "title": "Subdomain and (component type, local index) are in bijection", "statement": "ReadComponentsFromFile assigns each subdomain a component type and a local index such that the pair determines the subdomain, and local indices of each type are exactly 0..count-1.", "quantifier": "every assignment of component types to subdomains", "why_tests_cant": "unbounded number of subdomains", "anchors": ["src/component_topology_handler.cpp:ComponentTopologyHandler::ReadComponentsFromFile", "include/topology_handler.hpp:TopologyHandler::GetMeshType", "include/topology_handler.hpp:TopologyHandler::GetLocalIndex"]}
{"id": "C31", "title": "Submesh interfaces are complete, unique and correctly oriented", "statement": "Every parent face shared by elements of two different submeshes and carrying no boundary element of the parent mesh appears exactly once as an interface of the port of that pair, with Mesh1<Mesh2 order, and each interface side refers to that face in its submesh; each side carries the face information of its own element; faces inside a submesh and faces with a parent boundary element never appear; boundary elements inherit the parent attribute, interface ones get the attribute of their port and all others are unchanged.", "quantifier": "every element-to-subdomain assignment and face list", "why_tests_cant": "unbounded meshes", "anchors": ["src/topology_handler.cpp:SubMeshTopologyHandler::BuildInterfaceInfos", "src/topology_handler.cpp:SubMeshTopologyHandler::BuildFaceMap2D", "src/topology_handler.cpp:SubMeshTopologyHandler::BuildSubMeshBoundary2D"]}
{"id": "C32", "title": "Automatically detected ports pair every matching boundary face once", "statement": "If BuildPortDataFromInput succeeds, its vertex map is one-to-one and joins only vertices that coincide after the translation (up to the threshold), and it pairs every boundary element of the first side with exactly one boundary element of the second side having the mapped vertices, each element of the second side being used once; it does succeed whenever the two sides are congruent with vertices further apart than the threshold. The interface built from a port refers to the paired elements with the orientation that the vertex map gives.", "quantifier": "every pair of component boundaries", "why_tests_cant": "unbounded meshes", "anchors": ["src/component_topology_handler.cpp:ComponentTopologyHandler::BuildPortDataFromInput", "src/component_topology_handler.cpp:ComponentTopologyHandler::GetOrientation"]}
{"id": "C33", "title": "Boundary conditions: left- and right-hand side terms are always paired", "statement": "In the Poisson, Stokes and Navier-Stokes solvers, for every boundary attribute and subdomain, the Dirichlet right-hand-side integrator is added iff the matching left-hand-side boundary integrator is added, iff the attribute is on that mesh, a BC function is assigned and the type is not NEUMANN, each at most once; the component-wise ROM assembly uses the same condition; the marker of a boundary selects exactly the boundary elements with its attribute.", "quantifier": "every set of meshes, attributes and every history of AddBCFunction/SetBdrType/SetParameterizedProblem calls", "why_tests_cant": "histories and attribute sets are unbounded", "anchors": ["src/poisson_solver.cpp:PoissonSolver::SetupRHSBCOperators", "src/poisson_solver.cpp:PoissonSolver::SetupDomainBCOperators", "src/multiblock_solver.cpp:MultiBlockSolver::AssembleROMMat"]}
{"id": "C34", "title": "The last boundary assignment wins and touches only its boundary", "statement": "After any sequence of AddBCFunction(f, battr) calls, the function on a boundary is the one of the last call that addressed it (battr<=0 addresses all); unknown attributes change nothing.", "quantifier": "every history of AddBCFunction calls", "why_tests_cant": "unbounded histories", "anchors": ["src/poisson_solver.cpp:PoissonSolver::AddBCFunction", "src/stokes_solver.cpp:StokesSolver::AddBCFunction"]}
{"id": "C35", "title": "Pressure is pinned or normalised exactly when needed", "statement": "Whenever SetParameterizedProblem succeeds, the pressure-Dirichlet flag is true iff some boundary carries no velocity Dirichlet function; if it is false the returned pressure has zero mean and everything else is unchanged up to that constant. (A problem assigning no function leaves the flag stale; if it was false the problem is refused.)", "quantifier": "every boundary configuration and history", "why_tests_cant": "unbounded configurations/histories", "anchors": ["src/stokes_solver.cpp:StokesSolver::DeterminePressureDirichlet", "src/stokes_solver.cpp:StokesSolver::Solve"]}
{"id": "C36", "title": "Complementary flux makes the boundary data incompressible", "statement": "If SetComplementaryFlux ends normally with finite values, the total flux of the boundary data over the non-homogeneous boundaries is within the threshold. If the velocity profile on those boundaries is g - del_u*(x-x0), it never aborts, x0 is their centre and the total flux is exactly zero; the values fail to be finite only if those boundaries have zero area or the field x-x0 has zero flux through them.", "quantifier": "every set of boundary elements, quadrature rules and profiles over a field", "why_tests_cant": "infinite domain", "anchors": ["src/stokes_solver.cpp:StokesSolver::SetComplementaryFlux", "src/stokes_solver.cpp:StokesSolver::ComputeBEFlux"]}
{"id": "C37", "title": "Homogeneous boundaries are excluded from the flux correction", "statement": "SetParameterizedProblem marks exactly the ZERO boundaries as excluded. The pinned code indexes the mark by position in the problem's list rather than by the boundary's global position, so a reordered list excludes the wrong boundary.", "quantifier": "every problem attribute list", "why_tests_cant": "permutations of lists unbounded", "anchors": ["src/stokes_solver.cpp:StokesSolver::SetParameterizedProblem"]}
{"id": "C38", "title": "Restarting a time-dependent run resumes the same trajectory", "statement": "Loading a restart file written at step k and continuing yields the same states as the uninterrupted run. The pinned code writes a stale solution unless the state was synchronised for output at that same step.", "quantifier": "every number of steps, restart interval, visualization interval and step function", "why_tests_cant": "all crash points and histories", "anchors": ["src/unsteady_ns_solver.cpp:UnsteadyNSSolver::Solve", "src/multiblock_solver.cpp:MultiBlockSolver::SaveSolutionWithTime"]}
{"id": "C39", "title": "Time-dependent snapshots are taken on schedule", "statement": "The unsteady solver saves a snapshot exactly at the steps s with bootstrap < s <= nt and sample_interval | s, in increasing order, each holding the state at that step.", "quantifier": "every nt, bootstrap, interval and step function", "why_tests_cant": "unbounded runs", "anchors": ["src/unsteady_ns_solver.cpp:UnsteadyNSSolver::Solve"]}
{"id": "C40", "title": "Block Gauss-Seidel keeps exact solutions and solves triangular systems", "statement": "With exact inverse diagonal blocks, a forward, backward or symmetric sweep leaves any exact solution unchanged, and a forward (backward) sweep solves block lower (upper) triangular systems exactly from any start. For symmetric matrices the symmetric sweep from zero is a symmetric operator, as conjugate gradients needs; the Jacobi smoother solves the block diagonal system and aborts for settings it does not implement. In the pinned code a smoother default-constructed and then given an operator by SetOperator processes no block, and SetOperator on a constructed smoother keeps the old inverses.", "quantifier": "every block matrix, right-hand side and start vector", "why_tests_cant": "unbounded sizes", "anchors": ["src/block_smoother.cpp:BlockGSSmoother::Mult", "src/block_smoother.cpp:BlockSmoother::SetOperator"]}
{"id": "C41", "title": "Component-wise ROM assembly equals projection of the global operator", "statement": "For Poisson and Stokes problems, the ROM matrix assembled from component, boundary and port ROM elements equals V^T A V of the assembled full-order operator, block by block, for every accepted topology whose subdomains are copies of the components (same spaces and element matrices, as for translated copies).", "quantifier": "every topology, basis and component matrices over any commutative ring", "why_tests_cant": "unbounded topologies", "anchors": ["src/multiblock_solver.cpp:MultiBlockSolver::AssembleROMMat", "src/rom_handler.cpp:MFEMROMHandler::ProjectOperatorOnReducedBasis", "src/poisson_solver.cpp:PoissonSolver::AssembleOperator"]}
{"id": "C42", "title": "Interface assembly only couples the two subdomains of each port", "statement": "AssembleInterfaceMatrices adds each interface's element blocks at the dofs of its two sides only; blocks of unrelated subdomain pairs and other entries are unchanged; the result does not depend on the order of ports.", "quantifier": "every topology and element matrices", "why_tests_cant": "unbounded topologies", "anchors": ["src/interface_form.cpp:InterfaceForm::AssembleInterfaceMatrices", "src/interface_form.cpp:InterfaceForm::AssembleInterfaceMatrix"]}
{"id": "C43", "title": "Interface matrix and matrix-free interface action agree", "statement": "For a linear interface integrator, InterfaceAddMult(x) equals the assembled interface block matrix applied to x.", "quantifier": "every topology, vectors and element matrices", "why_tests_cant": "unbounded", "anchors": ["src/interface_form.cpp:InterfaceForm::InterfaceAddMult", "src/interface_form.cpp:InterfaceForm::AssembleInterfaceMatrices"]}
{"id": "C44", "title": "Projection and lifting are consistent", "statement": "With an orthonormal basis, projecting the lift of a reduced vector returns it, lift after project is idempotent, and leaves unchanged any vector in the span of the basis; blocks do not mix.", "quantifier": "every block layout, basis and vectors", "why_tests_cant": "unbounded", "anchors": ["src/rom_handler.cpp:MFEMROMHandler::ProjectGlobalToDomainBasis", "src/rom_handler.cpp:MFEMROMHandler::LiftUpFromRefBasis", "src/rom_handler.cpp:MFEMROMHandler::Solve"]}
{"id": "C45", "title": "Hyper-reduced evaluation is independent of sample order and caching", "statement": "ROMNonlinearForm::Mult equals the sum over all samples of weight * basis^T * (quadrature contribution at that sample), whatever the order of samples; the element cache never changes the result. Likewise GetGradient, and ROMInterfaceForm::InterfaceAddMult and InterfaceGetGradient, which add to the block of each subdomain the sum over all ports and samples tested with that subdomain's basis. With precomputed coefficients that meet their contract the results are the same.", "quantifier": "every sample list, basis and integrator", "why_tests_cant": "unbounded lists; order", "anchors": ["src/rom_nonlinearform.cpp:ROMNonlinearForm::Mult", "src/rom_interfaceform.cpp:ROMInterfaceForm::InterfaceAddMult"]}
{"id": "C46", "title": "With all quadrature points sampled, hyper-reduction is exact", "statement": "If the sample list is the full quadrature of every element with its true weights, ROMNonlinearForm::Mult(x) equals V^T F(V x).", "quantifier": "every element/quadrature layout, basis and integrator", "why_tests_cant": "unbounded", "anchors": ["src/rom_nonlinearform.cpp:ROMNonlinearForm::Mult", "src/rom_nonlinearform.cpp:ROMNonlinearForm::TrainEQPForIntegrator"]}
{"id": "C47", "title": "Extracted hyper-reduction samples are valid and distinct", "statement": "TrainEQP stores for each integrator exactly the quadrature points whose fitted weight exceeds 1e-12, with that weight, as distinct valid (element or face, quadrature point) pairs in increasing order; the fitted system has one row per quadrature point of each element, face or marked boundary element the integrator acts on, and one column per basis vector and snapshot, however the elements are distributed over processes. A form so trained can be evaluated.", "quantifier": "every mesh, marker, rule, basis, snapshot set, distribution over processes and solver result", "why_tests_cant": "unbounded", "anchors": ["src/rom_nonlinearform.cpp:ROMNonlinearForm::TrainEQPForIntegrator", "src/rom_interfaceform.cpp:ROMInterfaceForm::TrainEQPForIntegrator"]}
{"id": "C48", "title": "Training tolerance bounds the reduced residual error", "statement": "If the solver finds nonnegative weights within the bounds it is given whenever there are any, then after TrainEQP, at each training snapshot of the form V x, the hyper-reduced residual Mult(x) agrees with the tested full-order residual V^T F(V x) componentwise, for each integrator, up to the relative tolerance plus 1e-12 times the sum of the absolute contributions of its quadrature points (weights below 1e-12 are dropped).", "quantifier": "every mesh, integrator linear in the quadrature weight, basis, snapshot set and tolerance, over any ordered field", "why_tests_cant": "infinite domain", "anchors": ["src/rom_nonlinearform.cpp:ROMNonlinearForm::TrainEQPForIntegrator", "src/rom_nonlinearform.cpp:ROMNonlinearForm::SetupEQPSystemForDomainIntegrator"]}
{"id": "C49", "title": "Precomputed fast path equals the slow path", "statement": "For sampled elements, AddAssembleVector_Fast/AddAssembleGrad_Fast after PrecomputeCoefficients equal basis^T * AssembleQuadratureVector/Grad * basis. For the trilinear convection integrator this holds only without a prescribed advection field.", "quantifier": "every basis, element geometry and reduced vector", "why_tests_cant": "infinite domain", "anchors": ["src/hyperreduction_integ.cpp:VectorConvectionTrilinearFormIntegrator::AddAssembleVector_Fast", "src/hyperreduction_integ.cpp:IncompressibleInviscidFluxNLFIntegrator::AddAssembleVector_Fast"]}
{"id": "C50", "title": "Assembled gradients are exact derivatives", "statement": "AssembleQuadratureGrad (and the fast gradient) is the exact derivative of AssembleQuadratureVector: F(u+h) = F(u) + DF(u)h + F(h) for the quadratic convection terms, and the same for the element vectors and for the precomputed reduced versions. For the trilinear integrator this holds only without a prescribed advection field.", "quantifier": "every element state and direction over any commutative ring", "why_tests_cant": "infinite domain", "anchors": ["src/hyperreduction_integ.cpp:VectorConvectionTrilinearFormIntegrator::AssembleQuadratureGrad", "src/hyperreduction_integ.cpp:IncompressibleInviscidFluxNLFIntegrator::AssembleQuadratureGrad"]}
{"id": "C51", "title": "Port-wise sample views never dangle", "statement": "After any sequence of AddInterfaceIntegrator, UpdateInterFaceIntegratorSampling and LoadEQPForIntegrator calls that return, the sample list seen by each port is the live list most recently assigned to its reference port for the same integrator, and destroying the form deletes every list exactly once.", "quantifier": "every history and port/reference-port layout", "why_tests_cant": "unbounded histories; dangling pointers are silent", "anchors": ["include/rom_interfaceform.hpp:ROMInterfaceForm::UpdateInterFaceIntegratorSampling", "src/rom_interfaceform.cpp:ROMInterfaceForm::LoadEQPForIntegrator"]}
{"id": "C52", "title": "Loading the ROM operator twice is safe", "statement": "LoadOperatorFromFile/SetRomMat may be called any number of times without freeing an operator twice or using a freed one. The pinned code double-frees on certain histories.", "quantifier": "every history of Load/Set/Solve calls", "why_tests_cant": "heap errors are silent", "anchors": ["src/rom_handler.cpp:MFEMROMHandler::LoadOperatorFromFile", "src/rom_handler.cpp:MFEMROMHandler::SetRomMat"]}
{"id": "C53", "title": "Option lookup returns the first match and defaults never hide required keys", "statement": "GetRequiredOption returns the value at the path or aborts; GetOption returns it, or the fallback when nothing is there (a path leading below a plain value stops the program in both); SetOption followed by a get at the same path returns the value and does not change any path that is neither above nor below it; command-line overrides apply in order, the last one for a path winning.", "quantifier": "every configuration tree, path and history of sets", "why_tests_cant": "unbounded trees", "anchors": ["include/input_parser.hpp:InputParser", "src/input_parser.cpp:InputParser::OverwriteOption"]}
{"id": "C54", "title": "Time profiler accumulates matched intervals only", "statement": "After any sequence of Start/Stop calls, the total for a label is the sum of its completed start-stop intervals, and mismatched calls abort.", "quantifier": "every history of Start/Stop events and clock readings", "why_tests_cant": "unbounded histories", "anchors": ["include/etc.hpp:TimeProfiler"]}
{"id": "C55", "title": "Snapshot file selection never returns an empty list and never mixes tags", "statement": "FindSnapshotFilesForBasis returns the files listed for that tag if any and otherwise exactly the default file of that tag.", "quantifier": "every configuration list and tag", "why_tests_cant": "unbounded lists", "anchors": ["src/main_workflow.cpp:FindSnapshotFilesForBasis", "src/main_workflow.cpp:GetGlobalBasisTagList"]}
{"id": "C56", "title": "Problem parameters are set by name without cross-talk", "statement": "SetParams(key, value) changes exactly the parameter registered under that key; unknown keys abort; setting by indices equals setting by names; later values win.", "quantifier": "every history of parameter updates", "why_tests_cant": "unbounded histories", "anchors": ["src/parameterized_problem.cpp:ParameterizedProblem::SetParams"]}
{"id": "C57", "title": "Elasticity boundary terms are paired and match the ROM", "statement": "In the elasticity solver a boundary with an assigned Dirichlet function gets exactly one left- and one right-hand-side term, a boundary with an assigned Neumann function exactly one traction term, any other boundary none, and the component-wise ROM adds boundary matrices for the same boundaries. The pinned code violates this for the continuous discretisation (no left-hand-side term) and for boundaries of type ZERO that carry a function (extra ROM matrix).", "quantifier": "every history of boundary calls and every mesh", "why_tests_cant": "histories and attribute sets are unbounded", "anchors": ["src/linelast_solver.cpp:LinElastSolver::SetupRHSBCOperators", "src/linelast_solver.cpp:LinElastSolver::SetupDomainBCOperators", "src/multiblock_solver.cpp:MultiBlockSolver::AssembleROMMat"]}
{"id": "C58", "title": "Setting a problem replaces the previous one", "statement": "After SetParameterizedProblem the boundary types and functions depend on that problem only: each boundary has the type of its first entry and the function of the last entry addressing it. This holds in the Poisson and flow solvers for problems that list every boundary; the pinned code keeps earlier types for boundaries addressed only by the catch-all attribute -1, and the elasticity solver keeps earlier functions.", "quantifier": "every history of calls followed by SetParameterizedProblem", "why_tests_cant": "unbounded histories", "anchors": ["src/poisson_solver.cpp:PoissonSolver::SetParameterizedProblem", "src/stokes_solver.cpp:StokesSolver::SetParameterizedProblem", "src/linelast_solver.cpp:LinElastSolver::SetParameterizedProblem", "src/multiblock_solver.cpp:MultiBlockSolver::SetParameterizedProblem"]}
{"id": "C59", "title": "Boundary attributes of a component-wise topology are assigned completely and ports never collide with boundaries", "statement": "In every topology the component handler accepts, each boundary element of each subdomain carries the value of the last assignment to its boundary (boundary table first, then ports), and there is always one; port attributes are pairwise distinct and differ from all global and all component boundary attributes; an element carries a global boundary attribute exactly when its boundary belongs to no port; the global attributes are those of the table, each once; every port is attached to the reference interface of its type between two different subdomains of the right components. Valid input is accepted, and a topology with an unassigned boundary is not.", "quantifier": "every component set, boundary table, port table and reference ports", "why_tests_cant": "unbounded tables; collisions are silent", "anchors": ["src/component_topology_handler.cpp:ComponentTopologyHandler::ReadBoundariesFromFile", "src/component_topology_handler.cpp:ComponentTopologyHandler::ReadPortsFromFile", "src/component_topology_handler.cpp:ComponentTopologyHandler::SetupPorts", "src/component_topology_handler.cpp:ComponentTopologyHandler::SetupBdrAttributes"]}
{"id": "C60", "title": "Interface samples survive save and load by port name", "statement": "Samples written by SaveEQPForIntegrator of one interface form and read by LoadEQPForIntegrator of another, on any topology whose reference ports occur by component names and attributes in the first, in any order, are seen by exactly the ports that connect components of those names through those boundaries, provided that component names contain no colon.", "quantifier": "every topology pair, history on both forms, file contents written before and after", "why_tests_cant": "ranges over all topologies, names and histories", "anchors": ["src/rom_interfaceform.cpp:ROMInterfaceForm::SaveEQPForIntegrator", "src/rom_interfaceform.cpp:ROMInterfaceForm::LoadEQPForIntegrator"]}
{"id": "C61", "title": "Subdomains use the hyper-reduction samples last trained or loaded for their component", "statement": "After the component forms are allocated and any history of training and loading calls, assembling the hyper-reduced flow operator gives every subdomain the samples most recently assigned to its component: for the domain integrator, for the interior face integrator if there is one, and for exactly one boundary integrator per boundary attribute that is a global boundary, restricted to that boundary, with its boundary value unless it is a Neumann boundary, and with the samples trained for homogeneous boundaries exactly on those. Destroying the solver deletes every sample list exactly once. (Training or loading again afterwards requires assembling again.)", "quantifier": "every component set, boundary data, operator type and history of training and loading", "why_tests_cant": "unbounded histories; pointers shared between components and subdomains", "anchors": ["src/steady_ns_solver.cpp:SteadyNSSolver::AllocateROMEQPElems", "src/steady_ns_solver.cpp:SteadyNSSolver::AssembleROMEQPOper", "src/steady_ns_solver.cpp:SteadyNSSolver::LoadEQPElems", "src/rom_nonlinearform.cpp:ROMNonlinearForm::GetEQPForIntegrator", "src/rom_nonlinearform.cpp:ROMNonlinearForm::LoadEQPForIntegrator"]}
{"id": "C62", "title": "Component samples survive save and load by component name", "statement": "If every integrator of every component has samples and component names are distinct, SaveEQPElems writes a file from which LoadEQPElems of any solver with the same operator, whose components all occur by name with as many boundary attributes, in any order, restores exactly these samples for every integrator, whatever was there before.", "quantifier": "every pair of component sets, history on both solvers, file contents written before and after", "why_tests_cant": "ranges over all names and histories", "anchors": ["src/steady_ns_solver.cpp:SteadyNSSolver::SaveEQPElems", "src/steady_ns_solver.cpp:SteadyNSSolver::LoadEQPElems", "src/rom_nonlinearform.cpp:ROMNonlinearForm::SaveEQPForIntegrator"]}
{"id": "C63", "title": "The Lax-Friedrichs flux is the stated numerical flux, consistent, conservative and without a preferred side", "statement": "The vector DGLaxFriedrichsFluxIntegrator assembles on a face or interface has as entry for component d of shape function k of the first (second) element minus (plus) the quadrature sum of weight times k times component d of the numerical flux: the mean of (n.u)u over both sides plus |n| max(|u-|,|u+|)(u- - u+); on a boundary the prescribed velocity takes the place of u+, and without one the flux is (n.u-)u-. If the velocities on the two sides agree the flux is (n.u)u. If the shape functions of each side add up to one, the entries of each component add up to zero over both sides. Exchanging the sides (and reversing the normal) exchanges the vectors.", "quantifier": "every dimension, element sizes, quadrature points, normals, coefficients, boundary data and velocity fields", "why_tests_cant": "Exact identities of assembled sums over all fields; a test compares one vector with a tolerance", "anchors": ["src/interfaceinteg.cpp:DGLaxFriedrichsFluxIntegrator::ComputeFluxDotN", "src/interfaceinteg.cpp:DGLaxFriedrichsFluxIntegrator::AssembleQuadVectorBase", "src/interfaceinteg.cpp:DGLaxFriedrichsFluxIntegrator::AssembleFaceVector", "src/interfaceinteg.cpp:DGLaxFriedrichsFluxIntegrator::AssembleInterfaceVector"]}
{"id": "C64", "title": "The Lax-Friedrichs Jacobian is the derivative of the Lax-Friedrichs vector wherever that is differentiable", "statement": "At every state at which the vector assembled by DGLaxFriedrichsFluxIntegrator on a face or interface is differentiable, the matrix (on an interface: the four matrices) assembled by the corresponding gradient routine is its Jacobian.", "quantifier": "every dimension, element sizes, quadrature points, normals, coefficients, boundary data and velocity fields", "why_tests_cant": "Newton's method relies on it at every iterate; tests compare finite differences at random states, which never hit states at rest or with equal speeds", "anchors": ["src/interfaceinteg.cpp:DGLaxFriedrichsFluxIntegrator::ComputeGradFluxDotN", "src/interfaceinteg.cpp:DGLaxFriedrichsFluxIntegrator::AssembleFaceGrad", "src/interfaceinteg.cpp:DGLaxFriedrichsFluxIntegrator::AssembleInterfaceGrad"]}
{"id": "C65", "title": "The precomputed Lax-Friedrichs evaluation equals the projected one", "statement": "At each sample of a face or interface, evaluating the Lax-Friedrichs term from precomputed basis values adds to the reduced vector and matrix exactly the projection on the basis of the vector and matrix that evaluation at the quadrature point gives for the lifted state, whatever calls were made before.", "quantifier": "every basis, element degrees of freedom, reduced state, quadrature point, weight, boundary data, and history of calls on the integrator", "why_tests_cant": "The two paths share no code and depend on members left by earlier calls; a test sees one history", "anchors": ["src/interfaceinteg.cpp:DGLaxFriedrichsFluxIntegrator::AddAssembleVector_Fast", "src/interfaceinteg.cpp:DGLaxFriedrichsFluxIntegrator::AddAssembleGrad_Fast", "src/rom_nonlinearform.cpp:ROMNonlinearForm::PrecomputeFaceEQPSample", "src/rom_interfaceform.cpp:ROMInterfaceForm::PrecomputeEQPSample"]}
{"id": "C66", "title": "Convection tensors of the Navier-Stokes ROM hold the convection form of the basis, for the right component", "statement": "Entry (i,j,k) of the tensor computed from a velocity basis and space is the quadrature of zeta (grad v_j) v_i . v_k over all elements, with v_i, v_j, v_k the basis vectors; building the tensors of all components and assembling gives every subdomain the tensor of the component it is a copy of, from that component's velocity basis; building subdomain by subdomain uses the velocity basis of that subdomain. The Lax-Friedrichs operator is refused.", "quantifier": "every basis, space, element orientation, quadrature rule, number of components, variables and subdomains, block ordering, separate or joint bases", "why_tests_cant": "The tensor is a sum over all triples of basis vectors; tests check one small case through the whole ROM", "anchors": ["src/steady_ns_solver.cpp:SteadyNSSolver::GetReducedTensor", "src/steady_ns_solver.cpp:SteadyNSSolver::BuildROMTensorElems", "src/steady_ns_solver.cpp:SteadyNSSolver::AssembleROMTensorOper", "src/steady_ns_solver.cpp:SteadyNSSolver::ProjectOperatorOnReducedBasis"]}
{"id": "C67", "title": "The residual of the tensor ROM is the Galerkin projection of the convective term plus the linear part", "statement": "For every reduced state, the tensor ROM operator returns the linear operator applied to the state plus, in the velocity block of each subdomain, the convection form of that subdomain's velocity field tested with each basis vector; nothing is added to other blocks and no other subdomain enters.", "quantifier": "every reduced state, basis, space, number of subdomains and variables, block ordering", "why_tests_cant": "An identity over all reduced states; a test compares single solutions with a tolerance", "anchors": ["src/steady_ns_solver.cpp:SteadyNSROM::SteadyNSROM", "src/steady_ns_solver.cpp:SteadyNSTensorROM::Mult"]}
{"id": "C68", "title": "The tensor ROM has an exact Jacobian at every state", "statement": "GetGradient returns at every reduced state, and the returned matrix J satisfies Mult(x+h) = Mult(x) + J h + q(h) with q the convective part, a quadratic form, so J is the derivative.", "quantifier": "every reduced state, increment, basis, space, linear operator, block ordering", "why_tests_cant": "Newton's method relies on it at every iterate; finite-difference tests sample a few states and one sparsity pattern", "anchors": ["src/steady_ns_solver.cpp:SteadyNSTensorROM::GetGradient"]}
{"id": "C69", "title": "Saved convection tensors come back under the component they belong to", "statement": "Tensors saved by a solver with distinctly named components are read by any solver whose components have names among them, in any order, each component getting the tensor saved under its name, and a ROM with loaded tensors has the residual and Jacobian of one with the original tensors.", "quantifier": "every number of components, component names, order, tensor sizes and values", "why_tests_cant": "Depends on the order of components in two runs and on every entry; a test sees one order", "anchors": ["src/steady_ns_solver.cpp:SteadyNSSolver::SaveROMTensorElems", "src/steady_ns_solver.cpp:SteadyNSSolver::LoadROMTensorElems"]}
{"id": "C70", "title": "The residual of the hyper-reduced Navier-Stokes operator is the linear part plus the sampled forms, in the right blocks", "statement": "For every reduced state, the hyper-reduced (EQP) Navier-Stokes operator returns the linear operator applied to the state plus, in the velocity block of each subdomain, the residual of that subdomain's sampled form at its velocity coefficients and, with an interface form, the interface residual of that subdomain at all the velocity coefficients; nothing is added to other blocks and earlier calls have no influence.", "quantifier": "every reduced state, number of subdomains and variables, block sizes, block ordering, separate or joint variables, forms, history of earlier calls", "why_tests_cant": "An identity over all reduced states and layouts; tests use one ordering and compare single solutions with a tolerance", "anchors": ["src/steady_ns_solver.cpp:SteadyNSEQPROM::SteadyNSEQPROM", "src/steady_ns_solver.cpp:SteadyNSEQPROM::Mult", "src/steady_ns_solver.cpp:SteadyNSEQPROM::GetVel", "src/steady_ns_solver.cpp:SteadyNSEQPROM::AddVel"]}
{"id": "C71", "title": "The hyper-reduced Navier-Stokes operator has the exact Jacobian at every state", "statement": "GetGradient of the hyper-reduced operator returns at every reduced state the linear operator plus the Jacobians of the subdomain forms and of the interface form in the velocity blocks; with Jacobians that are derivatives of the forms it is the derivative of the residual, and for convection forms the remainder is the nonlinear part of the increment.", "quantifier": "every reduced state, increment, number of subdomains, block sizes and ordering, forms, linear operator", "why_tests_cant": "Newton's method relies on it at every iterate; finite-difference tests sample a few states, one ordering and one sparsity pattern", "anchors": ["src/steady_ns_solver.cpp:SteadyNSEQPROM::GetGradient", "src/linalg_utils.cpp:AddToBlockMatrix"]}
{"id": "C72", "title": "One time step of the unsteady Navier-Stokes solver is backward Euler with explicit convection", "statement": "For a symmetric discretisation (the default interface parameter; otherwise C95 applies): if the equations of the step have a solution, a step of the unsteady full-order solver succeeds and the new velocity satisfies, with some pressure q, mass*(u'-u)/dt + K u' + B^T q = f - convection(u) and B u' = g, the convection being taken at the old velocity and the old time. The stored pressure is q if a pressure is prescribed, otherwise q without its mean, so that its dofs sum to zero; if constant pressures exert no force it satisfies the momentum balance too. A state whose velocity a step leaves unchanged solves the steady Navier-Stokes equations.", "quantifier": "every number of subdomains, block sizes, matrices, convection operator, right-hand side, time step, time and previous state, stale contents of the work vectors", "why_tests_cant": "An identity over all states, operators and layouts; tests compare a few manufactured solutions with a tolerance", "anchors": ["src/unsteady_ns_solver.cpp:UnsteadyNSSolver::InitializeTimeIntegration", "src/unsteady_ns_solver.cpp:UnsteadyNSSolver::Step", "src/unsteady_ns_solver.cpp:UnsteadyNSSolver::AssembleOperator", "src/stokes_solver.cpp:StokesSolver::InitVariables"]}
{"id": "C73", "title": "The reduced unsteady solver advances the projected equations from the projected initial condition", "statement": "The reduced unsteady solver starts from the projection of the initial condition on the bases; each step at time t solves mass_r*(u'-u)/dt + (A_r x')_u = rhs_u - convection_r(u) and (A_r x')_p = rhs_p, with mass_r the Galerkin projection of each component's mass matrix on its velocity basis; the time advances by dt per step and the result is the last state lifted to the full-order space. An ordering other than by variable is refused. A reduced state that a step leaves unchanged solves the steady reduced equations.", "quantifier": "every number of steps, subdomains, components, basis sizes, bases, operators, initial conditions, right-hand sides, time step", "why_tests_cant": "A statement about the whole trajectory for all layouts; tests compare one trajectory with the full-order one up to the truncation error", "anchors": ["src/unsteady_ns_solver.cpp:UnsteadyNSSolver::SolveROM", "src/unsteady_ns_solver.cpp:UnsteadyNSSolver::AssembleROMMat", "src/unsteady_ns_solver.cpp:UnsteadyNSSolver::BuildCompROMLinElems", "src/rom_handler.cpp:MFEMROMHandler::ProjectGlobalToDomainBasis"]}
{"id": "C74", "title": "Without a prescribed pressure the reduced unsteady solution has zero mean pressure", "statement": "When no pressure is prescribed, the pressure returned by the reduced unsteady solver has nodal mean zero, like that of the full-order solver.", "quantifier": "every set of bases, initial condition, number of steps and problem without pressure boundary", "why_tests_cant": "Depends on all bases; tests use bases trained on snapshots of one problem and compare errors with a tolerance", "anchors": ["src/unsteady_ns_solver.cpp:UnsteadyNSSolver::SolveROM"]}
{"id": "C75", "title": "A linear ROM returns the Galerkin solution and reproduces full-order solutions in the span of its bases", "statement": "If the reduced system is regular, a ROM run of a Poisson or Stokes problem (project the right-hand side, solve the reduced system, lift) returns the only state in the span of the bases whose full-order residual is orthogonal to every basis vector. The result is the same whether the operator was assembled from component elements or projected from the full-order operator, and does not depend on what the solution vector held before. In particular a full-order solution that lies in the span of the bases is returned exactly.", "quantifier": "every accepted component-wise topology, boundary conditions, forms, bases, block ordering, right-hand side, previous solution vector and exact linear solver", "why_tests_cant": "Quantifies over all bases, operators and right-hand sides; tests reproduce a few snapshots up to a tolerance", "anchors": ["src/main_workflow.cpp:SingleRun", "src/multiblock_solver.cpp:MultiBlockSolver::ProjectRHSOnReducedBasis", "src/multiblock_solver.cpp:MultiBlockSolver::SolveROM", "src/rom_handler.cpp:MFEMROMHandler::Solve", "src/multiblock_solver.cpp:MultiBlockSolver::AssembleROMMat"]}
{"id": "C76", "title": "The steady Navier-Stokes solver evaluates its equations, differentiates them exactly and stores a solution when it reports convergence", "statement": "The nonlinear operator handed to Newton's method evaluates momentum (convection of every subdomain and interface, viscosity, pressure gradient) and divergence at every state. Its gradient is the derivative of that map at the requested state, for every direction, and is not affected by the gradients computed before, although the matrices of the earlier calls are reused in place. A solve that reports convergence has stored velocities and pressures that satisfy the discretised equations up to a residual that passes the test of the nonlinear solver; if no pressure is prescribed and constant pressures exert no force, the stored pressure dofs sum to zero. A restart starts at the loaded solution. A snapshot is saved exactly if the solve has converged and a sample generator is given.", "quantifier": "every number of subdomains, dof counts, linear blocks, differentiable convection terms with or without interface form, state, history of gradient evaluations, right-hand side, initial guess and nonlinear solver that keeps its contract", "why_tests_cant": "Quantifies over all states, directions and call histories; a finite-difference test samples a few and cannot tell an exact derivative from a close one", "anchors": ["src/steady_ns_solver.cpp:SteadyNSOperator::Mult", "src/steady_ns_solver.cpp:SteadyNSOperator::GetGradient", "src/steady_ns_solver.cpp:SteadyNSSolver::Solve"]}
{"id": "C77", "title": "The interface integrators assemble the interior-penalty and normal-flux forms, in either orientation and in agreement with faces inside a mesh", "statement": "For elements that are not degenerate, the four matrices an interface integrator assembles represent, for every pair of finite element functions on the two sides, the form it is documented to discretise: `-<{Q grad u . n},[v]> + sigma <[u],{Q grad v . n}> + kappa <{h^-1 Q}[u],[v]>` for diffusion with no, a scalar or a matrix coefficient, its componentwise version for vectors, the version with stress and `lambda + 2 mu` for elasticity, and `<{q},[u].n>` for the normal flux. The vector and normal-flux integrators for faces inside one mesh assemble a matrix made of exactly those four blocks, and on a boundary face the corresponding one-sided form. With sigma = -1 the matrices are symmetric; with sigma = 1 only the penalty contributes to the energy; nothing is added for two functions without a jump; and exchanging the two subdomains, with the normal reversed, exchanges the blocks and changes nothing else.", "quantifier": "every dimension, number of shape functions on either side, quadrature rule, geometry with nonzero determinants, coefficient, sigma and kappa, in exact arithmetic", "why_tests_cant": "Quantifies over all functions, geometries and coefficients; the half-updated triangular penalty matrices are combined by index arithmetic whose errors can cancel on symmetric test meshes", "anchors": ["src/interfaceinteg.cpp:InterfaceDGDiffusionIntegrator::AssembleInterfaceMatrix", "src/interfaceinteg.cpp:InterfaceDGVectorDiffusionIntegrator::AssembleInterfaceMatrix", "src/interfaceinteg.cpp:InterfaceDGElasticityIntegrator::AssembleInterfaceMatrix", "src/interfaceinteg.cpp:InterfaceDGNormalFluxIntegrator::AssembleInterfaceMatrix", "src/dg_bilinear.cpp:DGVectorDiffusionIntegrator::AssembleFaceMatrix", "src/dg_mixed_bilin.cpp:DGNormalFluxIntegrator::AssembleFaceMatrix"]}
{"id": "C78", "title": "The skew-symmetric convection integrators assemble Temam's form, give its exact derivative and do no work inside the domain", "statement": "For every velocity u and test function v the element integrator assembles `1/2 Q [((u.grad)u, v) - ((u.grad)v, u)]`, the face and interface integrators `1/2 Q <n.u1, u1.v2 - u2.v1>`, the boundary face `1/2 Q <n.u, u.v>` and the boundary load `Z <n.g, g.v>`. The gradient matrices are the exact derivatives: moving u by h changes the vector by the matrix applied to h plus the vector of h itself, with no other remainder. Tested with u itself, the element, interior-face and interface vectors do no work, and the boundary face gives the kinetic energy carried out by the flow. An interface assembles exactly the blocks a face inside one mesh would. Where the normal velocity is the same on both sides the result does not depend on which side comes first, and with half the flux coefficient the boundary load equals the boundary flux of every function that takes the prescribed values.", "quantifier": "every dimension, number of shape functions on either side, quadrature rule, geometry, coefficient and velocity, in exact arithmetic over any field", "why_tests_cant": "Quantifies over all velocities, directions and geometries; finite differences only check sampled directions up to truncation error, and the work identity holds for every discontinuous function", "anchors": ["src/nonlinear_integ.cpp:TemamTrilinearFormIntegrator::AssembleElementVector", "src/nonlinear_integ.cpp:TemamTrilinearFormIntegrator::AssembleElementGrad", "src/nonlinear_integ.cpp:DGTemamFluxIntegrator::AssembleFaceVector", "src/nonlinear_integ.cpp:DGTemamFluxIntegrator::AssembleFaceGrad", "src/interfaceinteg.cpp:InterfaceDGTemamFluxIntegrator", "src/dg_linear.cpp:DGBdrTemamLFIntegrator::AssembleRHSElementVect"]}
{"id": "C79", "title": "Prescribed velocities enter the Stokes system consistently: load and matrix cancel for any velocity that satisfies them", "statement": "On a boundary face the load of prescribed values g is `sigma <g, mu grad v . n> + kappa <h^-1 mu g, v>` and the load of the divergence equation is `<g.n, q>`. For every velocity that takes the values g at the quadrature points, the diffusion matrix applied to it and the load, built with the same sigma and kappa, differ exactly by the natural flux `-<mu grad u . n, v>`, and the normal-flux matrix applied to it equals the normal load: the discrete system has no error from the boundary conditions. The loads are linear in the data, and a prescribed stress, given column by column, gives `<sigma n, v>`.", "quantifier": "every dimension, number of shape functions, quadrature rule, geometry with nonzero determinants, viscosity, sigma, kappa, data and velocity, in exact arithmetic", "why_tests_cant": "The matrix and the load are assembled by unrelated loops in different files; agreement must hold for every function, geometry and parameter, while a convergence test only sees the combination on a few meshes", "anchors": ["src/dg_linear.cpp:DGVectorDirichletLFIntegrator::AssembleRHSElementVect", "src/dg_linear.cpp:DGBoundaryNormalLFIntegrator::AssembleRHSElementVect", "src/dg_linear.cpp:BoundaryNormalStressLFIntegrator::AssembleRHSElementVect", "src/dg_bilinear.cpp:DGVectorDiffusionIntegrator::AssembleFaceMatrix", "src/dg_mixed_bilin.cpp:DGNormalFluxIntegrator::AssembleFaceMatrix", "src/stokes_solver.cpp:SetupRHSBCOperators"]}
{"id": "C80", "title": "Reference ports come from the first source that describes them, and a port file brings back the port that was written", "statement": "A port written to a port file and read by another handler has the same boundary attributes, the same pairs of boundary elements in the same order, the same identification of vertices, and the components of the same names, whatever their indices are in the reading run; nothing else changes. When a port file is read, ports already set up are kept, ports that are not configured are ignored, and any other port is the one of the first group naming it. The set-up of the reference ports succeeds only if every port is provided and no two have the same name; each port is then the one of the first description in the global configuration that names it, else of the first entry of the port list that provides it, where an existing port file takes the place of the entry's own description. After a run with `write_ports`, a second run with the same configuration reads the same ports from the files, matches no meshes, and leaves the disk unchanged; no existing port file is ever overwritten.", "quantifier": "every port, component list, port file, global configuration, port list and disk contents, with no bound on their sizes, for distinct component names", "why_tests_cant": "Quantifies over all histories of port files and all configurations; the outcome depends on the order of sources, on which files exist at the moment and on the iteration order of a hash map", "anchors": ["src/component_topology_handler.cpp:ComponentTopologyHandler::SetupReferencePorts", "src/component_topology_handler.cpp:ComponentTopologyHandler::ReadPortDatasFromFile", "src/component_topology_handler.cpp:ComponentTopologyHandler::WritePortDataToFile", "src/component_topology_handler.cpp:ComponentTopologyHandler::ReadPortDict", "src/component_topology_handler.cpp:ComponentTopologyHandler::BuildPortDataFromInput"]}
{"id": "C81", "title": "A reference port joins the components its source names; unknown names are rejected", "statement": "A reference port refers to the components named by the description or the port file it came from. A description or port file naming a component that the run does not have is rejected.", "quantifier": "every port description, port file and component list", "why_tests_cant": "Quantifies over all files; a file from another configuration is silently accepted and the effect appears only later and only for some component orders", "anchors": ["src/component_topology_handler.cpp:ComponentTopologyHandler::ReadPortDatasFromFile", "src/component_topology_handler.cpp:ComponentTopologyHandler::BuildPortDataFromInput"]}
{"id": "C82", "title": "A library of reduced component matrices is loaded by name, and a library that lacks something is rejected", "statement": "Saving the reduced matrices of all components, boundaries and reference ports always succeeds when component names are distinct and contain no colon. Loading the file in any problem whose components (each with at least one boundary) and reference ports all occur in it by name, in any order and over any previous contents, succeeds and gives each component its own system and mass matrix, each boundary of it its matrix, and each reference port the matrix stored for the port between components of the same names through the same boundaries. Loading succeeds only if every component occurs under its name with the same number of boundaries, and every reference port occurs.", "quantifier": "every pair of component lists, boundary counts and reference port lists, every set of sparse block matrices, and every previous contents of the target, with no bound on their sizes", "why_tests_cant": "The saving and the loading run have different components in different orders; a mismatch would silently attach the matrix of one component to another, for some orders only", "anchors": ["src/rom_element_collection.cpp:ROMLinearElement::Save", "src/rom_element_collection.cpp:ROMLinearElement::Load", "src/rom_element_collection.cpp:ROMLinearElement::LoadCompBdrElems", "src/rom_element_collection.cpp:ROMLinearElement::LoadBdrElems", "src/rom_element_collection.cpp:ROMLinearElement::LoadItfaceElems", "include/rom_element_collection.hpp:ROMLinearElement"]}
{"id": "C83", "title": "A single run saves the solution it computed and reports its true relative errors, whether or not the full-order solution comes from a file", "statement": "After a successful run that saves its solution, loading the file gives exactly the solution the run computed, also if a comparison replaced it in between; files other than the report and the solution are untouched, and turning the comparison off changes nothing but the report and the returned value (-1). With comparison, the report holds for every variable the ratio of the norm of the difference to the norm of the full-order solution, both over all subdomains, and the returned value is a greatest of these unless the first one is undefined (0/0). Comparing with a file saved by a full-order run of the same problem gives exactly the same run as solving again, if the full-order solve does not depend on its starting vector. A missing file or one of another size is rejected.", "quantifier": "every number of subdomains and variables, every set of spaces with nonnegative quadrature weights, all solutions, options, file names and previous disk contents", "why_tests_cant": "The comparison overwrites the solution in place and must restore it for all options; the errors mix variables and subdomains of different sizes; tests check one problem and look at one number", "anchors": ["src/main_workflow.cpp:SingleRun", "src/multiblock_solver.cpp:MultiBlockSolver::SaveSolution", "src/multiblock_solver.cpp:MultiBlockSolver::LoadSolution", "src/multiblock_solver.cpp:MultiBlockSolver::CompareSolution", "src/multiblock_solver.cpp:MultiBlockSolver::ComputeRelativeError", "src/multiblock_solver.cpp:MultiBlockSolver::CopySolution"]}
{"id": "C84", "title": "Supremizer enrichment gives every component an orthonormal velocity basis that contains the gradients of its pressure modes", "statement": "Training writes, for every component, supremizers such that a later run with any selection of the trained components, in any order and any number of subdomains, gets for each component a basis that starts with its velocity modes unchanged, has as many further columns as supremizers asked for, is orthonormal, and spans exactly the velocity modes and the discrete gradients of the pressure modes used. The pressure bases are untouched and all block sizes follow. Hence the reduced divergence operator loses nothing: the reduced gradient of a reduced pressure has the full norm of the discrete gradient, so no reduced pressure mode is invisible to the velocities. This holds if the velocity modes are orthonormal, the gradients are independent of each other and of them, the number of supremizers is between one and the number of pressure modes, and the later run uses at most the velocity modes of the training; a missing file, a recorded width that does not fit, or a larger number than stored stops the run.", "quantifier": "every number of components and modes, all divergence matrices, bases and numbers of supremizers meeting the conditions, every later selection of components", "why_tests_cant": "Orthogonality against the existing modes and the order of the columns must hold for all bases, and the two halves run in different programs connected by a file; a test sees one mesh and one number of modes", "anchors": ["src/stokes_solver.cpp:StokesSolver::EnrichSupremizer", "src/stokes_solver.cpp:StokesSolver::LoadSupremizer", "src/rom_handler.cpp:MFEMROMHandler::AppendReferenceBasis", "src/linalg_utils.cpp:modifiedGramSchmidt"]}
{"id": "C85", "title": "The numbers of basis vectors and supremizers are those the configuration gives for each component and variable", "statement": "Setting up a reduced model succeeds exactly if for every component (and variable, if these have separate bases) the first row of the tag list with its tag, or else the default, gives a positive number of basis vectors, every component has a subdomain with positive dimension, and tags or a positive default are given at all; the numbers are then these and the dimensions those of the component's own block. The number of supremizers of a component is given by the first row with the tag of its pressure, else by the general setting if positive, else by its number of pressure modes.", "quantifier": "every configuration whose tag list is a list or absent, all component and variable names, every assignment of components to subdomains and all block offsets", "why_tests_cant": "Rows may be missing, repeated, or shared between settings, and indices of components, variables and subdomains are mixed; tests read a handful of configurations", "anchors": ["src/rom_handler.cpp:ROMHandlerBase::ParseInputs", "src/rom_handler.cpp:ROMHandlerBase::ParseSupremizerInput", "src/rom_handler.cpp:GetBasisTagForComponent", "include/input_parser.hpp:InputParser::LookUpFromDict"]}
{"id": "C86", "title": "Every sample is run under exactly the configuration of its own grid point, whatever was run before it", "statement": "For every configuration whose parameter list describes double, integer or file name parameters with keys that do not contain one another, GenerateSamples runs sample s with each key set to the value of that parameter at the s-th grid point (linear, geometric or integer spacing, last parameter fastest) and every other entry of the configuration as it was; the result does not depend on the samples run before. Every grid point belongs to exactly one sample, and samples differ in their configuration if the intervals hold enough values and these are written differently. When generation ends, every sample has been saved exactly once, in order, in a file of its own, and the configuration is the original one. The random generator sets the values drawn, and the saved samples are those of the draws that converged, in order. With non-convergence excluded and nothing blocking a key, generation on one process does end.", "quantifier": "every configuration, number and kind of parameters, numbers of samples, prefixes and offsets, every history of earlier samples and every sequence of converged and failed runs", "why_tests_cant": "The configuration is global mutable state changed by every sample, so a leftover entry shows only after particular histories; tests run one sampling study", "anchors": ["src/sample_generator.cpp:SampleGenerator::SampleGenerator", "src/sample_generator.cpp:SampleGenerator::SetSampleParams", "src/sample_generator.cpp:SampleGenerator::GetSamplePath", "src/random_sample_generator.cpp:RandomSampleGenerator::SetSampleParams", "src/parameter.cpp:DoubleParam::SetParam", "src/main_workflow.cpp:GenerateSamples", "include/input_parser.hpp:InputParser::SetOption"]}
{"id": "C87", "title": "A reduced run gets, for every variable of every component, the basis made from exactly the snapshots of that variable and component", "statement": "After a sampling run and a training run by basis with the default snapshot files, loading the bases in any later run of the same solver gives, for each variable of each component that was sampled and trained, the first columns (as many as configured) of the decomposition of exactly the snapshots of that variable on all subdomains that are instances of that component, sample by sample. This does not depend on the order or number of components in the three runs, on other files on disk, or on the component names: two bases of one run never share a file. Training reads the configured snapshot files of each listed component, writes one basis file per component and variable and changes no other file; a component listed k times has its snapshots taken k times. A listed component without snapshots stops the training, as does a missing or too short basis file when loading. Training from the port files of several runs gives each basis the snapshots of all these runs, run by run. With a basis per variable, training by basis always stops for the solver adv-diff.", "quantifier": "every configuration, component list, sampling history, disk contents, numbers of subdomains and of basis vectors, and every decomposition", "why_tests_cant": "The tag of a basis travels as text through file names between three programs with their own component numberings; a mismatch loads a basis of the right size for the wrong component, which tests on one component cannot see", "anchors": ["src/main_workflow.cpp:GetGlobalBasisTagList", "src/main_workflow.cpp:CollectSamples", "src/main_workflow.cpp:CollectSamplesByBasis", "src/main_workflow.cpp:CollectSamplesByPort", "src/main_workflow.cpp:TrainROM", "src/sample_generator.cpp:SampleGenerator::CollectSnapshotsByBasis", "src/sample_generator.cpp:SampleGenerator::FormReducedBasis", "src/rom_handler.cpp:ROMHandlerBase::LoadReducedBasis", "src/rom_handler.cpp:GetBasisTagForComponent"]}
{"id": "C88", "title": "The line search of the conjugate-gradient solver takes a step to a nearby minimum of the residual", "statement": "Given a direction and a positive first step, the line search of the conjugate-gradient solver for reduced nonlinear systems returns a positive step at which the objective is not larger than at the start, inside a bracket as short as the tolerance asks for (unless ten thousand points have been tried), and near a local minimum of the objective; on a quadratic objective it returns the minimum itself. It does so for every continuous objective that decreases along the direction at first and increases again. The code violates this: if no bracket is found in ten thousand enlargements, in particular if the direction is zero because the start is already a solution, it writes past the end of an array; on equal values an assertion fails; and when the parabola through the first bracket has its minimum in the middle point, the bracket collapses onto that point from one side and the search ends where the objective still decreases.", "quantifier": "every objective along the line, first step and tolerance", "why_tests_cant": "Whether the search ends in a minimum depends on the values of a real function at points the search chooses; the overrun and the collapsed bracket need special values that tests on smooth examples do not meet", "anchors": ["src/linalg_utils.cpp:CGOptimizer::Brent", "include/linalg_utils.hpp:CGOptimizer"]}
{"id": "C89", "title": "The conjugate-gradient solver never makes the residual larger, and reports convergence exactly when a tolerance is met", "statement": "Whenever the conjugate-gradient solver for reduced nonlinear systems returns, the norm of the residual at the point returned is not larger than at the point it was given. If it reports convergence, the norm is below the absolute tolerance, or below the relative tolerance times the initial norm; if it does not, after at least one turn, neither holds. The vector it uses as gradient is the gradient of the squared residual.", "quantifier": "every differentiable system, right-hand side, starting point, tolerances and number of iterations", "why_tests_cant": "The guarantee is for all nonlinear systems and all iterations; a test compares one converged solution", "anchors": ["src/linalg_utils.cpp:CGOptimizer::Mult", "src/linalg_utils.cpp:CGOptimizer::Objective", "src/linalg_utils.cpp:CGOptimizer::Gradient"]}
{"id": "C90", "title": "On linear systems the conjugate-gradient solver converges in as many iterations as there are unknowns", "statement": "For a system that is linear (or affine) in the unknowns and has a solution, with a positive absolute tolerance and at least as many iterations allowed as there are unknowns, the conjugate-gradient solver reports convergence whenever it returns. If the matrix is injective, within very generous bounds on its size, and the start is not a solution, it does return.", "quantifier": "every dimension, matrix, right-hand side and starting point within the stated bounds", "why_tests_cant": "Finite termination is a theorem about conjugate directions in exact arithmetic, not about an example", "anchors": ["src/linalg_utils.cpp:CGOptimizer::Mult", "src/linalg_utils.cpp:CGOptimizer::Brent"]}
{"id": "C91", "title": "Training of the interface hyper-reduction reproduces the interface residual at the collected samples", "statement": "For every reference port and every integrator, training sets exactly the samples whose weight in the solution of the nonnegative least squares problem exceeds 1e-12: pairs of an interface of the port and a quadrature point, without repetition; the unknowns of that problem are the points of all interfaces of the port, however these are divided among processes, and its equations the tests with all basis vectors of both sides at all pairs of snapshots recorded for the port. Every port of the type uses these samples, and no other port is affected. With a solver that finds nonnegative weights within the bounds whenever there are any: at every reduced state that carries, on the two sides of every port, the solutions of a collected sample on the two sides of that port (or of another port of the same type), every equation of the reduced interface residual is the one with the full quadrature, up to the relative tolerance and up to 1e-12 times the absolute contributions. The recorded pairs are those: the two solutions on the sides of every port of every collected sample. This needs samples collected by port; with samples collected by basis, which is the default, training stops at the first reference port.", "quantifier": "every number of components, ports, interfaces, integrators, quadrature points, basis vectors, samples and processes, every integrator linear in the weights, every history of samples", "why_tests_cant": "The statement is about all reduced states of the collected samples, and about a solver and a distribution over processes that a test fixes", "anchors": ["src/rom_interfaceform.cpp:ROMInterfaceForm::TrainEQPForRefPort", "src/rom_interfaceform.cpp:ROMInterfaceForm::SetupEQPSystem", "src/rom_interfaceform.cpp:ROMInterfaceForm::TrainEQPForIntegrator", "include/rom_interfaceform.hpp:UpdateInterFaceIntegratorSampling", "src/steady_ns_solver.cpp:SteadyNSSolver::TrainROMEQPElems", "src/main_workflow.cpp:CollectSamplesByBasis"]}
{"id": "C92", "title": "Every subdomain of a component-wise topology is the mesh listed for its component, put where its row says", "statement": "If a component-wise topology is set up, then subdomain m is a copy of the mesh in the file that the configuration lists under the name of m's component (the last entry, if a name is listed several times), uniformly refined as often as configured, with every node rotated and translated as row m of the table says in two dimensions, and translated in three; connectivity and everything else are unchanged. It is set up exactly for: distinct component names, each of them listed with a readable mesh, one nodal finite element collection for all, at least one subdomain, subdomains of known components, six numbers in every row, and nodes with two or three coordinates, as many as the first component has dimensions. Listed components that are not used are not read. A component missing from the list, and one-dimensional components, are not rejected with a message: a null pointer is dereferenced.", "quantifier": "every global file, every configuration, every number of components, subdomains and nodes", "why_tests_cant": "The property is about all files, lists and placements; a test uses a few", "anchors": ["src/component_topology_handler.cpp:ComponentTopologyHandler::ReadComponentsFromFile", "src/component_topology_handler.cpp:ComponentTopologyHandler::SetupComponents", "src/component_topology_handler.cpp:ComponentTopologyHandler::SetupMeshes", "include/component_topology_handler.hpp:mesh_config"]}
{"id": "C93", "title": "A ROM built and stored in one program run serves every later run", "statement": "For linear problems, building the ROM at component level writes one file, named by the prefix, and leaves all other files alone. Every later run at component level that finds this file - for any assembly of components, boundary conditions, right-hand side and order or number of components and ports, as long as its components and reference ports are known to the first program by name with the same forms, boundaries, interfaces and bases - returns the state a run without stored operators returns: the one state in the span of the bases whose full-order residual is orthogonal to them. The same holds at global level for the same operator and bases, for every linear problem. At level none nothing is written. A file of the other level and a missing file stop the run; component level on a topology that is not component-wise stops both programs.", "quantifier": "Poisson and Stokes problems with separate or common bases on all component-wise topologies (global level: all linear problems), all disks, all solvers that solve regular systems", "why_tests_cant": "The property spans two program runs and all assemblies of components; a test builds one file and solves one system", "anchors": ["src/main_workflow.cpp:BuildROM", "src/main_workflow.cpp:SingleRun", "include/multiblock_solver.hpp:MultiBlockSolver::SaveROMLinElems", "include/multiblock_solver.hpp:MultiBlockSolver::LoadROMLinElems", "src/rom_handler.cpp:MFEMROMHandler::SaveOperator", "src/rom_handler.cpp:MFEMROMHandler::LoadOperatorFromFile", "src/rom_handler.cpp:ROMHandlerBase::ParseInputs"]}
{"id": "C94", "title": "A Navier-Stokes ROM built and stored in one program run serves every later run", "statement": "With tensor handling of the convection, building the ROM of a steady Navier-Stokes problem at component or global level writes the two files named by the prefix (linear operator and tensors) and leaves all other files alone. Every later run that finds these two files - at component level for any assembly of known components, at global level for the same operator and bases - hands the nonlinear solver an operator that maps the coefficients of every reduced state to its Navier-Stokes residual (linear part and convection form) tested with the bases. So whenever the nonlinear solver solves its system, the run returns a state in the span of the bases whose residual vanishes when tested with them, and the coefficients of a full-order solution that lies in the span solve that system. A run without stored operators has the same operator. A missing tensor file, files of the other level and the Lax-Friedrichs operator end the program.", "quantifier": "all component-wise topologies (global level: all topologies), separate or common bases, all velocity spaces, bases, states, disks and nonlinear solvers", "why_tests_cant": "The property spans two program runs, all assemblies of components and all reduced states; a test builds one file and compares one solution", "anchors": ["src/main_workflow.cpp:BuildROM", "src/main_workflow.cpp:SingleRun", "src/steady_ns_solver.cpp:SteadyNSSolver::SaveROMOperator", "src/steady_ns_solver.cpp:SteadyNSSolver::LoadROMOperatorFromFile", "src/steady_ns_solver.cpp:SteadyNSSolver::SolveROM", "src/rom_handler.cpp:MFEMROMHandler::NonlinearSolve"]}
{"id": "C95", "title": "A full-order linear solve that reports success solves the assembled equations", "statement": "When Solve of the Poisson, elasticity, advection-diffusion or Stokes solver returns true, the state satisfies the assembled equations of every subdomain: exactly (up to the arithmetic of the solver) with the direct solver, to the tolerance of the iterative solver otherwise, relative to the residual of the zero state. Snapshots are taken exactly when it returns true and a sample generator is given. When no pressure is prescribed, the stored pressure has zero mean and still solves the equations. Solving before the operator is assembled aborts.", "quantifier": "all numbers and sizes of subdomains, assembled operators, right-hand sides, initial states, solver options and external solvers that meet their contracts", "why_tests_cant": "The claim is about every operator the options can produce, including interface parameters no test uses; the repository's tests only use the default, for which the operator is symmetric", "anchors": ["src/poisson_solver.cpp:PoissonSolver::Solve", "src/poisson_solver.cpp:PoissonSolver::SetMUMPSSolver", "src/linelast_solver.cpp:LinElastSolver::Solve", "src/advdiff_solver.cpp:AdvDiffSolver::Solve", "src/stokes_solver.cpp:StokesSolver::Solve", "src/stokes_solver.cpp:StokesSolver::SetupMUMPSSolver"]}
{"id": "C96", "title": "A linear ROM run ends with the lift of coefficients that solve the reduced system", "statement": "A run of a linear ROM (project the right-hand side, solve, lift) ends with a state in the span of the bases whose residual is orthogonal to them: exactly (up to the arithmetic of the solver) with the direct solver, to the tolerance of the iterative solver otherwise, relative to the residual of the zero state. Names of linear solvers, kinds of system and preconditioners that are not in the list end the program.", "quantifier": "all handlers, bases, full-order operators whose reduced matrix is regular, right-hand sides, previous states, input files and external solvers that meet their contracts", "why_tests_cant": "The options and the operator vary independently; the tests use symmetric operators and converging solves only", "anchors": ["src/rom_handler.cpp:MFEMROMHandler::MFEMROMHandler", "src/rom_handler.cpp:MFEMROMHandler::Solve", "src/rom_handler.cpp:MFEMROMHandler::SetIterativeSolver", "src/rom_handler.cpp:MFEMROMHandler::SetupDirectSolver", "src/multiblock_solver.cpp:MultiBlockSolver::SolveROM"]}
{"id": "C97", "title": "Visualisation files show the solution, its error and the basis vectors", "statement": "Whatever a program solves, compares and saves: with individual views every save writes one file per subdomain asked for (from the offset on, multiples of the interval) holding, under the name of each variable, the values it has then, and, if asked for, its absolute difference to the solution last compared with; with the unified view one file whose fields have at each dof of the parent mesh the value of the last subdomain containing it. Saves with step and time carry them. The advection-diffusion solver adds the flow. Visualising the basis writes each basis vector, variable by variable. Choices that make no sense (no name, offset or interval out of range, unified view of components) end the program.", "quantifier": "all numbers of subdomains, variables, dofs and values, all offsets and intervals, all histories of solving, comparing and saving, all bases", "why_tests_cant": "The references to the grid functions are fixed once and read at every later save; tests look at no file that is written", "anchors": ["src/multiblock_solver.cpp:MultiBlockSolver::InitVisualization", "src/multiblock_solver.cpp:MultiBlockSolver::InitIndividualParaview", "src/multiblock_solver.cpp:MultiBlockSolver::InitUnifiedParaview", "src/multiblock_solver.cpp:MultiBlockSolver::SaveVisualization", "src/multiblock_solver.cpp:MultiBlockSolver::CompareSolution", "src/topology_handler.cpp:SubMeshTopologyHandler::TransferToGlobal", "src/advdiff_solver.cpp:AdvDiffSolver::SaveVisualization", "src/rom_handler.cpp:MFEMROMHandler::SaveBasisVisualization"]}
{"id": "C98", "title": "The advection-diffusion solver convects by the flow of its problem", "statement": "On every subdomain the convection term uses the velocity of the solution of the run's flow problem, whether the flow is computed, computed and stored in the flow file, or loaded from it, whatever was run before. A flow given as a function is used on the subdomains it is given for and only there. A missing flow, a stored flow of another size, and a missing file name end the program.", "quantifier": "all numbers of subdomains and dofs, all flows, all histories of runs with any choice of storing and loading, and all files present at the start", "why_tests_cant": "The flow file is shared by runs; whether a stored flow belongs to the problem depends on the whole history of runs", "anchors": ["src/advdiff_solver.cpp:AdvDiffSolver::AdvDiffSolver", "src/advdiff_solver.cpp:AdvDiffSolver::GetFlowField", "src/advdiff_solver.cpp:AdvDiffSolver::SetFlowAtSubdomain", "src/advdiff_solver.cpp:AdvDiffSolver::SetParameterizedProblem", "src/advdiff_solver.cpp:AdvDiffSolver::BuildDomainOperators", "src/multiblock_solver.cpp:MultiBlockSolver::SaveSolution", "src/multiblock_solver.cpp:MultiBlockSolver::LoadSolution"]}
{"id": "C99", "title": "An elasticity ROM is the Galerkin ROM of the problem's material", "statement": "The full-order operator of an elasticity problem is that of a body made of the material of the problem: every subdomain, its Dirichlet boundaries and all interfaces have the two coefficients of the problem. A ROM built from reference components, or at global level, and stored by the building run makes later runs return the Galerkin solution of their problem with its material, the same that a run without stored operator returns.", "quantifier": "all component libraries, arrangements, forms depending in any way on the two coefficients, coefficients, bases, right-hand sides, configurations of building level and prefix, and files present at the start", "why_tests_cant": "Coefficients are kept per subdomain and used per component; what a stored ROM was built with is not visible in the run that uses it", "anchors": ["src/linelast_solver.cpp:LinElastSolver::SetParameterizedProblem", "src/linelast_solver.cpp:LinElastSolver::BuildDomainOperators", "src/linelast_solver.cpp:LinElastSolver::SetupDomainBCOperators", "src/linelast_solver.cpp:LinElastSolver::AssembleOperator", "src/linelast_solver.cpp:LinElastSolver::BuildCompROMLinElems", "src/linelast_solver.cpp:LinElastSolver::BuildBdrROMLinElems", "src/linelast_solver.cpp:LinElastSolver::BuildItfaceROMLinElems", "src/linelast_solver.cpp:LinElastSolver::ProjectOperatorOnReducedBasis"]}
{"id": "C100", "title": "A mesh divided by attributes is divided without gap or overlap", "statement": "For a mesh with positive element attributes, after any number of uniform refinements, every element belongs to exactly one subdomain and appears in it once, in the order of the mesh: subdomain k has the elements of attribute k+1, or a single subdomain has all if no decomposition is asked for. The number of subdomains is the largest attribute; a subdomain is empty only if no element has its attribute. Each subdomain is the only copy of its own component, with its own name. The interfaces between these subdomains are complete and correct. Elements without positive attribute belong to no subdomain. Unknown kinds of topology or decomposition end the program.", "quantifier": "all meshes and attributes, all numbers of refinements and ways to refine, all option trees", "why_tests_cant": "A lost or doubled element changes the solution only locally; it must be excluded for every arrangement of attributes", "anchors": ["src/topology_handler.cpp:SubMeshTopologyHandler::SubMeshTopologyHandler", "src/topology_handler.cpp:TopologyHandler::TopologyHandler", "src/topology_handler.cpp:SetTopologyHandlerMode", "src/topology_handler.cpp:TopologyHandler::UpdateAttributes"]}
{"id": "C101", "title": "Full-order and reduced operators are made of the same terms", "statement": "The operator of a subdomain is the interior-penalty form of the equation: one volume term, a penalty term on interior faces of discontinuous elements and on exactly those boundaries where a value is prescribed, each once, and the right-hand side has the data there with the same viscosity and penalty. The reduced elements of components, boundaries and reference ports have the same terms with the same coefficients, as have the convection tensors and the hyper-reduced forms of the Navier-Stokes solver: volume and face terms and, at every boundary, the same flux with the same velocity. A boundary without a velocity or prescribed stress ends the program in both; tensors are refused for the Lax-Friedrichs operator.", "quantifier": "all boundary conditions, all attributes of meshes and of the maps from component boundaries, all coefficients", "why_tests_cant": "A term missing or scaled in one of the four places makes the reduced model converge to the solution of another equation", "anchors": ["src/poisson_solver.cpp:PoissonSolver::BuildDomainOperators", "src/poisson_solver.cpp:PoissonSolver::BuildCompROMLinElems", "src/poisson_solver.cpp:PoissonSolver::BuildBdrROMLinElems", "src/stokes_solver.cpp:StokesSolver::BuildDomainOperators", "src/stokes_solver.cpp:StokesSolver::SetupDomainBCOperators", "src/stokes_solver.cpp:StokesSolver::BuildCompROMLinElems", "src/steady_ns_solver.cpp:SteadyNSSolver::BuildDomainOperators", "src/steady_ns_solver.cpp:SteadyNSSolver::GetReducedTensor", "src/steady_ns_solver.cpp:SteadyNSSolver::AllocateROMEQPElems", "src/steady_ns_solver.cpp:SteadyNSSolver::AssembleROMEQPOper"]}
{"id": "C102", "title": "A flow run uses the settings of its configuration", "statement": "Every term of every operator of a flow run has the viscosity, inertia coefficient, penalty parameters and kind of elements the configuration asks for, and the operator type asked for; unknown operator types end the program. The quadrature of the convective terms is exact for the polynomial degree used and belongs to the geometry of the elements; meshes with different geometries are refused.", "quantifier": "all option trees, all parameters of the flow problems, all meshes", "why_tests_cant": "An option that is read but not used gives a plausible solution of another problem", "anchors": ["src/stokes_solver.cpp:StokesSolver::StokesSolver", "src/stokes_solver.cpp:StokesSolver::SetParameterizedProblem", "src/steady_ns_solver.cpp:SteadyNSSolver::SteadyNSSolver", "src/parameterized_problem.cpp:ParameterizedProblem::SetSingleRun", "src/main_workflow.cpp:SingleRun"]}
{"id": "C103", "title": "Hyper-reduction samples at a boundary belong to the term there", "statement": "The samples a hyper-reduced subdomain uses at a boundary were trained on the same part of the boundary of its component, for the term they are used in.", "quantifier": "all boundary conditions and maps from component boundaries, all components", "why_tests_cant": "Samples of another term or another boundary still give a number; the error depends on the flow", "anchors": ["src/steady_ns_solver.cpp:SteadyNSSolver::AllocateROMEQPElems", "src/steady_ns_solver.cpp:SteadyNSSolver::AssembleROMEQPOper"]}
{"id": "C104", "title": "Every problem prescribes the conditions and forces it describes", "statement": "A solver given a problem by name, with any parameters set in any number of calls, prescribes on every boundary of every mesh the condition the problem describes there: its inflow or displacement, no slip or zero, its load, or nothing where the natural condition holds; changing the direction of the flow past an array moves inflow and outflow, and choosing a side moves the wave. Each boundary gets at most one term. Flow solvers accept the problem if the mesh has a boundary with a value and one without. The right-hand side holds the force of the problem and a time-dependent flow starts from its initial state. Unknown names end the program.", "quantifier": "all names, all sequences of parameter settings, all meshes with distinct boundary attributes", "why_tests_cant": "Each of the seventeen problems has its own lists of attributes, types and functions, and only few configurations are run with reference values", "anchors": ["src/parameterized_problem.cpp:InitParameterizedProblem", "src/parameterized_problem.cpp:ParameterizedProblem::SetParams", "src/parameterized_problem.cpp:PoissonComponent::SetBattr", "src/parameterized_problem.cpp:FlowPastArray::SetBattr", "src/parameterized_problem.cpp:LidDrivenCavity::LidDrivenCavity", "src/parameterized_problem.cpp:LinElastDisp::LinElastDisp", "src/parameterized_problem.cpp:LinElastComponentWiseTrain::LinElastComponentWiseTrain", "src/linelast_solver.cpp:LinElastSolver::SetParameterizedProblem", "src/stokes_solver.cpp:StokesSolver::SetParameterizedProblem"]}
{"id": "C105", "title": "Boundary values and forces are functions of point, time and parameters", "statement": "Every vector function of a problem gives the same result whatever the vector it is given held before. Inflow and lid profiles are along the first axis, vanish at the walls, reach their maximum in the middle and stay between; perturbations of the inflow of the step vanish at the walls too. The initial state of the step is the profile without perturbations. Beams do not move where they are held; loads point along one axis. Scalar data are plane waves with the given wave vector and offset, in up to three dimensions.", "quantifier": "all points, times and parameters, over every ordered field with a sine that vanishes at the multiples of pi", "why_tests_cant": "A value left in memory or a profile not vanishing at a wall shows only for some parameters", "anchors": ["src/parameterized_problem.cpp:function_factory::flow_problem", "src/parameterized_problem.cpp:function_factory::poisson_component", "src/parameterized_problem.cpp:function_factory::linelast_cwtrain", "src/parameterized_problem.cpp:function_factory::linelast_disp", "src/parameterized_problem.cpp:function_factory::advdiff_problem"]}
{"id": "C106", "title": "Projections of arrays of blocks use the bases of the subdomains and variables of the blocks", "statement": "Projecting an array of operators of a component, of a reference port, of a subdomain, of two subdomains at an interface, of two variables over all subdomains or of the whole problem gives in every place the projection of the operator there on the basis of its row and the basis of its column, in whichever order the blocks of a reduced vector are arranged; a missing operator gives a zero block. Arrays of other sizes are refused. A vector is projected on and lifted from the basis of a variable of a component, and vectors of other sizes are refused.", "quantifier": "all handlers with loaded bases, in both orders of blocks and with joint or separate variables, all components, subdomains and variables, all linear operators and all vectors", "why_tests_cant": "A block on the wrong basis has the right size whenever bases have equal sizes, and tests use one order of blocks only", "anchors": ["src/rom_handler.cpp:ROMHandlerBase::ProjectComponentToRefBasis", "src/rom_handler.cpp:ROMHandlerBase::ProjectInterfaceToRefBasis", "src/rom_handler.cpp:ROMHandlerBase::ProjectComponentToDomainBasis", "src/rom_handler.cpp:ROMHandlerBase::ProjectInterfaceToDomainBasis", "src/rom_handler.cpp:ROMHandlerBase::ProjectVariableToDomainBasis", "src/rom_handler.cpp:ROMHandlerBase::ProjectGlobalToDomainBasis", "src/rom_handler.cpp:ROMHandlerBase::ProjectToRefBasis", "src/rom_handler.cpp:ROMHandlerBase::LiftUpFromRefBasis"]}
{"id": "C107", "title": "Hyper-reduction samples trained by one program are the ones later runs use", "statement": "Training hyper-reduction samples with non-linear handling eqp at component level writes one file and changes no other; a linear problem writes nothing, and another handling, another level or a topology other than the component-wise one stops. A later run with the same operator and prefix, whose components and reference ports occur in training in whatever order and layout, gives every subdomain, for each of its integrators, the samples trained with the configured tolerance for the component of its name, on a boundary those of the attribute it comes from and of the homogeneous kind exactly on homogeneous boundaries, and gives every port the samples trained for the reference port that joins the same components through the same boundaries. The tolerance of the interfaces is that of the components unless given, and that one is 0.01 unless given. Training a component keeps its residual at every snapshot in the span of its basis within what the tolerance allows. A run without the file stops.", "quantifier": "all operators, components, reference ports, bases, stored snapshots, tolerances, and all later layouts and orders of components and ports", "why_tests_cant": "Samples of the wrong component or boundary are valid samples and give a plausible answer; tests train and run with the same layout", "anchors": ["src/main_workflow.cpp:TrainEQP", "src/main_workflow.cpp:SingleRun", "src/steady_ns_solver.cpp:SteadyNSSolver::AllocateROMEQPElems", "src/steady_ns_solver.cpp:SteadyNSSolver::TrainROMEQPElems", "src/steady_ns_solver.cpp:SteadyNSSolver::SaveEQPElems", "src/steady_ns_solver.cpp:SteadyNSSolver::LoadEQPElems", "src/steady_ns_solver.cpp:SteadyNSSolver::AssembleROMEQPOper", "src/rom_nonlinearform.cpp:ROMNonlinearForm::TrainEQP", "src/rom_interfaceform.cpp:ROMInterfaceForm::TrainEQPForRefPort"]}
{"id": "C108", "title": "The scripts for arrays of squares and lattices write complete, geometrically consistent tables", "statement": "The script for an n by n array of squares and the one for an nx by ny lattice of joints and rods with any positive widths and lengths write tables in which every face of every copy appears exactly once, either in a boundary row or on one side of an interface. Interfaces join exactly the pairs of faces that lie at the same place, and their reference port has the components, faces and shift of the pair. Boundary rows have the attribute of the side of the domain they lie on, 5 around the holes of a lattice. A program with these components and ports accepts the tables. The hand-written single cell is the lattice with one cell in another order of meshes, and the four training variants rotate the attributes of the sides, so that over the variants every side gets every attribute once.", "quantifier": "all n, all numbers of cells at least one, all positive widths and lengths", "why_tests_cant": "Scripts are run for a few sizes and the tables are hundreds of rows; a wrong neighbour still gives a solvable system", "anchors": ["utils/python/sample_comp.py:ConfigScaleUp", "utils/python/linelast_comp_base.py:cw_generate_nu_mxn", "utils/python/linelast_comp_base.py:cw_generate_nu_1x1", "utils/python/linelast_comp_base.py:Configure2DLatticeComponent", "utils/python/linelast_cwtrain.py:PermuteBdrData", "src/component_topology_handler.cpp:ComponentTopologyHandler::ReadPortsFromFile"]}
{"id": "C109", "title": "A box of cells filled one by one gives the same grid whatever the order", "statement": "The script that fills a box of nx by ny cells with components, one cell at a time and in any order, writes a file in which every cell has the mesh chosen for it, every face of every mesh appears exactly once, neighbouring cells are joined through the faces they share, with a reference port of the right components, faces and shift, and all other faces are boundary with their own number as attribute. In a periodic direction with two or more cells the ends of a row are joined in the same way. Components that are not used are left out and the numbers of the meshes follow. When the ports of all pairs of components are registered first, the file has a port for every pair. The program accepts the file, unless there is no boundary face at all, or a periodic direction has a single cell, so that a mesh is joined to itself; it rejects these two. Generating all configurations writes each of the comps^(nx ny) fillings once, numbered from the offset in order.", "quantifier": "all sizes, both periodicities, all lists of components with different names, all orders of cells and all choices of components", "why_tests_cant": "There are comps^(nx ny) fillings times (nx ny)! orders; the script is only run at random ones", "anchors": ["utils/python/box_channel_config.py:BoxChannelConfig", "utils/python/config.py:Configuration", "utils/python/box_comp_config.py:main", "src/component_topology_handler.cpp:ComponentTopologyHandler::ReadPortsFromFile"]}
{"id": "C110", "title": "A channel of components follows its walk, and all channels means all walks", "statement": "The script that lays components one after the other along a walk on the cells of the plane, starting at the origin and never visiting a cell twice, writes a file in which each mesh is joined to the next one, through the faces between them and with a fitting reference port, and to no other mesh, even where the walk comes back next to itself. The inlet is the left face of the first mesh and only that, the outlet the face of the last mesh straight ahead and only that, objects have their own attribute, and the two walls of a mesh have the two wall attributes, in straight parts the first at the right hand. Every face of every mesh appears exactly once and the program accepts the file. Nothing is written along anything that is not such a walk. Generating all channels with n steps writes one file for each walk with n steps, numbered from the offset. A random channel follows some walk with n steps or, if the walk runs into a dead end, the script stops without a file; the call with eight steps in the script can do so. The script does not keep the cells before the inlet and behind the outlet free.", "quantifier": "all lists of components with different names, all walks of any length, all choices of components, all numbers of steps and offsets, all sequences of random numbers", "why_tests_cant": "The number of walks grows exponentially with their length; a run of the random script sees one", "anchors": ["utils/python/channel_config.py:ChannelConfig", "utils/python/config.py:Configuration", "src/component_topology_handler.cpp:ComponentTopologyHandler::ReadBoundariesFromFile"]}
{"id": "C111", "title": "Dividing a mesh does not change the discrete operator", "statement": "With a discontinuous discretisation, the operator assembled on a mesh that is divided into submeshes is the operator of the undivided mesh up to the numbering of the degrees of freedom: the entry for degree of freedom a of element e and b of element e' is the integral over the element if they are the same, plus the integrals over all faces with an element on both sides, plus those over the boundary faces whose condition is imposed weakly, no matter into which and how many submeshes the mesh is divided, how these number their elements and faces, and in which order the two elements of a face are met. In particular two divisions, or a division and the undivided mesh, give the same entries. This is for meshes whose boundary elements lie on the outer boundary: a boundary element on a face between two submeshes removes the coupling over that face, while within one submesh the coupling stays.", "quantifier": "all two-dimensional meshes, all divisions of them into any number of submeshes, all boundary conditions for attributes of the mesh, all element, face and boundary integrals (any ring), equal and different test and trial spaces", "why_tests_cant": "A run compares a few meshes with a few divisions, and up to rounding; the claim is about every face of every mesh, whichever of interior assembly, interface assembly or boundary assembly handles it", "anchors": ["src/topology_handler.cpp:SubMeshTopologyHandler", "src/dg_mixed_bilin.cpp:MixedBilinearFormDGExtension::Assemble", "src/interface_form.cpp:InterfaceForm::AssembleInterfaceMatrices", "src/multiblock_solver.cpp:MultiBlockSolver::SetupBCVariables", "src/poisson_solver.cpp:PoissonSolver::AssembleOperator", "src/stokes_solver.cpp:StokesSolver::AssembleOperatorBase"]}
{"id": "C112", "title": "Dividing a mesh does not change the solutions of the full-order equations", "statement": "With a discontinuous discretisation, the right-hand side assembled on a divided mesh is that of the undivided mesh up to the numbering of the degrees of freedom (element integrals plus, on every boundary face, the integral of the function imposed weakly on its attribute), and a block vector solves the assembled equations exactly if the discrete function it stands for solves the equations of the undivided mesh, one for every degree of freedom of every element. So two block vectors on two divisions of one mesh that are the same discrete function either both solve their equations or neither does, and every block vector on one division has a counterpart on the other. The same holds for the Stokes equations M u + B^T p = f, B u = g.", "quantifier": "all two-dimensional meshes with boundary elements on the outer boundary, all divisions of them, all boundary conditions for attributes of the mesh, all integrals (any ring), all block vectors", "why_tests_cant": "A run compares the solutions of a few problems up to solver tolerance; the claim is about all vectors and all divisions", "anchors": ["src/poisson_solver.cpp:PoissonSolver::Assemble", "src/poisson_solver.cpp:PoissonSolver::BuildRHSOperators", "src/poisson_solver.cpp:PoissonSolver::SetupRHSBCOperators", "src/poisson_solver.cpp:PoissonSolver::AssembleRHS", "src/stokes_solver.cpp:StokesSolver::Assemble", "src/stokes_solver.cpp:StokesSolver::SetupRHSBCOperators", "src/stokes_solver.cpp:StokesSolver::AssembleRHS"]}
{"id": "C113", "title": "The check that a configuration is closed is exact", "statement": "Whatever meshes, boundary faces and interfaces a script adds to a configuration, in any order and with any repetitions, the tables of the configuration name every face of every mesh exactly as often as the script did, and the check that all faces are closed succeeds exactly if every face of every mesh, including the surface of its object, has been named exactly once: it does not succeed if a face was forgotten or named twice. A face that has been named before cannot be joined to another face, and no face can be joined to itself: the script stops.", "quantifier": "all lists of components and all finite sequences of calls that add meshes, boundary faces and interfaces (mesh numbers from zero)", "why_tests_cant": "The scripts are run for a few patterns; the check guards every script that uses the class, including wrong ones", "anchors": ["utils/python/config.py:Configuration.addMesh", "utils/python/config.py:Configuration.appendBoundary", "utils/python/config.py:Configuration.appendInterface", "utils/python/config.py:Configuration.allFacesClosed"]}
{"id": "C114", "title": "Dividing a mesh does not change the Navier-Stokes equations", "statement": "However a mesh is divided into submeshes, the convective terms the program computes for a velocity are those of the undivided mesh: the entry of a degree of freedom of an element is its integral over the element plus, with the Lax-Friedrichs flux, one integral for every face of the element, whether the face lies inside a submesh or between two, and one for every boundary face, with the prescribed velocity of its boundary attribute, or without one on Neumann boundaries. For two divisions of the same mesh the convective terms of the same velocity are the same, and a velocity and a pressure solve the steady Navier-Stokes equations on the one division exactly if they do on the other. With the Lax-Friedrichs flux the program stops if a boundary that is not a Neumann boundary has no prescribed velocity.", "quantifier": "all parent meshes, divisions, discontinuous spaces, convective integrals (any functions of the element values), boundary conditions and velocities; with the Lax-Friedrichs flux full discontinuous Galerkin is on, as discontinuous spaces require", "why_tests_cant": "A test compares a division with the undivided mesh for one mesh and one flow and up to a discretisation error; a face that is integrated twice, missed or seen from the wrong side on another division goes unnoticed", "anchors": ["src/steady_ns_solver.cpp:SteadyNSOperator::Mult", "src/steady_ns_solver.cpp:SteadyNSSolver::BuildDomainOperators", "src/steady_ns_solver.cpp:SteadyNSSolver::SetupDomainBCOperators", "src/interfaceinteg.cpp:InterfaceForm::InterfaceAddMult"]}
{"id": "C115", "title": "Dividing a mesh does not change the Newton matrix, and it is the derivative", "statement": "However a mesh is divided into submeshes, the matrix the program assembles for the convective terms at a velocity has, for two degrees of freedom of two elements of the undivided mesh, the entry of the undivided mesh: the element gradient if the elements are the same plus, with the Lax-Friedrichs flux, one face gradient for every face both belong to, whether it lies inside a submesh or between two, and one boundary gradient for every boundary face, with the prescribed velocity of its attribute or without one on Neumann boundaries. So the increments of velocity and pressure solve the equations of a Newton step on one division exactly if they do on another. If the gradients of the integrators are the derivatives of their vectors, then on every division the assembled matrix is the derivative of the convective terms the program computes, in every direction. With the Lax-Friedrichs flux the program stops if a boundary that is not a Neumann boundary has no prescribed velocity.", "quantifier": "all parent meshes, divisions, discontinuous spaces, convective integrals and gradients (any functions of the element values), boundary conditions, velocities, residuals, increments and directions; with the Lax-Friedrichs flux full discontinuous Galerkin is on", "why_tests_cant": "A finite difference test looks at one velocity, one direction and one mesh; a block of the gradient that is transposed, put in the wrong place or left out on another division only slows Newton's method down", "anchors": ["src/steady_ns_solver.cpp:SteadyNSOperator::GetGradient", "src/steady_ns_solver.cpp:SteadyNSSolver::BuildDomainOperators", "src/steady_ns_solver.cpp:SteadyNSSolver::SetupDomainBCOperators", "src/interfaceinteg.cpp:InterfaceForm::InterfaceGetGradient"]}
{"id": "C116", "title": "Dividing a mesh does not change the flow in time", "statement": "However a mesh is divided into submeshes, the unsteady Navier-Stokes solver can be set up, and a run of any number of time steps with a direct solver is a flow on the undivided mesh: in every step mass (u' - u) / dt + viscous u' + gradient p = f - convection(u) at the time of the step and divergence u' = g hold for every degree of freedom of every element, and unless a pressure is prescribed the mean of the pressure over the whole mesh is subtracted. So two solvers of the same flow on two divisions of a mesh that start from the same velocity have the same velocity and the same pressure after every number of steps, also if they use different direct solvers.", "quantifier": "all parent meshes, divisions, discontinuous spaces, mass, viscous, divergence and convective integrals, right-hand sides, boundary conditions, initial velocities, time steps, numbers of steps, previous contents of the work vectors and exact direct solvers; on the undivided mesh mass matrix and viscous operator are symmetric, the equations of a step have a solution and, for the comparison of two divisions, determine the velocity, and the pressure up to a constant", "why_tests_cant": "A test compares two divisions of one mesh after a few steps, with a tolerance; a term that is missing on one kind of interface or a mean that is taken over a subdomain changes the flow only slightly at first", "anchors": ["src/unsteady_ns_solver.cpp:UnsteadyNSSolver::BuildDomainOperators", "src/unsteady_ns_solver.cpp:UnsteadyNSSolver::AssembleOperator", "src/unsteady_ns_solver.cpp:UnsteadyNSSolver::InitializeTimeIntegration", "src/unsteady_ns_solver.cpp:UnsteadyNSSolver::Step", "src/stokes_solver.cpp:StokesSolver::AssembleOperatorBase", "src/steady_ns_solver.cpp:SteadyNSSolver::SetupDomainBCOperators"]}
{"id": "C117", "title": "Dividing a mesh does not change the elasticity problem", "statement": "With discontinuous elements (full-discrete-galerkin), however a mesh is divided into submeshes, the elasticity solver assembles the equations of the undivided mesh for the material of the problem: a block vector solves them exactly if the discrete displacement it stands for satisfies, for every degree of freedom of every element, the equation with element terms, face terms, terms in operator and right-hand side on boundaries with a prescribed displacement, terms in the right-hand side only on boundaries with a traction, and no terms on other boundaries. So two divisions of a mesh have the same solutions. Without discontinuous elements the operator does not depend on the boundary conditions at all, so that prescribed displacements have no term in it.", "quantifier": "all parent meshes, divisions into at least one submesh, discontinuous spaces, elasticity integrals, body forces, boundary functions and types, Lame coefficients and block vectors", "why_tests_cant": "A test solves one problem on one or two divisions with one set of boundary types; it cannot see that some combination of division, boundary type and material assembles a different problem", "anchors": ["src/linelast_solver.cpp:LinElastSolver::BuildRHSOperators", "src/linelast_solver.cpp:LinElastSolver::SetupRHSBCOperators", "src/linelast_solver.cpp:LinElastSolver::BuildDomainOperators", "src/linelast_solver.cpp:LinElastSolver::SetupDomainBCOperators", "src/linelast_solver.cpp:LinElastSolver::Assemble", "src/linelast_solver.cpp:LinElastSolver::SetParameterizedProblem"]}
{"id": "C118", "title": "Dividing a mesh does not change the computed solution", "statement": "With the direct solver, assuming that it solves its system exactly, assembling and solving the Poisson, elasticity or Stokes problem gives the same discrete function however the mesh is divided into submeshes. For Poisson and elasticity: if the equations of the undivided mesh are symmetric and have only the solution zero for the right-hand side zero, the solve on every division reports success and the discrete function it returns is the solution on the undivided mesh. For Stokes: if the equations of the undivided mesh have a solution, the viscous part is symmetric and, unless a pressure is prescribed, a constant pressure exerts no force, the solve on every division reports success, velocity and pressure solve the equations of the undivided mesh, and the pressure has mean zero unless one is prescribed; if moreover the solution is unique up to a constant pressure, two divisions give the same velocity and the same pressure. The solution is saved as a snapshot exactly if a sample generator is given.", "quantifier": "all parent meshes, pairs of divisions, discontinuous spaces, symmetric forms over a field, loads, boundary conditions, external solvers meeting the contract, and previous solutions", "why_tests_cant": "A test compares two divisions of one mesh for one problem and up to a tolerance; that the orders of elements and blocks, offsets and the way solutions are stored never matter needs all divisions", "anchors": ["src/poisson_solver.cpp:PoissonSolver::Assemble", "src/poisson_solver.cpp:PoissonSolver::Solve", "src/linelast_solver.cpp:LinElastSolver::Solve", "src/stokes_solver.cpp:StokesSolver::Solve", "src/stokes_solver.cpp:StokesSolver::Assemble", "src/stokes_solver.cpp:StokesSolver::InitVariables"]}
{"id": "C119", "title": "Dividing a mesh does not change the steady flow", "statement": "However the mesh is divided into submeshes, the operator that the steady Navier-Stokes solver hands to the nonlinear solver, minus its right-hand side, is at every degree of freedom the residual of the momentum or mass equation of the undivided mesh. Assembling and solving fail only if the nonlinear solver fails. Otherwise the stored velocity and pressure are functions on the undivided mesh. If the nonlinear solver reports convergence, the squared norm of their residual on the undivided mesh meets the tolerance, relative to the residual of the initial guess there; the solution is saved as a snapshot exactly if it also was asked for. Unless a pressure is prescribed, the mean over the degrees of freedom of the whole mesh is subtracted from the pressure. If the undivided mesh has an approximate solution, a nonlinear solver that finds one where it exists reports convergence on every division. If the equations of the undivided mesh determine the flow up to eta from residuals within the tolerance, converged runs on two divisions, also from different initial guesses, differ nowhere by more than eta in the velocity and two eta in the pressure; with tolerance zero and a unique solution they store the same flow.", "quantifier": "all parent meshes, pairs of divisions, discontinuous spaces, forms and convective terms over an ordered field, loads, boundary conditions, initial guesses, tolerances and nonlinear solvers meeting the contract", "why_tests_cant": "A test compares two divisions for one flow; whether the residual the iteration stops at is that of the undivided mesh depends on every order of elements, blocks and interfaces", "anchors": ["src/steady_ns_solver.cpp:SteadyNSSolver::Solve", "src/steady_ns_solver.cpp:SteadyNSSolver::BuildDomainOperators", "src/steady_ns_solver.cpp:SteadyNSOperator::Mult", "src/stokes_solver.cpp:StokesSolver::AssembleOperatorBase"]}
{"id": "C120", "title": "Dividing a mesh does not change the iterates of Newton's method", "statement": "However the mesh is divided into submeshes, the gradient that the steady Navier-Stokes solver hands to the linear solver is, applied to any increment, the linearisation of the momentum and mass equations of the undivided mesh at the given velocity; if the element gradients are the derivatives of the element integrals, that linearisation is the derivative of those equations. If the linearised equations of the undivided mesh are uniquely solvable and the linear solver solves nonsingular systems, assembling and solving with Newton's method end without an error on every division, for every initial guess, every pair of tolerances and every limit on the number of steps, and they follow Newton's method on the undivided mesh: every iterate, the decision to go on or to stop, and the reported convergence, which holds exactly if the squared residual there meets the goal. Runs on two divisions that start from the same velocity and pressure both converge or both do not, and store the same velocity and pressure, even where they stop at the limit of steps.", "quantifier": "all parent meshes, pairs of divisions, discontinuous spaces, forms, convective terms and their gradients over an ordered field, loads, boundary conditions, initial guesses, tolerances, limits of steps and linear solvers meeting the contract", "why_tests_cant": "A test compares converged solutions of two divisions; whether every iterate is the same depends on every entry of every gradient, in every order of elements, blocks and interfaces", "anchors": ["src/steady_ns_solver.cpp:SteadyNSSolver::Solve", "src/steady_ns_solver.cpp:SteadyNSOperator::GetGradient", "src/steady_ns_solver.cpp:SteadyNSOperator::Mult", "src/interface_form.cpp:InterfaceForm::InterfaceGetGradient"]}
{"id": "C121", "title": "The reported CFL number is the largest one of the undivided mesh", "statement": "For a velocity stored on any division of a mesh, in two or three dimensions, the CFL number that the unsteady Navier-Stokes solver reports is the largest, over all points of the integration rules of all elements of the undivided mesh, of step length times sum of the sizes of the velocity components times order divided by element size; it is zero if there are no points and never negative. Multiplying the step by a number multiplies the report by its size. Two divisions of the same mesh report the same number for the same velocity, and two runs that start from the same velocity report the same number after every step.", "quantifier": "all parent meshes, divisions, discontinuous velocity spaces of one order, positive element sizes, integration rules, velocities over an ordered field, step lengths, and numbers of steps", "why_tests_cant": "A test sees one velocity on one mesh; a maximum that skips an element, a point or a subdomain, or starts from a stale value, is wrong only for velocities whose largest value lies there", "anchors": ["src/unsteady_ns_solver.cpp:UnsteadyNSSolver::ComputeCFL", "src/unsteady_ns_solver.cpp:UnsteadyNSSolver::Solve"]}
{"id": "C122", "title": "The saved coordinates of hyper-reduction samples are those of the samples", "statement": "For every library of components with distinct names and at least one sample each, on existing elements and points of the rule, the mode print_eqp writes a file with the number of components and, under the name of each component, a table with one row per sample, in the order of the samples, whose three entries are the coordinates of the sample.", "quantifier": "all libraries of components, dimensions two and three, samples, integration rules, element transformations, and contents of uninitialised memory", "why_tests_cant": "A test reads one file; whether an entry is a coordinate or what the stack happened to hold cannot be seen from values that are plausible by chance, and depends on the build", "anchors": ["src/steady_ns_solver.cpp:SteadyNSSolver::SaveEQPCoords", "src/rom_nonlinearform.cpp:ROMNonlinearForm::SaveDomainEQPCoords", "src/hdf5_utils.cpp:WriteDataset"]}
{"id": "C123", "title": "The coordinates printed by a later run are those of the samples that were trained", "statement": "After a training run that ended normally, a later run in mode print_eqp with the same operator and prefix, whose components (in any order, possibly fewer) were all trained by name and whose meshes contain the trained points, ends normally. It writes exactly one file, which holds for every component a table with one row per sample trained for the component of that name, in the order of training, and the leading entries of each row are the coordinates of the trained point on the printing run's mesh. With a linear solver it writes nothing; without the trained file, with another nonlinear handling or at another level it stops.", "quantifier": "all training runs, configurations, snapshot stores, component libraries and orders of components, meshes, integration rules, contents of the disk and of uninitialised memory", "why_tests_cant": "A test prints one library right after training it; that order of components, other files and stale memory do not matter must hold for every pair of runs", "anchors": ["src/main_workflow.cpp:PrintEQPCoords", "src/steady_ns_solver.cpp:SteadyNSSolver::LoadROMNlinElems", "src/steady_ns_solver.cpp:SteadyNSSolver::LoadEQPElems", "src/steady_ns_solver.cpp:SteadyNSSolver::SaveEQPCoords", "src/main_workflow.cpp:TrainEQP"]}
{"id": "C124", "title": "The Schur-complement Stokes solve leaves a solution of the Stokes equations or ends the program", "statement": "StokesSolver::Solve_obsolete, when it returns, has overwritten the solution vector with velocities and pressures that satisfy the momentum and continuity equations of every subdomain (iterative solvers in exact arithmetic, so that a vector reported as converged solves its system), provided the viscous operator is symmetric and nonsingular and either a pressure is prescribed or constant pressures exert no force and the right-hand sides of the continuity equations sum to zero; without a prescribed pressure the pressure dofs sum to zero. It returns whenever its solvers do and the velocity solver converges on solvable systems; when the velocity solver does not converge the program is ended.", "quantifier": "all numbers of subdomains and unknowns, assembled operators, right-hand sides, former contents of the solution vector, preconditioner settings and iterative solvers that meet their contract", "why_tests_cant": "A test solves one problem with solvers that converge; what is left behind when the pressure solver stops early shows only for other inputs", "anchors": ["src/stokes_solver.cpp:StokesSolver::Solve_obsolete", "include/stokes_solver.hpp:SchurOperator", "src/multiblock_solver.cpp:MultiBlockSolver::GetVariableVector", "src/multiblock_solver.cpp:MultiBlockSolver::SetVariableVector"]}
{"id": "C125", "title": "Precomputed coefficients of interface samples make the fast evaluation equal to the slow one", "statement": "ROMInterfaceForm::PrecomputeCoefficients, on components with bases and spaces, integrators with a rule and a list of samples for every integrator and reference port, returns and gives coefficients to every sample of every integrator at every reference port, changing nothing else about it; if a basis, the samples of an integrator at a reference port, or the rule of the first integrator is missing, the program is ended instead. For every form put together from these components (each port a copy of a reference port that shares its samples), evaluating with the coefficients gives the same vector as evaluating without them, wherever in the bases the rows of the form's variable start, if the integrator's coefficients represent the rows they were computed from.", "quantifier": "all components, bases and row offsets, reference ports, integrators that meet the contract, samples, forms put together from the components, and reduced vectors", "why_tests_cant": "A test evaluates one form; whether each integrator, port and sample of every configuration, and every row offset of the bases, gets the right coefficients cannot be enumerated", "anchors": ["src/rom_interfaceform.cpp:ROMInterfaceForm::PrecomputeCoefficients", "src/rom_interfaceform.cpp:ROMInterfaceForm::PrecomputeEQPSample", "src/rom_interfaceform.cpp:ROMInterfaceForm::SetBasisAtComponent"]}
