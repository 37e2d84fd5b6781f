# Formal model of LLNL/scaleupROM in Lean 4

## 1. Approach

`/repo` is read as text only; nothing is built or run. The model lives in
`lean/Verif/`. Three kinds of modules:

* `Verif/Model/*.lean`: definitions only, one per C++ function, each with a
  comment citing file and lines and every simplification.
* `Verif/Proofs/*.lean`: helper lemmas.
* `Verif/Props/*.lean`: the property theorems, each next to a concrete,
  non-trivial `example` which meets its hypotheses. Specifications that are not
  plain mathematics live in `Verif/Spec/*.lean` or at the top of the Props file,
  and do not mention the model's helpers.

Outcomes. A C++ function that can fail is modelled in `Outcome α = Except Fault α`
where `Fault.abort` is a failing `assert`, `mfem_error`, `MFEM_ABORT` or `exit(-1)`, and
`Fault.ub` is undefined behaviour (out-of-bounds access, null dereference, use after
free, double free, division by zero). A theorem that says the outcome is `.ok r`
therefore says in particular: no assert fires and no undefined behaviour occurs.

Loops. `for (i = 0; i < n; i++)` is `loop n body`, iterating a fallible body on an explicit
state. Raw buffers are lists with checked reads/writes (`rd`, `wr`); pointer walks
(`*d++`) keep the pointer as an explicit index in the loop state.

Arithmetic. C++ `int` is modelled by `Int`/`Nat` (overflow of 32-bit `int` is not
modelled). `double` is modelled by an arbitrary commutative ring, field or by `ℝ`
(rounding is not modelled). Theorems over "any commutative ring" hold in particular over ℝ.

## 2. Trusted base

* Lean 4.33.0's kernel; axioms: at most `propext`, `Classical.choice`, `Quot.sound`
  (listed per theorem in section 6). No axiom is added; there is no `sorry`,
  `admit`, `native_decide`, `bv_decide`, `implemented_by`.
* Faithfulness of the transcription from C++ (by reading). Mutation experiments are in
  `seeded/LOG.jsonl`.
* External libraries are specified, not modelled: MFEM containers (`Array`, `Array2D`, `Vector`,
  `BlockVector`, `DenseMatrix`, `SparseMatrix`), MFEM finite elements (element
  matrices, shape functions are arbitrary parameters), HDF5 (a store from names to typed
  shaped data), libROM (`takeSample` appends one column or refuses), yaml-cpp (a tree of
  maps/sequences/scalars), MPI (rank and size as parameters), NNLS solver (weights as parameter).
* asserts are assumed enabled (no `NDEBUG`).

## 3. Plan per property

| id | model | proof |
|----|-------|-------|
| C01 | `DistributeSamples`, `IsMyJob` | partial sums in closed form; existence and uniqueness of the owner |
| C02 | both `GetSampleIndex`, `SetParamSpaceSizes` | mixed radix, induction over the size list; counterexample for out-of-range |
| C03 | random generator's index maps | induction over the parameter count |
| C04 | `GenerateSamples` main loop as a small-step machine | non-termination by an invariant; partial correctness/termination when one rank owns all |
| C05 | `DoubleParam` over ℝ | field arithmetic, `Real.rpow`/`log` facts |
| C06 | `IntegerParam`, `FilenameParam` | floor/rounding arithmetic |
| C07 | snapshot store state machine | refinement to "filter history by tag" |
| C08 | + port table | invariant over histories |
| C09 | `CollectSnapshotsByPort` | refinement to concatenation, induction over files |
| C10 | `SaveSV` coverage | partial (guard), negation |
| C11 | `operator<` for tags | lexicographic order facts |
| C12 | `BasisTag::print` | negation + partial |
| C13 | `GetBlockIndex` and inverse | div/mod |
| C14 | `SetBlockSizes` | partial sums |
| C15 | `SortBy*` | block permutation |
| C16 | `Get/SetVariableVector` | block copy frame |
| C17 | `InitVariables` offsets | partial sums |
| C18 | `RtAP` family as loops on buffers | loop specification lemma |
| C19 | row-subset products, pointer walks | loop specification lemma |
| C20 | tensor kernels, pointer walks | loop specification lemma; algebra |
| C21 | `TensorAddMultOnJ` | negation; partial |
| C22 | Gram-Schmidt over ℝ | induction over columns |
| C23 | `SetBlock`, `AddToBlockMatrix` | loop specification |
| C24 | dense HDF5 containers | round trip |
| C25 | sparse/block HDF5 containers | round trip |
| C26 | legacy sparse reader with buffer sizes | negation; partial |
| C27 | `EQPElement` save/load | round trip |
| C28 | attribute dedupe | list induction |
| C29 | component transforms over ℝ | trigonometric identity |
| C30 | `ReadComponentsFromFile` | invariant over the loop |
| C31 | submesh boundary/interface construction | list induction |
| C32 | port detection, `GetOrientation` | list induction, case analysis |
| C33 | BC operator setup | list induction |
| C34 | `AddBCFunction` histories | induction over history |
| C35 | pressure flag and mean removal | induction; algebra |
| C36 | complementary flux | linear algebra over a field |
| C37 | `nz_dbcs` marking | negation; partial |
| C38 | time loop with restart | negation; partial under synchronisation |
| C39 | snapshot schedule | loop induction |
| C40 | block Gauss-Seidel | block algebra |
| C41 | bottom-up ROM assembly (`BuildComp/Bdr/ItfaceROMElement`, `AssembleROMMat`) against `AssembleOperator` + `ProjectOperatorOnReducedBasis` | full-order operator as a sum of component, boundary and port pieces; bilinearity of projection |
| C42 | interface assembly locality | frame lemma |
| C43 | matrix-free vs. assembled interface action | linear algebra |
| C44 | projection/lifting | orthonormality algebra |
| C45 | `ROMNonlinearForm::Mult`, `GetGradient`, `PrecomputeCoefficients`; `ROMInterfaceForm::InterfaceAddMult`, `InterfaceGetGradient` | loop invariant on caches and values |
| C46 | `Mult` with all points sampled | exchange of sums |
| C47 | `TrainEQP`, `SetupEQPSystem...`, `TrainEQPForIntegrator` of `ROMNonlinearForm`, `Model/Training.lean`; the solver is an arbitrary function | nested loops as writes of a fixed target matrix; order of a filtered range |
| C48 | the same, with the solver's contract as hypothesis | triangle inequality over any ordered field; the full rule itself is feasible |
| C49 | `precompute` and the `_Fast` routines of the two convection integrators, `Model/Convection.lean` | both sides reduced to sums over shape functions |
| C50 | `AssembleQuadratureVector/Grad` and the element versions, `Model/Convection.lean` | quadratic expansion; negation with `vQ` |
| C51 | `ROMInterfaceForm`'s sample storage with an explicit heap: add, update, load, destructor | invariant over histories: references live, distinct, owning; views equal references |
| C52 | operator ownership state machine | negation; partial |
| C53 | option tree | refinement to finite map |
| C54 | profiler state machine | refinement |
| C55 | file selection | case analysis |
| C56 | parameter map | refinement |
| C57, C58 | see properties.jsonl; models in `Model/Boundary.lean` | see the Props files |
| C59 | component topology set-up | list induction, loop invariants |
| C60 | `SaveEQPForIntegrator`/`LoadEQPForIntegrator` over the HDF5 file model | loop invariant over reference ports; injectivity of data set names |
| C61 | component EQP store and `AssembleROMEQPOper` with an explicit heap, `Model/EqpComp.lean` | ownership invariant over histories |
| C62 | `SaveEQPElems`/`LoadEQPElems` over the HDF5 file model | loop invariants; injectivity of data set names (split at the last underscore) |
| C63 | `LaxF`: flux, element and interface vectors over an ordered field, `sqrt` a parameter | quadrature sums entry by entry, then algebra |
| C64 | `LaxF` over the reals; a zero divisor is a fault | Frechet derivative of the flux, summed over points; negation at rest |
| C65 | `LaxF`: precomputed basis values, the member `ndofs2` explicit | the two paths evaluate the flux at the same velocities; projection of blocks; two counterexamples |
| C66 | `TensorRom`: element loop, quadrature, tensor loops, distribution | closed form of the assembled vector, dot product with basis columns, loop invariant |
| C67 | `TensorRom`: `construct`, `mult` | contraction = form of the lifted field by bilinearity; disjoint velocity blocks |
| C68 | `TensorRom`: `getGradient` on a finalized sparse matrix (missing entry aborts) | expansion of the quadratic form; negation with a dropped entry |
| C69 | `TensorRom`: `saveTensors`, `loadTensors` on the HDF5 model | invariant over the written groups; distinct names |
| C70 | `EqpRom`: `construct`, `getVel`, `addVel`, `mult`; forms by contract, met by the models of C45 | invariants over the velocity blocks; negation for variable ordering |
| C71 | `EqpRom`: `getGradient`, block assembly, addition to a finalized sparse matrix | block sums (`addToBlockMatrix_spec`), abort-or-add loops, expansion of the residual |
| C72 | `Unsteady`: `initTime`, `step` with block matrices, sorting by variable, convection by contract, direct solver by contract | rows of the monolithic matrix are the equations of the scheme (`rows_iff`) |
| C73 | `Unsteady`: `buildMass`, `assembleROMMat`, `romOffsets`, `romOnes`, `romStep`, `solveRom` | block sums (`addToBlockMatrix_spec`), chain of states over the time loop |
| C74 | same | algebra of the normalisation; negation by a concrete run |
| C75 | `Online`: `projectRHS`, `solveROM`, `componentRun`, `projectedRun` on top of `RomHandler` and `RomAssembly` | rows of the monolithic reduced matrix are the Galerkin equations (`orthogonal_iff`); uniqueness from regularity |
| C76 | `SteadyNS`: `Oper.mult`, `Oper.gradient` with the matrices owned by the forms as state, `Solver.solve` | block rows of the saddle-point matrix (`saddle_rows`); gradient for every state of the cache; derivative along lines over the reals |
| C77 | `Penalty`: `diffusion`, `vecDiffusion`, `elasticity`, `normalFlux`, `vecFace`, `fluxFace` with the in-place updates of the flux and triangular penalty matrices | what each loop nest adds, as a sum of products of row and column weights; the pairing of the four blocks; forms in `Spec.Penalty` |
| C78 | `Temam`: `elemVec`, `elemGrad`, `faceVec`, `faceGrad`, `itfVec`, `itfGrad`, `load` with their writes into sub-matrices | each loop nest followed through the bilinear form of the matrix being assembled; forms in `Spec.Temam`; quadratic expansion and energy from the forms |
| C79 | `Loads`: `dirichlet`, `normal`, `stress` over the points of `Penalty` | the loops as linear functionals; subtraction from the boundary forms of C77 |
| C80 | `PortFile`: `writePort`, `readPort`, `readGroup`, `readFile`, `readDict`, `readNames`, `buildInput`, `entry`, `setupRefs` over handler and disk | contents of a written file; ports and files only appear; first provider by loop invariants; relation between the states of two runs |
| C81 | as C80, with the insertion made by `std::map::operator[]` | rejection by case analysis; negation by a concrete file |
| C82 | `RomElems`: `init`, `save`, `load` and their parts, over the HDF5 model | writing into a group keeps what is there (generic lemma on loops of writes); each reader finds what was written under its name; converse from the traces of the loops |
| C83 | `SingleRun`: everything after the solve in `SingleRun`, with `SaveSolution`, `LoadSolution`, `CompareSolution`, `ComputeRelativeError`; the solvers and spaces are parameters | the accumulated norms are sums over subdomains (loop invariants); decomposition of a successful run into its steps |
| C84 | `Supremizer`: `EnrichSupremizer`, `LoadSupremizer`, `AppendReferenceBasis`; the divergence matrix is a parameter | the Gram-Schmidt theorem of C22 gives the stored columns; loop invariants over components in training and loading; Parseval's identity for the reduced gradient |
| C85 | `Supremizer.parseInputs`, `parseSupremizer` | block by block equivalence with the table lookup of C53 |
| C86 | `SampleConfig`: the sample generator's constructor, `SetParamSpaceSizes`, `SetSampleParams` of both generators, `GetSamplePath`, the loop of `GenerateSamples` with the configuration in its state | setting options with unrelated keys: overwriting and swapping lemmas for the YAML tree of C53, hence setting the same keys again forgets the first values exactly; loop invariant |
| C87 | `TrainRom`: `GetGlobalBasisTagList`, both ways of `CollectSamples`, `FormReducedBasis`, `TrainROM` and `LoadReducedBasis`, on the stores and files of C07-C10 | invariants of the collecting, forming and loading loops; blocks with a tag are the blocks of its component, by induction over subdomains; tags with fixed variable names print differently |
| C88 | `Optimizer.brent`: the three loops of `CGOptimizer::Brent` with its arrays, quotients with zero denominator kept apart | invariant of the bracket through both loops; compactness for the local minimum; explicit objectives for the violations; negation proved |
| C89 | `Optimizer.mult`, `objective`, `gradient` | induction over the iterations with C88; derivative of a sum of squares |
| C90 | the same on affine systems | exact line search on quadratics (C88); conjugacy of directions and orthogonality of gradients by induction; at most n orthogonal vectors in n dimensions |
| C91 | `TrainItf.trainRefPort`, `setup`, `trainPorts`, `collectByBasis`: the training loops with all reads and writes | the matrix entry by entry (invariants of four nested loops); solver contract as in C48; transfer from the reference port to the ports of its type; pairs by C10's history theorem |
| C92 | `CompLoad.load`: the constructor up to the meshes, on an HDF5 file, a YAML tree and mesh files | invariant of the table of components over the entries of the list; both directions (what success means, which inputs succeed) |
| C93 | `Pipeline.buildROM`, `Pipeline.singleRun`: building level, file names, stored elements and operators, loading and solving, on a disk of HDF5 files | composition of C41 (assembly), C82 (element store), C25 (block matrices) and C75 (online); relational simulation of the assembly loops on stored and on built elements |
| C94 | `NsPipeline.buildNs`, `NsPipeline.runNs`: C93 with convection tensors: their files, loading, the operator handed to the nonlinear solver and the lifted result | composition of C93, C68 (tensors), round trips of the tensor files and the block structure of the reduced operator |
| C95 | `Mumps.seen`, `FomSolve.assembleGlobal`, `solve`, `assembleStokes`, `solveStokes`: the monolithic matrix, what MUMPS sees of it, choice of solver, snapshots, ordering of variables and pressure mean; MUMPS, CG, GMRES and MINRES are external and enter by contracts (`Direct`, `Sound`) | rows of the monolithic matrix are the equations of the subdomains; symmetric matrices are seen whole; the interior-penalty assembly of C77 is symmetric for `sigma = -1`; counterexamples for `sigma = 1` |
| C96 | `RomSolve.readOpts`, `linearSolve`, `solve`, `online`: options of the ROM handler, choice of operator, preconditioner and solver, lift; MUMPS, CG and MINRES by contracts (`Direct`, `Sound`) | the reduced matrix is the Galerkin projection (C63), symmetric if the operator is; rows of the reduced system are the residual tested with the bases; counterexamples for both violations |
| C97 | `Visual.*`: setting up collections (individual, unified), saving with and without step and time, error fields, flow of the advection-diffusion solver, basis visualisation; ParaView files as lists of named value lists, `SubMesh::Transfer` as an index map | induction over the history of events against `Pictures`; transfer by loop invariants (last subdomain wins); counterexamples for the four violations |
| C98 | `AdvDiff.*`: options, flow coefficients as references into the Stokes solution vector, `GetFlowField` with the flow file (HDF5 model of C24/C83), `SetFlowAtSubdomain`, the velocities of the convection integrators, sequences of runs | induction over the runs with the invariant that every file holds the flow of its problem; counterexamples for the two violations |
| C99 | `ElastRom.*`: coefficients per subdomain, forms as functions of the coefficients, full-order matrices, reduced elements of components, boundaries and ports; files and runs of C94 | the solver's elements and operators equal those of a scalar problem with the forms of the uniform body, then C94; counterexamples with rational matrices |
| C100 | `Decompose.*`: topology and decomposition options, refinement, extraction by attributes, component tables of the submesh topology; interfaces from C31 | loop invariants; uniqueness from sortedness and the attribute of an element; disjointness feeds `SubMesh.submeshes2D_correct` |
| C101 | `Terms.*Sub`, `*Itf`, `*Load*`, `*Comp*`, `*Bdr*`, `nsTensor`, `eqpComp`, `eqpSub`: integrators with arguments of every form; boundary loops from C33 | loops equal to filters over the boundaries; membership characterised by the boundary conditions |
| C102 | `Terms.newStokes`, `newNS`, `setSingleRun`, `setViscosity`, `start`, `nsRules` | options by C53, parameters by C56 (the last setting wins); case analysis over all forms; loop invariant for the check of geometries; counterexamples computed |
| C103 | `Terms.eqpComp`, `eqpBdrs`: integrator numbers 2b and 2b+1 | position in the list of trained integrators by induction over boundaries; counterexample computed |
| C104 | `Problems.*` constructors, `setBattr`, `setCalls`, `volume*`; application to solvers from C33, parameters from C56 | the boundary data reached by any sequence of settings are characterised; each problem compared with the table of its description attribute by attribute; counterexamples computed |
| C105 | `Problems.*At`: the functions of `function_factory` over an ordered field with abstract sine and pi | overwriting loops do not depend on the start; profiles by algebra; violation with the real sine |
| C106 | `BlockProj.*`: index lists and loops of the array projections, projection and lift of one vector; single-matrix projections from C41 | index lists rewritten as the positions of (subdomain, variable); loop invariant over the entries; violations computed on a two-subdomain handler |
| C107 | `EqpPipeline.*`: allocation of component and interface forms, training of all of them, the file, loading and assembly in another program; parts from C47, C48, C59-C61 | the calls that store samples are described by the trained forms, then composed with the storage theorems through the file |
| C108 | `GenConf.*`: the loops of the configuration scripts over tables, in exact arithmetic; reading composed with C59 | closed forms of the tables; every face is mentioned and mentions are as many as faces, so that each is mentioned once; case analysis on joints and rods for geometry |
| C109 | `Config.*`: the class `Configuration` and `BoxChannelConfig` with their exceptions as aborts; the file composed with C59 | invariant of the half-built configuration (every face is free or in exactly one row) kept by each operation; refinement to the geometric grid; induction on the depth of the recursion |
| C110 | `Config.*`: `ChannelConfig` with its exceptions as aborts and the random numbers as an argument; the file composed with C59 | invariant of the half-laid channel kept by each step; classification of the attribute rotation by the directions of entering and leaving; induction on the depth of the recursion with a prefix argument |
| C111 | `Divide.*`: `MixedBilinearFormDGExtension::Assemble` over elements and interior faces; the operator as composition of the division of the mesh, the markers, the forms and the interface form; the integrals are arguments | the block entry as a sum over scatters; injectivity of the degrees of freedom turns it into sums over parent elements, faces and boundary elements; every two-sided face is either inside one submesh or on exactly one interface; `Fits` is realised for every division (`realize_fits`) |
| C112 | `DivideRhs.*`: `LinearForm::Assemble` with domain and marked boundary integrators as used by `BuildRHSOperators`, `SetupRHSBCOperators`, `AssembleRHS`; `equations` and `stokesEquations` pair it with the operator of C111 | scatter of element vectors at injective degrees of freedom; sums over the entries of blocks become sums over elements of the parent mesh; the data are realised for every division (`realizeLoads_fits`, `realize_stokes`) |
| C113 | `Conf.call`, `script`: any sequence of the calls of `Configuration` | invariant over the calls: the free faces of a mesh are the outer ones not named yet, the rows are a permutation of the named faces; dropping faces lowers multiplicities one by one |
| C114 | `nlForm`, `nlBC`, `nlTerms`, `hopMult`, `convection`: the nonlinear part of `SteadyNSOperator::Mult` on a divided mesh | for given values the forms reduce to the linear forms of C112; faces inside submeshes and between submeshes are all faces; boundary terms by attribute |
| C115 | `gForm`, `hopGrad`, `convGrad`: the convective part of `SteadyNSOperator::GetGradient` on a divided mesh | at given values the gradient is a bilinear form: the values are carried along as data of the faces and C111 applies; derivative by linearity of sums over elements, faces and boundary faces |
| C116 | `massForms`, `flowConv`, `flowSetup`, `steps`: the unsteady solver on a divided mesh, from the parent mesh to the state after n steps | the solver set up on a division meets the hypotheses of C72 for a problem whose momentum and mass balance are, entry by entry, those of the undivided mesh (C111, C112, C114); induction over the steps |
| C117 | `DivideElast`: `elastLoads`, `elastForms`, `elastOperator`, `elastEquations`: elasticity from the parent mesh and the scalars of the problem to the equations | the boundary loops are those of the Poisson solver with other conditions (`lhsElast_fixed`, `rhsElast_imposed`), the material is the same on all subdomains; then C111 and C112 |
| C118 | `DivideSolve`: `poissonRun`, `elastRun`, `stokesRun`: from the parent mesh to the solution | C111, C112 and C117 give the matrix and the right-hand side on a division in terms of the undivided mesh; a nonsingular problem on the undivided mesh is solvable (`Nonsingular.solvable`, finite dimension), so C95 applies; the flat vectors are the blocks of the division (`flatten_ok`, `rhsVec_sizes`) |
| C119 | `DivideSteady`: `steadySetup`, `steadyRun`: linear terms, convective forms and right-hand sides of all subdomains, the operator and the solve | C111, C112 and C114 give the linear part, the loads and the convective terms on a division in terms of the undivided mesh, which is the flow problem of `SteadyNS` (`steady_problem`); sums over blocks are sums over the elements of the mesh (`distance_eq`) |
| C120 | `DivideNewton`: `newtonMult`, `newtonLoop`, `residualAt` on the solver of `DivideSteady`, with the gradients `addGrad`, `addItfGrad` | C115's entries of the gradient, per subdomain and per interface, give the derivative part of the flow problem (`grad_run`, `newton_problem`); rows of the matrix are the linearised equations (`grad_rows`), so it is nonsingular where they are (`grad_injective`); induction on the steps left (`loop_ok`) |
| C121 | `Cfl`: `computeCFL`, `elementCFL`, `pointCFL` | nested loop invariant: the maximum so far is the largest number among the points met (`Seen`, `Top`); uniqueness of the largest number gives the agreement of divisions and the scaling; `flows_report_same` composes with C116 |
| C122 | `EqpCoords`: `saveCoords`, `saveDomain`, `setRow`, `buffer` on the file model of `Hdf5` | invariants of the loops over entries, samples and components; round trip of dense matrices (C24's `dense_roundTrip`); uninitialised memory is a parameter, so that dependence on it is visible |
| C123 | `PrintEqp`: `printEQP` on `EqpPipeline.loadEqp` and `EqpCoords.saveCoords` | the samples loaded for a component are those trained (`loaded_latest`, from C62's `save_stores` and `seen_latest`); the loaded forms are a library in the sense of C122 |
| C124 | `SchurSolve`: `solveSchur`, `schurMult`, `pressure` on `FomSolve.setBlocks` and C16's variable vectors | a nonsingular symmetric matrix has a symmetric inverse, so what `SchurOperator` applies is the symmetric matrix `B M⁻¹ Bᵀ`; eliminating the velocity gives both equations |
| C125 | `PreItf`: `precompute`, `prePort`, `preList`, `preSample` on `TrainItf.RefForm` | the slots visited so far hold the updated lists, as a closed form carried through both loops; the coefficients of a component face meet the contract of C45 at its copies |

## 4. Findings

### 4.1 Properties the pinned code violates

For each the negation is proved with a concrete witness, next to a `_partial` theorem on the inputs where
the property does hold.

| id | what goes wrong | theorem |
|----|-----------------|---------|
| C04 | sample generation never ends on a rank that does not own all samples | `Sampling.generateSamples_diverges` |
| C09 | merging port files with different variable lists misaligns columns | `Snapshots.merge_mixed_variables_misaligned` |
| C10 | coverage is reported as 0 when the basis is larger than the number of singular values | `Snapshots.coverage_zero_when_larger` |
| C12 | component names with underscores can give two tags one file | `Snapshots.print_not_injective` |
| C21 | `TensorAddMultOnJ` reads `x[0]` for every `j` | `LinAlg.tensorAddMultOnJ_wrong` |
| C26 | the legacy sparse reader writes beyond its buffer | `Hdf5.legacySparse_overflow` |
| C37 | homogeneous boundaries are marked by position in the list, not by boundary; overflow with `ComponentFlow` | `Boundary.zeroMarks_wrong_boundary`, `zeroMarks_overflow` |
| C38 | a restart file written when visualisation is not due holds an old solution | `TimeLoop.restart_stale` |
| C52 | `LoadOperatorFromFile` deletes the monolithic matrix twice | `RomOperator.load_double_free_iff` |
| C56 | elasticity problems never set their number of parameters; an index is not checked | `Params.elasticity_index_ub`, `bad_index_ub` |
| C57 | elasticity: left-hand side without right-hand side in the continuous discretisation; ROM differs | `Boundary.elast_unpaired_continuous`, `elast_rom_differs` |
| C58 | a problem with a default entry keeps the boundary types of the previous one | `Boundary.default_entry_keeps_types`, `elast_keeps_functions` |
| C64 | Lax-Friedrichs Jacobian at rest: 0/0 | `LaxF.faceGrad_rest_ub` |
| C65 | fast Lax-Friedrichs Jacobian reads a member nobody set | `LaxF.fastGrad_uninit_ub`, `fastGrad_stale_wrong` |
| C68 | tensor ROM Jacobian aborts if the linear part has a dropped zero | `TensorRom.getGradient_dropped_aborts` |
| C70, C71 | hyper-reduced operator with variables ordered by variable takes the wrong blocks | `EqpRom.mult_variable_aborts` |
| C74 | ROM pressure normalisation leaves a nonzero mean | `Unsteady.mean_not_zero` |
| C81 | a port file naming an unknown component attaches the port to component 0, and the name counts as known afterwards | `PortFile.unknown_file_accepted`, `unknown_becomes_known` |

### 4.2 Other defects met while modelling

Proved in the model unless marked (read).

* Hyper-reduction: the fast path dereferences a null face transformation (`Eqp.null_face_fast_ub`);
  `GetGradient` does not check the basis (`Eqp.getGradient_null_basis_ub`); `InterfaceGetGradient` does not check
  the block offsets (`EqpItf.no_offsets`); gradient and fast path of the trilinear integrator ignore `vQ`
  (`Convection.triGrad_not_exact_with_vq`, `triFastVec_wrong_with_vq`).
* Sample storage: saving an untrained integrator dereferences null (`EqpStore.save_unset_ub`); loading does not
  check the integrator index (`load_range_ub`); component names with ":" collide in port data set names
  (`colon_collision`); subdomain forms dangle if component samples are trained or loaded again after
  `AssembleROMEQPOper` (`EqpComp.retrain_dangles`).
* (read) `ROMInterfaceForm::PrecomputeEQPSample` ignores the basis offset; `SetupEQPSystem` of the interface form
  does not shift snapshots by it.
* (read) `delete romMat_hypre, mumps` deletes only the first; `NonlinearSolve` overwrites `mumps`; `Solve` and
  `NonlinearSolve` leak `reduced_sol`; the unsteady `SolveROM` leaks `rrhs_view` and `Hop`.
* (read) `SetTime` of the unsteady solver changes coefficient times after the linear forms were assembled, so
  time-dependent forcing acts through nonlinear boundary integrators only.
* (read) Without a prescribed pressure the full-order matrix is singular; C72 relies on the direct solver handling
  consistent singular systems, which is its hypothesis.
* (read) `BuildCompROMLinElems` leaves the mass null without separate bases, and `AssembleROMMat` then
  dereferences it.
* (read) the complementary flux divides by the boundary area without a check; a zero area gives NaN.
* (read) `LinElastFrameWind` lists boundary attribute 3 twice (src/parameterized_problem.cpp:1240).
* (read) `TimeProfiler::Print` passes `MPI_IN_PLACE` on all ranks (modelled as an abort for more than one
  process).
* (read) a component-table row naming a port boundary is silently overridden by the port.
* (read) a lookup below a list turns the list into a map; an override with an empty key replaces the whole
  configuration; `a==` is accepted as an empty value.
* (read) `ProjectToRefBasis` dereferences a null operator before testing it; `BlockSmoother::SetOperator` keeps
  the inverses of the previous operator.
* (proved) the Temam flux of a face or interface uses the normal velocity of the first side only: where it jumps, the
  assembled vectors depend on which side comes first (`Temam.itfVec_depends_on_order`).
* (read) `ReadPortDatasFromFile` leaks the group handle of a port that is already set up; a string attribute is passed to
  HDF5 as the address of a `std::string`.
* the assertion at src/rom_element_collection.cpp:217 assigns instead of comparing: a component without boundaries can be
  saved but not loaded (`RomElems.no_boundary_rejected`).
* a full-order run with `model_reduction/save_linear_system` dereferences a null ROM handler after the solve
  (`SingleRun.fom_save_system_ub`); `save_reduced_solution` passes per-variable blocks to the handler and always aborts with
  one basis for several variables (`SingleRun.reduced_never`); a first variable that is zero in both solutions makes the
  returned error NaN, hiding the others (`SingleRun.zero_first_nan`).
* sampling parameters whose keys contain one another stop sample generation at the second sample, as the first one has
  replaced a map by a plain value (`SampleConfig.related_keys_stop`).
* `GetGlobalBasisTagList` does not know the solver "adv-diff", so with `separate_variable_basis` the default
  way of training always exits for it (`TrainRom.adv_diff_stops`), though sampling and solving accept it.
* A component listed twice in the configuration has its snapshots taken twice (`TrainRom.trained`).
* `EnrichSupremizer` does not check that there are as many pressure modes as supremizers and reads out of bounds
  (`Supremizer.enrich_oob`); loading supremizers onto a velocity basis that has grown since the training gives, without any
  message, a basis that is not orthonormal (`Supremizer.more_modes_not_orthonormal`).
* (read) `delete romMat_hypre, mumps;` (rom_handler.cpp, `SetupDirectSolver`) deletes only the first; loading the reduced
  basis twice with supremizers aborts, as recorded numbers have already been increased.
* `CGOptimizer::Brent` (src/linalg_utils.cpp:808-883): if no bracket is found, its arrays are overrun and unset numbers are
  used (`Optimizer.no_bracket_overruns`), in particular when the solver is started at a solution
  (`Optimizer.solved_overruns`); equal values fail an assertion (`Optimizer.tie_aborts`); a parabola with its minimum in the
  middle point makes the search miss the minimum (`Optimizer.misses_minimum`).
* `CollectSamplesByBasis`, the default way of collecting samples, collects no table of ports; training of the interface
  hyper-reduction then stops at the first reference port (`TrainItf.basis_mode_stops`).
* (read) the interface training does not check the pairs of snapshot columns it is given (the assertions are commented
  out); `TrainEQP` leaks its sample generator and initialises the ROM handler before it checks that a ROM is used.
* a component used in the global file but missing from the configuration makes `SetupComponents` dereference a null
  pointer, as the check comes after the first use (`CompLoad.missing_component_ub`); one-dimensional components make
  `SetupMeshes` call a null function pointer (`CompLoad.one_dimensional_ub`).
* (read) With `nonlinear_handling: eqp` `BuildROM` at global level stores the linear operator only, without a word; the later run stops in the checks of `SolveROM` (src/main_workflow.cpp:466-471, src/steady_ns_solver.cpp:773-790).
* C95: with the direct solver and `discretization/interface/sigma` (elasticity: `alpha`) other than -1 the assembled
  operator is not symmetric, but MUMPS is set to a symmetric mode (src/poisson_solver.cpp:587-593,
  src/linelast_solver.cpp:291-293, include/stokes_solver.hpp:182-183, src/unsteady_ns_solver.cpp:167) and uses one
  triangle; `Solve` returns true with a wrong state (`direct_wrong`, `stokes_direct_wrong`).  The default -1 is fine.
* (read) `solver/block_diagonal_preconditioner` makes a `BlockDiagonalPreconditioner` without blocks, that is the
  identity (src/poisson_solver.cpp:471-475).
* C96: the default of `model_reduction/linear_system_type` is `spd`; with the direct solver and an unsymmetric operator
  (advection-diffusion, `sigma` other than -1) the ROM is solved with one triangle of the matrix (`spd_wrong`).
* C96: `MFEMROMHandler::Solve` does not look at `GetConverged`: the result of an unconverged CG or MINRES is lifted and
  compared like any other (`unconverged_lifted`).
* C97: `SaveVisualization(step, time)` calls `SetCycle` on every collection, but the collections of subdomains left out by
  `domain_offset`/`domain_interval` are `NULL` (`skipped_null`); `AdvDiffSolver::SaveVisualization` asserts that none is
  (`advdiff_skipped`).
* C97: the field `<variable>_abs_error` is `test - us`, with its sign (`error_signed`), and uninitialised memory before
  the first `CompareSolution`.
* C97: `SaveBasisVisualization` runs over `num_rom_ref_blocks` but takes the index for a component: with
  `separate_variable_basis` it reads beyond the bases or stops (`basis_separate_wrong`).
* C98: `GetFlowField` loads `adv-diff/flow_file` whenever it exists; with `save_flow` and `load_flow` every sample after
  the first is convected by the flow of the first, whatever its parameters (`stale_flow`).
* C98: `GetFlowField` ignores what `StokesSolver::Solve` returns: an unconverged flow is used and stored
  (`unconverged_used`).
* C99: `lambda` and `mu` are parameters of the elasticity problems, but a ROM stored at component or global level has the
  coefficients of the building run and is loaded for any other (`stored_material`, `material_ignored`).
* C99: `BuildCompROMLinElems` and `BuildBdrROMLinElems` index the coefficients of the subdomains by the component; with
  more components than subdomains this reads past the end (`unused_component`).
* (proved, C102) the option `stokes/nu` has no effect: `SetParameterizedProblem`, called in every program, replaces the
  viscosity by the parameter `nu` of the problem, which is 1 by default.
* (proved, C102) `SteadyNSSolver` compares the geometry of the first element of `numComp` subdomains only.
* (proved, C103) samples at boundaries with non-zero velocity were trained for the flux without velocity.
* (read) a second `SetParameterizedProblem` after `BuildDomainOperators` deletes the viscosity coefficient the
  integrators refer to.
* (proved, C104) in the lid-driven cavity the bottom (attribute 1) moves like the lid.
* (proved, C104) the ZERO boundary of `linelast_disp` has a null function, so the elasticity solver adds no term.
* (proved, C104) the body force of `linelast_cwtrain` is stored as `general_vector_ptr` and used as initial guess
  only.
* (proved, C105) the functions of `linelast_cwtrain` leave components with a switch below 0.5 unwritten.
* (proved, C105) perturbations of the step with non-integer `ky` do not vanish at the upper wall.
* (read) `linelast_frame_wind` lists attribute 3 twice (the comment says 5); `periodic_flow_past_array::force`
  returns three components in any dimension; `linelast_force_cantilever` uses `init_disp` with a factor it never
  sets; `flow_problem::x0` is sized but not set when the pressure is determined by a boundary.
* (proved, C106) `ProjectComponentToDomainBasis`, `ProjectInterfaceToDomainBasis` and
  `ProjectVariableToDomainBasis` index blocks as subdomain * num_var + variable in either ordering.
* (proved, C106) `ProjectToRefBasis` of a matrix reads its size before it tests for null.
* (proved, C107) The file of hyper-reduction samples does not say for which operator it was trained; a run
  with the operator without face terms accepts a file trained for the other one.
* (read) With `eqp` at level `global` or `none` the forms of the subdomains stay null and `SolveROM` stops.
* (proved, C108) `LatticeCantilever` in `linelast_comp.py` ignores the numbers of cells given on the command
  line. A lattice with no cell in one direction leaves faces of the joints without a row.
* (proved, C109) The box script writes files for boxes that are periodic in both directions without objects and
  for boxes with a single cell in a periodic direction; the program rejects both.
* (proved, C110) The random channel script stops with an exception when its walk runs into a dead end, which can
  happen in its own call with eight steps; the cells before the inlet and behind the outlet may be those of other
  meshes, with three and six steps already.
* (proved, C111) A boundary element of the parent mesh on a face between two submeshes removes the coupling over
  that face; if both elements are in one submesh the coupling stays, so the operator depends on the division.
* (read) The right-hand sides of the unsteady solver are assembled once, before the first step: boundary functions that depend on the time keep there the values of the setup, while the boundary terms of the convection follow the time.
* (proved, C117) `LinElastSolver::SetupDomainBCOperators` adds the boundary term of a prescribed displacement only with `full_dg`, which is off by default; the right-hand side gets its term in any case. The Poisson solver adds both in any case.
* (read) `UnsteadyNSSolver::ComputeCFL` divides by the order of element 0 of the subdomain for every element, and computes an inverse Jacobian at every point that it does not use.
* `ROMNonlinearForm::SaveDomainEQPCoords` writes uninitialised memory as third coordinate of every sample on meshes in the plane (C122, `coords_2d_undetermined`).
* (proved, C124) `StokesSolver::Solve_obsolete` does not look at whether the pressure solver converged and reports nothing to its caller: it can return with the continuity equations violated.
* (proved, C125) `ROMInterfaceForm::PrecomputeCoefficients` ignores `comp_basis_dof_offsets`: for bases whose first rows belong to another variable the precomputed evaluation returns another vector than the direct one.
* (read) `ROMHandler::NonlinearSolve` does not look at the convergence flag of its solver.
* (read) the three-dimensional component transform ignores rotation; the result of `ComponentBdrAttrCheck` is
  ignored.

## 5. What is modelled and what is not

Modelled, by model file:

| model | source |
|-------|--------|
| `Sampling`, `ParamReal` | sample_generator.cpp, random_sample_generator.cpp, parameter.cpp |
| `Snapshots` | sample_generator.cpp (snapshot store, port tables, coverage), main_workflow.cpp (collecting) |
| `Blocks`, `Views`, `LinAlg`, `GramSchmidt` | linalg_utils.cpp, multiblock_solver.cpp (offsets, sorting), views of MFEM vectors |
| `Hdf5`, `RomElems` | hdf5_utils.cpp, the sample data sets of hyperreduction_integ.hpp, rom_element_collection.cpp |
| `Topology`, `SubMesh`, `Ports`, `CompSetup`, `PortFile`, `CompLoad` | topology_handler.cpp, component_topology_handler.cpp |
| `Boundary`, `Params` | parameterized_problem.cpp, boundary handling of the solvers |
| `TimeLoop`, `Unsteady` | unsteady_ns_solver.cpp |
| `Smoother` | block_smoother.cpp |
| `InterfaceForm`, `LaxF`, `Penalty`, `Temam`, `Loads` | interface_form.cpp, interfaceinteg.cpp, nonlinear_integ.cpp, dg_bilinear.cpp, dg_mixed_bilin.cpp, dg_linear.cpp (except the unused Lax-Friedrichs load) |
| `RomHandler`, `RomOperator`, `RomAssembly` | rom_handler.cpp, multiblock_solver.cpp, poisson_solver.cpp, stokes_solver.cpp (assembly) |
| `Convection`, `Eqp`, `EqpItf`, `Training`, `EqpStore`, `EqpComp` | hyperreduction_integ.cpp, rom_nonlinearform.cpp, rom_interfaceform.cpp, steady_ns_solver.cpp (samples) |
| `TensorRom`, `EqpRom`, `SteadyNS`, `Online`, `Pipeline`, `NsPipeline` | steady_ns_solver.cpp (operators and solve), rom_handler.cpp and main_workflow.cpp (online phase) |
| `Options`, `Timer` | input_parser.cpp, etc.hpp, main_workflow.cpp (file selection) |
| `Supremizer` | stokes_solver.cpp (supremizers), rom_handler.cpp (numbers of basis vectors) |
| `SampleConfig` | sample_generator.cpp, random_sample_generator.cpp, parameter.cpp (configuration of every sample), main_workflow.cpp (`GenerateSamples`) |
| `TrainRom` | main_workflow.cpp (`GetGlobalBasisTagList`, `CollectSamples*`, `TrainROM`), sample_generator.cpp (`FormReducedBasis`), rom_handler.cpp (`ROMHandlerBase::LoadReducedBasis`) |
| `TrainItf` | rom_interfaceform.cpp (training), rom_interfaceform.hpp, steady_ns_solver.cpp (`TrainROMEQPElems`), main_workflow.cpp (`CollectSamplesByBasis`) |
| `Mumps`, `FomSolve` | poisson_solver.cpp, linelast_solver.cpp, advdiff_solver.cpp, stokes_solver.cpp (`AssembleOperator` from the assembled arrays on, `Solve`, `SetMUMPSSolver`) |
| `RomSolve` | rom_handler.cpp (options of `MFEMROMHandler`, `Solve`, `SetIterativeSolver`, `SetupDirectSolver`) |
| `Visual` | multiblock_solver.cpp (visualisation, error fields), advdiff_solver.cpp (`SaveVisualization`), topology_handler.cpp (`TransferToGlobal`), rom_handler.cpp (`SaveBasisVisualization`) |
| `AdvDiff` | advdiff_solver.cpp (constructor options, `GetFlowField`, `SetFlowAtSubdomain`, `SetParameterizedProblem`, `BuildDomainOperators`) |
| `ElastRom` | linelast_solver.cpp (materials in `SetParameterizedProblem`, `BuildDomainOperators`, `SetupDomainBCOperators`, `AssembleOperator`, `Build*ROMLinElems`, `ProjectOperatorOnReducedBasis`) |
| `Decompose` | topology_handler.cpp (`SetTopologyHandlerMode`, constructors of `TopologyHandler` and `SubMeshTopologyHandler`) |
| `Terms` | poisson_solver.cpp, stokes_solver.cpp, steady_ns_solver.cpp (integrators added in the set-up of full-order, reduced and hyper-reduced operators; coefficients in constructors and `SetParameterizedProblem`), parameterized_problem.cpp (`SetSingleRun`, default viscosities) |
| `Problems` | parameterized_problem.cpp (constructors of all problems, `SetBattr`, functions of `function_factory` except `poisson_spiral::rhs`), volume forces and initial states in the solvers |
| `BlockProj` | rom_handler.cpp (projections of arrays of blocks, projection and lift on reference bases) |
| `EqpPipeline` | main_workflow.cpp (TrainEQP, the samples in SingleRun), steady_ns_solver.cpp (AllocateROMEQPElems, TrainROMEQPElems, SaveEQPElems, LoadEQPElems) |
| `GenConf` | utils/python: sample_comp.py (ConfigScaleUp), linelast_comp_base.py, linelast_comp.py (LatticeCantilever), linelast_cwtrain.py (PermuteBdrData) |
| `Config` | utils/python: config.py (Configuration), box_channel_config.py, box_comp_config.py, channel_config.py; the random choices are arguments |
| `Divide` | dg_mixed_bilin.cpp: Assemble; composition of topology_handler.cpp, multiblock_solver.cpp, interface_form.cpp and the operators of the solvers; MFEM's spaces, element matrices and face transformations are data (`View`) |
| `DivideRhs` | poisson_solver.cpp, stokes_solver.cpp: BuildRHSOperators, SetupRHSBCOperators, AssembleRHS, Assemble on a divided mesh; element vectors are data (`LView`) |
| `ConfigOps` | utils/python/config.py: sequences of calls of Configuration |
| `DivideNS` | steady_ns_solver.cpp (`SteadyNSOperator::Mult`, nonlinear part; `BuildDomainOperators`, `SetupDomainBCOperators`), MFEM's NonlinearForm::Mult |
| `DivideJac` | steady_ns_solver.cpp (`SteadyNSOperator::GetGradient`, convective part), MFEM's NonlinearForm::GetGradient |
| `DivideFlow` | unsteady_ns_solver.cpp (setup on a divided mesh, the loop of `Solve`) |
| `DivideElast` | linelast_solver.cpp (right-hand side and operator on a divided mesh) |
| `DivideSolve` | poisson_solver.cpp, linelast_solver.cpp, stokes_solver.cpp (`Assemble` followed by `Solve` on a divided mesh) |
| `DivideSteady` | steady_ns_solver.cpp, stokes_solver.cpp (`Assemble` followed by `Solve` on a divided mesh; the gradients of the convective forms are used by C120) |
| `DivideNewton` | steady_ns_solver.cpp (`Solve` with `NewtonSolver` and the direct solver on a divided mesh; the Newton loop itself is MFEM's, modelled from its documentation) |
| `Cfl` | unsteady_ns_solver.cpp (`ComputeCFL`) |
| `EqpCoords` | steady_ns_solver.cpp (`SaveEQPCoords`), rom_nonlinearform.cpp (`SaveDomainEQPCoords`), on rank 0 |
| `PrintEqp` | main_workflow.cpp (`PrintEQPCoords`; loading of the basis and the right-hand side, which it does not use, left out) |
| `SchurSolve` | stokes_solver.cpp (`Solve_obsolete`), stokes_solver.hpp (`SchurOperator`) |
| `PreItf` | rom_interfaceform.cpp (`PrecomputeCoefficients`; the shape-function part of `PrecomputeEQPSample` is a parameter here, and `LaxF.precomputeItf` in `PreItfLax`) |
| `Optimizer` | linalg_utils.cpp (`CGOptimizer`) |
| `SingleRun` | main_workflow.cpp (single run after the solve), multiblock_solver.cpp (saving, loading and comparing solutions) |

Not modelled: visualisation; `DGBdrLaxFriedrichsLFIntegrator` (unused); the iterative solvers and preconditioners beyond the block smoother; the
python scripts other than the configuration scripts named above; MPI beyond rank and size; rounding; 32-bit overflow; destruction order of MFEM objects except
where a property is about ownership (C51, C52, C61).

## 6. Axioms

`AXIOMS.txt` lists, for every theorem named in MANIFEST.json, what `#print axioms` prints. All are among
`propext`, `Classical.choice`, `Quot.sound`; several use fewer or none.
