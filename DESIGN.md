# Formal model of nla3d: design

The subject is the finite-element library in `/repo/src/lib` (plus the parts of
`/repo/src/main.cpp` listed below), read as text at the pinned commit and never
run. The model is written in Lean 4 under `lean/Verif`. `properties.jsonl` lists
the claims, `MANIFEST.json` maps each claim to theorems, `seeded/LOG.jsonl` logs
the mutation tests of the model.

## Conventions

* **One area, three kinds of file.** `Verif/<Area>/Model.lean` holds the model of
  the code, each definition citing file and lines in `/repo` and the
  simplifications made. Other files of the area hold helper lemmas, the small
  specification and the property theorems (usually `Props.lean`). The theorems
  named in `MANIFEST.json` start with the number of the property. Each is followed
  by an `example` that meets its hypotheses in a non-trivial case.
* **Outcomes.** A C++ call that can stop or misbehave returns
  `Res α = ok a | fatal | assert | ub`. `fatal` is `LOG(FATAL)`/`CHECK` (the process
  ends), `assert` is a failed `assert` (only checked in debug builds: the code
  relies on the caller), `ub` is undefined behaviour (out-of-bounds, null
  dereference, dangling pointer, read of an unset variable). Theorems about success
  show `ok`; they never hide `ub` behind a default value. The reader of cdb files
  also knows exceptions and loops that do not end, the Eigen elements know
  non-finite results (`none`).
* **Numbers.** `double` is replaced by an exact field (`ℚ`, `ℝ` or any linearly
  ordered field). Rounding, overflow to infinity and NaN are outside the model.
  Sizes and indices are `Nat`; where a property is about wrap-around of
  `uint16`/`uint32` the modular arithmetic is modelled explicitly.
* **Pointers.** Mutation through a pointer is a function returning the new state.
  Where aliasing or ownership is the property (`dVec` views, `FEStorage`'s lists of
  pointers) an explicit heap is modelled.
* **Claims that the code violates.** The full claim stays in `properties.jsonl`.
  A theorem `Cnn_..._violated` (or a name that says what is wrong) proves the
  negation with a concrete witness, and a theorem with the suffix `_partial` proves
  the claim under the weakest condition found. The status is then `partial`.

## Trusted base

* The Lean 4.33.0 kernel; axioms `propext`, `Classical.choice`, `Quot.sound` only
  (checked by `vcheck` for every theorem). No own axioms, no `sorry`, no
  `native_decide`, no `bv_decide`.
* The reading of the C++ text: nothing ties the model to the code except the
  citation at each definition.
* The C++ standard library is modelled by its documented contract
  (`std::sort`, `std::set`, `std::vector::insert`, `std::map`, `std::list`,
  `std::regex_match` for the two patterns used, `std::stoi`, iostreams). Text to
  `double` (`std::stod`, `atof`) and `atoi` are parameters.
* The non-BLAS, non-MKL build (`NLA3D_USE_BLAS`, `NLA3D_USE_MKL` off). Eigen's
  products, determinants and inverses are the mathematical ones. The equation
  solver is an arbitrary exact solver, except in C20, which is about the solver of
  the code.

## Which code is modelled

| area | code in `/repo/src` | properties |
|------|---------------------|------------|
| Sparse | `lib/math/SparseMatrix.{h,cpp}` (pattern, values, symmetric variant, text format, compare, products, sharing of patterns and lifetime of values, printed forms) | C01-C08, C124, C125 |
| Block | `lib/math/BlockSparseMatrix.h` | C09, C10 |
| Dof | `lib/Dof.{h,cpp}`: `DofCollection` | C11 |
| Labels | `lib/Dof.h`, `elements/ElementFactory`, `materials/MaterialFactory`, `elements/query.h` | C12 |
| Storage | `lib/FEStorage.{h,cpp}` (registration, numbering, topology, sparsity, assembly), `elements/element.h` (assembleK/C/M of symmetric and Eigen matrices), `lib/Mpc.h`; reports (`printDofInfo`, `Mpc::print`, `printEquations`, `Element::print`, `listFEComponents`) and lookups (`getFEComponent`, `getNode`, `getElement`, `getElementNodes`, `Element::operator=`) | C13-C17, C29, C62, C120, C121, C128, C129 |
| Solver | `lib/FESolver.{h,cpp}`: `LinearFESolver`, `NonlinearFESolver`, `LinearTransientFESolver`, boundary conditions | C18, C19, C21, C22, C25, C26, C93, C118, C131-C135 |
| TimeCtl | `lib/FESolver.{h,cpp}`: `TimeControl` | C23, C24, C98 |
| Gauss | `lib/math/EquationSolver.cpp`: `GaussDenseEquationSolver` | C20 |
| Calls | `lib/PostProcessor.{h,cpp}`; `lib/FESolver.cpp`: the list of post-processors and the calls of the three solvers | C113 |
| Query | `getScalar`, `getVector`, `getTensor` of `TETRA0`, `TETRA1`, `INTER0`, `INTER3` and of `Element`; `VtkProcessor::registerResults`, `revealAllResults` over these elements | C115 |
| Pardiso | `lib/math/EquationSolver.{h,cpp}`: `PARDISO_equationSolver`; the routine of MKL by its documented contract; `NonlinearFESolver` and `LinearTransientFESolver` with one such object | C108, C112 |
| DMat | `dMat`, `dMat_interface`: constructors, `operator=`, `resize`, `fill`, `[][]`, `toMat`, `toVec`, `cpMat`, `cpVec`, `operator<<` (`src/lib/math/Mat.h`, `Mat.cpp`) | C117 |
| DVec | `lib/math/Vec.{h,cpp}`: `dVec` | C27 |
| Mesh | `lib/FEStorage.cpp` (creation and deletion of nodes, elements, MPCs), `ElementFactory` | C28, C63, C130 |
| Dense | `lib/math/Mat.{h,cpp}`, `MatSym`, products, determinant, inverse, eigenvalues; `lib/math/Vec.h`: arithmetic, comparison, text; BLAS branches of the products | C30-C33, C122, C123 |
| Iso, Thermal | `elements/isoparametric.{h,cpp}`, `elements/QUADTH.{h,cpp}` | C34-C37, C82 |
| Tetra, Tri | `elements/TETRA0.cpp`, `TETRA1.cpp`, `TRIANGLE4.cpp` | C38-C41, C65 |
| Bars | `elements/TRUSS3.cpp`, `INTER0.cpp`, `INTER3.{h,cpp}` | C42-C44, C66, C116, C126 |
| Material | `lib/solidmech.{h,cpp}`, `materials/*` | C45-C50, C127 |
| Hyper | `elements/SOLID81.{h,cpp}`, `PLANE41.{h,cpp}` | C51, C52, C67-C69 |
| Mixed | assembly in `elements/SOLID81.h`, `elements/PLANE41.h` | C80 |
| Newton | one pass of the nonlinear solver over SOLID81 and PLANE41 elements: `buildK`, `update` of the elements, `FEStorage::updateResults`, the element loop of `assembleGlobalEqMatrices`; these elements as the elements of the nonlinear solver (`Group.lean`) | C81, C94, C100, C114 |
| Struct | models of linear elements as a whole: the element loop of `assembleGlobalEqMatrices`, `LinearFESolver::solve` on the elements of Bars, Tetra, Tri and Thermal, `getNodeDofSolution`, `getReaction`; the same elements in `NonlinearFESolver::solve`; which models are solved | C83-C88, C95, C96, C109, C134, C136 |
| Rigid | `lib/Mpc.{h,cpp}`: `RigidBodyMpc`; the rewriting of its equations in every iteration of `NonlinearFESolver::solve` | C53, C99 |
| Text, Cdb | `lib/FEReaders.{h,cpp}` (text helpers, `readCdbFile`, `MeshData`), `FEComponent.{h,cpp}`, `read_tokens` and `del_spaces` of `lib/sys.cpp` | C54-C58, C70-C72, C103, C119 |
| Neu | `lib/FEReaders.cpp`: `readNeuFile`, extraction operators of `std::istream` | C89, C90 |
| Post, Vtk | `lib/ReactionProcessor`, `lib/VtkProcessor`, solution queries of `FEStorage` | C59, C60, C73, C74, C97 |
| Cmd | `lib/sys.cpp` (options, `npow`, file names), `main.cpp` (`parse_args`, constants, reference curve) | C61, C75-C79 |
| Main | `main.cpp`: `main` between `readCdbFile` and `solve`, and after `solve` | C91, C92 |
| Prog | `main.cpp`: the whole of `main` for SOLID81 and PLANE41, from the command line and the files to table and exit code, put together from Cmd, Cdb, Main, Storage, Newton, Rigid, Solver, Gauss, TimeCtl, Post and Vtk; `getScalar`, `getVector` and `getTensor` of the two elements with GP_MEAN | C101, C105, C106, C107 |
| Trans | `LinearTransientFESolver::solve` on models of heat elements: the loop over `buildK`, `buildC`, `buildM` in `assembleGlobalEqMatrices`, `assembleC`, `ElementQUADTH::buildC`, all steps of the solver | C102, C104, C111 |
| Truss | `src/main_truss.cpp`: the truss program with any tables of nodes, bars, supports and loads, its log, files and checks; the parts it uses are those of Struct, Bars, Gauss, Vtk | C110 |
| Dump | `FESolver.cpp` dump and compare, `Vec.cpp` text format | C64 |

Not modelled: the inside of MKL's PARDISO (a parameter with the contract of its manual, see `Pardiso/Model.lean`), the inside of BLAS, logging and timing,
`printInternalData`, decimal formatting other than the rounding in C64, the test programs.

## What the proofs found in the code

Each item is a theorem about the model; the witness is in the theorem named in the
manifest.

* C05: a symmetric matrix filled by `reinit` (reading a file) may lack diagonal
  entries, which the solver needs.
* C10: the copy constructor of the block matrix counts the rows twice.
* C12: the name of the created Mooney-Rivlin material is not a label of the factory.
* C15: for a degenerate cell (a node used twice) the assembly adds the off-diagonal
  term once instead of twice.
* C16: `assembleM` adds to the damping matrix.
* C18: prescribed values up to 1e-20 are ignored in the right-hand side.
* C22: the mean absolute increment is compared with the square of the setting instead
  of the setting.
* C24: the start time does not move the current time.
* C25: the Newmark step is wrong for moving supports and for delta other than 1/2.
* C27, C30: `uint32` sums of view bounds wrap; the packed index of `MatSym<n>` wraps
  from n = 362 on.
* C33: 0/0 for multiples of the identity.
* C35: a negative Jacobian is only logged.
* C37: an ambient temperature of exactly zero at the second node is overwritten.
* C39, C65: TETRA0 reports stress in free thermal expansion; building twice
  accumulates thermal strain and takes the stress of `update` for initial stress.
* C40, C87: the TETRA1 conductivity matrix is negative semidefinite. Prescribed temperatures give the right field, but a node to which
  heat is supplied gets colder.
* C41: plane stress elasticity multiplies by 1-my^2 instead of dividing; `update`
  accumulates stresses.
* C43: INTER0 divides by zero for normals parallel to (0,1,1).
* C50: an unknown constant name returns a reference to a local variable.
* C52, C69: SOLID81 adds the pressure twice to Cauchy and PK2 stress; PLANE41 computes
  `F^T S F / J` and ignores the scale; `WU` uses non-isochoric invariants; `IC` of
  PLANE41 writes past its output.
* C53: in the small-angle branch the matrix is not a rotation (proved to be within
  |theta|^3 of one).
* C54: node numbers that are a permutation of 1..n are not renumbered.
* C55, C56, C71: 16-bit counters, constraint equations with other than two or four
  terms, elements on several lines, blank lines.
* C58: CR followed by an empty LF line is merged.
* C59: the check of equal constraints uses `&&` for `||`; no nodes, or a file that
  cannot be created, end in undefined behaviour.
* C60: no cell type is written for a pyramid (no element of the factory is one).
* C61, C75, C76, C78, C79: command line and reference curve, see the manifest.
* C62: preparing a storage twice fails when a DoF is constrained.
* C63: `deleteMpcs` leaves dangling pointers; objects are deleted through bases
  without virtual destructor.
* C64: the own dump is rejected for large entries, since vectors are printed with six
  decimals and matrices with fifteen.
* C66: INTER3 reports area integrals instead of averages.
* C70: an unknown attribute name reads out of bounds.
* C89: the surface components of a neutral file hold node numbers but are declared as lists of elements.
* C90: a neutral file that ends too early leads to the use of variables without a value, wherever it ends; a malformed
  last number is taken for 0.
* C91: the number of a rigid body's master node is not translated when the nodes of the
  file are renumbered; cells of a TYPE other than 1 are dropped without a message.
* C92: a reference curve without a selected DoF reads `dofs[0]` of an empty vector; the
  message about a rigid body names the DoFs by position.
* C93: a constraint equation with a right-hand side other than 0 (the `CE` command of a file) is applied to the increment of
  every iteration in full, so the solution of the nonlinear solver satisfies it with the right-hand side multiplied by the
  number of iterations.
* C95: linear elements add no internal forces to the load vector, so in the nonlinear solver (which `main` uses for every
  element type) each iteration adds the answer to the full load once more. A model under loads never converges unless the first
  increment is below the criterion, and then ends with `(n + 1) / 2` times the linear displacements for `n` load steps.
* C96: because of the elastic matrix found with C41, a plate in plane stress is stretched by `1 / (1 - my^2)^2` times what Hooke's
  law gives under the same tension.
* C97: the step number is of type `uint16`: from load step 65536 on the VTK files of earlier steps are overwritten. The table
  `_shape_dim` gives the quadratic edge two dimensions.
* C102: `LinearTransientFESolver::solve` starts with all rates zero instead of the rates that balance the initial
  temperatures. With the default `alpha = 1/4`, `delta = 1/2` the first step is an implicit step of half length, and half of the
  heat supplied in the first step never arrives (`C102_heat_violated`, every run with supply; `C102_plate`: a uniform plate that
  should have 27 and 34 degrees is reported with 23.5 and 30.5).
* C103: `readCdbFile` takes the end of the file for the end of a block: a file cut after any line of NBLOCK or EBLOCK is read
  without a message, with the nodes or elements before the cut (`C103_cut_violated`), though the header says how many there are. A
  blank line in a block makes `sfirstNotBlank` read `str[npos]` (`C103_blank_violated`); a file cut inside CMBLOCK makes the loop
  read `v[in_row]` behind the end of `v` (`C103_component_violated`).
* C104: `LinearTransientFESolver::solve` never updates `vecR` of constrained DoFs: `getReaction` returns the applied load (usually 0)
  after every step of every run (`C104_reaction_violated`); a plate that has to be cooled by 20 at two nodes reports 0 there
  (`C104_plate`).
* C105: every run with PLANE41 elements that writes files, which is the default, has undefined behaviour: `VtkProcessor` asks for
  `vectorQuery::IC` with the address of one `Vec<3>`, `ElementPLANE41::getVector` adds to `vector[1]` and `vector[2]`
  (`C105_plane_violated`). For SOLID81 the files show as `COUCHY` and `PK2` the mean stress plus the pressure once more
  (`C105_stress_violated`; the stress of `getS_UP` contains it already), as `WU` the strain energy of the raw invariants, not of the
  isochoric ones that the energy of the solution uses (in `MeansOf`).
* C108: PARDISO wants every diagonal entry of a symmetric matrix stored. `BlockSparseSymMatrix` is set up with `reinit`, which adds no
  diagonal (the constructor of `SparseSymMatrix` does, with a comment that PARDISO needs it), and `FEStorage` registers no diagonal
  entry for constraint equations nor for DoFs of nodes without elements. So every model with a constraint equation, in particular with
  a rigid body, hands PARDISO a matrix outside its contract (`C108_mpc_violated`, `C108_linear_violated`; `C108_structure_iff` says for
  which models the matrix is right). The structure is analysed once per solver object (`C108_structure_violated`), and the destructor
  of an object that was declared without initialiser and never used passes indeterminate pointers on (`C108_unused_violated`; `main`
  uses value initialisation and is not affected).
* C109: the Gauss solver compares pivots with `1e-20` without regard to units. Every model with free DoFs is refused if forces are
  measured in a large enough unit (`C109_units_violated`, `C109_weak`); every properly supported one is solved in a small enough unit
  (`C109_units_partial`).
* C110: the six checks at the end of main_truss.cpp have no absolute value: a result that is too small by any amount passes
  (`C110_checks_violated`: no loads, supports moved by -1). The comment calls truss2D1.vtk the deformed model; both files show the nodes
  where they were given (`C110_deformed_violated`).
* C111: the right-hand side of `LinearTransientFESolver::solve` has no term for the prescribed values (FESolver.cpp:606-608; the linear
  solver has it). Free DoFs change as if all prescribed values were zero, whatever they are (`Blind`), and long runs stay away from the
  steady solution that `LinearFESolver` reports (`C111_linear_violated`). `C111_wall_violated`: a plate with three corners at 100 and
  the fourth at 0 stays so for ever.
* C112: with a constraint equation or a free DoF of no element, nonlinear and transient runs with PARDISO are outside the contract of the
  library from the first call on (`C112_nonlinear_violated`, `C112_transient_violated`; main.cpp:229 chooses PARDISO in builds with MKL,
  and `RigidBodyMpc` of main.cpp consists of constraint equations).
* C113: `NonlinearFESolver` and `LinearTransientFESolver` pass the number after the last step to `post` (`C113_last_violated`), the flag
  `active` of a post-processor is never looked at (`C113_active_violated`), `getStatus` prints `active` twice (`C113_status_violated`), and
  `~PostProcessor` is not virtual, so that deleting the post-processors is undefined (`C113_delete_violated`; every finished run of
  main_truss.cpp ends that way, and those of main.cpp that write VTK files or reactions).
* C115: `GRADT` of TETRA1 is minus the gradient (`C115_gradient_violated`). TETRA0 answers `E` with the stress and `C` with the small strain,
  shear doubled, and does not know `COUCHY` (`C115_strain_violated`); at rest its `C` is 0 (`C115_rest_violated`). TETRA0, INTER0 and INTER3
  ignore the scale (`C115_scale_violated`). `ElementINTER3::getTensor` has no `return` for codes other than `E` and `C`, and
  `ElementTETRA0::vol` is not set before `buildK` (`C115_answer_violated`); `writeAllResults` is therefore undefined exactly for models with
  one of these elements (`C115_reveal_violated`).
* C116: `intWeight` of INTER3 multiplies weights that add up to 1 with twice the area (`C116_weight_violated`); `_triangle_o3` has 11/15, 2/15
  where a rule of third order has 3/5, 1/5 and misses squares by 5/12 (`C116_order3_violated`); `_triangle_o4` is of third order
  (`C116_order4_violated`); `nOfIntPoints()` is 3 while the default table has seven points (`C116_points_violated`). None of these functions is
  used by `buildK` or `update`.
* C117: assigning a `dMat` to itself frees its elements before copying them (`C117_self_violated`); the `uint16` counter of `fill` never
  reaches 65536 elements (`C117_fill_violated`); `m[i][j]` and `m[k][l]` in one expression share the row of the proxy
  (`C117_two_violated`); `toMat` and `toVec` read outside of the matrix for the larger targets that their assert allows
  (`C117_corner_violated`); `operator<<` writes to `std::cout` (`C117_print_violated`).
* C118: the transient solver starts with acceleration 0 instead of the one that the equation of motion demands; half the work of the
  forces that are not in balance at the beginning is lost in the first step (`C118_first_violated`).
* C119: `read_tokens` casts the lengths of tokens to `int16` (`C119_long_violated`); `del_spaces` uses `uint16` positions
  (`C119_endless_violated`, `C119_cut_violated`) and turns a text of blanks into one blank (`C119_blank_violated`).
* C120: the text of a constraint equation keeps six digits of the coefficients (`C120_mpc_violated`).
* C121: `getElement(0)` and `getElementNodes(0)` pass their assertion (`C121_zero_violated`); `Element::operator=` copies as many numbers
  as the left element has nodes (`C121_copy_violated`); components with a name used before are hidden (`C121_name_violated`).
* C122: `compare` says yes to values that are not numbers (`C122_compare_violated`); `simple_read` cannot read what `operator<<` writes for
  a matrix (`C122_mat_violated`).
* C123: with `NLA3D_USE_BLAS` the products replace the result instead of adding to it (`C123_violated`): forces and pressure couplings of
  SOLID81 keep the last integration point only, and `matB` loses its linear part. CMakeLists.txt:21 notes that this build does not
  converge.
* C124: `setSparsityInfo` with a compressed pattern on a matrix that has values keeps the old array, whatever its size: `zero` and
  `addValue` then write behind it (`C124_set_violated`). The classes own a raw pointer and have no copy constructor of their own: a
  copied matrix frees the array of the original (`C124_copy_violated`).
* C125: `writeCoordinateTextFormat` ends with `out.setf(old_flags)`, which sets bits and clears none: the stream stays scientific, and
  a stream that was `fixed` has both bits afterwards and writes hexadecimal numbers (`C125_stream_violated`).
* C127: `~FEStorage` deletes the material through `Material*`, and `~Material` is not virtual (`C127_delete_violated`). `Material(num_c)`
  makes constants without names: `toString` and `Ci(name)` then read outside of `MC_names`, and `register_mat_const` on such an object
  loses the first array (`C127_sized_violated`).
* C128: `deleteSolutionData` keeps the equations that MPC collections registered, and the next `initDofs` registers them again: the
  system then has every such equation twice (`C128_collections_violated`).
* C129: `Element` has no copy constructor of its own, so a copy shares the array of node numbers: changes are seen in both, and destroying
  both frees it twice (`C129_copy_violated`). `createElements(n, example)` takes the example by value, so an object passed there loses its
  array (`C129_example_violated`). `a = a` calls `memcpy` on one range (`C129_self_violated`).
* C130: `Node::toString` writes into a buffer of 100 characters: from `10^92 + 1` on the text does not tell the other two coordinates
  (`C130_large_violated`).
* C132: `LinearFESolver::solve` clears the constrained part of `vecR`, which holds the loads given at fixed DoFs, before it computes the
  reactions: a load at a fixed DoF is lost, and the reported reaction does not balance it (`C132_loads_violated`). Prescribed values up
  to `1e-20` give reactions out of balance (`C132_tiny_violated`).
* C99: with the master node turned by an angle between 0 and `1e-3` the coefficients are the first terms of series, and an iteration that
  does not change the turn leaves a slave node off its place; it is no Newton step (`C99_newton_violated`, `C99_lever_violated`). The
  convergence test looks at increments of unknowns only: with a prescribed rotation a solution can end after its first iteration with the
  slave node where the linearised motion takes it, however small the criterion is (`C99_prescribed_violated`).

## Notes on the specification

* C01-C08: the specification is a list of registered pairs and a function of two
  indices; nothing of the arrays appears in the statements except for C05, which is
  about the arrays.
* C09: the flat position is described by partial sums of the block sizes.
* C13-C17: `Session` is a history of calls (registrations, fixes, MPCs, preparation,
  assembly). The specification is a set of pairs (entity, DoF type) and sums over the
  history.
* C18-C26: the system is stated with sums over equation numbers; the equation solver
  is any function that satisfies its equation.
* C32: Mathlib's determinant and matrix inverse. C33: eigenvalues by the
  characteristic polynomial. C34-C44: fields that are linear in the coordinates,
  quadratic forms, sums over nodes. C45-C48: matrices built from the six components,
  derivatives by Mathlib's `HasDerivAt`.
* C54-C58, C71: an independent description of the file contents (`Cdb.Cmd`) and of the
  lines that may stand for it (`Cdb.Written`).
* C91: `Denotes` says which node of the file a number of the model stands for.
* C60: an independent reader of legacy VTK files.
* C99: the specification is the rotation by Rodrigues' formula and the place where it
  takes a slave node. The equations of a body are shared by pointer between collection
  and storage; in the model they are a segment of the list of the storage. For angles
  with 0 < |theta| < 1e-3 the code uses truncated series, the Newton statement leaves
  this range out, the bounds (1e-9 in each entry of the rotation) include it.
* C100: the potential is written with the deformation gradient (derivative of the
  displaced by the reference position) and the energy functions of C46; directions are
  arbitrary functions of the equation number.
* C101: `Prog/Spec.lean` describes energy, Newton steps, load steps and report for the
  job alone; values are functions of (node or element, number, DoF), equation numbers
  do not occur. Other element types give `.other` in the model of the program.
  `Viewable`: with files, elements are SOLID81 (see C105). `Runnable` lists what is demanded of a job: every load,
  fix and constraint is on a DoF that exists, no element is degenerate, all sizes fit
  their integer types. `MayStop` lists the reasons for an error message; "nearly
  singular" means a direction with an entry 1 for which no equation reaches 1e-20, the
  threshold of the pivots.
* C102: `History`, `RateBalance`, `Trapezoid`, `Supply` in `Trans/` speak of values at (node, DoF), not of equation numbers;
  heat is the integral of density times specific heat times temperature by the quadrature of the element. Assumed: no
  constraint equations, prescribed temperatures zero (for other values the solver leaves out the coupling, C25 and C111), `delta = 1/2`,
  and `AllClear`: no combination of values that is multiplied with the capacity lies in (0, 1e-20], which the product
  routine drops. `Traced.unique` shows that rates are determined by what is reported.
* C103: `IForm`, `NForm`, `Torn`, `Begun`, `CutComp`, `FileOf` describe the damaged file by its lines, in the terms of C71.
* C105: `Prog/FileSpec.lean` says what a reader of VTK files (the one of C60) finds in the files, in terms of the job, the values
  and the reactions; the stress is the derivative of the energy density by the deformation gradient (`IsStress`).
* C106: `Regular` in `Prog/Spec.lean` says that the linearised equations (second derivative of the energy, conditions in linear form)
  have one solution; every step of the program is regular because the elimination ended. `Renumbers` in `Prog/RenSpec.lean` relates
  two jobs by permutations of the numbers of nodes and elements; `CleanPath` is a load path whose steps are `Fine`, written with the
  equations only, so it can be given without running the program (C107 does so).
* C107: `Carried` demands that fixes are those of a translation whose components are 0 or over 1e-15 (an increment of a load step is
  then over 1e-20, the threshold below which the code drops it).
* C108: the library is a parameter; what is assumed of it is `Pattern.Legal` (the storage scheme of the manual), the order of phases
  in `Lib.phase11` ... `Lib.release`, and `Lib.Exact` (a delivered vector solves the system). `Pattern.entry` reads the matrix out of
  the three arrays without any function of the code.
* C109: `resistance` and `innerWork` are differences with the undeformed state, so initial strains play no part. `Mechanism` speaks of
  forces, `Inextensible` of the lengths of bars, written out in coordinates. The converse of `C109_mechanism` cannot hold
  (`C109_units_violated`); `C109_stops` is what is left: a direction that meets forces below `1e-20`.
* C111: `Resists` says that capacities and conductivities do positive work on every change of the free values; `SteadyZero` is the balance
  of loads and elements with zero at the fixed DoFs. Bound and factor are chosen before the run and its number of steps.
  Bodies of QUADTH meet `Resists` if there are at least 2 by 2 points, constants are positive and every node is `Drained`
  (`C111_bodies_partial`).
* C112: the reference is the run of the solver without memory (`nonlinearSolve`, `transientSolve` with `eqs L`, a new object for every
  call). Equality of the two runs includes every way to stop. `Exact` and `Like` connect it with the properties of the solvers.
* C113: the calls are those of runs that come to their end; a run that is stopped made some of them before.
* C114: real numbers. `Tangent`, `Equilibrium` and `Firm` (`Newton/Converge.lean`, `Newton/Firm.lean`) are the specification: potential,
  derivative, equilibrium, and that no direction of size 1 is without resistance. They do not use the assembly. The test of the solver
  does not look at prescribed increments, so that a load step accepted in its first iteration may be off by as much as they are
  (`C114_load_step`). Numbers of load steps beyond 65535 do not fit the code; `C114_solution` tells which ones are enough. Equations with a
  right-hand side other than 0 are left out.
* C115: real numbers. What a query should give (`smallStrain`, `cauchyGreen`, `hookeStress`, gradient of a linear field) is stated without
  the elements. The answers of SOLID81 and PLANE41 are in Prog (C101), with GP_MEAN only. A function that ends without `return` and a
  member that is read before it is written are `.ub`.
* C116: real numbers; the integral over a triangle in space is the iterated integral over its triangle coordinates times twice its area.
  The loop over the tables of `intWeight` (`tableSum`) is the one of `buildK` with these functions; the code contains no such loop.
* C117: the heap is a list of blocks, `new` does not fail; `dMat a(a)` and the variadic constructor (`new` followed by `fill`) are not separate
  statements. `toMat` and the other readers do not keep the row that they leave in the proxy, which every `m[i]` overwrites.
* C118: energies are those of the assembled matrices over all unknowns, multipliers of constraint equations included.
* C119: `std::length_error`, thrown for a negative length, is the outcome `fatal`.
* C120: streams are the texts written to them; the text of a `double` (`toStr`) is a parameter without blanks.
* C121: pointers to objects of the storage are the objects; `memcpy` beyond an array is the outcome `ub`.
* C122: a value that is not a number is `none` in the model of the comparisons, infinities are left out; the text of a number and the
  extraction of a number from a stream are parameters; a failed extraction stores zero once (C++11) and nothing afterwards.
* C123: `cblas_dgemv` and `cblas_dgemm` are what their manual says. All other properties are about the build without BLAS.
* C124: `std::shared_ptr` is its contract, a pattern lives while a pointer to it exists. `reinit` from a list of entries and the text
  reader are not among the statements of the program (they are in C06). Numbers of objects and blocks stand for addresses.
* C125: how a number is written is a parameter; for reading back it must not contain a tabulator or a line feed. Of the format of the
  stream only precision and `floatfield` are kept.
* C126: real arithmetic and exact square roots as in C43; the displacements of the nodes are a parameter.
* C127: how a number is written is a parameter; for reading back it must not contain a blank. The strings and the vector of names are
  values. `new` always succeeds. That deleting a derived object through a base class without virtual destructor is undefined is the rule
  of the language; usual compilers free the object all the same.
* C128: the solver that uses the storage after `deleteSolutionData` is a new one or renews its pointers in `initSolutionData`. The
  equations that a collection adds are the same in both setups.
* C129: of an element only the shape and the array of node numbers are kept. An assignment that needs more numbers than the right element
  has is undefined in the specification too (see C121). `new` always succeeds.
* C130: coordinates are rational numbers (every finite `double` is one); `%f` rounds to the nearest six decimals, ties to even.
  Infinities, NaN and negative zero are left out. `sprintf_s` is `snprintf` as on Linux.
* C131: the memory of Verif.DVec with the vectors of the storage as owners of the right size (`FEStorage::initSolutionData` makes them
  so). It justifies `seg` and `put` of the model of the solvers, which stand for reading and writing through these windows.
* C136: the model of C84, supports at zero values.
* C132-C135: the model of C18. `Free` is stated with the stiffness matrix the storage holds after the solution.
* C110: `Statics` is the equilibrium of the joints of a truss, with strains and directions of bars written in coordinates; the model
  works with element matrices, equation numbers and the Gauss solver. The tables of the program are a parameter (`Input`); `Legal` says
  what makes them a truss. `Shows` speaks of what a reader of the VTK format gets from the files. `shippedU` and `shippedR` are exact
  fractions; the numbers in the checks of the code are not used for them.

## Mutation tests

`seeded/LOG.jsonl` has one line per edit of a model definition: the definition, the
edit, the claim it was meant to break (as written before the run), and what the build
reported.

* `theorems_failed`: declarations the build reported as failing, nothing else. A build
  stops at the first failing module, so later theorems are not tried.
* `theorems_not_reached`: property theorems that use a failing lemma (the first 15;
  `n_not_reached` counts them). They were **not** observed to fail. A broken lemma shows
  that the proof notices the edit, not that the statement of the property excludes it:
  a lemma that describes a definition exactly breaks for harmless edits too.
* `valid: false`: the edited definition did not compile, so the edit tested no theorem.

Of 641 attempts, a property theorem was observed to fail in 217; only lemmas or examples
failed in 405; nothing failed at first in 5 (each led to a stronger theorem, see its note);
14 were invalid. Versions of the log before this one listed the theorems not reached
as failed, put the property numbers of those theorems in place of the written claim for later
entries, counted invalid edits as caught and left out six attempts. The mutants marked
"repaired program" correct a defect of the code; there the theorem that proves the
defect has to fail.
