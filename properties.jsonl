{"id": "C01", "title": "Sparsity pattern is exactly the set of registered positions", "statement": "After any sequence of addEntry(i,j) calls with in-range indices that does not abort, followed by compress(), the positions stored in the matrix are exactly the positions that were registered: independent of the order and of the repetitions of the calls, nValues() equals the number of distinct registered positions and nElementsInRow(i) the number of distinct columns registered in row i.", "quantifier": "every matrix size, every max_in_row > 0, every finite sequence of in-range addEntry calls", "why_tests_cant": "The claim ranges over all orders and multiplicities of insertions; tests try a handful of fixed matrices.", "anchors": ["src/lib/math/SparseMatrix.cpp:SparsityInfo::reinit", "src/lib/math/SparseMatrix.cpp:SparsityInfo::addEntry", "src/lib/math/SparseMatrix.cpp:SparsityInfo::compress", "src/lib/math/SparseMatrix.h:SparsityInfo::nElementsInRow"]}
{"id": "C02", "title": "Sparse matrix behaves as a finite map with accumulation", "statement": "After compress(), any history of addValue(i,j,v) / zero() calls leaves value(i,j) equal to the sum of the v added to (i,j) since the last zero() for registered positions and 0 for unregistered ones; addValue or operator() on an unregistered position aborts (fatal) and changes nothing else; no access is out of bounds and no lookup loops forever.", "quantifier": "every registered pattern and every history of addValue/zero/value calls", "why_tests_cant": "Lookup is a hand written binary search over every possible sorted row; unit tests cannot cover all row contents and all histories.", "anchors": ["src/lib/math/SparseMatrix.cpp:SparsityInfo::getIndex", "src/lib/math/SparseMatrix.cpp:SparseMatrix::operator()", "src/lib/math/SparseMatrix.cpp:SparseMatrix::value", "src/lib/math/SparseMatrix.h:SparseMatrix::addValue", "src/lib/math/SparseMatrix.h:BaseSparseMatrix::zero"]}
{"id": "C03", "title": "Row-capacity abort happens exactly on overflow", "statement": "addEntry aborts with 'maxInRow overflow' if and only if the row already holds min(max_in_row, nColumns) distinct columns and the column is new; in particular a matrix created with max_in_row >= nColumns never aborts on in-range indices.", "quantifier": "every matrix size, max_in_row and in-range addEntry sequence", "why_tests_cant": "'Never aborts' quantifies over all sequences.", "anchors": ["src/lib/math/SparseMatrix.cpp:SparsityInfo::reinit", "src/lib/math/SparseMatrix.cpp:SparsityInfo::addEntry"]}
{"id": "C04", "title": "Symmetric sparse matrix is symmetric", "statement": "For SparseSymMatrix, registering or adding to (i,j) is indistinguishable from registering or adding to (j,i): value(i,j) = value(j,i) after every history, and only upper-triangle positions are stored.", "quantifier": "every history of addEntry/compress/addValue/zero on a SparseSymMatrix", "why_tests_cant": "Symmetry must hold after every interleaving of (i,j) and (j,i) writes.", "anchors": ["src/lib/math/SparseMatrix.h:SparseSymMatrix::addEntry", "src/lib/math/SparseMatrix.h:SparseSymMatrix::addValue", "src/lib/math/SparseMatrix.cpp:SparseSymMatrix::operator()", "src/lib/math/SparseMatrix.cpp:SparseSymMatrix::value"]}
{"id": "C05", "title": "The compressed arrays are a valid 1-based 3-array CSR", "statement": "After compress(), getIofeirArray() starts at 1, is non-decreasing, ends at nValues()+1, and inside every row getColumnsArray() is strictly increasing, within 1..nColumns() and, for SparseSymMatrix, never below the diagonal - the input format documented for the direct solver. For a SparseSymMatrix the direct solver also needs every diagonal position to be present.", "quantifier": "every registered pattern", "why_tests_cant": "External solvers read the raw arrays; validity is needed for every mesh, not for the sampled ones.", "anchors": ["src/lib/math/SparseMatrix.cpp:SparsityInfo::compress", "src/lib/math/SparseMatrix.h:getIofeirArray", "src/lib/math/SparseMatrix.h:getColumnsArray", "src/lib/math/SparseMatrix.cpp:SparseSymMatrix::SparseSymMatrix", "src/lib/math/SparseMatrix.cpp:SparseSymMatrix::reinit"]}
{"id": "C06", "title": "Coordinate-text round trip of a sparse matrix", "statement": "Writing a compressed matrix with writeCoordinateTextFormat and reading it back with readCoordinateTextFormat gives a matrix with the same shape, the same pattern and the same values (up to the printed digits), so that compare() with the original returns true; reading never aborts on such a file. Reading an explicit entry list registers exactly its positions, the last value winning for duplicates.", "quantifier": "every compressed matrix / every in-range entry list", "why_tests_cant": "Round trip quantifies over all patterns including empty rows and all-zero matrices.", "anchors": ["src/lib/math/SparseMatrix.cpp:BaseSparseMatrix::writeCoordinateTextFormat", "src/lib/math/SparseMatrix.cpp:BaseSparseMatrix::readCoordinateTextFormat", "src/lib/math/SparseMatrix.cpp:BaseSparseMatrix::reinit", "src/lib/math/SparseMatrix.cpp:BaseSparseMatrix::compare"]}
{"id": "C07", "title": "compare() decides equality of pattern and values up to the threshold", "statement": "compare(op2, th) returns true if and only if both matrices have the same shape, the same set of stored positions and every pair of stored values differs by at most th; hence it is reflexive (th >= 0) and symmetric.", "quantifier": "all pairs of compressed matrices and all thresholds", "why_tests_cant": "An iff over all pairs of matrices.", "anchors": ["src/lib/math/SparseMatrix.cpp:BaseSparseMatrix::compare"]}
{"id": "C08", "title": "Sparse matrix-vector products are the mathematical products", "statement": "matBVprod(B,V,c,R) leaves R + c*B*V and matBTVprod(B,V,c,R) leaves R + c*B^T*V in R, reading and writing only inside the vectors, for every compressed SparseMatrix; for SparseSymMatrix matBVprod leaves R + c*B*V (with B the full symmetric matrix) apart from components |V_j| <= 1e-20 which are treated as 0.", "quantifier": "every matrix, vectors, coefficient (exact arithmetic)", "why_tests_cant": "Linear-algebra identity over all sizes, patterns and values, including empty rows.", "anchors": ["src/lib/math/SparseMatrix.cpp:matBVprod", "src/lib/math/SparseMatrix.cpp:matBTVprod"]}
{"id": "C09", "title": "Block matrix is the flat symmetric matrix", "statement": "BlockSparseSymMatrix with block sizes n1..nb behaves like one symmetric matrix of n1+..+nb rows: the (block, position) of an index is unique and covers every position of every block, the off-diagonal block index is a bijection from pairs i<j onto the storage slots, and after any history of addEntry/compress/addValue/zero the value stored for (i,j) is the accumulated sum.", "quantifier": "every number of blocks, every block sizes (including empty blocks), every history", "why_tests_cant": "Index arithmetic must be right for all block counts/sizes; only nb=2 is exercised by the code base.", "anchors": ["src/lib/math/BlockSparseMatrix.h:BlockSparseSymMatrix::block", "src/lib/math/BlockSparseMatrix.h:getBlockAndPosition", "src/lib/math/BlockSparseMatrix.h:addEntry", "src/lib/math/BlockSparseMatrix.h:addValue"]}
{"id": "C10", "title": "A block matrix created from another one has the same shape and sparsity", "statement": "BlockSparseSymMatrix(ex) (used for the damping and mass matrices) accepts exactly the positions ex accepts, its values are independent of ex, and nRows() equals ex->nRows().", "quantifier": "every block matrix ex", "why_tests_cant": "Needs all shapes.", "anchors": ["src/lib/math/BlockSparseMatrix.h:BlockSparseSymMatrix(BlockSparseSymMatrix*)", "src/lib/math/BlockSparseMatrix.h:nRows", "src/lib/math/SparseMatrix.cpp:BaseSparseMatrix::setSparsityInfo"]}
{"id": "C11", "title": "DoF registration is a set per entity", "statement": "After initDofTable(n) and any history of addDof(k,{types}) calls, isDofUsed(k,t) is true iff some call registered t for k, getDof returns a record iff isDofUsed, getNumberOfUsedDofs() is the total number of registered (entity,type) pairs, getUniqueDofTypes() the set of types that appear, the attributes of previously registered DoFs survive, and repeated or empty registrations change nothing.", "quantifier": "every number of entities, every history of addDof calls, every query", "why_tests_cant": "The table is one flat array with per-entity offsets; correctness has to hold for all registration orders.", "anchors": ["src/lib/Dof.cpp:DofCollection::initDofTable", "src/lib/Dof.cpp:DofCollection::addDof", "src/lib/Dof.cpp:DofCollection::isDofUsed", "src/lib/Dof.cpp:DofCollection::getDof", "src/lib/Dof.h:getEntityDofs"]}
{"id": "C12", "title": "Labels and enumerators round-trip", "statement": "For every DoF type, element type and material type, converting the enumerator to its label and back yields the same enumerator, labels are pairwise distinct and every string that is not a label yields the 'undefined' enumerator (DoF, element, material); a material created by the factory reports a name from which the factory can create it again.", "quantifier": "all enumerators and all strings", "why_tests_cant": "The negative half ranges over all strings.", "anchors": ["src/lib/Dof.cpp:Dof::label2dofType", "src/lib/Dof.h:dofType2label", "src/lib/elements/ElementFactory.cpp:elName2elType", "src/lib/materials/MaterialFactory.cpp:matName2matId", "src/lib/materials/materials_hyperelastic.cpp"]}
{"id": "C13", "title": "Equation numbering is a bijection with the constrained DoFs first", "statement": "After initDofs, constraining any collection of registered nodal DoFs (repetitions allowed) and assignEquationNumbers, every registered DoF has a distinct equation number, the numbers are exactly 1..nDofs, constrained DoFs occupy 1..nConstrainedDofs, unconstrained ones nConstrainedDofs+1..nDofs, and the MPC equations nDofs+1..nDofs+nMpc in list order.", "quantifier": "all DoF tables, all constraint lists, all MPC lists", "why_tests_cant": "Bijection over all registration/constraint patterns.", "anchors": ["src/lib/FEStorage.cpp:FEStorage::initDofs", "src/lib/FEStorage.cpp:FEStorage::setConstrainedNodeDof", "src/lib/FEStorage.cpp:FEStorage::assignEquationNumbers"]}
{"id": "C14", "title": "Every assembly write hits a registered position", "statement": "After initSolutionData, for every element, adding a value at any pair of equation numbers of the DoFs attached to the nodes of that element or to the element itself, and for every MPC adding at (MPC equation, term equation), never aborts with 'position is absent'.", "quantifier": "all meshes, DoF tables, constraints and MPCs for which initSolutionData itself does not abort on row capacity", "why_tests_cant": "Coverage must hold for every mesh topology.", "anchors": ["src/lib/FEStorage.cpp:FEStorage::learnTopology", "src/lib/FEStorage.cpp:FEStorage::initSolutionData", "src/lib/FEStorage.h:addEntryK", "src/lib/FEStorage.h:addValueK"]}
{"id": "C15", "title": "Element assembly is the scatter-add of the element matrix", "statement": "Assembling a packed symmetric element matrix Ke over the element's (node,DoF) list adds to the global symmetric matrix exactly sum_ab Ke[a][b] at (eq a, eq b), i.e. u^T K u grows by u_e^T Ke u_e for every u; also when two local nodes of the element are the same global node (degenerate cells that the reader produces).", "quantifier": "all numbers of nodes, DoFs per node, element matrices, node tuples", "why_tests_cant": "Quadratic-form identity over all element sizes and values.", "anchors": ["src/lib/elements/element.h:assembleK", "src/lib/elements/element.h:assembleC", "src/lib/elements/PLANE41.h:assembleK", "src/lib/elements/SOLID81.h:assemble3"]}
{"id": "C16", "title": "Mass contributions reach the mass matrix", "statement": "ElementXXX::assembleM adds the element matrix to the global mass matrix and leaves the damping matrix unchanged.", "quantifier": "all element matrices and DoF lists", "why_tests_cant": "No element in the repository currently calls assembleM, hence no test exercises it.", "anchors": ["src/lib/elements/element.h:assembleM", "src/lib/FEStorage.h:addValueM", "src/lib/FEStorage.h:addValueC"]}
{"id": "C17", "title": "Re-assembly starts from zero", "statement": "assembleGlobalEqMatrices produces matrices and load vector that depend only on the element contributions, MPC coefficients and right-hand sides of this call and not on what the matrices held before; calling it twice in a row with the same contributions gives the same system.", "quantifier": "all histories of previous assemblies and all contributions", "why_tests_cant": "History independence.", "anchors": ["src/lib/FEStorage.cpp:FEStorage::assembleGlobalEqMatrices", "src/lib/math/BlockSparseMatrix.h:zero"]}
{"id": "C18", "title": "Linear solve satisfies the full partitioned system", "statement": "If the equation solver returns an exact solution of the reduced system, then after LinearFESolver::solve the constrained DoFs hold exactly the prescribed values, and K*U = F + R holds for all rows (constrained, unknown and MPC), with R the applied loads on unknown rows, zero on MPC rows and the reported reactions on constrained rows; every MPC equation sum coef*u = b is satisfied.", "quantifier": "all assembled systems, load and fix lists, numbers of constrained DoFs (including none)", "why_tests_cant": "Algebraic identity over all systems; tests compare a few numeric results.", "anchors": ["src/lib/FESolver.cpp:LinearFESolver::solve", "src/lib/FESolver.cpp:FESolver::applyBoundaryConditions", "src/lib/FESolver.cpp:FESolver::initSolutionData"]}
{"id": "C19", "title": "Boundary conditions: loads add up, the last fix wins", "statement": "applyBoundaryConditions(t) makes the external load at each equation equal to the previous content plus t times the sum of all loads given for that DoF, and each constrained DoF equal to t times the value of the last fix given for it; no other component changes.", "quantifier": "all load and fix lists (with repetitions, any order), all t", "why_tests_cant": "All multisets and orders of boundary conditions.", "anchors": ["src/lib/FESolver.cpp:FESolver::applyBoundaryConditions", "src/lib/FESolver.cpp:FESolver::addFix", "src/lib/FESolver.cpp:FESolver::addLoad", "src/lib/FEStorage.h:addValueR"]}
{"id": "C20", "title": "Dense Gauss solver is correct", "statement": "In exact arithmetic, whenever the built-in dense solver reports success the returned vector satisfies A*x = b for the original A and b and A is non-singular; it reports failure exactly when some elimination pivot (the largest entry of the remaining column) is below 1e-20 in absolute value, in particular for every singular A, and never reads uninitialised or out-of-range memory.", "quantifier": "all n, all real matrices and right-hand sides", "why_tests_cant": "Correctness for all matrices of all sizes.", "anchors": ["src/lib/math/EquationSolver.cpp:GaussDenseEquationSolver::_solve", "src/lib/math/EquationSolver.cpp:substituteEquations"]}
{"id": "C21", "title": "Nonlinear solver bookkeeping", "statement": "In NonlinearFESolver::solve, at every iteration the constrained increments sum up to the prescribed value at the current time, the unknown DoFs equal the sum of the increments the equation solver returned, the loads and prescribed values of an iteration are those of the current normalised time; a load step ends only converged (otherwise the program aborts) and after at most numberOfIterations iterations (at least one).", "quantifier": "all load-step/iteration histories, all equation-solver answers", "why_tests_cant": "All histories of iterations.", "anchors": ["src/lib/FESolver.cpp:NonlinearFESolver::solve", "src/lib/FESolver.cpp:NonlinearFESolver::calculateCriteria"]}
{"id": "C22", "title": "The convergence criterion is the documented one", "statement": "A load step is accepted exactly when the mean absolute increment of the unknown DoFs is below convergenceCriteria.", "quantifier": "all increments and all convergenceCriteria > 0", "why_tests_cant": "Decision rule over all real vectors.", "anchors": ["src/lib/FESolver.cpp:NonlinearFESolver::calculateCriteria", "src/lib/FESolver.cpp:NonlinearFESolver::solve"]}
{"id": "C23", "title": "Time stepping is strictly increasing, stays within the end time and reaches it", "statement": "With delta > 0 and end time > 0 (start time 0), repeated nextStep(delta) (each followed by at least one equilibrium step) yields strictly increasing times, never beyond the end time, each increment at most delta (and more than delta/2 unless it is the final remainder of the very first step), returns false only once the end time has been reached exactly, does so after finitely many steps, and takes exactly n steps for delta = end/n; the recorded converged times are the visited times.", "quantifier": "all delta, end times, n (exact arithmetic)", "why_tests_cant": "Termination and monotonicity for all real step sizes.", "anchors": ["src/lib/FESolver.cpp:TimeControl::nextStep", "src/lib/FESolver.cpp:TimeControl::getTotalNumberOfEquilibriumSteps"]}
{"id": "C24", "title": "Start time is honoured", "statement": "After setStartTime(s) and setEndTime(e) the first step starts from s: the normalised time stays within (0,1] and the steps cover (s,e].", "quantifier": "all s < e", "why_tests_cant": "All start times.", "anchors": ["src/lib/FESolver.cpp:TimeControl::setStartTime", "src/lib/FESolver.cpp:TimeControl::nextStep", "src/lib/FESolver.cpp:TimeControl::getCurrentNormalizedTime"]}
{"id": "C25", "title": "Transient step satisfies the equation of motion (Newmark)", "statement": "At every time step the new displacement, velocity and acceleration of the unknown DoFs satisfy Newmark's relations with the chosen alpha, delta and M a + C v + K u = F + R for the unknown rows (including the contribution of the constrained DoFs).", "quantifier": "all matrices, states, alpha != 0, delta, dt > 0, prescribed values", "why_tests_cant": "Algebraic identity for all parameters; tests use only delta = 1/2.", "anchors": ["src/lib/FESolver.cpp:LinearTransientFESolver::solve"]}
{"id": "C26", "title": "Transient solver takes exactly the requested number of steps", "statement": "With time1 > time0 and numberOfTimesteps = n >= 1 the transient solver performs exactly n steps, at times time0 + k*dt, k=1..n, and terminates; post processors see steps 1..n.", "quantifier": "all time0 < time1 and n (exact arithmetic)", "why_tests_cant": "Loop is driven by an accumulated real number.", "anchors": ["src/lib/FESolver.cpp:LinearTransientFESolver::solve"]}
{"id": "C27", "title": "dVec ownership and view semantics", "statement": "A copy-constructed dVec is independent of its source; a view (dVec(ref,start,size)) reads and writes exactly the components start..start+size-1 of its owner; arithmetic operators return fresh vectors and never modify their operands; += / -= and assignment between equal sizes modify exactly the target's components; assigning to a view keeps it a view of the same components.", "quantifier": "all histories of construction, view creation, assignment and component writes that respect lifetimes", "why_tests_cant": "Aliasing claims quantify over all histories of operations.", "anchors": ["src/lib/math/Vec.cpp:dVec::dVec", "src/lib/math/Vec.cpp:dVec::reinit", "src/lib/math/Vec.cpp:dVec::operator=", "src/lib/math/Vec.cpp:dVec::operator+="]}
{"id": "C28", "title": "Node and element creation numbering", "statement": "createNodes(n) / createElements(n,..) append n entities, return exactly the new 1-based numbers in increasing order, keep all previous numbers valid, and every element's own number equals its position.", "quantifier": "all interleavings of createNodes, addNode, createElements, addElement", "why_tests_cant": "All histories.", "anchors": ["src/lib/FEStorage.cpp:FEStorage::createNodes", "src/lib/FEStorage.cpp:FEStorage::addNode", "src/lib/FEStorage.cpp:FEStorage::createElements", "src/lib/FEStorage.cpp:FEStorage::addElement"]}
{"id": "C29", "title": "Topology is the inverse incidence", "statement": "After learnTopology, element e is listed at node n iff n is one of the nodes of e, each once.", "quantifier": "all meshes", "why_tests_cant": "All incidence relations, including degenerate elements.", "anchors": ["src/lib/FEStorage.cpp:FEStorage::learnTopology"]}
{"id": "C30", "title": "Packed symmetric index is a bijection", "statement": "MatSym<n>::comp(i,j) maps the pairs i<=j<n bijectively onto 0..n(n+1)/2-1 in row-major upper order, comp(i,j) = comp(j,i), and toMat() agrees with comp.", "quantifier": "all n for which the 16-bit index arithmetic does not wrap, all i,j", "why_tests_cant": "All n.", "anchors": ["src/lib/math/Mat.h:MatSym::comp", "src/lib/math/Mat.h:MatSym::toMat"]}
{"id": "C31", "title": "Dense products are the mathematical products", "statement": "matBTDBprod(B,D,c,R) adds c*B^T*D*B (D the full symmetric matrix) to the packed R; matBTVprod, matBVprod, matABprod, matATBprod add c times the named product to R; Mat*Mat, Mat*Vec, transpose are the mathematical operations.", "quantifier": "all dimensions and entries", "why_tests_cant": "Algebraic identities over all dimensions.", "anchors": ["src/lib/math/Mat.h:matBTDBprod", "src/lib/math/Mat.h:matBTVprod", "src/lib/math/Mat.h:matBVprod", "src/lib/math/Mat.h:matABprod", "src/lib/math/Mat.h:matATBprod"]}
{"id": "C32", "title": "Determinant and inverse", "statement": "Mat<n,n>::det() is the determinant and inv(det()) the two-sided inverse whenever the determinant is non-zero, for every n (closed forms for n<=3, cofactor recursion above).", "quantifier": "all n and all matrices", "why_tests_cant": "All matrices of all sizes.", "anchors": ["src/lib/math/Mat.h:Mat::det", "src/lib/math/Mat.h:Mat::inv", "src/lib/math/Mat.h:Mat::cross_cut", "src/lib/math/Mat.cpp"]}
{"id": "C33", "title": "Principal values", "statement": "For every symmetric 3x3 matrix eigenvalues() returns its three eigenvalues in non-increasing order.", "quantifier": "all symmetric real 3x3 matrices", "why_tests_cant": "All real matrices, including repeated eigenvalues.", "anchors": ["src/lib/math/Mat.h:Mat::eigenvalues"]}
{"id": "C34", "title": "Shape functions", "statement": "For the line, quadrilateral and hexahedral elements the shape functions sum to one, take the value 1 at their own node and 0 at the others, are positive inside the element, and formFuncDeriv is their exact gradient (hence sums to zero).", "quantifier": "all local coordinates", "why_tests_cant": "Identities over all real points.", "anchors": ["src/lib/elements/isoparametric.cpp:ElementIsoParamQUAD::formFunc", "src/lib/elements/isoparametric.cpp:ElementIsoParamHEXAHEDRON::formFunc", "src/lib/elements/isoparametric.cpp:formFuncDeriv"]}
{"id": "C35", "title": "Isoparametric gradients are exact for linear fields", "statement": "For any node positions with positive Jacobian at the integration points, the computed shape-function gradients reproduce the gradient of every linear field exactly and sum to zero; a negative Jacobian aborts; the element volume is additive over integration points and equals |det A| * 2^d for affine images up to the tabulated weights.", "quantifier": "all node positions with non-zero Jacobian, all linear fields, all integration orders", "why_tests_cant": "Patch-test property over all geometries.", "anchors": ["src/lib/elements/isoparametric.cpp:ElementIsoParamQUAD::makeJacob", "src/lib/elements/isoparametric.cpp:ElementIsoParamHEXAHEDRON::makeJacob", "src/lib/elements/isoparametric.cpp:volume", "src/lib/elements/isoparametric.h"]}
{"id": "C36", "title": "Heat-conduction quadrilateral", "statement": "The QUADTH conductivity and capacity matrices are symmetric, positive semidefinite for positive parameters, the conductivity matrix annihilates uniform temperature, and the entries of the capacity matrix sum to rho*c*volume.", "quantifier": "all geometries with positive Jacobian and all positive parameters", "why_tests_cant": "Definiteness for all geometries.", "anchors": ["src/lib/elements/QUADTH.cpp:ElementQUADTH::buildK", "src/lib/elements/QUADTH.cpp:ElementQUADTH::buildC"]}
{"id": "C37", "title": "Convection surface element", "statement": "SurfaceLINETH contributes zero net load when the nodal temperatures equal the prescribed ambient temperatures, whatever values (including 0) are prescribed at its two ends.", "quantifier": "all ambient temperatures, geometries and film coefficients", "why_tests_cant": "All prescribed values.", "anchors": ["src/lib/elements/QUADTH.cpp:SurfaceLINETH::pre", "src/lib/elements/QUADTH.cpp:SurfaceLINETH::buildK"]}
{"id": "C38", "title": "Linear tetrahedron reproduces constant strain", "statement": "For every non-degenerate tetrahedron, TETRA0 reports exactly the symmetric gradient (engineering shear) of any linear displacement field and the stress of isotropic linear elasticity for it; rigid translations and infinitesimal rotations give zero nodal forces; the stiffness matrix is symmetric and positive semidefinite for positively oriented elements and admissible E, my.", "quantifier": "all non-degenerate tetrahedra, all linear fields, all E, my in the admissible range", "why_tests_cant": "Patch test over all geometries and fields.", "anchors": ["src/lib/elements/TETRA0.cpp:ElementTETRA0::buildK", "src/lib/elements/TETRA0.cpp:update", "src/lib/elements/TETRA0.cpp:makeB", "src/lib/elements/TETRA0.cpp:makeC"]}
{"id": "C39", "title": "Free thermal expansion is stress free", "statement": "If the nodal displacements of a TETRA0 element are those of free isotropic thermal expansion (alpha*T*x), the thermal nodal load balances the elastic forces and the reported stress is zero.", "quantifier": "all non-degenerate tetrahedra, alpha, T", "why_tests_cant": "All geometries.", "anchors": ["src/lib/elements/TETRA0.cpp:ElementTETRA0::buildK", "src/lib/elements/TETRA0.cpp:update"]}
{"id": "C40", "title": "Heat-conduction tetrahedron", "statement": "TETRA1 reports the flux -k*grad T for every linear temperature field, and its conductivity matrix is symmetric, annihilates uniform temperature and is positive semidefinite for k > 0 and positively oriented elements (same sign convention as QUADTH).", "quantifier": "all non-degenerate tetrahedra, all linear fields, all k > 0", "why_tests_cant": "All geometries.", "anchors": ["src/lib/elements/TETRA1.cpp:ElementTETRA1::buildK", "src/lib/elements/TETRA1.cpp:makeB", "src/lib/elements/TETRA1.cpp:makeC", "src/lib/elements/TETRA1.cpp:update"]}
{"id": "C41", "title": "Linear triangle", "statement": "TRIANGLE4 reports exactly the strain of any linear displacement field, its elasticity matrix is the inverse of the plane-stress (resp. plane-strain) compliance for E>0 and -1<my<1/2, the stiffness matrix annihilates rigid motions, and update() reports the same strain and stress no matter how often it is called.", "quantifier": "all non-degenerate triangles, linear fields, E, my; all numbers of update calls", "why_tests_cant": "All geometries, parameters and call histories.", "anchors": ["src/lib/elements/TRIANGLE4.cpp:ElementTRIANGLE4::buildK", "src/lib/elements/TRIANGLE4.cpp:update", "src/lib/elements/TRIANGLE4.cpp:makeB", "src/lib/elements/TRIANGLE4.cpp:makeC"]}
{"id": "C42", "title": "Truss element", "statement": "The TRUSS3 stiffness satisfies u^T K u = (E A / L) (axial elongation)^2, so it is symmetric, positive semidefinite, and annihilates translations; the reported stress is E times the axial strain.", "quantifier": "all bar orientations with non-zero length, all displacements", "why_tests_cant": "All orientations.", "anchors": ["src/lib/elements/TRUSS3.cpp:ElementTRUSS3::buildK", "src/lib/elements/TRUSS3.cpp:update"]}
{"id": "C43", "title": "Two-node interface element", "statement": "INTER0's stiffness couples the two nodes by ks*(I - n n^T) + kn * n n^T for the unit normal n, independent of the arbitrary choice of tangents; this holds for every non-zero normal.", "quantifier": "all normals, ks, kn", "why_tests_cant": "All directions of the normal.", "anchors": ["src/lib/elements/INTER0.cpp:ElementINTER0::buildK"]}
{"id": "C44", "title": "Six-node interface element", "statement": "For every non-degenerate triangle INTER3's local frame is orthonormal, the local Jacobian is twice the triangle area (hence never negative, no abort), and the symmetric stiffness assembled from the upper triangle equals the integral of N^T T D T^T N although only the upper triangle is accumulated before the rotation.", "quantifier": "all non-degenerate triangles, ks, kn", "why_tests_cant": "All triangles.", "anchors": ["src/lib/elements/INTER3.cpp:ElementINTER3::buildK", "src/lib/elements/INTER3.cpp:makeJacob", "src/lib/elements/INTER3.cpp:make_T", "src/lib/elements/INTER3.cpp:make_B"]}
{"id": "C45", "title": "Deformation measures", "statement": "For every positive definite packed tensor C: J_C squared is det C, invC_C(C, J_C) is the inverse of C, E_C gives (C-I)/2 when the output starts from zero, IC_C the invariants tr C, (tr^2 C - tr C^2)/2 and J.", "quantifier": "all symmetric positive definite 3x3 tensors", "why_tests_cant": "All tensors.", "anchors": ["src/lib/solidmech.cpp:J_C", "src/lib/solidmech.cpp:invC_C", "src/lib/solidmech.cpp:E_C", "src/lib/solidmech.cpp:IC_C"]}
{"id": "C46", "title": "Strain-energy derivatives", "statement": "For Neo-Hookean, Biderman and Mooney-Rivlin materials the first and second derivatives reported by W_first_derivatives / W_second_derivatives are the partial derivatives of W with respect to the invariants.", "quantifier": "all invariants and constants", "why_tests_cant": "Calculus identity over all reals.", "anchors": ["src/lib/materials/materials_hyperelastic.cpp"]}
{"id": "C47", "title": "Hyperelastic stress is the gradient of the energy", "statement": "getS_UP returns S = 2 d/dC [ W(I1*J^(-2/3), I2*J^(-4/3)) + p (J - 1) ] for every symmetric positive definite C, pressure p, and material; in particular S = 0 for C = I, p = 0, and S:C = 3 p J (deviatoric part is traceless).", "quantifier": "all positive definite C, all p, all constants, all perturbation directions", "why_tests_cant": "Derivative identity over all tensors.", "anchors": ["src/lib/materials/materials_hyperelastic.cpp:getS_UP"]}
{"id": "C48", "title": "Hyperelastic tangent is consistent", "statement": "The matrices returned by getDdDp_UP are the exact derivatives of the stress of getS_UP with respect to C and p, and are symmetric.", "quantifier": "all positive definite C, p, constants, directions", "why_tests_cant": "Second-derivative identity over all tensors.", "anchors": ["src/lib/materials/materials_hyperelastic.cpp:getDdDp_UP"]}
{"id": "C49", "title": "Component selection is consistent", "statement": "Asking getS_UP / getDdDp_UP for any list of stress components returns exactly the corresponding entries of the full 6-component answer.", "quantifier": "all component lists (any order and subset) and all arguments", "why_tests_cant": "All component lists.", "anchors": ["src/lib/materials/materials_hyperelastic.cpp:getS_UP", "src/lib/materials/materials_hyperelastic.cpp:getDdDp_UP"]}
{"id": "C50", "title": "Material constants are addressed by name", "statement": "After registering constants c1..cn, Ci(name) addresses the constant of that name for every registered name, and asking for an unregistered name is reported as an error without touching memory.", "quantifier": "all lists of distinct names and all queries", "why_tests_cant": "All names.", "anchors": ["src/lib/materials/material.cpp:Material::Ci", "src/lib/materials/material.cpp:register_mat_const"]}
{"id": "C51", "title": "Hexahedral kinematics", "statement": "SOLID81 computes C = F^T F with F = I + grad u at every integration point, and the B matrices give the exact variation of the Green strain: delta C (in its packed form) = 2*(B_L + Omega*B_NL)*delta u (with the element's own scaling).", "quantifier": "all displacement gradients and variations", "why_tests_cant": "Identity over all gradients.", "anchors": ["src/lib/elements/SOLID81.cpp:update", "src/lib/elements/SOLID81.cpp:make_B_L", "src/lib/elements/SOLID81.cpp:make_B_NL", "src/lib/elements/SOLID81.cpp:make_Omega"]}
{"id": "C52", "title": "Cauchy stress is the push-forward", "statement": "The COUCHY tensor query of SOLID81 and PLANE41 returns (1/J) F S F^T, scaled by the requested factor and averaged over integration points for GP_MEAN.", "quantifier": "all deformation gradients and stresses", "why_tests_cant": "All gradients, in particular non-symmetric ones.", "anchors": ["src/lib/elements/SOLID81.cpp:getTensor", "src/lib/elements/PLANE41.cpp:getTensor"]}
{"id": "C53", "title": "Rigid-body MPC", "statement": "For every rotation vector outside the small-angle branch the matrix used by RigidBodyMpc is a rotation (orthogonal, determinant 1, fixes the axis), its derivative coefficients are the exact derivatives, and a state satisfies all equations with zero right-hand side iff the slave nodes moved as one rigid body with the master.", "quantifier": "all rotation vectors, offsets, displacements", "why_tests_cant": "Identity over all rotations.", "anchors": ["src/lib/Mpc.cpp:RigidBodyMpc::update", "src/lib/solidmech.h:LeviCivita"]}
{"id": "C54", "title": "Node renumbering preserves incidence", "statement": "compressNumbers renumbers the nodes 1..n in file order: afterwards the k-th node has number k and every reference (cells, boundary conditions, MPCs, components) to a node still denotes the same node.", "quantifier": "all lists of distinct node numbers and all references to them", "why_tests_cant": "All numberings (gaps, permutations).", "anchors": ["src/lib/FEReaders.cpp:MeshData::compressNumbers", "src/main.cpp:main"]}
{"id": "C55", "title": "Component blocks are expanded correctly", "statement": "Reading a CMBLOCK yields the concatenation of its single numbers and of its ranges a..b written as 'a -b', in order, for every number of entries and every split into lines; reading terminates.", "quantifier": "all entry lists and line widths", "why_tests_cant": "All lengths, including more than 65535 entries.", "anchors": ["src/lib/FEReaders.cpp:readCdbFile"]}
{"id": "C56", "title": "Constraint equations are read completely", "statement": "A CE command with n terms, written two terms per line, is read as exactly those n terms.", "quantifier": "all n >= 1", "why_tests_cant": "All n.", "anchors": ["src/lib/FEReaders.cpp:readCdbFile"]}
{"id": "C57", "title": "Text helpers", "statement": "strim removes exactly the leading and trailing blanks; the tokenizer returns the maximal pieces between delimiters so that pieces and delimiters interleave back to the line; ssplit cuts a line into consecutive fields of the given widths and reports lines that end inside a field; iequals is case-insensitive equality, an equivalence relation.", "quantifier": "all strings, delimiter sets and width lists", "why_tests_cant": "All strings.", "anchors": ["src/lib/FEReaders.cpp:strim", "src/lib/FEReaders.cpp:Tokenizer::tokenize", "src/lib/FEReaders.cpp:ssplit", "src/lib/FEReaders.cpp:iequals"]}
{"id": "C58", "title": "Line reader accepts LF, CR and CRLF", "statement": "For every list of lines without line-break characters, a file in which each line is terminated by LF, CR or CRLF (the last one possibly unterminated) is read as exactly this list of lines.", "quantifier": "all lists of lines and terminators", "why_tests_cant": "All mixtures of terminators.", "anchors": ["src/lib/FEReaders.cpp:getLine"]}
{"id": "C59", "title": "Recorded reactions are the sums over the nodes", "statement": "After pre() and n processed steps getReactions(dof) returns n+1 numbers: 0 followed by, per step, the sum over the processor's nodes of the reaction of that DoF; if no DoFs were given, pre() selects exactly the DoFs that are used and constrained at all its nodes.", "quantifier": "all node lists, DoF lists, step histories", "why_tests_cant": "All histories and node lists.", "anchors": ["src/lib/ReactionProcessor.cpp:pre", "src/lib/ReactionProcessor.cpp:process", "src/lib/ReactionProcessor.cpp:getReactions"]}
{"id": "C60", "title": "VTK geometry section is consistent", "statement": "For every mesh built from the element types the factory can create, the CELLS header announces exactly the number of integers that follow, all point indices are in 0..nNodes-1, there is exactly one cell-type line per element and it agrees with the node count of the element.", "quantifier": "all meshes", "why_tests_cant": "All meshes.", "anchors": ["src/lib/VtkProcessor.cpp:write_geometry", "src/lib/elements/element.h:getNNodes", "src/lib/elements/ElementFactory.cpp:createElements"]}
{"id": "C61", "title": "Command-line helpers", "statement": "getCmdOption returns the argument following the first occurrence of the option (or nothing), cmdOptionExists reports its presence, getCmdManyOptions returns the maximal run of arguments after it that are not options (including negative numbers), npow(x,n) is x^n.", "quantifier": "all argument vectors", "why_tests_cant": "All argument vectors.", "anchors": ["src/lib/sys.cpp:getCmdOption", "src/lib/sys.cpp:getCmdManyOptions", "src/lib/sys.cpp:npow"]}
{"id": "C62", "title": "Solving again gives the same numbering", "statement": "Running solve() a second time on the same solver and storage (re-initialising the DoFs) produces the same equation numbering and counters as the first time.", "quantifier": "all models", "why_tests_cant": "Histories of more than one solve are not tested.", "anchors": ["src/lib/FESolver.cpp:LinearFESolver::solve", "src/lib/FEStorage.cpp:FEStorage::initDofs", "src/lib/FEStorage.cpp:FEStorage::setConstrainedNodeDof", "src/lib/FEStorage.cpp:FEStorage::assignEquationNumbers"]}
{"id": "C63", "title": "A storage can be cleared and reused", "statement": "After deleteMesh() the storage holds no nodes, elements, MPCs, collections or components and no dangling references; a subsequent deleteMesh() or destruction is safe.", "quantifier": "all storage contents", "why_tests_cant": "Lifetime property over all histories.", "anchors": ["src/lib/FEStorage.cpp:FEStorage::deleteMesh", "src/lib/FEStorage.cpp:FEStorage::deleteMpcs"]}
{"id": "C64", "title": "A dumped system compares equal to itself", "statement": "dumpMatricesAndVectors followed by compareMatricesAndVectors on the same solver state with the default threshold succeeds.", "quantifier": "all solver states", "why_tests_cant": "All real values.", "anchors": ["src/lib/FESolver.cpp:FESolver::dumpMatricesAndVectors", "src/lib/FESolver.cpp:FESolver::compareMatricesAndVectors", "src/lib/math/Vec.cpp:dVec::writeTextFormat"]}
{"id": "C65", "title": "Rebuilding an element gives the same equations", "statement": "Calling TETRA0's buildK again with unchanged material, temperature and nodes, after update() has reported a solution, assembles the same stiffness matrix and the same load as the first time.", "quantifier": "all non-degenerate tetrahedra, materials, temperatures and displacements", "why_tests_cant": "Histories of more than one build, all states.", "anchors": ["src/lib/elements/TETRA0.cpp:ElementTETRA0::buildK", "src/lib/elements/TETRA0.cpp:ElementTETRA0::update"]}
{"id": "C66", "title": "Interface strains are averages", "statement": "INTER3's update reports as strains the average over the triangle of the relative displacement of its two sides, and as stress the interface stiffness times it (INTER3.h calls both surface averaged).", "quantifier": "all non-degenerate triangles and displacements", "why_tests_cant": "All real geometries and displacements.", "anchors": ["src/lib/elements/INTER3.cpp:ElementINTER3::update", "src/lib/elements/INTER3.h:strains"]}
{"id": "C67", "title": "Hexahedral tangent is consistent", "statement": "The system SOLID81 assembles (Kuu, Kup, Kpp, Fu, Fp) after update() is the exact linearisation of its own residual: the derivative of (Fu, Fp) in any direction of displacements and pressure is minus the symmetric matrix times the direction; the residual is minus the gradient of the mixed potential sum w (W + p(J-1) - p^2/2k); the forces balance; without deformation and pressure there are none.", "quantifier": "all element shapes with non-zero Jacobians, all displacements that keep J non-zero, all pressures, all materials with consistent derivatives", "why_tests_cant": "A derivative identity over all states; tests compare a few load histories.", "anchors": ["src/lib/elements/SOLID81.cpp:ElementSOLID81::buildK", "src/lib/elements/SOLID81.cpp:ElementSOLID81::update"]}
{"id": "C68", "title": "Plane hyperelastic element", "statement": "PLANE41 stores the plane strain C = F^T F and the plane components of the stress of the material; the matrix it assembles is symmetric and is minus the exact derivative of the assembled forces, which are minus the gradient of the mixed potential and balance.", "quantifier": "all element shapes with non-zero Jacobians, all displacements that keep J non-zero, all pressures, all materials with consistent derivatives", "why_tests_cant": "A derivative identity over all states.", "anchors": ["src/lib/elements/PLANE41.cpp:ElementPLANE41::buildK", "src/lib/elements/PLANE41.cpp:ElementPLANE41::update"]}
{"id": "C69", "title": "Strain, stress and energy queries of the hyperelastic elements", "statement": "After update() the queries C, E, PK2, IC, WU and WP of SOLID81 and PLANE41 give F^T F, (F^T F - 1)/2, the second Piola-Kirchhoff stress, the invariants, the energy of shape change and the volumetric energy, added to the output with the requested scale, and averaged with volume weights for GP_MEAN.", "quantifier": "all deformation gradients, pressures and scales", "why_tests_cant": "All real states.", "anchors": ["src/lib/elements/SOLID81.cpp:ElementSOLID81::getTensor", "src/lib/elements/SOLID81.cpp:ElementSOLID81::getScalar", "src/lib/elements/PLANE41.cpp:ElementPLANE41::getTensor", "src/lib/elements/PLANE41.cpp:ElementPLANE41::getVector"]}
{"id": "C70", "title": "Mesh queries", "statement": "getDegeneratedCells returns, in order, exactly the indices of cells that contain a node twice; getCellsByAttribute returns, in order, exactly the indices of cells with the given value of the attribute.", "quantifier": "all meshes, attribute names and values", "why_tests_cant": "All meshes.", "anchors": ["src/lib/FEReaders.cpp:MeshData::getDegeneratedCells", "src/lib/FEReaders.cpp:MeshData::getCellsByAttribute"]}
{"id": "C71", "title": "A cdb file is read as the mesh it describes", "statement": "For a file that consists of any sequence of comments, unknown commands, NBLOCK, EBLOCK, D, F, CE, CMBLOCK, ET, TYPE and *SET commands in the documented formats, readCdbFile returns exactly the nodes, elements with attributes, fixed DoFs, loads, equations and components that the commands describe, in their order.", "quantifier": "all sequences of commands, field widths, numbers and line ends", "why_tests_cant": "All files; tests read a few.", "anchors": ["src/lib/FEReaders.cpp:readCdbFile"]}
{"id": "C72", "title": "A mesh read from a cdb file is consistent", "statement": "Whatever a file contains, if readCdbFile returns, then numbers and positions of nodes, and numbers, nodes and the six attributes of cells have equal lengths, numbers fit 32 bits and component names are unique; so the mesh queries do not read out of bounds.", "quantifier": "all files", "why_tests_cant": "All inputs, including malformed ones.", "anchors": ["src/lib/FEReaders.cpp:readCdbFile", "src/lib/FEReaders.h:MeshData"]}
{"id": "C73", "title": "Deformed node positions", "statement": "getNodePosition(n, ptr, deformed) gives the reference position of node n, and with deformed = true the reference position plus, in each coordinate direction, the solution of the translation DoF of that node if it is used.", "quantifier": "all prepared models, solution vectors, nodes", "why_tests_cant": "All meshes, DoF sets and real solutions.", "anchors": ["src/lib/FEStorage.cpp:FEStorage::getNodePosition", "src/lib/FEStorage.h:getNodeDofSolution"]}
{"id": "C74", "title": "All relevant results are revealed", "statement": "With writeAllResults, VtkProcessor::pre adds exactly the query codes that at least one element of the model answers, provided the relevance of a code depends only on the element type.", "quantifier": "all meshes, element answers and previously registered queries", "why_tests_cant": "All mixes of element types and orders of elements.", "anchors": ["src/lib/VtkProcessor.cpp:revealAllResults", "src/lib/VtkProcessor.cpp:pre"]}
{"id": "C75", "title": "The command line is read as its text describes", "statement": "For every command line that consists of a model file and options with their values, parse_args sets each option to its values (in order, in the stated type), refuses the line exactly when the material or the slaves of the rigid body are missing, gives the defaults to options that are not present, and does not depend on the order of the options; an option whose value is missing, or an unknown option, is refused.", "quantifier": "all command lines", "why_tests_cant": "Any list of strings is a command line.", "anchors": ["src/main.cpp:parse_args", "src/lib/sys.cpp:getCmdOption", "src/lib/sys.cpp:getCmdManyOptions"]}
{"id": "C76", "title": "Constants of the material", "statement": "The constants given on the command line reach the material in order; another number of constants than the material needs is refused.", "quantifier": "all materials and lists of constants", "why_tests_cant": "All lengths of the list.", "anchors": ["src/main.cpp:main"]}
{"id": "C77", "title": "Comparison with the reference curve", "statement": "compareCurves is the mean absolute difference of two curves of one length: zero exactly for equal curves, symmetric, and bounded by any uniform bound of the difference; curves of different lengths are refused.", "quantifier": "all curves over an ordered field", "why_tests_cant": "Curves of all lengths and values.", "anchors": ["src/main.cpp:compareCurves"]}
{"id": "C78", "title": "The reference curve is the third column", "statement": "readRefCurveData returns the third column of a table whose third name is force, refuses tables with another name, and always ends.", "quantifier": "all tables, all values, with or without a newline at the end", "why_tests_cant": "All numbers of rows and values; malformed tables.", "anchors": ["src/main.cpp:readRefCurveData"]}
{"id": "C79", "title": "Names of output files", "statement": "getFileNameFromPath removes the extension of a path and nothing else.", "quantifier": "all paths", "why_tests_cant": "All strings.", "anchors": ["src/lib/sys.cpp:getFileNameFromPath", "src/main.cpp:main"]}
{"id": "C80", "title": "Assembly of the elements with a pressure of their own", "statement": "SOLID81's assemble3 and PLANE41's assembleK add the bordered element matrix [[Kuu, Kup], [Kup^T, Kpp]] and the element vector [Fu; Fp] to the global matrix and the load vector at the equations of the nodal displacements and of the element's pressure, every entry exactly once, and change nothing else; a matrix of another size is refused.", "quantifier": "all prepared models, all elements with distinct nodes, all symmetric element matrices and vectors", "why_tests_cant": "All meshes, numberings and real values.", "anchors": ["src/lib/elements/SOLID81.h:assemble3", "src/lib/elements/PLANE41.h:assembleK"]}
{"id": "C81", "title": "The Newton matrix is the derivative of the residual", "statement": "For every model made of SOLID81 and PLANE41 elements, one pass of the nonlinear solver (update of all elements with the current unknowns, then building all elements) adds to the stiffness matrix exactly minus the derivative of what it adds to the load vector, in every direction of the unknowns; the matrix is symmetric, and both depend on the current unknowns only, not on earlier states of the elements.", "quantifier": "all meshes of the two elements, material constants, unknowns and earlier states, for which the displaced elements are not degenerate at an integration point", "why_tests_cant": "A wrong sign or index in one entry of a tangent only slows the convergence of the iterations; all states and directions.", "anchors": ["src/lib/elements/SOLID81.cpp:buildK,update", "src/lib/elements/PLANE41.cpp:buildK,update", "src/lib/FEStorage.cpp:updateResults,assembleGlobalEqMatrices", "src/lib/FESolver.cpp:NonlinearFESolver::solve"]}
{"id": "C82", "title": "The quadrature tables integrate polynomials", "statement": "The three tables of the line, the square and the cube integrate every polynomial of degree at most 1, 3 and 5 in each variable over the reference element, up to 1e-15 (2e-15) times the sum of the absolute values of its coefficients; the volume of every quadrilateral is its area, exactly for the orders 1 and 2.", "quantifier": "all polynomials of the degree, all orders, all quadrilaterals with non-zero Jacobian at the points", "why_tests_cant": "A wrong sign or digit in one of 60 tabulated points changes results by little; all polynomials.", "anchors": ["src/lib/elements/isoparametric.h:_quad_line_o1", "src/lib/elements/isoparametric.h:_quad_quad_o3", "src/lib/elements/isoparametric.h:_quad_hexahedron_o3", "src/lib/elements/isoparametric.cpp:volume"]}
{"id": "C83", "title": "A solved linear model is in balance at every degree of freedom", "statement": "After LinearFESolver::solve returns, getNodeDofSolution and getReaction satisfy: prescribed values and constraint equations hold, free DoFs carry the applied loads, and at every DoF the forces of the elements (element matrix times displacements minus element load) plus those of the constraint equations equal the reported value (load or reaction). For a truss: at every joint the forces of the bars, cross section times the stress that ElementTRUSS3::update computes, along the bar, add up to load plus reaction.", "quantifier": "all legal models (registrations, numberings, meshes, constraint equations) of linear elements with symmetric matrices, all loads, all prescribed values that are zero or larger than 1e-20, every exact equation solver", "why_tests_cant": "All meshes, numberings, boundary conditions and real values; a wrong sign or a lost contribution in rarely used combinations (a load on a node shared by elements and a constraint equation) is not seen by a few reference results.", "anchors": ["src/lib/FESolver.cpp:LinearFESolver::solve", "src/lib/FEStorage.cpp:assembleGlobalEqMatrices", "src/lib/FEStorage.cpp:FEStorage::getReaction", "src/lib/elements/element.h:assembleK", "src/lib/elements/TRUSS3.cpp:update"]}
{"id": "C84", "title": "Virtual work, resultants and energy of a solved model", "statement": "After LinearFESolver::solve returns: the reported loads and reactions do on every virtual displacement that obeys the homogeneous constraint equations the work of the internal forces. In models of TRUSS3 and TETRA0 elements, with any initial strains and temperatures, they do no work on rigid motions, so without constraint equations their resultant force and resultant moment vanish. For a truss the work on the displacements themselves is the sum of EA/L times the squared elongations.", "quantifier": "all legal models, loads, prescribed values that are zero or larger than 1e-20, every exact equation solver; all node positions with bars of non-zero length and tetrahedra of non-zero volume", "why_tests_cant": "Global conservation laws over all meshes and loads.", "anchors": ["src/lib/FESolver.cpp:LinearFESolver::solve", "src/lib/FEStorage.cpp:FEStorage::getReaction", "src/lib/elements/TRUSS3.cpp:buildK", "src/lib/elements/TETRA0.cpp:buildK"]}
{"id": "C85", "title": "The reported solution is the only one; free expansion and rigid motion", "statement": "If LinearFESolver::solve with the Gauss solver returns, every displacement field that meets the prescribed values, the constraint equations, the loads and the balance at every DoF (with some multipliers) is the reported one. So supports moved by an infinitesimal rigid motion move the whole unloaded structure of bars and tetrahedra by it, without reactions, and uniformly heated tetrahedra on supports that do not hinder it report exactly the free thermal expansion and zero reactions.", "quantifier": "all legal models, meshes, prescribed values that are zero or larger than 1e-20, materials", "why_tests_cant": "All meshes; patch tests use a few.", "anchors": ["src/lib/FESolver.cpp:LinearFESolver::solve", "src/lib/math/EquationSolver.cpp:GaussDenseEquationSolver::solveEquations", "src/lib/elements/TETRA0.cpp:buildK", "src/lib/elements/TRUSS3.cpp:buildK"]}
{"id": "C86", "title": "Superposition and reciprocity of linear solutions", "statement": "For a model without element loads and with homogeneous constraint equations: if the loads and prescribed values of one run are a linear combination of those of two other runs, so are the reported displacements and reactions; and for any two runs, with any loads and any sets of prescribed DoFs, the loads and reactions of the first do on the displacements of the second the same work as those of the second on the displacements of the first (Betti).", "quantifier": "all legal models, loads, prescribed values that are zero or larger than 1e-20, factors", "why_tests_cant": "Relations between runs with different numberings and boundary conditions.", "anchors": ["src/lib/FESolver.cpp:LinearFESolver::solve", "src/lib/FEStorage.cpp:FEStorage::assembleGlobalEqMatrices"]}
{"id": "C87", "title": "Balance of heat and direction of its flow in a solved model", "statement": "After LinearFESolver::solve returns on a model of QUADTH and SurfaceLINETH elements, the heat supplied at the nodes (loads and reported reactions) plus the sources in the volume plus flux and convection on the surfaces at the reported temperatures add up to zero; without sources, in surroundings of one temperature that is prescribed somewhere, the reported temperature is uniform and no heat flows; without sources the product of supplied heat and temperature, summed over the nodes, is not negative (heat flows from hot to cold). The same for TETRA1 elements.", "quantifier": "all legal models, meshes with positive Jacobians, non-negative conductivities, sources, fluxes, film coefficients, loads, prescribed temperatures that are zero or larger than 1e-20", "why_tests_cant": "Global conservation over all meshes and loads; the direction of the flow is not seen when all temperatures are prescribed.", "anchors": ["src/lib/elements/QUADTH.cpp:buildK", "src/lib/elements/TETRA1.cpp:buildK", "src/lib/FESolver.cpp:LinearFESolver::solve", "src/lib/FEStorage.cpp:FEStorage::getReaction"]}
{"id": "C88", "title": "Patch test", "statement": "If LinearFESolver::solve with the Gauss solver returns on a mesh of TETRA0 elements (of TETRA1 elements, of QUADTH elements of any shape) without loads, the prescribed values are those of a linear field, every node with a free DoF lies inside the mesh (the faces opposite to it close up), and the field gives the same stress (flux) in all elements, then the reported value at every node is that of the linear field, and the strains and stresses computed from the reported displacements are those of the field.", "quantifier": "all meshes (any number and arrangement of non-degenerate elements), linear fields, prescribed values that are zero or larger than 1e-20, admissible materials, initial strains and temperatures, integration orders", "why_tests_cant": "The patch test is the classical condition for convergence; a test looks at one small patch.", "anchors": ["src/lib/elements/TETRA0.cpp:buildK", "src/lib/elements/TETRA1.cpp:buildK", "src/lib/elements/QUADTH.cpp:buildK", "src/lib/FESolver.cpp:LinearFESolver::solve"]}
{"id": "C89", "title": "Netgen neutral files are read as written", "statement": "Every mesh of points, tetrahedra with subdomain numbers and labelled boundary triangles, written in the neutral format with any white space and any notation of the numbers, is read back exactly: nodes numbered from one in file order with their coordinates, cells numbered from one with their nodes and material, and for each label one component, of type NODES, with the nodes of the triangles of that label in file order.", "quantifier": "all meshes whose numbers fit the variables, all layouts of the file", "why_tests_cant": "All files of the format.", "anchors": ["src/lib/FEReaders.cpp:readNeuFile"]}
{"id": "C90", "title": "Damaged neutral files are refused", "statement": "If a neutral file cannot be opened, ends too early or contains something else where a number is expected, readNeuFile returns false.", "quantifier": "all meshes and all places at which the file is cut", "why_tests_cant": "Every place of every file.", "anchors": ["src/lib/FEReaders.cpp:readNeuFile"]}
{"id": "C91", "title": "The program solves the model of the file", "statement": "From the mesh data of a file and the options, main sets up exactly the model they describe: the constants of the material, the nodes at their positions, an element of the chosen type for every cell with its nodes, the constraint equations, loads, fixed DoFs, the component for reactions and the rigid body with its master and slave nodes, all node numbers of the file replaced by numbers from one in the order of the file; a component that is not there, or does not consist of nodes, is refused.", "quantifier": "all mesh data that readCdbFile may return with distinct node numbers, all options", "why_tests_cant": "Files whose nodes are numbered from one without gaps hide a missing translation of numbers.", "anchors": ["src/main.cpp:main", "src/lib/FEReaders.cpp:MeshData::compressNumbers"]}
{"id": "C92", "title": "Table of reactions and exit code", "statement": "After the solution main prints, for every load step and every selected DoF, the sum of the reactions over the nodes of the component, and exits with 1 exactly when a reference curve is given and has another length or differs by more than the threshold, with 0 otherwise.", "quantifier": "all models, solutions, load steps, reference curves and thresholds", "why_tests_cant": "All histories and curves; the exit code is what automated comparisons see.", "anchors": ["src/main.cpp:main", "src/lib/ReactionProcessor.cpp:ReactionProcessor::getReactions"]}
{"id": "C93", "title": "Constraint equations hold in nonlinear solutions", "statement": "When NonlinearFESolver::solve ends, the solution satisfies every constraint equation sum coef*u = b that was added to the model (equations that are not rewritten by a collection).", "quantifier": "all legal models, constraint equations, loads, numbers of load steps and iterations", "why_tests_cant": "All models and numbers of iterations; the usual tests use equations with right-hand side 0.", "anchors": ["src/lib/FEStorage.cpp:assembleGlobalEqMatrices", "src/lib/FESolver.cpp:NonlinearFESolver::solve", "src/lib/Mpc.h:Mpc"]}
{"id": "C94", "title": "The nonlinear solver performs Newton's method on hyperelastic models", "statement": "For a model of SOLID81 and PLANE41 elements every iteration of NonlinearFESolver is a step of Newton's method: with the residual assembled from the current state, the increments solve the linearised equilibrium exactly, with the matrix that is minus the derivative of the residual; constrained DoFs get their prescribed values, loads the current time; the elements are updated with the new unknowns, and the element loop makes exactly these additions. A step without increments was made from a state of equilibrium.", "quantifier": "all models of SOLID81 and PLANE41 elements with consistent materials, constraints, loads, fixes, and all states the solver can reach", "why_tests_cant": "All models, materials and states; a wrong derivative only slows convergence, which tests on converged results do not show.", "anchors": ["src/lib/FESolver.cpp:NonlinearFESolver::solve", "src/lib/FEStorage.cpp:assembleGlobalEqMatrices", "src/lib/FEStorage.cpp:updateResults", "src/lib/elements/SOLID81.cpp:ElementSOLID81::buildK", "src/lib/elements/PLANE41.cpp:ElementPLANE41::buildK"]}
{"id": "C95", "title": "Linear models in the nonlinear solver", "statement": "When NonlinearFESolver::solve ends on a model of linear elements (TRUSS3, TETRA0, TETRA1, TRIANGLE4, QUADTH, ...), the displacements are those of LinearFESolver::solve for the same model, for any number of load steps.", "quantifier": "all legal models of linear elements, loads, prescribed values, constraint equations, numbers of load steps and iterations", "why_tests_cant": "All models; existing tests run linear elements with the linear solver only, though main chooses the nonlinear solver for every element type.", "anchors": ["src/lib/FESolver.cpp:NonlinearFESolver::solve", "src/main.cpp:main", "src/lib/elements/TRUSS3.cpp:buildK"]}
{"id": "C96", "title": "Plates of triangles", "statement": "If LinearFESolver::solve returns on a model of TRIANGLE4 elements, the resultant force and moment of the reported loads and reactions vanish. If a mesh of any shape is loaded at its free DoFs by the forces of a uniform stress on its boundary and supported by values that agree with the displacement field t + H x whose strains are those of the stress by Hooke's law, the reported displacements are t + H x, the reported reactions the forces of the stress on the boundary; in plane strain and in plane stress.", "quantifier": "all meshes of non-degenerate triangles, admissible materials, stresses, supports, numbers of free DoFs", "why_tests_cant": "Tests solve single meshes; the claim is about every mesh and every stress.", "anchors": ["src/lib/elements/TRIANGLE4.cpp", "src/lib/FESolver.cpp:LinearFESolver::solve", "src/lib/FEStorage.cpp:assembleGlobalEqMatrices"]}
{"id": "C97", "title": "Files of a run and tables of shapes", "statement": "After a run of n load steps the disk has, for each i from 0 to n, the file base+i+.vtk with what was written in step i (0: before the solution), and no other file is touched; the tables of element.h give every shape the number of nodes and the dimension of its cell.", "quantifier": "all base names, contents, numbers of steps, earlier files, shapes", "why_tests_cant": "All numbers of steps; a test cannot run 65536 load steps.", "anchors": ["src/lib/VtkProcessor.cpp:VtkProcessor::pre", "src/lib/VtkProcessor.cpp:VtkProcessor::process", "src/lib/elements/element.h:_shape_dim", "src/lib/elements/element.h:_shape_nnodes"]}
{"id": "C98", "title": "Increments reported by the time control", "statement": "After any number of load steps the values of getCurrentTimeDelta (getCurrentNormalizedTimeDelta) seen in all equilibrium iterations add up to the current time (normalised time); at the end to the end time (to 1); the counters give the number of converged steps and of all iterations modulo 65536.", "quantifier": "all positive increments and end times, all numbers of load steps, all numbers of iterations from 1 to 65535", "why_tests_cant": "Elements that add increments in every iteration rely on it; all patterns of iterations.", "anchors": ["src/lib/FESolver.cpp:TimeControl::getCurrentTimeDelta", "src/lib/FESolver.cpp:TimeControl::getCurrentNormalizedTimeDelta", "src/lib/FESolver.cpp:TimeControl::getNumberOfConvergedSteps", "src/lib/FESolver.cpp:TimeControl::getTotalNumberOfEquilibriumSteps"]}
{"id": "C99", "title": "Rigid bodies stay rigid in nonlinear solutions", "statement": "Every iteration of NonlinearFESolver on a model with rigid bodies (RigidBodyMpc) makes a Newton step on the condition u_slave = u_master + (C(theta)-1)(x_slave-x_master); when solve ends, the reported displacements of each slave node are those of the rigid rotation of the master up to (1e-9 + 54*cc^2*nUnknown) times the sum of the absolute components of the arm, and the distances between slave nodes of one body have changed by no more than six times that bound.", "quantifier": "all legal models, rigid bodies, slave nodes, loads, states the solver can reach, all rotation angles (for the Newton step: zero or at least 1e-3)", "why_tests_cant": "All models and rotations; the equations are rewritten after every iteration, a mix-up of bodies, nodes or components in the rewriting shows only in models with several bodies or general rotations.", "anchors": ["src/lib/Mpc.cpp:RigidBodyMpc::pre", "src/lib/Mpc.cpp:RigidBodyMpc::update", "src/lib/FEStorage.cpp:assembleGlobalEqMatrices", "src/lib/FESolver.cpp:NonlinearFESolver::solve"]}
{"id": "C100", "title": "The nonlinear solver looks for stationary points of the potential energy", "statement": "For a model of SOLID81 and PLANE41 elements the vector the elements assemble is minus the gradient, and the matrix they assemble the second derivative, of one potential of all unknowns: the sum over the integration points of w det (W + p (J - 1) - p^2/(2k)). In every iteration the derivative of the potential energy (that potential minus the work of the loads at the current time) in any direction that respects fixes and constraint equations is minus the second derivative in this direction and the direction of the increments. So an iteration that changes no DoF was made from a stationary point of the potential energy, and the reactions are the derivatives of the potential by the fixed DoFs.", "quantifier": "all models of SOLID81 and PLANE41 elements with consistent materials, constraints, loads, fixes, all states the solver can reach in which the displaced elements are not degenerate, all directions", "why_tests_cant": "All models, states and directions; forces that are not the gradient of an energy create or destroy energy in closed cycles, which no test of single solutions shows.", "anchors": ["src/lib/elements/SOLID81.cpp:ElementSOLID81::buildK", "src/lib/elements/PLANE41.cpp:ElementPLANE41::buildK", "src/lib/FEStorage.cpp:assembleGlobalEqMatrices", "src/lib/FESolver.cpp:NonlinearFESolver::solve"]}
{"id": "C101", "title": "The program follows the load path of the model and reports its reactions", "statement": "Started with options and a cdb file that describe a model of SOLID81 or PLANE41 elements with one of the three materials, loads, prescribed values, constraint equations and a rigid body, the program performs all load steps, or it stops with an error message after some of them, and then a row of the matrix would have over 100 entries, or Newton's method from the end of the last finished step meets a degenerate element, nearly singular or too many equations, a mean increment over 1000, or the limit of iterations; each load step is a sequence of steps of Newton's method for the potential energy of the model (nodes, cells, constants, loads and constraints as in the file), in which prescribed values are proportional to time, constraint equations hold for the increments and the rigid body is linearised, and ends with the first step whose mean increment is below 1e-6; the printed table has for each load step the sums of the reactions of that step, and the exit code is the comparison of its first column with the reference curve.", "quantifier": "all command lines made of options and values, all cdb files made of the known commands, all complete models; all numbers of nodes, elements, constraints, load steps and iterations", "why_tests_cant": "All models and files; no test sees the connection from the text of the file to the equations that are solved.", "anchors": ["src/main.cpp:main", "src/lib/FESolver.cpp:NonlinearFESolver::solve", "src/lib/FEReaders.cpp:readCdbFile", "src/lib/elements/SOLID81.cpp", "src/lib/elements/PLANE41.cpp", "src/lib/Mpc.cpp:RigidBodyMpc", "src/lib/ReactionProcessor.cpp"]}
{"id": "C102", "title": "Transient heat conduction", "statement": "When LinearTransientFESolver::solve ends, the reported temperatures are those of Newmark's method for C T' + K T = F, started from the initial temperature without rates: at every free DoF after every step, capacity times rate plus what the elements take equals the load; no other history is possible. With the default parameters every step is the trapezoidal rule, so the heat in a body of QUADTH elements without prescribed temperatures changes by exactly what loads, sources and surfaces supply; without supply it is conserved, the uniform temperature stays, and the integral of the squared temperature never grows.", "quantifier": "all meshes of QUADTH and SurfaceLINETH elements with positive Jacobians, all materials, loads, initial temperatures, numbers and lengths of steps; delta = 1/2; values of 1e-20 and less that the product routine drops are excluded", "why_tests_cant": "Conservation over all meshes and histories; a loss of heat in the first step looks like a discretisation error.", "anchors": ["src/lib/FESolver.cpp:LinearTransientFESolver::solve", "src/lib/elements/QUADTH.cpp:buildC", "src/lib/FEStorage.cpp:assembleGlobalEqMatrices", "src/lib/elements/element.cpp:buildM"]}
{"id": "C103", "title": "Damaged cdb files are refused", "statement": "If a cdb file ends inside a block of nodes, elements or a component, has text that is not a format in the line after the header of a block, or a line in a block that ends inside a field or is blank, readCdbFile stops with a message and returns no mesh.", "quantifier": "all files that are correct up to the damage: all commands before it, all formats, lines and places", "why_tests_cant": "All places of all files; test files are complete.", "anchors": ["src/lib/FEReaders.cpp:readCdbFile", "src/lib/FEReaders.cpp:ssplit", "src/lib/FEReaders.cpp:sfirstNotBlank"]}
{"id": "C104", "title": "Reactions of transient solutions", "statement": "After every time step of LinearTransientFESolver the value that getReaction reports at a DoF is what has to be supplied there: capacity times rate plus what the elements take; at free DoFs that is the load, at DoFs with prescribed temperature the heat that is needed to hold it.", "quantifier": "all models, loads, prescribed values, numbers of steps", "why_tests_cant": "All models; the tests of the transient solver look at temperatures only.", "anchors": ["src/lib/FESolver.cpp:LinearTransientFESolver::solve", "src/lib/FEStorage.cpp:FEStorage::getReaction"]}
{"id": "C105", "title": "The files of the program show the solution", "statement": "A run of the program that ends normally and writes files leaves exactly the files base0.vtk ... basen.vtk, base being the path of the model without extension, for the state before and after each of the n load steps. Read by the rules of the format, each file has the nodes and cells of the model, at every node displacements and reactions of that moment (and rotations with a rigid body), and for every element its pressure and the means over the element of pressure, strain energy, energy of compression, volume, invariants, Cauchy stress, second Piola-Kirchhoff stress, Green strain and right Cauchy-Green tensor.", "quantifier": "all models of SOLID81 and PLANE41 elements, materials, loads, constraints, rigid bodies, numbers of load steps", "why_tests_cant": "All models and states; tests compare reactions and do not look into the files.", "anchors": ["src/main.cpp:main", "src/lib/VtkProcessor.cpp:VtkProcessor::revealAllResults", "src/lib/VtkProcessor.cpp:VtkProcessor::process", "src/lib/elements/SOLID81.cpp:getScalar", "src/lib/elements/SOLID81.cpp:getVector", "src/lib/elements/SOLID81.cpp:getTensor", "src/lib/elements/PLANE41.cpp:getVector"]}
{"id": "C106", "title": "The answer depends on the model, not on numbering and order", "statement": "If values and reactions for all load steps satisfy the equations of Newton's method for a model, in steps that start from elements that are not degenerate, away from rotations of the rigid body where its equations change form and without increments of fixed DoFs between 0 and 1e-20, then every finished run of the program for this model, or for any model that differs from it in numbers of nodes and elements and in the order of elements, loads, fixes, constraint equations, their terms, slave nodes and nodes of the report only, prints the table and returns the exit code of these values, and its files show them at the new numbers; two such runs agree.", "quantifier": "all models of SOLID81 and PLANE41 elements, materials, loads, constraints, rigid bodies, all renumberings and reorderings", "why_tests_cant": "All models and permutations; tests use one numbering of each model, in which equation numbers, DoF numbers and node numbers agree more often than in general.", "anchors": ["src/main.cpp:main", "src/lib/FESolver.cpp:NonlinearFESolver::solve", "src/lib/FEStorage.cpp:initSolutionData", "src/lib/FEStorage.cpp:assembleGlobalEqMatrices", "src/lib/math/EquationSolver.cpp:GaussDenseEquationSolver::solveEquations", "src/lib/ReactionProcessor.cpp"]}
{"id": "C107", "title": "A model that is carried along is not strained", "statement": "If all fixed DoFs are moved as by one translation (components 0 or over 1e-15), there are no loads and the constraint equations are homogeneous and hold for translations, every finished run of the program reports zero forces in every load step, and its files show after step i of n the part i/n of the translation at all nodes of elements, no reactions, and elements with pressure, energies, Cauchy and Piola-Kirchhoff stress and Green strain zero.", "quantifier": "all models of SOLID81 and PLANE41 elements, materials, constraints, rigid bodies, translations, numbers of load steps", "why_tests_cant": "All models; a term that does not vanish at rest (or depends on positions of nodes) hides among the forces of a loaded model.", "anchors": ["src/main.cpp:main", "src/lib/FESolver.cpp:NonlinearFESolver::solve", "src/lib/elements/SOLID81.cpp:buildK,update,getScalar,getTensor", "src/lib/elements/PLANE41.cpp:buildK,update", "src/lib/materials/materials_hyperelasticity.cpp"]}
{"id": "C108", "title": "The direct solver of MKL is used inside its contract", "statement": "Whatever PARDISO computes inside its documented contract: every history of calls on a PARDISO_equationSolver whose matrices have one legal structure and whose back substitutions use the latest factored matrix stays inside the contract up to the destructor, stops only if the library reports an error, and each call delivers what the library computes for its own matrix and right-hand side. The matrix the solvers hand over is a legal PARDISO matrix, and LinearFESolver with PARDISO delivers the solution of the model.", "quantifier": "all behaviours of the library, histories of calls, models", "why_tests_cant": "All histories and all structures; the tests do not check the arrays against the manual, and a missing diagonal entry may go unnoticed by luck.", "anchors": ["src/lib/math/EquationSolver.cpp:PARDISO_equationSolver", "src/lib/FEStorage.cpp:FEStorage::initSolutionData", "src/lib/math/BlockSparseMatrix.h:BlockSparseSymMatrix", "src/lib/FESolver.cpp:LinearFESolver::solve"]}
{"id": "C109", "title": "Which linear models are solved and which are refused", "statement": "LinearFESolver::solve with the Gauss solver solves every model without constraint equations that is properly supported: its elements do positive work on every displacement of the free DoFs that is not zero (for a truss with positive EA: no displacement of the free DoFs leaves all bar lengths unchanged). It stops on every model with a mechanism, whatever the loads are. It stops only if the preparation does, for 1000 equations or more, or if some direction of the free DoFs and multipliers meets forces below 1e-20 only.", "quantifier": "all legal models of linear elements, meshes, supports, loads, units", "why_tests_cant": "All models; a test has one unit of force, and a threshold that depends on units is not seen in it.", "anchors": ["src/lib/FESolver.cpp:LinearFESolver::solve", "src/lib/math/EquationSolver.cpp:GaussDenseEquationSolver::_solve", "src/lib/elements/TRUSS3.cpp:buildK"]}
{"id": "C110", "title": "What the truss program reports", "statement": "The truss program (main_truss.cpp), with any tables of nodes, bars of non-zero length, supports and loads, reports the displacements, the forces at the nodes (reactions and loads) and the stresses of the bars in the equilibrium of the truss, which is then the only equilibrium: at every joint the bars hold the load or the reaction, supports keep their displacements, stress is E times elongation by length. The file truss2D0.vtk shows the truss without displacements, truss2D1.vtk the same truss with these displacements and forces as fields, and there are no other files. Otherwise the program stops with a fatal error, and only if all displacements are given, a node has more than 32 neighbours, 1000 displacements or more are unknown, or some admitted displacement of 1 meets forces below 1e-20 only; a truss that is a mechanism is always refused. With the tables of the code the program ends, all checks pass and the results are the exact ones. The checks compare results with reference values, and truss2D1.vtk shows the deformed model (both do not hold: see the violated theorems).", "quantifier": "All tables (any number of nodes and bars, any real coordinates, moduli, supports, loads)", "why_tests_cant": "The program runs with one set of tables and compares six numbers, without absolute value.", "anchors": ["src/main_truss.cpp:14-126", "src/lib/elements/TRUSS3.cpp:9-97", "src/lib/FESolver.cpp:337-397", "src/lib/VtkProcessor.cpp:15-67"]}
{"id": "C111", "title": "Long transient runs approach the steady solution", "statement": "For a model without constraint equations whose capacities and conductivities do positive work on every change of the free values, the default parameters of LinearTransientFESolver and any length of the time step: what the solver reports after step i differs from what LinearFESolver reports for the same model by at most a constant times the i-th power of a factor below one; constant and factor do not depend on the number of steps.", "quantifier": "all models, loads, prescribed values, initial values, lengths and numbers of time steps", "why_tests_cant": "All numbers of steps: a test has one end time. The model of the only test of the transient solver has no prescribed values, so a missing term does not show.", "anchors": ["src/lib/FESolver.cpp:LinearTransientFESolver::solve", "src/lib/FESolver.cpp:LinearFESolver::solve"]}
{"id": "C112", "title": "One PARDISO object serves a whole nonlinear or transient run", "statement": "NonlinearFESolver and LinearTransientFESolver keep one PARDISO_equationSolver for all load steps, iterations and time steps: the structure of the matrix is analysed in the first call, later calls pass new values (nonlinear) or the factors of the first call (transient). Whatever PARDISO computes inside its contract, on every model the run stays inside the contract and goes as if every call were made on a new object; it is the run of an exact equation solver, and the object can be destroyed afterwards.", "quantifier": "all behaviours of the library, models, loads, numbers of load steps, iterations and time steps", "why_tests_cant": "All histories of a solver object together with all models; a structure that changes between iterations would show by luck only.", "anchors": ["src/lib/FESolver.cpp:NonlinearFESolver::solve", "src/lib/FESolver.cpp:LinearTransientFESolver::solve", "src/lib/math/EquationSolver.cpp:PARDISO_equationSolver"]}
{"id": "C113", "title": "Post-processors are numbered, called and deleted as their interface says", "statement": "The post-processors added to a solver get the numbers 1, 2, ... returned by addPostProcessor, and getPostProcessor(i) finds number i+1. In every solution that comes to its end each active post-processor gets pre, then process for the steps 1..n in order, then post with the last step, every moment for all post-processors in the order of adding; one that is not active gets no call. getStatus tells whether it is active and whether it failed, and deletePostProcessors destroys all of them.", "quantifier": "all lists of post-processors, all models, all numbers of load and time steps, all three solvers", "why_tests_cant": "Any number of processors and steps; undefined behaviour of a destructor usually does not show.", "anchors": ["src/lib/PostProcessor.h:PostProcessor", "src/lib/PostProcessor.cpp:PostProcessor::getStatus", "src/lib/FESolver.cpp:FESolver::addPostProcessor", "src/lib/FESolver.cpp:FESolver::deletePostProcessors"]}
{"id": "C114", "title": "Near a regular equilibrium the nonlinear solver converges", "statement": "For models of SOLID81 and PLANE41 elements with smooth materials and with constant homogeneous constraint equations or none: the assembled forces are the gradient of the potential and the assembled matrix is their derivative. Around every regular equilibrium there is a distance within which one iteration halves the distance to the equilibrium, and a load step that starts there ends by its own test, with an error bounded by the test. Along a path of regular equilibria that starts at rest, with enough load steps, the solver makes all of them and ends as near to the equilibrium at the full load as is wanted, for every number of iterations allowed, unless the equation solver refuses a matrix; Gauss elimination with fewer than 1000 equations and a margin above 1e-20 refuses none.", "quantifier": "all models of these elements, all equilibrium paths, all tolerances, all numbers of load steps above a bound, all end times", "why_tests_cant": "Convergence is a statement about all starting points in a neighbourhood and all numbers of load steps; a test shows one run.", "anchors": ["src/lib/FESolver.cpp:NonlinearFESolver::solve", "src/lib/elements/SOLID81.cpp:ElementSOLID81::buildK", "src/lib/elements/PLANE41.cpp:ElementPLANE41::buildK", "src/lib/math/EquationSolver.cpp:GaussDenseEquationSolver::_solve"]}
{"id": "C115", "title": "Elements answer queries with what the names of the queries say", "statement": "getScalar, getVector and getTensor of TETRA0, TETRA1, INTER0, INTER3 and of elements without answers of their own: asked for a quantity that the element knows, the element adds scale times this quantity and returns true; asked for another, it returns false and adds nothing. VOL is the volume, FLUX the heat flux, GRADT the gradient of the temperature, E the strain, C the tensor of Cauchy-Green, TSTRAIN the strain by heat. registerResults passes exactly for codes between UNDEF and LAST. With writeAllResults the fields of a file are exactly those that some element knows, and a field shows a line for every element, 0 for an element that does not know it.", "quantifier": "all non-degenerate tetrahedra, all linear fields of temperature and displacement, all elastic constants, all codes, scales and accumulated values, all lists of elements", "why_tests_cant": "The shipped tests never ask for a gradient, a scale other than 1 or an unknown code, and writeAllResults is commented out in the test of TETRA0.", "anchors": ["src/lib/elements/element.h:118-131", "src/lib/elements/TETRA0.cpp:getScalar", "src/lib/elements/TETRA0.cpp:getTensor", "src/lib/elements/TETRA1.cpp:getVector", "src/lib/elements/INTER0.cpp:getTensor", "src/lib/elements/INTER3.cpp:getTensor", "src/lib/VtkProcessor.cpp:revealAllResults", "src/lib/VtkProcessor.cpp:registerResults"]}
{"id": "C116", "title": "The rules of INTER3 integrate over triangles", "statement": "On every non-degenerate triangle the points and weights of radoIntL1, radoIntL2, radoIntL3 and radoIntWeight, with the determinant of makeJacob, integrate every polynomial of degree at most five in the triangle coordinates up to the ten digits of the table. The tables of first to fifth order behind intL1, intL2, intL3 and intWeight integrate every polynomial of degree one to five, and nOfIntPoints is the number of their points.", "quantifier": "all non-degenerate triangles in space, all polynomials of the degree in three variables, all five tables", "why_tests_cant": "A wrong constant among 25 tabulated points; the tables of intWeight are used by no test.", "anchors": ["src/lib/elements/INTER3.h:_triangle_o1", "src/lib/elements/INTER3.h:_triangle_o3", "src/lib/elements/INTER3.h:_triangle_o5", "src/lib/elements/INTER3.h:_rado_o3", "src/lib/elements/INTER3.h:intWeight", "src/lib/elements/INTER3.h:radoIntWeight", "src/lib/elements/INTER3.h:nOfIntPoints"]}
{"id": "C117", "title": "A dMat is a matrix of its own", "statement": "In every program that constructs, copies, assigns, resizes, writes, fills and destroys dMat objects, every object holds its own matrix: copies are independent of their originals, nothing leaks, is freed twice or used after it was freed, and the program fails exactly for indices outside of a matrix. m[i][j] reads the element, toMat and toVec return the matrix and its columns, cpMat and cpVec replace a corner and a part of a column, and operator<< writes the elements to its stream.", "quantifier": "all sequences of statements on any number of objects, all sizes, all values, all indices", "why_tests_cant": "Aliasing and ownership errors appear in sequences of several objects; the orders of evaluation are chosen by the compiler.", "anchors": ["src/lib/math/Mat.h:dMat", "src/lib/math/Mat.h:dMat_interface", "src/lib/math/Mat.h:toMat", "src/lib/math/Mat.h:toVec", "src/lib/math/Mat.h:cpMat", "src/lib/math/Mat.h:cpVec", "src/lib/math/Mat.cpp:operator<<"]}
{"id": "C118", "title": "Transient solutions keep the balance of energy", "statement": "With the default parameters (alpha = 1/4, delta = 1/2) every time step of LinearTransientFESolver balances the energy: the kinetic energy and the strain energy after the step plus what damping dissipates in the step equal the energy before the step plus the work of the forces. With damping that dissipates, the energy together with the potential of the forces therefore never grows, however long the steps are; without forces the energy itself does not.", "quantifier": "all meshes, elements, constraint equations, loads, step lengths and numbers of steps", "why_tests_cant": "Growth of energy may need many steps or particular ratios of step length and period to become visible; tests compare a few curves.", "anchors": ["src/lib/FESolver.cpp:LinearTransientFESolver::solve", "src/lib/FESolver.h:LinearTransientFESolver"]}
{"id": "C119", "title": "The tokenizer cuts a line at its delimiters", "statement": "read_tokens cuts the text before the first exclamation mark at every bracket and comma. It returns the pieces without the blanks around them, with the delimiters between them; apart from blanks, nothing is lost. del_spaces removes the blanks at the ends of every string, and a piece of blanks becomes the empty text.", "quantifier": "all texts", "why_tests_cant": "Positions of delimiters, blanks and comments can be combined in endless ways; long texts are not tried.", "anchors": ["src/lib/sys.cpp:read_tokens", "src/lib/sys.cpp:del_spaces"]}
{"id": "C120", "title": "The reports of DoFs and constraint equations can be read back", "statement": "After the preparation of a model printDofInfo writes exactly one line for each registered DoF, elements before nodes in ascending order, with its equation number and whether it is fixed; two models with the same report have the same registered DoFs, equation numbers and fixed DoFs. Mpc::print writes the terms of an equation in order and its right-hand side; the text decides nodes, DoFs, coefficients and right-hand side.", "quantifier": "all legal models; all constraint equations", "why_tests_cant": "Whether two models can share a report is a question about pairs of models; no test compares pairs.", "anchors": ["src/lib/FEStorage.cpp:FEStorage::printDofInfo", "src/lib/Mpc.cpp:Mpc::print", "src/lib/Mpc.cpp:MpcCollection::printEquations"]}
{"id": "C121", "title": "Lookups return what was asked for", "statement": "The component with a given name or registration number, the node or element with a given number and the nodes of an element are returned if they exist, and anything else is refused or answered with the null pointer. Assigning an element to another copies its nodes, and the printed text of an element decides its number and its nodes.", "quantifier": "all meshes, names and numbers", "why_tests_cant": "Tests look up a handful of existing things; numbers that do not exist and names given twice are not tried.", "anchors": ["src/lib/FEStorage.cpp:FEStorage::getFEComponent", "src/lib/FEStorage.cpp:FEStorage::getElementNodes", "src/lib/FEStorage.h:FEStorage::getElement", "src/lib/FEStorage.h:FEStorage::getNode", "src/lib/elements/element.cpp:Element::operator=", "src/lib/elements/element.cpp:Element::print"]}
{"id": "C122", "title": "Small vectors and matrices add, scale, compare, print and read as they should", "statement": "Sum, difference, opposite, multiple, increment and scalar product of vectors and matrices of fixed size are the entrywise ones, and Identity gives the unit matrix. Comparison says yes exactly if all entries agree up to the threshold. simple_read stores the numbers of a text in order, and what operator<< writes for a vector or a matrix it reads back.", "quantifier": "all sizes, all entries, all thresholds, all texts", "why_tests_cant": "Tests use a few matrices of numbers; entries that are not numbers and reading back what was written are not tried.", "anchors": ["src/lib/math/Vec.h:Vec::operator+", "src/lib/math/Vec.h:Vec::compare", "src/lib/math/Vec.h:Vec::simple_read", "src/lib/math/Mat.h:Mat::operator+", "src/lib/math/Mat.h:Mat::Identity", "src/lib/math/Mat.h:Mat::compare", "src/lib/math/Mat.h:Mat::simple_read", "src/lib/math/Mat.h:MatSym::compare"]}
{"id": "C123", "title": "The build with BLAS computes the same products", "statement": "With NLA3D_USE_BLAS the functions matBTVprod, matBVprod, matABprod and matATBprod give the same result as without it, for all matrices, vectors, factors and previous contents of the result, and so does the loop over the integration points of an element.", "quantifier": "all sizes, all matrices and vectors, all previous contents", "why_tests_cant": "The option is off in the tests: CMakeLists.txt says that results with it do not converge, without the reason.", "anchors": ["src/lib/math/Mat.h:matBTVprod", "src/lib/math/Mat.h:matBVprod", "src/lib/math/Mat.h:matABprod", "src/lib/math/Mat.h:matATBprod", "src/lib/elements/SOLID81.cpp:ElementSOLID81::buildK", "CMakeLists.txt:NLA3D_BLAS"]}
{"id": "C124", "title": "Sparse matrices that share a pattern are matrices of their own", "statement": "For every program that makes, shares, fills, compresses, re-initialises and destroys sparse matrices: no dangling pointer is followed, nothing is freed twice, no array is accessed outside of its size, all values are freed when the matrices are gone; a statement about one matrix does not change the numbers of another, also when both use one SparsityInfo, and does to its own matrix what it would do without sharing.", "quantifier": "all programs over any number of matrices, all sharings of patterns, all orders of the statements", "why_tests_cant": "Memory errors show only in some orders of the calls and some sizes, and often not as a failure; tests use two or three orders.", "anchors": ["src/lib/math/SparseMatrix.cpp:BaseSparseMatrix::~BaseSparseMatrix", "src/lib/math/SparseMatrix.cpp:BaseSparseMatrix::compress", "src/lib/math/SparseMatrix.cpp:BaseSparseMatrix::setSparsityInfo", "src/lib/math/SparseMatrix.cpp:SparseMatrix::reinit", "src/lib/math/SparseMatrix.cpp:SparseSymMatrix::SparseSymMatrix", "src/lib/math/SparseMatrix.h:BaseSparseMatrix"]}
{"id": "C125", "title": "The printed forms of sparse matrices can be read back", "statement": "print of a sparse matrix shows at row i, column j the sum of what was added there (both triangles for symmetric matrices), printInternalData shows the three arrays completely; two matrices with the same text have the same sizes, the same pattern arrays and the same texts of all numbers; writing a matrix leaves the format of the stream as it was.", "quantifier": "all sizes, patterns and histories of values, all ways to write numbers without tabulators and line feeds, all formats of the stream", "why_tests_cant": "Texts are looked at by eye for one matrix, never parsed; a format left behind shows only in what is written next.", "anchors": ["src/lib/math/SparseMatrix.cpp:SparseMatrix::print", "src/lib/math/SparseMatrix.cpp:SparseSymMatrix::print", "src/lib/math/SparseMatrix.cpp:BaseSparseMatrix::printInternalData", "src/lib/math/SparseMatrix.cpp:BaseSparseMatrix::writeCoordinateTextFormat"]}
{"id": "C126", "title": "A two-node interface element reports the jump that it resists", "statement": "The strains reported by INTER0 are the displacement of the second node relative to the first; the element loads the nodes by the interface stiffness times exactly this jump, with opposite signs, stores the energy of one normal and two tangential springs, and carries no force only if the jump is zero; only the line of the normal matters, so building again gives the same equations.", "quantifier": "all displacements, all normals, all stiffnesses", "why_tests_cant": "Tests have one normal along an axis and one displacement.", "anchors": ["src/lib/elements/INTER0.cpp:ElementINTER0::update", "src/lib/elements/INTER0.cpp:ElementINTER0::buildK"]}
{"id": "C127", "title": "Materials own their constants and can be read from their text", "statement": "Every program that makes materials, sets constants by number or by name, asks for constants and texts and destroys materials behaves as if materials were values: a statement about one does not touch another, nothing is freed twice, used after it was freed or lost; the text of a material tells its class and all its constants.", "quantifier": "all programs over any number of materials of all classes, all values, all ways to write numbers without blanks", "why_tests_cant": "Ownership errors need special orders of statements; the text is never parsed in tests.", "anchors": ["src/lib/materials/material.cpp:Material::toString", "src/lib/materials/material.cpp:Material::register_mat_const", "src/lib/materials/material.h:Material::~Material", "src/lib/materials/materials_hyperelastic.h:Mat_Comp_Neo_Hookean", "src/lib/FEStorage.cpp:FEStorage::~FEStorage"]}
{"id": "C128", "title": "Solution data can be dropped and set up again", "statement": "After deleteSolutionData a storage behaves like a new one with the same nodes, elements and constraint equations: every setup ends in the same way, with the same numbers, matrices and vectors, and each solver gives the same answer, whatever was registered, constrained, assembled or solved before. Setting up the same model again gives the first state.", "quantifier": "all storages in any state, all registrations, constraints and constraint equations", "why_tests_cant": "deleteSolutionData is called only by the destructor; what is left over shows only in a second setup.", "anchors": ["src/lib/FEStorage.cpp:FEStorage::deleteSolutionData", "src/lib/FEStorage.cpp:FEStorage::deleteDofArrays", "src/lib/FEStorage.cpp:FEStorage::initDofs", "src/lib/FEStorage.cpp:FEStorage::initSolutionData"]}
{"id": "C129", "title": "Elements own their node lists", "statement": "Every program that makes elements of any shape, sets and asks for node numbers, assigns, copies and destroys elements behaves as if elements were values: a statement about one does not touch another, nothing is freed twice, used after it was freed or lost. Passing an element as example for createElements leaves it as it was.", "quantifier": "all programs over any number of elements of all shapes, all node numbers", "why_tests_cant": "Shared arrays show only in programs that copy elements, and then as a crash at the end of the program.", "anchors": ["src/lib/elements/element.cpp:Element::~Element", "src/lib/elements/element.cpp:Element::operator=", "src/lib/elements/element.h:Element::getNodeNumber", "src/lib/elements/element.h:ElementTRIANGLE", "src/lib/FEStorage.h:FEStorage::createElements"]}
{"id": "C130", "title": "The text of a node tells its position", "statement": "The text of a node is three decimal numbers with blanks between them, which are its coordinates to six decimals; nodes with the same text are at the same place to six decimals.", "quantifier": "all coordinates", "why_tests_cant": "The buffer is too short only for coordinates that no test uses.", "anchors": ["src/lib/Node.cpp:Node::toString", "src/lib/sys.h:sprintf_s"]}
{"id": "C131", "title": "The vectors of a solver are windows of the vectors of the storage", "statement": "After the setup of a solver its vectors are the whole, the constrained DoFs, the unknown DoFs, the multipliers, and the last two together, of the vectors of the storage, in the same memory: what is read through them is that segment, what is written through them replaces it and nothing else, and each component is in exactly one of the three parts. This holds for a new solver and for one that was set up before.", "quantifier": "all numbers of DoFs and constraint equations, all memories, all histories of calls that bind neither vector anew", "why_tests_cant": "Aliasing is not visible in results of single runs; a window off by one shows only with constraint equations.", "anchors": ["src/lib/FESolver.cpp:FESolver::initSolutionData", "src/lib/math/Vec.cpp:dVec::reinit"]}
{"id": "C132", "title": "Reactions balance the loads", "statement": "After a linear solution, for every motion of the DoFs under which no force arises in the model (such as a rigid motion of a free body), the work of the reported reactions, of all given loads and of the loads of elements and constraint equations adds up to zero.", "quantifier": "all models, loads, prescribed values, exact equation solvers and free motions", "why_tests_cant": "A reaction that lacks a load given at its own DoF looks plausible; tests load free DoFs only.", "anchors": ["src/lib/FESolver.cpp:LinearFESolver::solve", "src/lib/FESolver.cpp:FESolver::applyBoundaryConditions"]}
{"id": "C133", "title": "Reciprocity with element loads and inhomogeneous constraint equations", "statement": "For two sets of loads on one model with DoFs fixed to zero, the loads of the first solution do the same work on the displacements of the second as the loads of the second on the displacements of the first, with loads of elements and constraint equations counted in both.", "quantifier": "all models, pairs of sets of loads (also at fixed DoFs) and exact equation solvers", "why_tests_cant": "A statement about pairs of solutions over all models.", "anchors": ["src/lib/FESolver.cpp:LinearFESolver::solve", "src/lib/FEStorage.cpp:FEStorage::assembleGlobalEqMatrices"]}
{"id": "C134", "title": "Linear solutions minimise the potential energy", "statement": "After a linear solution the displacements have the prescribed values and satisfy the constraint equations, and the potential energy of any other such displacements is larger by the strain energy of the difference; so the solution has the least potential energy if the stiffness is positive semidefinite on the motions left free, and is the only one if it is positive definite there.", "quantifier": "all models, loads, prescribed values, constraint equations, exact equation solvers and admissible displacements", "why_tests_cant": "A statement over all competing displacements of all models.", "anchors": ["src/lib/FESolver.cpp:LinearFESolver::solve", "src/lib/FEStorage.cpp:FEStorage::assembleGlobalEqMatrices"]}
{"id": "C135", "title": "Superposition with element loads and inhomogeneous constraint equations", "statement": "If the loads and prescribed values of one load case are a combination of those of two others on the same model, its displacements and multipliers are the same combination of theirs (when elements and constraint equations give loads of their own: if the factors add up to one). In particular neither the order of loads nor their division into parts matters.", "quantifier": "all models, load cases, factors, and equation solvers that are exact and refuse singular matrices (such as the Gauss solver of the library)", "why_tests_cant": "A statement about triples of solutions over all models.", "anchors": ["src/lib/FESolver.cpp:LinearFESolver::solve", "src/lib/FESolver.cpp:FESolver::applyBoundaryConditions", "src/lib/math/EquationSolver.cpp:GaussDenseEquationSolver::solveEquations"]}
{"id": "C136", "title": "A stiffer structure is not more compliant", "statement": "Adding bars, nodes, rigid supports or homogeneous constraint equations to a truss, or raising E A of bars (in a solid of tetrahedra: adding tetrahedra or raising the Young's modulus), does not raise the work the loads do on the reported displacements: under one load its point of application does not move further in the direction of the load. The loads do twice the strain energy.", "quantifier": "all pairs of trusses with E A >= 0 or of solids of tetrahedra without initial strains, on rigid supports, all loads, all exact equation solvers", "why_tests_cant": "Compares all pairs of models, one of them stiffer than the other.", "anchors": ["src/lib/FESolver.cpp:LinearFESolver::solve", "src/lib/elements/TRUSS3.cpp:ElementTRUSS3::buildK", "src/lib/elements/TETRA0.cpp:ElementTETRA0::buildK", "src/lib/FEStorage.cpp:FEStorage::assembleGlobalEqMatrices"]}
