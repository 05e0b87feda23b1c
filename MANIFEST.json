{
 "claims": [
  {
   "property": "C01",
   "status": "proved",
   "theorems": [
    "Nla3d.Sparse.C01_pattern_exact",
    "Nla3d.Sparse.C01_order_independent"
   ],
   "note": "Any shape, max_in_row and in-range registration history."
  },
  {
   "property": "C02",
   "status": "proved",
   "theorems": [
    "Nla3d.Sparse.C02_value_is_sum",
    "Nla3d.Sparse.C02_outcome",
    "Nla3d.Sparse.C02_access"
   ],
   "note": "Values over any additive monoid (exact arithmetic). Binary search proved total."
  },
  {
   "property": "C03",
   "status": "proved",
   "theorems": [
    "Nla3d.Sparse.C03_overflow_iff",
    "Nla3d.Sparse.C03_registration_outcome",
    "Nla3d.Sparse.C03_never_aborts"
   ],
   "note": ""
  },
  {
   "property": "C04",
   "status": "proved",
   "theorems": [
    "Nla3d.Sparse.C04_value_symmetric",
    "Nla3d.Sparse.C04_swap_indistinguishable",
    "Nla3d.Sparse.C05_sym_upper_with_diagonal"
   ],
   "note": ""
  },
  {
   "property": "C05",
   "status": "partial",
   "theorems": [
    "Nla3d.Sparse.C05_valid_csr",
    "Nla3d.Sparse.C05_sym_upper_with_diagonal",
    "Nla3d.Sparse.C05_reinit_lacks_diagonal"
   ],
   "note": "CSR validity and the diagonal are proved for constructed matrices; the diagonal part is false after reinit (witness proved)."
  },
  {
   "property": "C06",
   "status": "proved",
   "theorems": [
    "Nla3d.Sparse.C06_round_trip",
    "Nla3d.Sparse.C06_reinit_entries"
   ],
   "note": "File modelled as header plus triples; decimal printing is an arbitrary function rnd."
  },
  {
   "property": "C07",
   "status": "proved",
   "theorems": [
    "Nla3d.Sparse.C07_compare_iff",
    "Nla3d.Sparse.C07_refl",
    "Nla3d.Sparse.C07_symm"
   ],
   "note": ""
  },
  {
   "property": "C08",
   "status": "proved",
   "theorems": [
    "Nla3d.Sparse.C08_matBVprod",
    "Nla3d.Sparse.C08_matBTVprod",
    "Nla3d.Sparse.C08_matBVprod_sym",
    "Nla3d.Sparse.C08_sizes",
    "Nla3d.Sparse.C08_sizes_sym"
   ],
   "note": "Exact arithmetic."
  },
  {
   "property": "C09",
   "status": "proved",
   "theorems": [
    "Nla3d.Block.C09_accepts",
    "Nla3d.Block.C09_index_bijection",
    "Nla3d.Block.C09_block_is_flat"
   ],
   "note": "Any number of blocks with at most 65536 off-diagonal blocks (uint16 index)."
  },
  {
   "property": "C10",
   "status": "partial",
   "theorems": [
    "Nla3d.Block.C10_independent",
    "Nla3d.Block.C10_copy_starts_zero",
    "Nla3d.Block.C10_same_pattern",
    "Nla3d.Block.C10_copy_nRows",
    "Nla3d.Block.C10_copy_nRows_wrong"
   ],
   "note": "Independence and equal sparsity proved. The nRows part is false in the code: a copy reports twice the rows (C10_copy_nRows_wrong)."
  },
  {
   "property": "C11",
   "status": "proved",
   "theorems": [
    "Nla3d.Dof.C11_refines_map",
    "Nla3d.Dof.C11_registered_iff",
    "Nla3d.Dof.C11_repeat_no_change"
   ],
   "note": ""
  },
  {
   "property": "C12",
   "status": "partial",
   "theorems": [
    "Nla3d.Labels.C12_dof",
    "Nla3d.Labels.C12_element",
    "Nla3d.Labels.C12_material",
    "Nla3d.Labels.C12_dof_round_trip",
    "Nla3d.Labels.C12_labels_distinct",
    "Nla3d.Labels.C12_identifiers",
    "Nla3d.Labels.C12_factory_name_partial",
    "Nla3d.Labels.C12_mooney_name"
   ],
   "note": "label tables proved for all strings; the name of the created Mooney-Rivlin material is not a factory label (negation proved)"
  },
  {
   "property": "C13",
   "status": "proved",
   "theorems": [
    "Nla3d.Storage.C13_numbering",
    "Nla3d.Storage.C13_nothing_to_solve"
   ],
   "note": "Any registrations, fixes (with repetitions) and MPCs."
  },
  {
   "property": "C14",
   "status": "proved",
   "theorems": [
    "Nla3d.Storage.C14_writes_complete",
    "Nla3d.Storage.C14_prepare_outcome",
    "Nla3d.Storage.C14_prepare_stops"
   ],
   "note": "Any mesh, registrations, MPCs and any history of legal assembly calls; the row capacity of 100 can make the preparation stop with a fatal error, as the code does."
  },
  {
   "property": "C15",
   "status": "partial",
   "theorems": [
    "Nla3d.Storage.C15_scatter_add",
    "Nla3d.Storage.C15_scatter_add_load",
    "Nla3d.Storage.C15_assembleK_C",
    "Nla3d.Storage.C15_quadratic_form",
    "Nla3d.Storage.C15_degenerate_violated"
   ],
   "note": "Proved for elements with pairwise distinct nodes. For a degenerate cell the claim is false in the code (C15_degenerate_violated)."
  },
  {
   "property": "C16",
   "status": "partial",
   "theorems": [
    "Nla3d.Storage.C16_mass_goes_to_damping_violated",
    "Nla3d.Storage.C16_witness",
    "Nla3d.Storage.C16_partial"
   ],
   "note": "False in the code: assembleM adds to the damping matrix. Proved: it completes and touches neither K nor F."
  },
  {
   "property": "C17",
   "status": "proved",
   "theorems": [
    "Nla3d.Storage.C17_reassembly",
    "Nla3d.Storage.C17_twice"
   ],
   "note": ""
  },
  {
   "property": "C29",
   "status": "proved",
   "theorems": [
    "Nla3d.Storage.C29_topology"
   ],
   "note": ""
  },
  {
   "property": "C62",
   "status": "partial",
   "theorems": [
    "Nla3d.Storage.C62_second_setup_violated",
    "Nla3d.Storage.C62_partial"
   ],
   "note": "False in the code whenever a DoF is constrained: the second setup stops with a fatal error or assertion. Partial: with no constrained DoF the second numbering works."
  },
  {
   "property": "C20",
   "status": "proved",
   "theorems": [
    "Nla3d.Gauss.C20_gauss",
    "Nla3d.Gauss.C20_failure_iff",
    "Nla3d.Gauss.C20_singular",
    "Nla3d.Gauss.C20_solveEquations",
    "Nla3d.Gauss.C20_solve_assembled",
    "Nla3d.Gauss.C20_near_singular",
    "Nla3d.Gauss.C20_stops"
   ],
   "note": "Exact ordered-field arithmetic; the pivot threshold is the one of the code."
  },
  {
   "property": "C23",
   "status": "proved",
   "theorems": [
    "Nla3d.TimeCtl.C23_time_steps",
    "Nla3d.TimeCtl.C23_increasing_within",
    "Nla3d.TimeCtl.C23_exact_count",
    "Nla3d.TimeCtl.C23_call_after_end"
   ],
   "note": "Exact ordered-field arithmetic, uint16 counters."
  },
  {
   "property": "C24",
   "status": "partial",
   "theorems": [
    "Nla3d.TimeCtl.C24_start_ignored",
    "Nla3d.TimeCtl.C24_first_step_before_start_violated",
    "Nla3d.TimeCtl.C24_partial"
   ],
   "note": "False in the code: the start time does not move the current time. Partial: the claim for a zero start time."
  },
  {
   "property": "C27",
   "status": "proved",
   "theorems": [
    "Nla3d.DVec.C27_safe",
    "Nla3d.DVec.C27_new",
    "Nla3d.DVec.C27_move",
    "Nla3d.DVec.C27_clear",
    "Nla3d.DVec.C27_reinit",
    "Nla3d.DVec.C27_copy",
    "Nla3d.DVec.C27_copy_independent",
    "Nla3d.DVec.C27_source_independent",
    "Nla3d.DVec.C27_view",
    "Nla3d.DVec.C27_view_history",
    "Nla3d.DVec.C27_set",
    "Nla3d.DVec.C27_fill",
    "Nla3d.DVec.C27_assign",
    "Nla3d.DVec.C27_opAssign",
    "Nla3d.DVec.C27_binop",
    "Nla3d.DVec.C27_unop",
    "Nla3d.DVec.C27_assign_other_size_detaches",
    "Nla3d.DVec.C27_view_wrap_violated"
   ],
   "note": "All histories of calls on a heap model. Views whose uint32 range sum wraps are excluded (C27_view_wrap_violated shows why); assignment to a view of another size detaches it, which the claim (equal sizes) does not cover."
  },
  {
   "property": "C18",
   "status": "partial",
   "theorems": [
    "Nla3d.Solver.C18_linear_solve",
    "Nla3d.Solver.C18_full_system_partial",
    "Nla3d.Solver.C18_tiny_value_violated",
    "Nla3d.Solver.gauss_exact"
   ],
   "note": "Full system K*U = F + R proved when every prescribed value is 0 or larger than 1e-20 in absolute value; for smaller values the claim is false (C18_tiny_value_violated). C18_linear_solve holds without that condition and says which rows hold."
  },
  {
   "property": "C19",
   "status": "proved",
   "theorems": [
    "Nla3d.Solver.C19_boundary_conditions"
   ],
   "note": "Any session, any contents of the vectors, any factor."
  },
  {
   "property": "C21",
   "status": "proved",
   "theorems": [
    "Nla3d.Solver.C21_iteration",
    "Nla3d.Solver.C21_load_step",
    "Nla3d.Solver.C21_solution"
   ],
   "note": "Any elements (abstract state machine contributing to DoFs of their own nodes), any MPC update that keeps the shape, any exact equation solver."
  },
  {
   "property": "C22",
   "status": "partial",
   "theorems": [
    "Nla3d.Solver.C22_accepted_iff",
    "Nla3d.Solver.C22_violated",
    "Nla3d.Solver.C22_accepted_partial"
   ],
   "note": "False in the code: the mean is compared with the square of the setting. Partial: accepted implies below the setting, for settings up to 1."
  },
  {
   "property": "C25",
   "status": "partial",
   "theorems": [
    "Nla3d.Solver.C25_steps",
    "Nla3d.Solver.C25_newmark_partial",
    "Nla3d.Solver.C25_motion_violated",
    "Nla3d.Solver.C25_velocity_violated"
   ],
   "note": "False in the code for non-zero prescribed values and for delta other than 1/2. Partial: delta = 1/2, no force from prescribed values, no dropped tiny components."
  },
  {
   "property": "C26",
   "status": "proved",
   "theorems": [
    "Nla3d.Solver.C26_steps"
   ],
   "note": "Exact ordered-field arithmetic."
  },
  {
   "property": "C30",
   "status": "proved",
   "theorems": [
    "Nla3d.Dense.C30_bijection",
    "Nla3d.Dense.C30_comp",
    "Nla3d.Dense.C30_toMat",
    "Nla3d.Dense.C30_wraps"
   ],
   "note": "All sizes whose packed length fits into 16 bits; C30_wraps shows that the next size breaks it."
  },
  {
   "property": "C31",
   "status": "proved",
   "theorems": [
    "Nla3d.Dense.C31_BTDB",
    "Nla3d.Dense.C31_BTV",
    "Nla3d.Dense.C31_BV",
    "Nla3d.Dense.C31_BVsym",
    "Nla3d.Dense.C31_AB",
    "Nla3d.Dense.C31_ATB",
    "Nla3d.Dense.C31_mul",
    "Nla3d.Dense.C31_mulVec",
    "Nla3d.Dense.C31_transpose",
    "Nla3d.Dense.C31_symAdd"
   ],
   "note": "The loops of the non-BLAS build, all sizes, any field. With USE_BLAS the library calls are not modelled."
  },
  {
   "property": "C32",
   "status": "proved",
   "theorems": [
    "Nla3d.Dense.C32_det",
    "Nla3d.Dense.C32_inv"
   ],
   "note": "All sizes, any field."
  },
  {
   "property": "C33",
   "status": "partial",
   "theorems": [
    "Nla3d.Dense.C33_partial",
    "Nla3d.Dense.C33_violated"
   ],
   "note": "Exact real arithmetic. False in the code for multiples of the identity (0/0); proved for every other symmetric matrix."
  },
  {
   "property": "C28",
   "status": "proved",
   "theorems": [
    "Nla3d.Mesh.C28_numbers",
    "Nla3d.Mesh.C28_createNodes",
    "Nla3d.Mesh.C28_createElements",
    "Nla3d.Mesh.C28_createElementsLike",
    "Nla3d.Mesh.C28_add"
   ],
   "note": "All reachable states; counts below 2^32 - 1."
  },
  {
   "property": "C63",
   "status": "partial",
   "theorems": [
    "Nla3d.Mesh.C63_partial",
    "Nla3d.Mesh.C63_mpcs_violated",
    "Nla3d.Mesh.C63_collections_violated",
    "Nla3d.Mesh.C63_material_violated"
   ],
   "note": "False in the code with MPCs (list not cleared, freed twice), with MPC collections and with a material (deleted through a base without virtual destructor). Proved for every other mesh."
  },
  {
   "property": "C45",
   "status": "proved",
   "theorems": [
    "Nla3d.Material.C45_J",
    "Nla3d.Material.C45_inv",
    "Nla3d.Material.C45_E",
    "Nla3d.Material.C45_IC"
   ],
   "note": "Real arithmetic."
  },
  {
   "property": "C46",
   "status": "proved",
   "theorems": [
    "Nla3d.Material.C46_neoHookean",
    "Nla3d.Material.C46_mooneyRivlin",
    "Nla3d.Material.C46_biderman",
    "Nla3d.Material.C46_partials"
   ],
   "note": "Real arithmetic."
  },
  {
   "property": "C47",
   "status": "proved",
   "theorems": [
    "Nla3d.Material.C47_stress",
    "Nla3d.Material.C47_identity",
    "Nla3d.Material.C47_contraction"
   ],
   "note": "Real arithmetic; for every material with consistent derivatives, which C46 shows for the three of the code."
  },
  {
   "property": "C48",
   "status": "proved",
   "theorems": [
    "Nla3d.Material.C48_tangent"
   ],
   "note": "Real arithmetic; for every material with consistent derivatives, which C46 shows for the three of the code."
  },
  {
   "property": "C49",
   "status": "proved",
   "theorems": [
    "Nla3d.Material.C49_stress",
    "Nla3d.Material.C49_tangent"
   ],
   "note": "Any list of components, with repetitions."
  },
  {
   "property": "C50",
   "status": "partial",
   "theorems": [
    "Nla3d.Material.C50_partial",
    "Nla3d.Material.C50_violated"
   ],
   "note": "False in the code for unknown names: a reference to a local variable is returned. Proved for registered names."
  },
  {
   "property": "C34",
   "status": "proved",
   "theorems": [
    "Nla3d.Iso.C34_line",
    "Nla3d.Iso.C34_quad",
    "Nla3d.Iso.C34_hexa"
   ],
   "note": "Over the reals. Derivatives are proved as derivatives of the shape functions."
  },
  {
   "property": "C35",
   "status": "partial",
   "theorems": [
    "Nla3d.Iso.C35_jacobian",
    "Nla3d.Iso.C35_quad_gradients",
    "Nla3d.Iso.C35_hexa_gradients",
    "Nla3d.Iso.C35_singular",
    "Nla3d.Iso.C35_negative_partial",
    "Nla3d.Iso.C35_negative_violated",
    "Nla3d.Iso.C35_volume",
    "Nla3d.Iso.C35_quad_weights",
    "Nla3d.Iso.C35_hexa_weights",
    "Nla3d.Iso.C35_quad_affine",
    "Nla3d.Iso.C35_hexa_affine",
    "Nla3d.Iso.C35_line"
   ],
   "note": "False in one clause: a negative Jacobian is only logged, a zero one aborts (C35_negative_violated). Everything else proved."
  },
  {
   "property": "C36",
   "status": "proved",
   "theorems": [
    "Nla3d.Thermal.C36_conductivity",
    "Nla3d.Thermal.C36_capacity"
   ],
   "note": ""
  },
  {
   "property": "C37",
   "status": "partial",
   "theorems": [
    "Nla3d.Thermal.C37_partial",
    "Nla3d.Thermal.C37_violated"
   ],
   "note": "False in the code when the ambient temperature of the second node is zero: it is overwritten by the first one. Proved otherwise."
  },
  {
   "property": "C38",
   "status": "proved",
   "theorems": [
    "Nla3d.Tetra.C38_strain",
    "Nla3d.Tetra.C38_stiffness"
   ],
   "note": ""
  },
  {
   "property": "C39",
   "status": "partial",
   "theorems": [
    "Nla3d.Tetra.C39_partial",
    "Nla3d.Tetra.C39_violated"
   ],
   "note": "Load balance proved. The reported stress is not zero (C39_violated): update does not subtract the thermal strain."
  },
  {
   "property": "C40",
   "status": "partial",
   "theorems": [
    "Nla3d.Tetra.C40_flux",
    "Nla3d.Tetra.C40_partial",
    "Nla3d.Tetra.C40_violated",
    "Nla3d.Tetra.C40_gradT"
   ],
   "note": "Flux, symmetry and uniform temperature proved. The matrix has the wrong sign: negative semidefinite (C40_violated)."
  },
  {
   "property": "C65",
   "status": "partial",
   "theorems": [
    "Nla3d.Tetra.C65_partial",
    "Nla3d.Tetra.C65_violated",
    "Nla3d.Tetra.C65_thermal_violated"
   ],
   "note": "False in the code: the stress of update is taken for an initial stress, thermal strain accumulates. Proved without temperature and without update in between."
  },
  {
   "property": "C41",
   "status": "partial",
   "theorems": [
    "Nla3d.Tri.C41_strain",
    "Nla3d.Tri.C41_plane_strain",
    "Nla3d.Tri.C41_plane_stress_violated",
    "Nla3d.Tri.C41_stiffness",
    "Nla3d.Tri.C41_updates",
    "Nla3d.Tri.C41_update_violated"
   ],
   "note": "Strain, plane strain elasticity and stiffness proved. Plane stress elasticity is right only for my = 0, and update accumulates stresses over calls (both violated)."
  },
  {
   "property": "C42",
   "status": "proved",
   "theorems": [
    "Nla3d.Bars.C42_stiffness",
    "Nla3d.Bars.C42_rigid",
    "Nla3d.Bars.C42_stress",
    "Nla3d.Storage.C15_eigen"
   ],
   "note": ""
  },
  {
   "property": "C43",
   "status": "partial",
   "theorems": [
    "Nla3d.Bars.C43_partial",
    "Nla3d.Bars.C43_directions",
    "Nla3d.Bars.C43_violated"
   ],
   "note": "Proved for normals that are not multiples of (0,1,1); for those the code divides by zero (C43_violated)."
  },
  {
   "property": "C44",
   "status": "proved",
   "theorems": [
    "Nla3d.Bars.C44_jacobian",
    "Nla3d.Bars.C44_frame",
    "Nla3d.Bars.C44_stiffness",
    "Nla3d.Bars.C44_moments",
    "Nla3d.Storage.C15_eigen"
   ],
   "note": "The quadrature constants have ten digits; the integral is met up to area/10^10."
  },
  {
   "property": "C66",
   "status": "partial",
   "theorems": [
    "Nla3d.Bars.C66_update",
    "Nla3d.Bars.C66_partial",
    "Nla3d.Bars.C66_violated"
   ],
   "note": "False in the code: area integrals instead of averages are reported. Proved up to this factor."
  },
  {
   "property": "C51",
   "status": "proved",
   "theorems": [
    "Nla3d.Hyper.C51_update",
    "Nla3d.Hyper.C51_variation"
   ],
   "note": ""
  },
  {
   "property": "C52",
   "status": "partial",
   "theorems": [
    "Nla3d.Hyper.C52_solid",
    "Nla3d.Hyper.C52_solid_partial",
    "Nla3d.Hyper.C52_solid_violated",
    "Nla3d.Hyper.C52_plane",
    "Nla3d.Hyper.C52_plane_partial",
    "Nla3d.Hyper.C52_plane_violated",
    "Nla3d.Hyper.C52_plane_violated_scale"
   ],
   "note": "False in the code: SOLID81 adds the pressure twice; PLANE41 computes F^T S F / J instead of F S F^T / J and ignores the scale. Proved for SOLID81 without pressure and for PLANE41 with symmetric gradients and scale 1."
  },
  {
   "property": "C67",
   "status": "proved",
   "theorems": [
    "Nla3d.Hyper.C67_tangent",
    "Nla3d.Hyper.C67_potential",
    "Nla3d.Hyper.C67_balance",
    "Nla3d.Hyper.C67_rigid"
   ],
   "note": ""
  },
  {
   "property": "C68",
   "status": "proved",
   "theorems": [
    "Nla3d.Hyper.C68_update",
    "Nla3d.Hyper.C68_tangent",
    "Nla3d.Hyper.C68_potential",
    "Nla3d.Hyper.C68_balance"
   ],
   "note": ""
  },
  {
   "property": "C69",
   "status": "partial",
   "theorems": [
    "Nla3d.Hyper.C69_solid",
    "Nla3d.Hyper.C69_plane",
    "Nla3d.Hyper.C69_volumetric",
    "Nla3d.Hyper.C69_energy_partial",
    "Nla3d.Hyper.C69_solid_PK2_violated",
    "Nla3d.Hyper.C69_energy_violated",
    "Nla3d.Hyper.C69_invariants_violated"
   ],
   "note": "False in the code for three queries: PK2 of SOLID81 adds the pressure twice, WU uses the invariants of C instead of its isochoric part, IC of PLANE41 writes past its output. The others are proved."
  },
  {
   "property": "C53",
   "status": "proved",
   "theorems": [
    "Nla3d.Rigid.C53_rotation",
    "Nla3d.Rigid.C53_derivative",
    "Nla3d.Rigid.C53_update",
    "Nla3d.Rigid.C53_rigid",
    "Nla3d.Rigid.C53_distances",
    "Nla3d.Rigid.C53_small",
    "Nla3d.Rigid.C53_small_violated"
   ],
   "note": "Outside the small-angle branch: rotation, exact derivative, equations are the Newton linearisation of the rigid-body condition after any history of updates. For 0 < |theta| < 1e-3 the matrix is proved not orthogonal but within |theta|^3 of the rotation."
  },
  {
   "property": "C57",
   "status": "proved",
   "theorems": [
    "Nla3d.Text.C57_strim",
    "Nla3d.Text.C57_firstNotBlank",
    "Nla3d.Text.C57_tokenize",
    "Nla3d.Text.C57_ssplit_strict",
    "Nla3d.Text.C57_ssplit",
    "Nla3d.Text.C57_iequals",
    "Nla3d.Text.C57_iequals_equiv"
   ],
   "note": ""
  },
  {
   "property": "C58",
   "status": "partial",
   "theorems": [
    "Nla3d.Text.C58_lines_partial",
    "Nla3d.Text.C58_lines_iff",
    "Nla3d.Text.C58_lines_violated"
   ],
   "note": "Holds exactly when no CR-terminated line is followed by an empty LF-terminated line; such a pair is read as one line."
  },
  {
   "property": "C54",
   "status": "partial",
   "theorems": [
    "Nla3d.Cdb.C54_compress_partial",
    "Nla3d.Cdb.C54_compress_iff",
    "Nla3d.Cdb.C54_compress_violated"
   ],
   "note": "Proved unless the numbers are a permutation of 1..n in another order (more exactly: the number of nodes equals the largest number), in which case nothing is renumbered; the exact condition and a counterexample are proved."
  },
  {
   "property": "C55",
   "status": "partial",
   "theorems": [
    "Nla3d.Cdb.C55_expand_partial",
    "Nla3d.Cdb.C55_wrap_violated",
    "Nla3d.Cdb.C55_empty_violated"
   ],
   "note": "Proved for 1 to 65535 numbers in rows of up to 65535 fields. Violated for more (16-bit counter) and for none (swallows a line)."
  },
  {
   "property": "C56",
   "status": "partial",
   "theorems": [
    "Nla3d.Cdb.C56_terms_partial",
    "Nla3d.Cdb.C56_terms_violated"
   ],
   "note": "Proved for equations with two or four terms; every other number of terms reads past the tokens."
  },
  {
   "property": "C70",
   "status": "partial",
   "theorems": [
    "Nla3d.Cdb.C70_degenerated",
    "Nla3d.Cdb.C70_attribute",
    "Nla3d.Cdb.C70_attribute_violated"
   ],
   "note": "Proved for consistent meshes and the attributes they have; an unknown attribute name reads out of bounds."
  },
  {
   "property": "C71",
   "status": "partial",
   "theorems": [
    "Nla3d.Cdb.C71_file_partial",
    "Nla3d.Cdb.C71_nodes",
    "Nla3d.Cdb.C71_cells_partial",
    "Nla3d.Cdb.C71_blank_violated",
    "Nla3d.Cdb.C71_solid_violated",
    "Nla3d.Cdb.C71_shell_violated"
   ],
   "note": "Whole files are proved, except for what C55, C56 and C58 exclude and elements whose nodes continue on the next line, which are proved to fail. Text to double is a parameter."
  },
  {
   "property": "C72",
   "status": "proved",
   "theorems": [
    "Nla3d.Cdb.C72_consistent",
    "Nla3d.Cdb.C72_queries"
   ],
   "note": "For arbitrary files."
  },
  {
   "property": "C59",
   "status": "partial",
   "theorems": [
    "Nla3d.Post.C59_history",
    "Nla3d.Post.C59_given",
    "Nla3d.Post.C59_select_cases",
    "Nla3d.Post.C59_select_partial",
    "Nla3d.Post.C59_select_violated",
    "Nla3d.Post.C59_no_nodes_violated",
    "Nla3d.Post.C59_unwritable_violated",
    "Nla3d.Post.C59_uncreatable_violated"
   ],
   "note": "The histories are proved for all models, node lists and steps when the file can be written. The selection is proved for nodes with equal constraints; otherwise the claim is false (the check joins its conditions by && instead of ||): witnesses given. No nodes, or a file that cannot be opened, also break the claim."
  },
  {
   "property": "C60",
   "status": "proved",
   "theorems": [
    "Nla3d.Vtk.C60_roundtrip",
    "Nla3d.Vtk.C60_setup",
    "Nla3d.Vtk.C60_pyramid"
   ],
   "note": "Round trip through an independent reader of legacy VTK files, for all models built with the factory, including point and cell data; numbers are exact."
  },
  {
   "property": "C73",
   "status": "proved",
   "theorems": [
    "Nla3d.Post.C73_position",
    "Nla3d.Post.solved_of_prepare"
   ],
   "note": ""
  },
  {
   "property": "C74",
   "status": "proved",
   "theorems": [
    "Nla3d.Vtk.C74_reveal"
   ],
   "note": ""
  },
  {
   "property": "C61",
   "status": "partial",
   "theorems": [
    "Nla3d.Cmd.C61_exists",
    "Nla3d.Cmd.C61_option",
    "Nla3d.Cmd.C61_option_none",
    "Nla3d.Cmd.C61_many",
    "Nla3d.Cmd.C61_many_none",
    "Nla3d.Cmd.C61_digit",
    "Nla3d.Cmd.C61_npow",
    "Nla3d.Cmd.C61_npow_sign",
    "Nla3d.Cmd.C61_negative_violated",
    "Nla3d.Cmd.C61_npow_violated"
   ],
   "note": "Proved for all argument lists. Missing: negative numerals that begin with a point end the run (negation proved); npow overflows when the power leaves int32 (negation proved)."
  },
  {
   "property": "C75",
   "status": "partial",
   "theorems": [
    "Nla3d.Cmd.C75_parse",
    "Nla3d.Cmd.C75_order",
    "Nla3d.Cmd.C75_missing_value_violated",
    "Nla3d.Cmd.C75_wrap_violated",
    "Nla3d.Cmd.C75_unknown_violated"
   ],
   "note": "Meaning, refusal and independence of the order proved for all lines in which options that take a value have one. Not refused: missing values, unknown options, numbers above 65535 (negations proved)."
  },
  {
   "property": "C76",
   "status": "partial",
   "theorems": [
    "Nla3d.Cmd.C76_constants_partial",
    "Nla3d.Cmd.C76_surplus_violated",
    "Nla3d.Cmd.C76_few_violated"
   ],
   "note": "The order is proved when enough constants are given. Surplus constants are ignored and with too few the program reads past the list (negations proved)."
  },
  {
   "property": "C77",
   "status": "proved",
   "theorems": [
    "Nla3d.Cmd.C77_mean",
    "Nla3d.Cmd.C77_zero",
    "Nla3d.Cmd.C77_symm",
    "Nla3d.Cmd.C77_bound"
   ],
   "note": "Exact arithmetic of an ordered field."
  },
  {
   "property": "C78",
   "status": "partial",
   "theorems": [
    "Nla3d.Cmd.C78_squeezed",
    "Nla3d.Cmd.C78_column_partial",
    "Nla3d.Cmd.C78_header",
    "Nla3d.Cmd.C78_plateau_violated",
    "Nla3d.Cmd.C78_malformed_violated",
    "Nla3d.Cmd.C78_empty_violated"
   ],
   "note": "Every table with rows gives the third column without repetitions. Plateaus are lost, a malformed number gives an endless loop, an empty table reads an unset variable (negations proved)."
  },
  {
   "property": "C79",
   "status": "partial",
   "theorems": [
    "Nla3d.Cmd.C79_stem",
    "Nla3d.Cmd.C79_plain",
    "Nla3d.Cmd.C79_injective",
    "Nla3d.Cmd.C79_directory_violated"
   ],
   "note": "Proved for paths with an extension and for paths without a point. A point in a directory name is taken for an extension (negation proved)."
  },
  {
   "property": "C64",
   "status": "partial",
   "theorems": [
    "Nla3d.Dump.C64_iff",
    "Nla3d.Dump.C64_small_partial",
    "Nla3d.Dump.C64_vector_violated",
    "Nla3d.Dump.C64_matrix_violated"
   ],
   "note": "Exact criterion proved for every state a session reaches and every printing function. With the printing that is used the comparison passes for small entries only; larger entries make it fail (negations proved)."
  },
  {
   "property": "C80",
   "status": "proved",
   "theorems": [
    "Nla3d.Mixed.C80_solid",
    "Nla3d.Mixed.C80_plane",
    "Nla3d.Mixed.C80_wrong_size"
   ],
   "note": "For elements whose nodes are distinct."
  },
  {
   "property": "C81",
   "status": "proved",
   "theorems": [
    "Nla3d.Newton.C81_newton"
   ],
   "note": "For elements whose nodes are distinct; the derivative where no displaced element is degenerate at an integration point."
  },
  {
   "property": "C82",
   "status": "proved",
   "theorems": [
    "Nla3d.Iso.C82_line",
    "Nla3d.Iso.C82_quad",
    "Nla3d.Iso.C82_hexa",
    "Nla3d.Iso.C82_area"
   ],
   "note": "The integral is the Lebesgue integral over the reference element."
  },
  {
   "property": "C83",
   "status": "proved",
   "theorems": [
    "Nla3d.Struct.C83_equilibrium",
    "Nla3d.Struct.C83_joints",
    "Nla3d.Struct.assembleAll_eq"
   ],
   "note": "Prescribed values up to 1e-20 other than zero are excluded: there C18_tiny_value_violated. assembleAll_eq: the element loop of the code makes exactly the additions the solver model uses."
  },
  {
   "property": "C84",
   "status": "proved",
   "theorems": [
    "Nla3d.Struct.C84_virtual_work",
    "Nla3d.Struct.C84_balance",
    "Nla3d.Struct.C84_resultants",
    "Nla3d.Struct.C84_energy"
   ],
   "note": ""
  },
  {
   "property": "C85",
   "status": "proved",
   "theorems": [
    "Nla3d.Struct.C85_unique",
    "Nla3d.Struct.C85_free",
    "Nla3d.Struct.C85_rigid",
    "Nla3d.Struct.C85_thermal"
   ],
   "note": "Only the displacements and reactions: the stresses reported in free expansion are wrong, see C39_violated."
  },
  {
   "property": "C86",
   "status": "proved",
   "theorems": [
    "Nla3d.Struct.C86_superposition",
    "Nla3d.Struct.C86_reciprocity"
   ],
   "note": ""
  },
  {
   "property": "C87",
   "status": "partial",
   "theorems": [
    "Nla3d.Struct.C87_balance",
    "Nla3d.Struct.C87_uniform",
    "Nla3d.Struct.C87_direction",
    "Nla3d.Struct.C87_tetra_partial",
    "Nla3d.Struct.C87_tetra_violated",
    "Nla3d.Struct.C87_tetra_cold"
   ],
   "note": "Proved for QUADTH and SurfaceLINETH. For TETRA1 only the balance (C87_tetra_partial); the direction is wrong in every model of TETRA1 elements (C87_tetra_violated), so a heated node gets colder (C87_tetra_cold)."
  },
  {
   "property": "C88",
   "status": "proved",
   "theorems": [
    "Nla3d.Struct.C88_patch",
    "Nla3d.Struct.C88_stress",
    "Nla3d.Struct.C88_heat",
    "Nla3d.Struct.C88_plate"
   ],
   "note": "Inner nodes are given by combinatorial conditions on the mesh (Inner, InnerPlane), not by geometry."
  },
  {
   "property": "C89",
   "status": "partial",
   "theorems": [
    "Nla3d.Neu.C89_partial",
    "Nla3d.Neu.C89_type_violated"
   ],
   "note": "Everything except the type of the components is proved for all meshes and layouts; the components are always declared as lists of elements (negation proved for all files)."
  },
  {
   "property": "C90",
   "status": "partial",
   "theorems": [
    "Nla3d.Neu.C90_partial",
    "Nla3d.Neu.C90_violated",
    "Nla3d.Neu.C90_malformed_violated"
   ],
   "note": "Only a file that cannot be opened is refused (C90_partial). Proved negation: every proper beginning of every file leads to the use of a variable without a value (C90_violated); a file with a malformed last number is accepted with node 0 (C90_malformed_violated)."
  },
  {
   "property": "C91",
   "status": "partial",
   "theorems": [
    "Nla3d.Main.C91_partial",
    "Nla3d.Main.C91_refused",
    "Nla3d.Main.C91_master_violated",
    "Nla3d.Main.C91_types_violated"
   ],
   "note": "Everything except the master of a rigid body and cells of a TYPE other than 1 is proved for all files and options; the number of the master is not translated (negation proved for every file in which it has another number), cells of other types are dropped without a message."
  },
  {
   "property": "C92",
   "status": "partial",
   "theorems": [
    "Nla3d.Main.C92_partial",
    "Nla3d.Main.C92_no_dofs_violated",
    "Nla3d.Main.C92_no_nodes_violated",
    "Nla3d.Main.C92_labels_violated"
   ],
   "note": "Proved for components with nodes and, if a reference curve is given, at least one DoF. Otherwise the program reads out of bounds (negations proved). The message about a rigid body names wrong DoFs (C92_labels_violated)."
  },
  {
   "property": "C93",
   "status": "partial",
   "theorems": [
    "Nla3d.Solver.C93_law",
    "Nla3d.Solver.C93_partial",
    "Nla3d.Solver.C93_fails",
    "Nla3d.Solver.C93_violated"
   ],
   "note": "After n iterations the left-hand side is n times the right-hand side (C93_law), so equations with right-hand side 0 hold (C93_partial). Every other equation is violated by every solution with two or more load steps (C93_fails); a spring whose end is to be at 1 ends at 2 (C93_violated)."
  },
  {
   "property": "C94",
   "status": "proved",
   "theorems": [
    "Nla3d.Newton.C94_newton",
    "Nla3d.Newton.C94_code",
    "Nla3d.Newton.C94_linearised",
    "Nla3d.Newton.C94_equilibrium"
   ],
   "note": "Composes C81 with C21: invariant over all states the solver can reach. The derivative is taken where the displaced elements are not degenerate. Right-hand sides of constraints other than 0 are applied to increments (C93)."
  },
  {
   "property": "C95",
   "status": "partial",
   "theorems": [
    "Nla3d.Struct.C95_increments",
    "Nla3d.Struct.C95_law",
    "Nla3d.Struct.C95_solution",
    "Nla3d.Struct.C95_partial",
    "Nla3d.Struct.C95_fails",
    "Nla3d.Struct.C95_stall",
    "Nla3d.Struct.C95_ends",
    "Nla3d.Struct.C95_violated"
   ],
   "note": "Linear elements contribute no internal forces, so every iteration repeats the answer to the full load (C95_increments, C95_law). The claim holds for models on which only prescribed values act and for runs of a single iteration (C95_partial); with loads and two or more load steps it is false for every model (C95_fails): a finished run gives (n+1)/2 times the linear displacements (C95_stall, C95_violated)."
  },
  {
   "property": "C96",
   "status": "partial",
   "theorems": [
    "Nla3d.Struct.C96_resultants",
    "Nla3d.Struct.C96_uniform",
    "Nla3d.Struct.C96_stress",
    "Nla3d.Struct.C96_plane_strain",
    "Nla3d.Struct.C96_plane_stress_violated"
   ],
   "note": "Proved for plane strain, and for any stress that the element's own elastic matrix assigns to the field (C96_uniform). False in plane stress, where the strains of the reported displacements are those of Hooke's law divided by (1-my^2)^2 (C96_plane_stress_violated)."
  },
  {
   "property": "C97",
   "status": "partial",
   "theorems": [
    "Nla3d.Vtk.C97_files_partial",
    "Nla3d.Vtk.C97_names",
    "Nla3d.Vtk.C97_violated",
    "Nla3d.Vtk.C97_node_counts",
    "Nla3d.Vtk.C97_dimensions_partial",
    "Nla3d.Vtk.C97_dimensions_violated"
   ],
   "note": "Proved for fewer than 65536 steps; from there on the files of earlier steps are overwritten (C97_violated). Numbers of nodes proved for all shapes, dimensions for all but the quadratic edge (C97_dimensions_violated)."
  },
  {
   "property": "C98",
   "status": "proved",
   "theorems": [
    "Nla3d.TimeCtl.C98_increments",
    "Nla3d.TimeCtl.C98_total"
   ],
   "note": "Exact arithmetic of an ordered field; counters modulo 65536."
  },
  {
   "property": "C99",
   "status": "partial",
   "theorems": [
    "Nla3d.Rigid.C99_newton_partial",
    "Nla3d.Rigid.C99_close",
    "Nla3d.Rigid.C99_exact",
    "Nla3d.Rigid.C99_solution",
    "Nla3d.Rigid.C99_distances",
    "Nla3d.Rigid.C99_newton_violated",
    "Nla3d.Rigid.C99_lever_violated",
    "Nla3d.Rigid.C99_prescribed_violated"
   ],
   "note": "The Newton statement is proved for angles that are 0 or at least 1e-3; in between the code uses truncated series, for which the bound of C99_close (all angles) holds instead and the Newton statement is disproved. C99_solution is for rotations of the master that are free or fixed at zero; for prescribed rotations it is disproved."
  },
  {
   "property": "C100",
   "status": "proved",
   "theorems": [
    "Nla3d.Newton.C100_newton",
    "Nla3d.Newton.C100_stationary",
    "Nla3d.Newton.C100_reactions"
   ],
   "note": "Exact real arithmetic; the energy functions are those of the material classes (C46)."
  },
  {
   "property": "C101",
   "status": "partial",
   "theorems": [
    "Nla3d.Prog.C101_positions",
    "Nla3d.Prog.C101_job",
    "Nla3d.Prog.C101_run",
    "Nla3d.Prog.C101_program_partial"
   ],
   "note": "Inherits what is excluded in C71 (files) and C91 (master node, cells of other types, some numberings); Runnable says which jobs are covered. With files (the default) SOLID81 only: for PLANE41 VtkProcessor has undefined behaviour (C105_plane_violated). Exact real arithmetic."
  },
  {
   "property": "C102",
   "status": "partial",
   "theorems": [
    "Nla3d.Trans.C102_history",
    "Nla3d.Trans.C102_unique",
    "Nla3d.Trans.C102_runs",
    "Nla3d.Trans.C102_rate",
    "Nla3d.Trans.C102_heat",
    "Nla3d.Trans.C102_heat_partial",
    "Nla3d.Trans.C102_heat_violated",
    "Nla3d.Trans.C102_trapezoid_partial",
    "Nla3d.Trans.C102_trapezoid_violated",
    "Nla3d.Trans.C102_uniform",
    "Nla3d.Trans.C102_decay",
    "Nla3d.Trans.C102_plate"
   ],
   "note": "Conservation of heat and the trapezoidal rule fail in the first step: the solver starts with zero rates, so the first step is an implicit step of half length and half of the heat supplied in it is lost (C102_heat_violated, C102_trapezoid_violated, in every run; C102_plate is one). All later steps and the case without supply are proved. No constraint equations, prescribed temperatures zero; exact real arithmetic."
  },
  {
   "property": "C103",
   "status": "partial",
   "theorems": [
    "Nla3d.Cdb.C103_format_partial",
    "Nla3d.Cdb.C103_header_partial",
    "Nla3d.Cdb.C103_torn_partial",
    "Nla3d.Cdb.C103_cut_violated",
    "Nla3d.Cdb.C103_blank_violated",
    "Nla3d.Cdb.C103_component_violated"
   ],
   "note": "Refused: no or a wrong format line, lines that end inside a field. Violated for every file that ends after a complete line of a block of nodes or elements (accepted as it is), for blank lines in a block and for files that end inside a component (reads behind the end of a string or vector)."
  },
  {
   "property": "C104",
   "status": "partial",
   "theorems": [
    "Nla3d.Trans.C104_free_partial",
    "Nla3d.Trans.C104_reaction_violated",
    "Nla3d.Trans.C104_plate"
   ],
   "note": "True at free DoFs. At fixed DoFs every run, with any elements and constraints, reports the applied load after every step, because vecR is not updated; C104_plate is a run that reports 0 where -20 is needed."
  },
  {
   "property": "C105",
   "status": "partial",
   "theorems": [
    "Nla3d.Prog.C105_files_partial",
    "Nla3d.Prog.C105_stress_violated",
    "Nla3d.Prog.C105_plane_violated"
   ],
   "note": "For SOLID81 all files and all numbers in them are proved, with the stresses and the strain energy as the code computes them. Violated: Cauchy and second Piola-Kirchhoff stress count the pressure twice (C105_stress_violated); files with PLANE41 are undefined behaviour (C105_plane_violated). Exact real arithmetic; numbers in the file are those of the model, the decimal notation of doubles is not modelled."
  },
  {
   "property": "C106",
   "status": "proved",
   "theorems": [
    "Nla3d.Prog.C106_report",
    "Nla3d.Prog.C106_files",
    "Nla3d.Prog.C106_same"
   ],
   "note": "Over the real numbers, for the Gauss solver. That such steps exist is a hypothesis; it says in particular that no increment of a fixed DoF is dropped as too small. The reports of nodes without given DoFs use the DoFs of the first node of the component, so the first node has to be the same."
  },
  {
   "property": "C107",
   "status": "proved",
   "theorems": [
    "Nla3d.Prog.C107_carried"
   ],
   "note": "Over the real numbers, for the Gauss solver. The cell data are said for elements whose volume is not zero."
  },
  {
   "property": "C108",
   "status": "partial",
   "theorems": [
    "Nla3d.Pardiso.C108_history",
    "Nla3d.Pardiso.C108_completes",
    "Nla3d.Pardiso.C108_declared",
    "Nla3d.Pardiso.C108_size_fatal",
    "Nla3d.Pardiso.C108_structure_iff",
    "Nla3d.Pardiso.C108_linear",
    "Nla3d.Pardiso.C108_mpc_violated",
    "Nla3d.Pardiso.C108_linear_violated",
    "Nla3d.Pardiso.C108_structure_violated",
    "Nla3d.Pardiso.C108_unused_violated",
    "Nla3d.Pardiso.C108_substitute_first_violated"
   ],
   "note": "The protocol is proved for every library. The matrix is legal iff there are no constraint equations and every free DoF is at an element (C108_structure_iff); then LinearFESolver is right (C108_linear), otherwise it leaves the contract of the library (C108_linear_violated). The library itself is a parameter with the contract of the MKL manual."
  },
  {
   "property": "C109",
   "status": "partial",
   "theorems": [
    "Nla3d.Struct.C109_stops",
    "Nla3d.Struct.C109_stiff",
    "Nla3d.Struct.C109_mechanism",
    "Nla3d.Struct.C109_weak",
    "Nla3d.Struct.C109_units_partial",
    "Nla3d.Struct.C109_units_violated",
    "Nla3d.Struct.C109_truss_mechanism",
    "Nla3d.Struct.C109_truss_partial"
   ],
   "note": "Refusal of mechanisms and the reasons for stopping are proved in full. Properly supported models are solved if forces are measured in a small enough unit (C109_units_partial, C109_truss_partial; C109_stiff with an explicit bound) and refused in a large one (C109_units_violated), because the smallest pivot is 1e-20 in any unit."
  },
  {
   "property": "C110",
   "status": "partial",
   "theorems": [
    "Nla3d.Truss.C110_run",
    "Nla3d.Truss.C110_mechanism",
    "Nla3d.Truss.C110_solved_partial",
    "Nla3d.Truss.C110_shipped",
    "Nla3d.Truss.C110_checks_violated",
    "Nla3d.Truss.C110_deformed_violated"
   ],
   "note": "Reports, files, reasons for stopping and the program as shipped are proved in full. The checks of the code do not compare (C110_checks_violated) and no file shows the deformed model (C110_deformed_violated). Trusses that are no mechanisms are solved for every modulus over some bound only (C110_solved_partial, see C109)."
  },
  {
   "property": "C111",
   "status": "partial",
   "theorems": [
    "Nla3d.Trans.C111_approach",
    "Nla3d.Trans.C111_linear_partial",
    "Nla3d.Trans.C111_bodies_partial",
    "Nla3d.Trans.C111_linear_violated",
    "Nla3d.Trans.C111_heated",
    "Nla3d.Trans.C111_wall_violated"
   ],
   "note": "Proved for prescribed values zero (C111_linear_partial; C111_bodies_partial for all bodies of QUADTH elements with films whose heat can flow off). For other values runs approach the steady solution for zero (C111_approach), because the right-hand side has no term for them, and stay away from the solution of LinearFESolver (C111_linear_violated, for every model whose elements feel the prescribed values at a free DoF). Assumed: no combination of values in (0, 1e-20] occurs, which the product routine drops."
  },
  {
   "property": "C112",
   "status": "partial",
   "theorems": [
    "Nla3d.Pardiso.C112_nonlinear_partial",
    "Nla3d.Pardiso.C112_transient_partial",
    "Nla3d.Pardiso.C112_nonlinear_violated",
    "Nla3d.Pardiso.C112_transient_violated"
   ],
   "note": "Proved for models without constraint equations whose free DoFs all belong to elements. For all others the first call of the library is outside its contract (the violated theorems), because diagonal entries are missing (C108). A transient run needs at least one step: without steps the factorisation is made though no new object would be asked."
  },
  {
   "property": "C113",
   "status": "partial",
   "theorems": [
    "Nla3d.Calls.C113_numbers",
    "Nla3d.Calls.C113_linear",
    "Nla3d.Calls.C113_nonlinear_partial",
    "Nla3d.Calls.C113_transient_partial",
    "Nla3d.Calls.C113_set_active",
    "Nla3d.Calls.C113_status",
    "Nla3d.Calls.C113_numbers_violated",
    "Nla3d.Calls.C113_last_violated",
    "Nla3d.Calls.C113_active_violated",
    "Nla3d.Calls.C113_status_long",
    "Nla3d.Calls.C113_fresh_violated",
    "Nla3d.Calls.C113_status_violated",
    "Nla3d.Calls.C113_delete_violated"
   ],
   "note": "Numbers and the order of the calls are proved. Violated in the code: post gets n+1 from the nonlinear and the transient solver, the active flag is not looked at, getStatus prints the active flag for the failed one, the destructor of the base class is not virtual, numbers repeat beyond 65535 post-processors."
  },
  {
   "property": "C114",
   "status": "proved",
   "theorems": [
    "Nla3d.Newton.C114_tangent",
    "Nla3d.Newton.C114_iteration",
    "Nla3d.Newton.C114_load_step",
    "Nla3d.Newton.C114_solution",
    "Nla3d.Newton.C114_enough_steps",
    "Nla3d.Newton.C114_gauss"
   ],
   "note": "Exact real arithmetic. The number of load steps needed depends on the path and is not bounded by the 16 bits of numberOfLoadsteps; C114_solution gives the condition on the steps (the path moves by at most r/2 per step) for any given number of steps."
  },
  {
   "property": "C115",
   "status": "partial",
   "theorems": [
    "Nla3d.Query.C115_heat",
    "Nla3d.Query.C115_gradient_violated",
    "Nla3d.Query.C115_tetra0_partial",
    "Nla3d.Query.C115_strain_violated",
    "Nla3d.Query.C115_rest_violated",
    "Nla3d.Query.C115_scale_violated",
    "Nla3d.Query.C115_answer_violated",
    "Nla3d.Query.C115_register",
    "Nla3d.Query.C115_reveal_partial",
    "Nla3d.Query.C115_reveal_violated",
    "Nla3d.Query.C115_fields_partial"
   ],
   "note": "GRADT is minus the gradient; TETRA0 answers E with stresses and C with small strains; TETRA0, INTER0 and INTER3 ignore the scale; INTER3 returns nothing for most codes and TETRA0 has no volume before buildK, so that writeAllResults is undefined for models with them. For the other elements and queries the property is proved."
  },
  {
   "property": "C116",
   "status": "partial",
   "theorems": [
    "Nla3d.Bars.C116_rado",
    "Nla3d.Bars.C116_tables_partial",
    "Nla3d.Bars.C116_weight_violated",
    "Nla3d.Bars.C116_order3_violated",
    "Nla3d.Bars.C116_order4_violated",
    "Nla3d.Bars.C116_points_violated"
   ],
   "note": "The rule that buildK and update use is proved to be of degree five. The five tables of intWeight, which nothing uses: the weights add up to twice the area; halved, the tables are of degree 1, 2, 1, 3 and 5, so the third and the fourth are not of the order that their comments say; nOfIntPoints is 3 for all of them."
  },
  {
   "property": "C117",
   "status": "partial",
   "theorems": [
    "Nla3d.DMat.C117_run_partial",
    "Nla3d.DMat.C117_get",
    "Nla3d.DMat.C117_noLeak",
    "Nla3d.DMat.C117_toMat",
    "Nla3d.DMat.C117_toVec",
    "Nla3d.DMat.C117_cpMat",
    "Nla3d.DMat.C117_cpVec",
    "Nla3d.DMat.C117_print_violated",
    "Nla3d.DMat.C117_self_violated",
    "Nla3d.DMat.C117_fill_violated",
    "Nla3d.DMat.C117_two_violated",
    "Nla3d.DMat.C117_corner_violated"
   ],
   "note": "Proved for programs without self-assignment that fill only matrices of less than 65536 elements. Assigning a matrix to itself loses its elements; fill never ends from 65536 elements on; the value of an expression with two elements of a matrix depends on the order of the calls; toMat and toVec fail for targets larger than the matrix, which their first assert allows; operator<< writes to std::cout."
  },
  {
   "property": "C118",
   "status": "partial",
   "theorems": [
    "Nla3d.Solver.C118_step_partial",
    "Nla3d.Solver.C118_run_partial",
    "Nla3d.Solver.C118_decay",
    "Nla3d.Solver.C118_first",
    "Nla3d.Solver.C118_first_violated"
   ],
   "note": "Proved for all steps after the first one, for runs in which no component is small enough to be dropped by the sparse product. The forces include what the code makes of non-zero prescribed values (C25). The first step starts with acceleration 0 and loses half the work of the forces that are not in balance at the beginning."
  },
  {
   "property": "C119",
   "status": "partial",
   "theorems": [
    "Nla3d.Tokens.C119_tokens_partial",
    "Nla3d.Tokens.C119_split_unique",
    "Nla3d.Tokens.C119_restore",
    "Nla3d.Tokens.C119_strip",
    "Nla3d.Tokens.C119_unique",
    "Nla3d.Tokens.C119_blank_violated",
    "Nla3d.Tokens.C119_endless_violated",
    "Nla3d.Tokens.C119_cut_violated",
    "Nla3d.Tokens.C119_long_violated"
   ],
   "note": "Proved for pieces of less than 32768 characters (del_spaces: less than 65536), with one blank as the token of a piece of blanks. Longer pieces end the program or are cut, because their length is cast to int16; del_spaces cuts long strings and does not end for 65536 blanks."
  },
  {
   "property": "C120",
   "status": "partial",
   "theorems": [
    "Nla3d.Report.C120_dofs",
    "Nla3d.Report.C120_read_back",
    "Nla3d.Report.C120_mpc",
    "Nla3d.Report.C120_mpc_read_back",
    "Nla3d.Report.C120_mpc_violated"
   ],
   "note": "Proved in full for the report of DoFs. The text of an equation decides the texts of its coefficients only: what toStr rounds away cannot be read back."
  },
  {
   "property": "C121",
   "status": "partial",
   "theorems": [
    "Nla3d.Lookup.C121_name",
    "Nla3d.Lookup.C121_index",
    "Nla3d.Lookup.C121_type",
    "Nla3d.Lookup.C121_name_violated",
    "Nla3d.Lookup.C121_node",
    "Nla3d.Lookup.C121_element_partial",
    "Nla3d.Lookup.C121_zero_violated",
    "Nla3d.Lookup.C121_copy_partial",
    "Nla3d.Lookup.C121_copy_violated",
    "Nla3d.Lookup.C121_print"
   ],
   "note": "Proved except for: of two components with one name only the first is found; element number 0 passes the assertion and memory before the array is read; assignment between elements with different numbers of nodes loses nodes or reads past an array."
  },
  {
   "property": "C122",
   "status": "partial",
   "theorems": [
    "Nla3d.Dense.C122_vec",
    "Nla3d.Dense.C122_mat",
    "Nla3d.Dense.C122_identity",
    "Nla3d.Dense.C122_compare_partial",
    "Nla3d.Dense.C122_compare_violated",
    "Nla3d.Dense.C122_read",
    "Nla3d.Dense.C122_vec_round_trip",
    "Nla3d.Dense.C122_mat_violated"
   ],
   "note": "Proved except for: values that are not numbers compare equal to everything; the text of a matrix cannot be read back, because simple_read fails at its first bracket."
  },
  {
   "property": "C123",
   "status": "partial",
   "theorems": [
    "Nla3d.Dense.C123_blas",
    "Nla3d.Dense.C123_agree_partial",
    "Nla3d.Dense.C123_violated"
   ],
   "note": "Proved exactly for results that start from zero. Otherwise false: the calls of BLAS pass 0.0 as the factor of the old contents, so that sums over integration points keep the last term only."
  },
  {
   "property": "C124",
   "status": "partial",
   "theorems": [
    "Nla3d.Sparse.Shared.C124_safe_partial",
    "Nla3d.Sparse.Shared.C124_own",
    "Nla3d.Sparse.Shared.C124_refines",
    "Nla3d.Sparse.Shared.C124_share",
    "Nla3d.Sparse.Shared.C124_set_violated",
    "Nla3d.Sparse.Shared.C124_copy_violated"
   ],
   "note": "Proved for all programs that copy no matrix and call setSparsityInfo only on matrices without values. False for these two: the old values stay with the new pattern and are too short, and both copies free the same array."
  },
  {
   "property": "C125",
   "status": "partial",
   "theorems": [
    "Nla3d.Sparse.C125_print",
    "Nla3d.Sparse.C125_print_sym",
    "Nla3d.Sparse.C125_read_back",
    "Nla3d.Sparse.C125_internal",
    "Nla3d.Sparse.C125_stream_partial",
    "Nla3d.Sparse.C125_stream_violated"
   ],
   "note": "The texts are proved in full. False for the format: setf(old_flags) clears no bit, so the stream stays scientific, and a fixed stream writes hexadecimal afterwards."
  },
  {
   "property": "C126",
   "status": "partial",
   "theorems": [
    "Nla3d.Bars.C126_report",
    "Nla3d.Bars.C126_forces_partial",
    "Nla3d.Bars.C126_line_partial"
   ],
   "note": "Forces and energy for all normals except those along (0, 1, 1), for which buildK divides by zero (C43_violated); the report for all."
  },
  {
   "property": "C127",
   "status": "partial",
   "theorems": [
    "Nla3d.Material.Life.C127_values_partial",
    "Nla3d.Material.Life.C127_read_back",
    "Nla3d.Material.Life.C127_delete_violated",
    "Nla3d.Material.Life.C127_sized_violated"
   ],
   "note": "Proved for materials that are made by the constructors of their classes and destroyed as objects of their class. False for the destructor of FEStorage, which deletes through a base class without virtual destructor, and for Material(num_c), which has no names."
  },
  {
   "property": "C128",
   "status": "partial",
   "theorems": [
    "Nla3d.Storage.C128_reset",
    "Nla3d.Storage.C128_again_partial",
    "Nla3d.Storage.C128_collections_violated",
    "Nla3d.Solver.C128_solve"
   ],
   "note": "Dropping is proved for storages in any state. Setting up again gives the first state for models without MPC collections; it is false with collections, whose equations are registered a second time."
  },
  {
   "property": "C129",
   "status": "partial",
   "theorems": [
    "Nla3d.Owner.C129_values_partial",
    "Nla3d.Owner.C129_copy_violated",
    "Nla3d.Owner.C129_example_violated",
    "Nla3d.Owner.C129_self_violated"
   ],
   "note": "Proved for programs without copy constructor and without assignment of an element to itself. False with the implicit copy constructor, which shares the array, for an object passed as example to createElements, and for self-assignment (memcpy on one range)."
  },
  {
   "property": "C130",
   "status": "partial",
   "theorems": [
    "Nla3d.NodeText.C130_text_partial",
    "Nla3d.NodeText.C130_apart_partial",
    "Nla3d.NodeText.C130_large_violated"
   ],
   "note": "Proved for coordinates up to 10^24 - 1. False for large ones: from 10^92 + 1 on the text ends in the first number."
  },
  {
   "property": "C131",
   "status": "proved",
   "theorems": [
    "Nla3d.Views.C131_windows",
    "Nla3d.Views.C131_steady",
    "Nla3d.Views.C131_read",
    "Nla3d.Views.C131_write",
    "Nla3d.Views.C131_parts"
   ],
   "note": ""
  },
  {
   "property": "C132",
   "status": "partial",
   "theorems": [
    "Nla3d.Solver.C132_reported",
    "Nla3d.Solver.C132_balance_partial",
    "Nla3d.Solver.C132_loads_violated",
    "Nla3d.Solver.C132_tiny_violated"
   ],
   "note": "Proved for loads that are not at fixed DoFs and prescribed values that are zero or larger than 1e-20. False for a load at a fixed DoF, which the reported reaction lacks, and for smaller prescribed values."
  },
  {
   "property": "C133",
   "status": "proved",
   "theorems": [
    "Nla3d.Solver.C133_reciprocity"
   ],
   "note": ""
  },
  {
   "property": "C134",
   "status": "proved",
   "theorems": [
    "Nla3d.Solver.C134_energy",
    "Nla3d.Solver.C134_minimum",
    "Nla3d.Struct.C134_elements",
    "Nla3d.Struct.C134_truss",
    "Nla3d.Struct.C134_tetra",
    "Nla3d.Struct.C134_heat"
   ],
   "note": "The theorems in Struct restate the minimum with the energy of elements, the elongations of bars, the strains of tetrahedra and the functional of heat conduction"
  },
  {
   "property": "C135",
   "status": "proved",
   "theorems": [
    "Nla3d.Solver.C135_superposition",
    "Nla3d.Solver.C135_unique",
    "Nla3d.Solver.gauss_regular"
   ],
   "note": ""
  },
  {
   "property": "C136",
   "status": "proved",
   "theorems": [
    "Nla3d.Struct.C136_stiffer",
    "Nla3d.Struct.C136_point",
    "Nla3d.Struct.C136_work",
    "Nla3d.Struct.C136_solid",
    "Nla3d.Struct.C136_solid_work"
   ],
   "note": ""
  }
 ]
}