{
 "claims": [
  {
   "property": "C01",
   "status": "partial",
   "theorems": [
    "TDy.Props.C01_setup_only_after_options",
    "TDy.Props.C01_needs_setup",
    "TDy.Props.C01_documented_order_succeeds",
    "TDy.Props.C01_needs_vectors",
    "TDy.Props.C01_initial_condition_before_setup",
    "TDy.Props.C01_setup_after_failed_options_is_undefined"
   ],
   "note": "Every refused/accepted order is proved for all call histories. Missing: TDySetInitialCondition before setup and TDySetup after a failed TDySetFromOptions are not refused by the code; shown by the two negative theorems."
  },
  {
   "property": "C02",
   "status": "proved",
   "theorems": [
    "TDy.Props.C02_accepts_exactly_supported",
    "TDy.Props.C02_rejects_without_mode",
    "TDy.Props.C02_rejection_has_no_effect"
   ],
   "note": "All states and all 18 pairs; rejection leaves the object unchanged."
  },
  {
   "property": "C03",
   "status": "partial",
   "theorems": [
    "TDy.Props.C03_discretization_restores",
    "TDy.Props.C03_solver_matches_partial",
    "TDy.Props.C03_failed_mode_switch_mismatch",
    "TDy.Props.C03_command_line_mismatch",
    "TDy.Props.C03_th_field_count_wrong"
   ],
   "note": "The code violates the full statement (a failed TDySetMode or a command-line mode leaves the old solver installed; TH multi-field count wrong); partial theorem covers histories with no failed mode switch."
  },
  {
   "property": "C04",
   "status": "partial",
   "theorems": [
    "TDy.Props.C04_options_frozen_partial",
    "TDy.Props.C04_set_from_options_refused",
    "TDy.Props.C04_discretization_after_setup",
    "TDy.Props.C04_density_after_setup_ignored"
   ],
   "note": "The code lets TDySetDiscretization and TDySetWaterDensityType change a set-up object; partial theorem: every other call leaves the options unchanged."
  },
  {
   "property": "C05",
   "status": "proved",
   "theorems": [
    "TDy.Lib.Props.C05_shutdown_newest_first",
    "TDy.Lib.Props.C05_library_functions_once"
   ],
   "note": "For call sequences of any length."
  },
  {
   "property": "C06",
   "status": "partial",
   "theorems": [
    "TDy.Lib.Props.C06_reinitialisation_undefined",
    "TDy.Lib.Props.C06_named_functions_undefined",
    "TDy.Lib.Props.C06_reinitialisation_partial"
   ],
   "note": "The code violates it: after any cycle that initialised the library, re-initialisation uses freed memory (negative theorems for every first cycle). The partial theorem covers only a first cycle that did nothing."
  },
  {
   "property": "C07",
   "status": "proved",
   "theorems": [
    "TDy.Lib.Props.C07_latest_registration_wins"
   ],
   "note": "For call sequences of any length within one cycle; key strings are treated as copied."
  },
  {
   "property": "C08",
   "status": "proved",
   "theorems": [
    "TDy.Slots.Props.C08_conditions_latest_setter_wins",
    "TDy.Slots.Props.C08_material_latest_setter_wins",
    "TDy.Slots.Props.C08_absent_condition_undefined",
    "TDy.Slots.Props.C08_constant_at_every_point"
   ],
   "note": "All sequences of setter calls on all slots."
  },
  {
   "property": "C09",
   "status": "proved",
   "theorems": [
    "TDy.Slots.Props.C09_released_exactly_once",
    "TDy.Slots.Props.C09_not_released_while_in_use",
    "TDy.Slots.Props.C09_same_context_twice"
   ],
   "note": "Multiset equality of destructor calls and handed-over contexts for every sequence; distinct contexts are never released while in use."
  },
  {
   "property": "C10",
   "status": "partial",
   "theorems": [
    "TDy.Slots.Props.C10_released_exactly_once_partial",
    "TDy.Slots.Props.C10_context_leaked"
   ],
   "note": "ConditionsDestroy leaks the salinity-source and boundary-pressure-type contexts (negative theorem for every history); proved for the other six."
  },
  {
   "property": "C11",
   "status": "partial",
   "theorems": [
    "TDy.Slots.Props.C11_constant_isotropic",
    "TDy.Slots.Props.C11_isotropic",
    "TDy.Slots.Props.C11_constant_diagonal",
    "TDy.Slots.Props.C11_diagonal",
    "TDy.Slots.Props.C11_constant_full",
    "TDy.Slots.Props.C11_off_diagonal_zero_partial",
    "TDy.Slots.Props.C11_off_diagonal_stale"
   ],
   "note": "Layout proved for every n, dim and buffer. Off-diagonal zeros hold only for zeroed buffers: the code does not write them (negative theorem)."
  },
  {
   "property": "C12",
   "status": "proved",
   "theorems": [
    "TDy.Curves.Props.C12_bounds",
    "TDy.Curves.Props.C12_strictly_decreasing"
   ],
   "note": "All parameters 0<m<1, alpha>0, Sr<1; over the reals."
  },
  {
   "property": "C13",
   "status": "proved",
   "theorems": [
    "TDy.Curves.Props.C13_first_derivative",
    "TDy.Curves.Props.C13_second_derivative"
   ],
   "note": "First derivative everywhere including the saturation threshold; second derivative away from the threshold (it need not exist there)."
  },
  {
   "property": "C14",
   "status": "proved",
   "theorems": [
    "TDy.Curves.Props.C14_bounds",
    "TDy.Curves.Props.C14_antitone",
    "TDy.Curves.Props.C14_derivatives"
   ],
   "note": "Over the reals; derivatives away from the threshold, where the Gardner curve has a kink."
  },
  {
   "property": "C15",
   "status": "proved",
   "theorems": [
    "TDy.Curves.Props.C15_irmay",
    "TDy.Curves.Props.C15_mualem"
   ],
   "note": "Irmay and unsmoothed Mualem for every m>0; the smoothed curve is C82."
  },
  {
   "property": "C16",
   "status": "proved",
   "theorems": [
    "TDy.Curves.Props.C16_derivatives",
    "TDy.Curves.Props.C16_cubic_derivative"
   ],
   "note": ""
  },
  {
   "property": "C17",
   "status": "proved",
   "theorems": [
    "TDy.Curves.Props.C17_smooth_join",
    "TDy.Curves.Props.C17_empty_interval_refused"
   ],
   "note": "For every non-empty interval below 1 and every scaling; an empty interval is refused."
  },
  {
   "property": "C18",
   "status": "partial",
   "theorems": [
    "TDy.Curves.Props.C18_tables_are_last_set",
    "TDy.Curves.Props.C18_whole_array_value",
    "TDy.Curves.Props.C18_agreement_partial",
    "TDy.Curves.Props.C18_overlap_disagrees",
    "TDy.Curves.Props.C18_miss_undefined"
   ],
   "note": "Agreement proved for every history when no evaluated point is registered with both types. On overlaps the two evaluations disagree, and a hash miss can read past the table (negative theorems)."
  },
  {
   "property": "C19",
   "status": "partial",
   "theorems": [
    "TDy.Curves.Props.C19_points_ignored",
    "TDy.Curves.Props.C19_identity_points_partial",
    "TDy.Curves.Props.C19_on_points_partial"
   ],
   "note": "RelativePermeabilityCompute ignores the registered point indices (negative theorem); proved for points 0..n-1 with one type, and for the point-list evaluation."
  },
  {
   "property": "C20",
   "status": "proved",
   "theorems": [
    "TDy.Eos.Props.C20_positive_monotone_continuous",
    "TDy.Eos.Props.C20_constant_derivatives",
    "TDy.Eos.Props.C20_exponential_derivatives"
   ],
   "note": ""
  },
  {
   "property": "C21",
   "status": "proved",
   "theorems": [
    "TDy.Eos.Props.C21_fraction"
   ],
   "note": ""
  },
  {
   "property": "C22",
   "status": "proved",
   "theorems": [
    "TDy.Time.Props.C22_never_overshoots"
   ],
   "note": "Covers failed solves as well as accepted steps."
  },
  {
   "property": "C23",
   "status": "partial",
   "theorems": [
    "TDy.Time.Props.C23_step_sizes_partial",
    "TDy.Time.Props.C23_initial_step_unchecked",
    "TDy.Time.Props.C23_step_that_was_set",
    "TDy.Time.Props.C23_steps_by_default"
   ],
   "note": "A first step above dt_max is used unclamped (C23_initial_step_unchecked); proved for first step <= dt_max, with the exact length of every step."
  },
  {
   "property": "C24",
   "status": "proved",
   "theorems": [
    "TDy.Time.Props.C24_terminates",
    "TDy.Time.Props.C24_at_most_25_failures",
    "TDy.Time.Props.C24_shrinking_steps_never_return"
   ],
   "note": "Growth factor below one can run forever (C24_shrinking_steps_never_return), hence the quantifier."
  },
  {
   "property": "C25",
   "status": "partial",
   "theorems": [
    "TDy.Time.Props.C25_reported_time_partial",
    "TDy.Time.Props.C25_time_skipped",
    "TDy.Time.Props.C25_time_skipped_after_error"
   ],
   "note": "A solve that fails on a step shortened to the target makes the code report the target although less was simulated (negative theorems); proved when no solve failed on a shortened step."
  },
  {
   "property": "C26",
   "status": "partial",
   "theorems": [
    "TDy.Time.Props.C26_second_run_wrong",
    "TDy.Time.Props.C26_second_run_stuck",
    "TDy.Time.Props.C26_first_run_partial"
   ],
   "note": "The second run with TS is wrong for every t1<t2 (negative theorems: end time passed is sync-time); proved for the first run."
  },
  {
   "property": "C27",
   "status": "proved",
   "theorems": [
    "TDy.Time.Props.C27_last_solution_on_disk",
    "TDy.Time.Props.C27_zero_interval_undefined",
    "TDy.Time.Props.C27_defined"
   ],
   "note": "Interval zero, which the options accept, divides by zero (C27_zero_interval_undefined)."
  },
  {
   "property": "C28",
   "status": "proved",
   "theorems": [
    "TDy.Time.Props.C28_failed_solves_are_undone"
   ],
   "note": "Every solver call, in every returning run, starts from the last accepted solution."
  },
  {
   "property": "C29",
   "status": "partial",
   "theorems": [
    "TDy.Driver.Props.C29_user_properties_kept_partial",
    "TDy.Driver.Props.C29_molecular_weight_replaced"
   ],
   "note": "In salinity mode the user's molecular weight is always replaced (negative theorem); proved for every other property."
  },
  {
   "property": "C30",
   "status": "partial",
   "theorems": [
    "TDy.Props.C30_option_sets_its_own_setting_partial",
    "TDy.Props.C30_other_settings",
    "TDy.Props.C30_thermal_conductivity_sets_porosity",
    "TDy.Props.C30_boundary_values"
   ],
   "note": "The code sets the porosity from the thermal conductivity option; proved for the other options."
  },
  {
   "property": "C31",
   "status": "partial",
   "theorems": [
    "TDy.Props.C31_snes_hooks_consistent_partial",
    "TDy.Props.C31_inconsistent_hooks",
    "TDy.Props.C31_presolve_matches",
    "TDy.Props.C31_ts_jacobian_matches",
    "TDy.Props.C31_ts_jacobian_where",
    "TDy.Props.C31_every_pair_has_a_driver",
    "TDy.Props.C31_time_cut_only_tpf"
   ],
   "note": "Some (mode, discretization) pairs get no or mismatched SNES hooks (negative theorem); proved for the others."
  },
  {
   "property": "C32",
   "status": "proved",
   "theorems": [
    "TDy.Geo.Props.C32_determinant",
    "TDy.Geo.Props.C32_inverse",
    "TDy.Geo.Props.C32_argument_changed"
   ],
   "note": "The routine also zeroes small entries of its argument (C32_argument_changed)."
  },
  {
   "property": "C33",
   "status": "proved",
   "theorems": [
    "TDy.Geo.Props.C33_tetrahedron",
    "TDy.Geo.Props.C33_tetrahedron2",
    "TDy.Geo.Props.C33_routines_agree",
    "TDy.Geo.Props.C33_tet_cell",
    "TDy.Geo.Props.C33_hexahedron",
    "TDy.Geo.Props.C33_wedge",
    "TDy.Geo.Props.C33_pyramid",
    "TDy.Geo.Props.C33_planar_face_diagonal",
    "TDy.Geo.Props.C33_parallelepiped",
    "TDy.Geo.Props.C33_prism",
    "TDy.Geo.Props.C33_pyramid_on_parallelogram",
    "TDy.Geo.Props.C33_other_cells_rejected"
   ],
   "note": "For boxes, prisms, pyramids exactly; for general cells the sum is the volume enclosed by the surface as long as the tetrahedra do not overlap."
  },
  {
   "property": "C34",
   "status": "proved",
   "theorems": [
    "TDy.Geo.Props.C34_plane_contains_points",
    "TDy.Geo.Props.C34_plane_nondegenerate",
    "TDy.Geo.Props.C34_intercept",
    "TDy.Geo.Props.C34_projection"
   ],
   "note": "Also: the projection is the nearest point of the plane."
  },
  {
   "property": "C35",
   "status": "partial",
   "theorems": [
    "TDy.Geo.Props.C35_first_index_partial",
    "TDy.Geo.Props.C35_miss_looks_like_a_hit"
   ],
   "note": "On a miss the routine returns the PETSc error code 76 as if it were an index (negative theorem); proved when the value occurs."
  },
  {
   "property": "C36",
   "status": "proved",
   "theorems": [
    "TDy.Fvtpf.Props.C36_rank_total",
    "TDy.Fvtpf.Props.C36_conservation",
    "TDy.Fvtpf.Props.C36_parallel",
    "TDy.Fvtpf.Props.C36_mass_balance"
   ],
   "note": "Per rank, for one rank and for any distribution over ranks; C36_mass_balance is the consequence for a converged step. Whatever the uninitialised fluxes of immobile faces are, they cancel too."
  },
  {
   "property": "C37",
   "status": "proved",
   "theorems": [
    "TDy.Fvtpf.Props.C37_series",
    "TDy.Fvtpf.Props.C37_zero_iff",
    "TDy.Fvtpf.Props.C37_directional"
   ],
   "note": ""
  },
  {
   "property": "C38",
   "status": "partial",
   "theorems": [
    "TDy.Fvtpf.Props.C38_antisymmetric_partial",
    "TDy.Fvtpf.Props.C38_both_dry"
   ],
   "note": "Fails when both sides are drier than 1e-8 (negative theorem); proved otherwise."
  },
  {
   "property": "C39",
   "status": "proved",
   "theorems": [
    "TDy.Fvtpf.Props.C39_upwinded",
    "TDy.Fvtpf.Props.C39_hydrostatic"
   ],
   "note": ""
  },
  {
   "property": "C40",
   "status": "proved",
   "theorems": [
    "TDy.Fvtpf.Props.C40_no_inflow",
    "TDy.Fvtpf.Props.C40_unmodified"
   ],
   "note": ""
  },
  {
   "property": "C41",
   "status": "proved",
   "theorems": [
    "TDy.Fvtpf.Props.C41_up",
    "TDy.Fvtpf.Props.C41_dn",
    "TDy.Fvtpf.Props.C41_update_smooth",
    "TDy.Fvtpf.Props.C41_standard_laws",
    "TDy.Fvtpf.Props.C41_matrix"
   ],
   "note": "Per face, for the state update, for the standard constitutive laws and for the whole assembled matrix (C41_matrix)."
  },
  {
   "property": "C42",
   "status": "partial",
   "theorems": [
    "TDy.Fvtpf.Props.C42_outflow_partial",
    "TDy.Fvtpf.Props.C42_outflow_wrong",
    "TDy.Fvtpf.Props.C42_inflow_wrong",
    "TDy.Fvtpf.Props.C42_seepage_partial",
    "TDy.Fvtpf.Props.C42_boundary_weight"
   ],
   "note": "Dirichlet inflow entry is zero although the derivative is negative; the outflow gravity term is wrong when the boundary weight is not 1 (negative theorems). Proved: outflow with full boundary weight, seepage faces."
  },
  {
   "property": "C43",
   "status": "partial",
   "theorems": [
    "TDy.Fvtpf.Props.C43_defined_partial",
    "TDy.Fvtpf.Props.C43_immobile_undefined",
    "TDy.Fvtpf.Props.C43_residual_depends_on_junk"
   ],
   "note": "Immobile faces leave the flux uninitialised and the residual depends on it (negative theorems); proved for mobile faces."
  },
  {
   "property": "C44",
   "status": "partial",
   "theorems": [
    "TDy.Fvtpf.Props.C44_encoding",
    "TDy.Fvtpf.Props.C44_own_entry_partial",
    "TDy.Fvtpf.Props.C44_dirichlet_wrong_entry",
    "TDy.Fvtpf.Props.C44_dirichlet_undefined"
   ],
   "note": "The Dirichlet residual reads the entry two further on, out of bounds for the last two faces (negative theorems). Proved: numbering one-to-one; seepage residual and both Jacobians use their own entry."
  },
  {
   "property": "C45",
   "status": "proved",
   "theorems": [
    "TDy.Fvtpf.Props.C45_fvtpf_accumulation",
    "TDy.Mpfao.Props.C45_mpfao_snes_accum",
    "TDy.Mpfao.Props.C45_mpfao_ts_accum"
   ],
   "note": "Two-point flux and MPFA-O, SNES and TS."
  },
  {
   "property": "C46",
   "status": "proved",
   "theorems": [
    "TDy.Mpfao.Props.C46_constants"
   ],
   "note": "Non-corner vertices with any number of cells, internal, Dirichlet and Neumann subfaces; the corner vertices are C51."
  },
  {
   "property": "C47",
   "status": "proved",
   "theorems": [
    "TDy.Mpfao.Props.C47_common_flux",
    "TDy.Mpfao.Props.C47_face_pressures",
    "TDy.Mpfao.Props.C47_rows",
    "TDy.Mpfao.Props.C47_refused_iff"
   ],
   "note": "Including: every subface has exactly one row, and the code refuses exactly the singular systems."
  },
  {
   "property": "C48",
   "status": "proved",
   "theorems": [
    "TDy.Mpfao.Props.C48_cell",
    "TDy.Mpfao.Props.C48_cell_snes",
    "TDy.Mpfao.Props.C48_conservation",
    "TDy.Mpfao.Props.C48_conservation_snes",
    "TDy.Mpfao.Props.C48_mass_balance",
    "TDy.Mpfao.Props.C48_parallel"
   ],
   "note": "TS and SNES residuals; the mass balance of a converged step; and, for a mesh spread over processes, that the sum of what each process adds is the residual of the whole mesh."
  },
  {
   "property": "C49",
   "status": "proved",
   "theorems": [
    "TDy.Mpfao.Props.C49_direction",
    "TDy.Mpfao.Props.C49_upwind_value",
    "TDy.Mpfao.Props.C49_upwind_boundary_value",
    "TDy.Mpfao.Props.C49_upwind_only",
    "TDy.Mpfao.Props.C49_seepage_no_inflow",
    "TDy.Mpfao.Props.C49_seepage_outflow",
    "TDy.Mpfao.Props.C49_at_rest"
   ],
   "note": ""
  },
  {
   "property": "C50",
   "status": "partial",
   "theorems": [
    "TDy.Mpfao.Props.C50_ttimesP_partial",
    "TDy.Mpfao.Props.C50_subface_partial",
    "TDy.Mpfao.Props.C50_flux_matrix_partial",
    "TDy.Mpfao.Props.C50_snes_matrix_partial",
    "TDy.Mpfao.Props.C50_ts_matrix_partial",
    "TDy.Mpfao.Props.C50_corner_violated"
   ],
   "note": "Violated at corners of the domain that read the row of another vertex (C50_corner_violated, see C146). Elsewhere (JacOk) proved: the assembled SNES and TS matrices are the derivatives of the assembled residuals, on any mesh whose tables are consistent (JacOk), away from upwind switches, with boundary states that do not depend on the unknowns. When no boundary pressure function is set the code takes the boundary pressure from the cell, a dependence the Jacobian does not have."
  },
  {
   "property": "C51",
   "status": "partial",
   "theorems": [
    "TDy.Mpfao.Props.C51_matrix",
    "TDy.Mpfao.Props.C51_cell_column",
    "TDy.Mpfao.Props.C51_columns_iff",
    "TDy.Mpfao.Props.C51_columns_partial"
   ],
   "note": "Corner vertices: the rows of the transmissibility matrix and the own-cell column are proved right for every corner (C51_matrix, C51_cell_column). The boundary columns are right exactly when the face reordering is an involution (C51_columns_iff); the code applies the permutation instead of its inverse, so for cyclic orders the columns are wrong (CornerWitness.wrong). The full statement is false of the code."
  },
  {
   "property": "C52",
   "status": "partial",
   "theorems": [
    "TDy.Mpfao.Props.C52_query_partial",
    "TDy.Mpfao.Props.C52_query_outside",
    "TDy.Mpfao.Props.C52_add_replaces",
    "TDy.Mpfao.Props.C52_others_unaffected",
    "TDy.Mpfao.Props.C52_impermeable_partial",
    "TDy.Mpfao.Props.C52_ignored",
    "TDy.Mpfao.Props.C52_region_mass_partial",
    "TDy.Mpfao.Props.C52_gravity_leaks",
    "TDy.Mpfao.Props.C52_jacobian_not_updated"
   ],
   "note": "Connected regions: membership queries, replacement by AddCells and the zeroed transmissibilities are proved; with no gravity every subface between regions carries no flow and each region conserves its mass (C52_region_mass_partial). The full statement is false of the code: the gravity coefficient is not zeroed (C52_gravity_leaks), the transmissibility array used by the Jacobian is not updated (C52_jacobian_not_updated) and regions are ignored without the TPF discretisation (C52_ignored)."
  },
  {
   "property": "C53",
   "status": "partial",
   "theorems": [
    "TDy.Mpfao.Props.C53_boundary_concentration",
    "TDy.Mpfao.Props.C53_cell",
    "TDy.Mpfao.Props.C53_conservation",
    "TDy.Mpfao.Props.C53_balance",
    "TDy.Mpfao.Props.C53_fresh_dispersion",
    "TDy.Mpfao.Props.C53_fresh_flux",
    "TDy.Mpfao.Props.C53_fresh_partial",
    "TDy.Mpfao.Props.C53_dispersion_direction",
    "TDy.Mpfao.Props.C53_no_dispersion_inside",
    "TDy.Mpfao.Props.C53_fresh_violated"
   ],
   "note": "Conservation of water and salt and the balance over a step are proved in full. That fresh water carries no salt is false of the code: the advective salt flux is not multiplied by a concentration (C53_fresh_violated, C53_fresh_flux); proved only without pressure-driven flow (C53_fresh_partial). Also proved: there is no dispersion at vertices with more than one cell (C53_no_dispersion_inside)."
  },
  {
   "property": "C54",
   "status": "proved",
   "theorems": [
    "TDy.Mpfao.Props.C54_carried_enthalpy",
    "TDy.Mpfao.Props.C54_cell",
    "TDy.Mpfao.Props.C54_conservation",
    "TDy.Mpfao.Props.C54_subface_cancels"
   ],
   "note": "Water and energy residuals sum up to storage minus sources plus boundary outflow on any mesh owned by one process; each subface between owned cells cancels on any rank."
  },
  {
   "property": "C55",
   "status": "partial",
   "theorems": [
    "TDy.Mpfao.Props.C55_boundary_lost",
    "TDy.Mpfao.Props.C55_corner_lost",
    "TDy.Mpfao.Props.C55_pressure_partial",
    "TDy.Mpfao.Props.C55_violated"
   ],
   "note": "Violated: boundary subfaces cancel themselves out of the Jacobian (C55_boundary_lost, C55_violated), corner vertices are skipped (C55_corner_lost). Proved for internal subfaces and pressure derivatives, up to the threshold below which entries are dropped, when gravity is off or density constant (C55_pressure_partial)."
  },
  {
   "property": "C56",
   "status": "partial",
   "theorems": [
    "TDy.Mpfao.Props.C56_source_terms",
    "TDy.Mpfao.Props.C56_sources_partial"
   ],
   "note": "Violated: the TS path multiplies the source by the volume, the SNES path does not; they agree exactly when the source is zero or the volume is one."
  },
  {
   "property": "C57",
   "status": "partial",
   "theorems": [
    "TDy.Mpfao.Props.C57_variable_is_mass",
    "TDy.Mpfao.Props.C57_storage_partial",
    "TDy.Mpfao.Props.C57_dae_partial"
   ],
   "note": "Violated: the mass already contains the volume and is multiplied by it again; right exactly when the volume is one or the mass does not change."
  },
  {
   "property": "C58",
   "status": "partial",
   "theorems": [
    "TDy.Mpfao.Props.C58_entries",
    "TDy.Mpfao.Props.C58_tensor_partial",
    "TDy.Mpfao.Props.C58_same",
    "TDy.Mpfao.Props.C58_two_point",
    "TDy.Mpfao.Props.C58_negative_lost",
    "TDy.Mpfao.Props.C58_low_permeability_lost"
   ],
   "note": "The face tensor is the inverse of the distance weighted mean of the inverses of the two cell tensors (and the scalar of the two-point method is proved); the code clips entries below 2.2e-16 to zero, so negative off-diagonal entries and very low permeabilities (1e-16 m2) are lost: proved by C58_negative_lost and C58_low_permeability_lost."
  },
  {
   "property": "C59",
   "status": "proved",
   "theorems": [
    "TDy.Mpfao.Props.C59_own_area"
   ],
   "note": "Each gravity coefficient uses the area of the subface it belongs to, for meshes whose cells have one type."
  },
  {
   "property": "C60",
   "status": "proved",
   "theorems": [
    "TDy.Mpfao.Props.C60_rows",
    "TDy.Mpfao.Props.C60_balance",
    "TDy.Mpfao.Props.C60_constant"
   ],
   "note": "Row by row form of the assembled system, cancellation of internal subfaces, and constants, for one process (balance) and any process (rows, constants), with the transmissibilities of C46. What corners contribute is the subject of C99."
  },
  {
   "property": "C61",
   "status": "partial",
   "theorems": [
    "TDy.Mesh.Props.C61_squeeze_sound",
    "TDy.Mesh.Props.C61_cell_queries",
    "TDy.Mesh.Props.C61_vertex_queries",
    "TDy.Mesh.Props.C61_face_vertex_queries",
    "TDy.Mesh.Props.C61_last_face_violated",
    "TDy.Mesh.Props.C61_face_cell_queries_partial",
    "TDy.Mesh.Props.C61_subcell_nu_vectors",
    "TDy.Mesh.Props.C61_subcell_coordinates_violated",
    "TDy.Mesh.Props.C61_subcell_tables"
   ],
   "note": "Squeezed tables are proved sound for every layout and the accessors for cells, vertices, face vertices and subcell nu vectors are proved to return exactly the recorded entries. C61_last_face_violated: the face_cells offsets are not closed after the last face (num_faces+1 offset missing), so the full property is false of the code; C61_face_cell_queries_partial covers every face whose offset the code fills. C61_subcell_coordinates_violated: the subcell face-centroid getter returns the variable-continuity coordinates."
  },
  {
   "property": "C62",
   "status": "proved",
   "theorems": [
    "TDy.Topology.Props.C62_tables_consistent",
    "TDy.Topology.Props.C62_subcells",
    "TDy.Topology.Props.C62_subcell_indices"
   ],
   "note": ""
  },
  {
   "property": "C63",
   "status": "partial",
   "theorems": [
    "TDy.Custom.Props.C63_numbered_once_partial",
    "TDy.Custom.Props.C63_violated",
    "TDy.Custom.Props.C63_isolated_partial"
   ],
   "note": "Proved for every conforming mesh: duplicate removal and renumbering succeed and what UpdateMapsC2F_F2C_F2V computes numbers each face once (NumberedOnce: range, onto, same id iff same vertex set, vertices, cells). The caller does not get the result: C63_violated shows that every conforming mesh with an internal face reads the freed face-to-cell map. Two ghosts that share a face keep two numbers."
  },
  {
   "property": "C64",
   "status": "partial",
   "theorems": [
    "TDy.Custom.Props.C64_never_reports",
    "TDy.Custom.Props.C64_violated",
    "TDy.Custom.Props.C64_table_partial"
   ],
   "note": "Violated: the check reads the count of another vertex after the write, so it never reports and a crowded vertex is undefined behaviour (C64_never_reports, C64_violated). Within the capacity the table is right (C64_table_partial)."
  },
  {
   "property": "C65",
   "status": "proved",
   "theorems": [
    "TDy.UGrid.Props.C65_pack",
    "TDy.UGrid.Props.C65_records",
    "TDy.UGrid.Props.C65_sizes"
   ],
   "note": "C65_pack: a rank fills its part of the vector exactly with one record per cell. C65_records: end to end over any ranks, partition and numbering, each rank finds the record (id, vertices, neighbours) of each of its cells and stores its natural id. C65_sizes: buffers sized by a first pass are filled exactly. PETSc's scatter and MPI are modelled by their specification."
  },
  {
   "property": "C66",
   "status": "proved",
   "theorems": [
    "TDy.UGrid.Props.C66_renumber",
    "TDy.UGrid.Props.C66_ghosts",
    "TDy.UGrid.Props.C66_natural",
    "TDy.UGrid.Props.C66_neighbours"
   ],
   "note": "C66_renumber states the conversion for any table; C66_ghosts, C66_natural and C66_neighbours are end to end from the mesh of the file: ghosts are exactly the non-owned neighbours, strictly increasing; each neighbour entry decodes to the mesh's neighbour and is negative iff owned elsewhere. PETSc's sort, AO and partitioner are parameters with their specification as hypothesis (Setting), met by a concrete import on two ranks."
  },
  {
   "property": "C67",
   "status": "proved",
   "theorems": [
    "TDy.UGrid.Props.C67_vertices",
    "TDy.UGrid.Props.C67_coordinates"
   ],
   "note": "C67_vertices: end to end on every rank, local vertex ids of owned and ghost cells decode to the file's vertices in order (within the record width), vertices stored once and increasing. C67_coordinates: coordinates follow."
  },
  {
   "property": "C68",
   "status": "partial",
   "theorems": [
    "TDy.UGrid.Props.C68_max_vertices_partial",
    "TDy.UGrid.Props.C68_violated"
   ],
   "note": "The code counts slots `> 0` of 0-based ids, so the first vertex of the mesh is not counted. C68_violated: a single hexahedron gives 7 and the adjacency matrix gets only 7 vertices. C68_max_vertices_partial: never too large; exact if some largest cell does not contain the first vertex; otherwise at most one too small."
  },
  {
   "property": "C69",
   "status": "proved",
   "theorems": [
    "TDy.UGrid.Props.C69_preallocation"
   ],
   "note": "C69_preallocation: end to end, the counts are 1 + owned neighbours and ghost neighbours of the cell in the mesh."
  },
  {
   "property": "C70",
   "status": "proved",
   "theorems": [
    "TDy.UGrid.Props.C70_natural_position",
    "TDy.UGrid.Props.C70_global_position",
    "TDy.UGrid.Props.C70_round_trip"
   ],
   "note": "C70_natural_position, C70_global_position and C70_round_trip for every numbering, number of components and previous contents. The AO is a parameter (bijection)."
  },
  {
   "property": "C71",
   "status": "partial",
   "theorems": [
    "TDy.Io.Props.C71_entries",
    "TDy.Io.Props.C71_what_is_cleared",
    "TDy.Io.Props.C71_diagonal_partial",
    "TDy.Io.Props.C71_again",
    "TDy.Io.Props.C71_violated"
   ],
   "note": "Proved for a zeroed buffer (all discretizations allocate it so) and for repeated evaluation; C71_violated shows for every size that the memset of sizeof(dim*dim)*n = 4n bytes leaves other contents in place."
  },
  {
   "property": "C72",
   "status": "proved",
   "theorems": [
    "TDy.Io.Props.C72_copy_fits_iff",
    "TDy.Io.Props.C72_fits",
    "TDy.Io.Props.C72_wrong_size"
   ],
   "note": "TDyAlloc is PetscCalloc1, which counts elements; the buffer has exactly one element per local unknown. Wrong file sizes are refused."
  },
  {
   "property": "C73",
   "status": "partial",
   "theorems": [
    "TDy.Io.Props.C73_richards",
    "TDy.Io.Props.C73_th_partial",
    "TDy.Io.Props.C73_violated",
    "TDy.Io.Props.C73_empty_rank_undefined",
    "TDy.Io.Props.C73_salinity_violated"
   ],
   "note": "Proved for one sampled value per cell and for TH with requests up to the cells of the smallest rank. C73_violated: a TH rank with one cell is sampled twice with the default request; an empty rank divides by zero; salinity samples concentrations as pressures."
  },
  {
   "property": "C74",
   "status": "proved",
   "theorems": [
    "TDy.Fe.Props.C74_unit_divergence_quad",
    "TDy.Fe.Props.C74_unit_divergence_hex",
    "TDy.Fe.Props.C74_nodal_quad",
    "TDy.Fe.Props.C74_nodal_hex",
    "TDy.Fe.Props.C74_piola_keeps_flux"
   ],
   "note": "Both reference cells: the divergence of each of the 8 (24) basis functions integrates to one, its normal components at the corners of the faces are nodal, and the Piola map keeps fluxes."
  },
  {
   "property": "C75",
   "status": "partial",
   "theorems": [
    "TDy.Fe.Props.C75_second_call_inverse_partial",
    "TDy.Fe.Props.C75_every_other_call_partial",
    "TDy.Fe.Props.C75_violated"
   ],
   "note": "Violated: the permeability is inverted in place, so the second call assembles the system of the inverse permeability (C75_violated, C75_second_call_inverse_partial). With regular permeabilities the third call repeats the first (C75_every_other_call_partial)."
  },
  {
   "property": "C76",
   "status": "proved",
   "theorems": [
    "TDy.Fe.Props.C76_darcy_law",
    "TDy.Fe.Props.C76_uniform_pressure_no_flow",
    "TDy.Fe.Props.C76_symmetric"
   ],
   "note": "Symmetry of the assembled matrix, the discrete Darcy law at every face of every vertex, and rest at uniform pressure, for the model of the whole assembly and velocity recovery; witnesses on a two-cell mesh."
  },
  {
   "property": "C77",
   "status": "partial",
   "theorems": [
    "TDy.Fe.Props.C77_unit_volume_or_steady_partial",
    "TDy.Fe.Props.WyWitness.C77_violated"
   ],
   "note": "C77_violated: the accumulation term lacks the cell volume; the partial theorem covers unit volumes and steady states."
  },
  {
   "property": "C78",
   "status": "partial",
   "theorems": [
    "TDy.Props.C78_destroy_defined_partial",
    "TDy.Props.C78_destroy_fresh",
    "TDy.Props.C78_destroy_before_options_undefined"
   ],
   "note": "TDyDestroy dereferences members that exist only after TDySetFromOptions/TDySetup (negative theorem)."
  },
  {
   "property": "C79",
   "status": "partial",
   "theorems": [
    "TDy.Eos.Props.C79_density_differs",
    "TDy.Eos.Props.C79_fresh_water_partial"
   ],
   "note": "The code's salt term has 80*3*T for 80+3T; the exact set of agreement is proved. Partial: fresh water."
  },
  {
   "property": "C80",
   "status": "partial",
   "theorems": [
    "TDy.Eos.Props.C80_viscosity_differs",
    "TDy.Eos.Props.C80_viscosity_increases",
    "TDy.Eos.Props.C80_strong_brine_partial"
   ],
   "note": "Sign error in the exponent: equals the published correlation only at T=0 and increases with temperature for fresh water (negative theorems). Partial: strong brines."
  },
  {
   "property": "C81",
   "status": "partial",
   "theorems": [
    "TDy.Eos.Props.C81_derivatives_missing",
    "TDy.Eos.Props.C81_other_types_partial"
   ],
   "note": "The Batzle-Wang type leaves both derivatives unwritten (negative theorem); proved for the other types."
  },
  {
   "property": "C82",
   "status": "proved",
   "theorems": [
    "TDy.Curves.Props.C82_smoothed_mualem"
   ],
   "note": ""
  },
  {
   "property": "C83",
   "status": "partial",
   "theorems": [
    "TDy.Time.Props.C83_output_after_failed_solve",
    "TDy.Time.Props.C83_outputs_partial"
   ],
   "note": "An output is written after a failed solve when the current step number is a multiple of the interval (negative theorem); proved for runs without failures."
  },
  {
   "property": "C84",
   "status": "proved",
   "theorems": [
    "TDy.Driver.Props.C84_needed_properties_available",
    "TDy.Driver.Props.C84_source_of_defaults",
    "TDy.Driver.Props.C84_supported_combinations"
   ],
   "note": ""
  },
  {
   "property": "C85",
   "status": "partial",
   "theorems": [
    "TDy.Driver.Props.C85_richards_start_partial",
    "TDy.Driver.Props.C85_previous_solution_partial",
    "TDy.Driver.Props.C85_init_file_ignored",
    "TDy.Driver.Props.C85_default_start_unphysical",
    "TDy.Driver.Props.C85_random_ranges_partial",
    "TDy.Props.C85_contradictory_refused"
   ],
   "note": "TH and salinity modes ignore -tdy_init_file and start at temperature/salinity 101325 (negative theorems); proved for Richards and for random fields."
  },
  {
   "property": "C86",
   "status": "proved",
   "theorems": [
    "TDy.Geo.Props.C86_polar_angle"
   ],
   "note": ""
  },
  {
   "property": "C87",
   "status": "proved",
   "theorems": [
    "TDy.Geo.Props.C87_triangle_area",
    "TDy.Geo.Props.C87_quadrilateral_area",
    "TDy.Geo.Props.C87_triangle_normal",
    "TDy.Geo.Props.C87_quadrilateral_normal"
   ],
   "note": ""
  },
  {
   "property": "C88",
   "status": "partial",
   "theorems": [
    "TDy.Geo.Props.C88_tetrahedron_partial",
    "TDy.Geo.Props.C88_parallelepiped_partial",
    "TDy.Geo.Props.C88_prism_partial",
    "TDy.Geo.Props.C88_pyramid_wrong"
   ],
   "note": "Wrong for every non-flat pyramid (negative theorem); proved for tetrahedra, boxes, prisms."
  },
  {
   "property": "C89",
   "status": "partial",
   "theorems": [
    "TDy.Geo.Props.C89_closures_saved_partial",
    "TDy.Geo.Props.C89_large_closure_undefined"
   ],
   "note": "A closure larger than the reserved size leads to use after free (negative theorem); proved otherwise."
  },
  {
   "property": "C90",
   "status": "partial",
   "theorems": [
    "TDy.Fvtpf.Props.C90_diagnostics_partial",
    "TDy.Fvtpf.Props.C90_mass_overstated"
   ],
   "note": "The code omits porosity and saturation: equal to the mass exactly when their product is 1 (iff), otherwise overstated."
  },
  {
   "property": "C91",
   "status": "partial",
   "theorems": [
    "TDy.Fvtpf.Props.C91_cells",
    "TDy.Fvtpf.Props.C91_boundary_partial",
    "TDy.Fvtpf.Props.C91_boundary_density_stale",
    "TDy.Fvtpf.Props.C91_boundary_density_wrong"
   ],
   "note": "Proved for cells and for pressure, saturation, relative permeability of boundary faces; boundary density and viscosity stay at the reference pressure (negative theorems)."
  },
  {
   "property": "C92",
   "status": "proved",
   "theorems": [
    "TDy.Mpfao.Props.C92_linear_exact"
   ],
   "note": ""
  },
  {
   "property": "C93",
   "status": "proved",
   "theorems": [
    "TDy.Props.C93_mesh_source",
    "TDy.Props.C93_mesh_kept",
    "TDy.Props.C93_mesh_stable"
   ],
   "note": ""
  },
  {
   "property": "C94",
   "status": "proved",
   "theorems": [
    "TDy.Props.C94_setup_installs_eos",
    "TDy.Props.C94_density_type_used",
    "TDy.Props.C94_command_line_types_used",
    "TDy.Props.C94_late_change_ignored"
   ],
   "note": "A change after TDySetup is accepted but has no effect (C94_late_change_ignored)."
  },
  {
   "property": "C95",
   "status": "proved",
   "theorems": [
    "TDy.Props.C95_no_diagnostics_on_pflotran",
    "TDy.Props.C95_diagnostics_work",
    "TDy.Props.C95_which_have_diagnostics"
   ],
   "note": ""
  },
  {
   "property": "C96",
   "status": "partial",
   "theorems": [
    "TDy.Mpfao.Props.C96_storage_partial",
    "TDy.Mpfao.Props.C96_lost",
    "TDy.Mpfao.Props.C96_violated"
   ],
   "note": "Violated: the loop over cells stops at the first ghost cell (C96_lost, C96_violated). Proved for cells before the first ghost (C96_storage_partial)."
  },
  {
   "property": "C97",
   "status": "partial",
   "theorems": [
    "TDy.Mpfao.Props.C97_water",
    "TDy.Mpfao.Props.C97_energy_partial",
    "TDy.Mpfao.Props.C97_energy_deficit",
    "TDy.Mpfao.Props.C97_violated"
   ],
   "note": "Water: proved. Energy: proved if the stored derivatives of the internal energy are right (C97_energy_partial); the code never computes them, so the accumulation misses rho*phi*S*du/dt (C97_energy_deficit, C97_violated)."
  },
  {
   "property": "C98",
   "status": "partial",
   "theorems": [
    "TDy.Mpfao.Props.C98_mobility",
    "TDy.Mpfao.Props.C98_deviation",
    "TDy.Mpfao.Props.C98_other_partial",
    "TDy.Mpfao.Props.C98_violated"
   ],
   "note": "Violated: for the two cells next to a face the entries contain an additional term with the pressure transmissibility (C98_deviation gives it exactly, C98_violated a case). Proved for the other cells (C98_other_partial)."
  },
  {
   "property": "C99",
   "status": "partial",
   "theorems": [
    "TDy.Mpfao.Props.C99_equilibrium_partial",
    "TDy.Mpfao.Props.C99_corner_violated"
   ],
   "note": "Violated: the steady assembly reads the corner transmissibilities in the column order before they are reordered. Proved: what is contributed, that it is right in equilibrium, and that it is wrong whenever the first two columns of the local matrix do not sum to zero."
  },
  {
   "property": "C100",
   "status": "partial",
   "theorems": [
    "TDy.Mpfao.Props.C100_rhs_accumulates_partial",
    "TDy.Mpfao.Props.C100_twice_violated"
   ],
   "note": "Violated: the matrix is zeroed but the right-hand side is not, so a second assembly doubles it. Proved: the matrix does not depend on what was there, and the vector is added to."
  },
  {
   "property": "C101",
   "status": "partial",
   "theorems": [
    "TDy.Topology.Props.C101_supported_partial",
    "TDy.Topology.Props.C101_unsupported_violated"
   ],
   "note": "C101_unsupported_violated: the size functions return PETSc's error code as if it were a size (83, or 56 for mixed meshes) and creation goes on; C101_supported_partial: for hexahedra and wedges the sizes are the true ones. Missing: refusal of unsupported meshes, which the code does not do."
  },
  {
   "property": "C102",
   "status": "proved",
   "theorems": [
    "TDy.Mesh.Props.C102_vertex_cells",
    "TDy.Mesh.Props.C102_vertex_cells_iff",
    "TDy.Mesh.Props.C102_capacity",
    "TDy.Mesh.Props.C102_face_cells",
    "TDy.Mesh.Props.C102_vertex_faces"
   ],
   "note": "A face with more than two cells silently keeps the first two (C102_face_cells says exactly which); such meshes are not conforming."
  },
  {
   "property": "C103",
   "status": "proved",
   "theorems": [
    "TDy.Mesh.Props.C103_vertex_local",
    "TDy.Mesh.Props.C103_face_local",
    "TDy.Mesh.Props.C103_boundary_numbers"
   ],
   "note": ""
  },
  {
   "property": "C104",
   "status": "proved",
   "theorems": [
    "TDy.Mesh.Props.C104_reorder"
   ],
   "note": ""
  },
  {
   "property": "C105",
   "status": "partial",
   "theorems": [
    "TDy.UGrid.Props.C105_read",
    "TDy.UGrid.Props.C105_unknown_cell",
    "TDy.UGrid.Props.C105_violated"
   ],
   "note": "C105_read: cells, vertices and local counts as in the file; C105_unknown_cell: refused. C105_violated: num_verts_global is set from VecGetSize, which counts coordinates, so it is three times the number of vertices (used as the column dimension of the adjacency matrix)."
  },
  {
   "property": "C106",
   "status": "proved",
   "theorems": [
    "TDy.UGrid.Props.C106_adjacency",
    "TDy.UGrid.Props.C106_max_dual"
   ],
   "note": "C106_adjacency: rows are exactly the vertices within the width used; C106_max_dual: the width for neighbours is the maximum and attained. (The width for vertices is C68.)"
  },
  {
   "property": "C107",
   "status": "proved",
   "theorems": [
    "TDy.UGrid.Props.C107_local_values"
   ],
   "note": "C107_local_values: end to end from the mesh of the file to the local vector of every rank."
  },
  {
   "property": "C108",
   "status": "partial",
   "theorems": [
    "TDy.Io.Props.C108_permeability_partial",
    "TDy.Io.Props.C108_porosity_partial",
    "TDy.Io.Props.C108_violated",
    "TDy.Io.Props.C108_interleaved"
   ],
   "note": "Proved for one unknown per cell. C108_violated: with two unknowns per cell a file of one value per cell is refused (permeability) or leaves an unset pointer in use (porosity); C108_interleaved: a file of two values per cell is assigned to the wrong cells."
  },
  {
   "property": "C109",
   "status": "partial",
   "theorems": [
    "TDy.Io.Props.C109_constant",
    "TDy.Io.Props.C109_violated",
    "TDy.Io.Props.C109_few_cells_undefined"
   ],
   "note": "Violated: the values of local cells 0, 1, 2 become the diagonal of one constant tensor (C109_constant, C109_violated); with fewer than three local cells the read is out of bounds."
  },
  {
   "property": "C110",
   "status": "partial",
   "theorems": [
    "TDy.Io.Props.C110_solution",
    "TDy.Io.Props.C110_clock_not_restored"
   ],
   "note": "Solution vectors proved for any two distributions; the clock is not restored (C110_clock_not_restored)."
  },
  {
   "property": "C111",
   "status": "partial",
   "theorems": [
    "TDy.Io.Props.C111_other_labels_partial",
    "TDy.Io.Props.C111_violated"
   ],
   "note": "Proved for different labels; C111_violated: the label has six significant digits, so steps one second apart after 10^6 s overwrite each other."
  },
  {
   "property": "C112",
   "status": "partial",
   "theorems": [
    "TDy.Io.Props.C112_header_partial",
    "TDy.Io.Props.C112_pyramid_violated",
    "TDy.Io.Props.C112_cells_violated",
    "TDy.Io.Props.C112_plane_violated"
   ],
   "note": "Proved for tetrahedra, wedges and hexahedra with one unknown per cell; violated for pyramids (null pointer), for two unknowns per cell (cell count doubled) and in two dimensions (no vertices)."
  },
  {
   "property": "C113",
   "status": "partial",
   "theorems": [
    "TDy.Custom.Props.C113_connections_partial"
   ],
   "note": "Proved for CreateInternalFaces on a readable face-to-cell map; in the program that map has been freed (C63_violated)."
  },
  {
   "property": "C114",
   "status": "proved",
   "theorems": [
    "TDy.Fe.Props.C114_corner_face_map",
    "TDy.Fe.Props.C114_side_face"
   ],
   "note": "For every cell that is the image of the reference cell (Shaped)."
  },
  {
   "property": "C115",
   "status": "proved",
   "theorems": [
    "TDy.Fe.Props.C115_velocity_unknowns"
   ],
   "note": "For every mesh whose cells are shaped and whose faces list their vertices once; the section offsets are disjoint blocks (Blocks)."
  },
  {
   "property": "C116",
   "status": "partial",
   "theorems": [
    "TDy.Fe.Props.C116_uniform_partial",
    "TDy.Fe.Props.C116_violated"
   ],
   "note": "Violated: the error macro returns an error code from a function that returns a count, so 56 is taken as the number of vertices and arrays overflow (C116_violated). Uniform meshes work (C116_uniform_partial)."
  },
  {
   "property": "C117",
   "status": "proved",
   "theorems": [
    "TDy.Fe.Props.C117_system_is_mixed_problem"
   ],
   "note": "For regular symmetric permeabilities."
  },
  {
   "property": "C118",
   "status": "proved",
   "theorems": [
    "TDy.Fe.Props.C118_uniform_pressure_at_rest"
   ],
   "note": "The mesh is closed (each velocity unknown on exactly one boundary face or shared by two cells with opposite orientation), the face rule integrates multilinear functions, and fJ n is the image of the reference normal."
  },
  {
   "property": "C119",
   "status": "partial",
   "theorems": [
    "TDy.Fe.Props.C119_regular_partial",
    "TDy.Fe.Props.WyWitness.C119_violated",
    "TDy.Fe.Props.WyWitness.C119_violated_assembly"
   ],
   "note": "C119_violated: a vertex with thirteen faces overruns MAX_LOCAL_SIZE (reported in debug builds by the assembly only). The partial theorem covers vertices with at most twelve faces and cells."
  },
  {
   "property": "C120",
   "status": "proved",
   "theorems": [
    "TDy.Fe.Props.C120_residual_is_system"
   ],
   "note": "The bound is the threshold of the assembly times the pressures of the neighbours; it is zero when nothing is left out."
  },
  {
   "property": "C121",
   "status": "proved",
   "theorems": [
    "TDy.Fe.Props.C121_mass_balance"
   ],
   "note": "For a mesh in one process."
  },
  {
   "property": "C122",
   "status": "proved",
   "theorems": [
    "TDy.State.Props.C122_cells_follow_unknowns",
    "TDy.State.Props.C122_setup"
   ],
   "note": "For every method and mode and every state of the curves reachable after setup."
  },
  {
   "property": "C123",
   "status": "proved",
   "theorems": [
    "TDy.State.Props.C123_derivatives",
    "TDy.State.Props.C123_physical"
   ],
   "note": "Derivatives along the cell's own pressure unknown; bounds for smoothing that starts at 1/25 or later and ends at 1 (the default starts at 0.99)."
  },
  {
   "property": "C124",
   "status": "partial",
   "theorems": [
    "TDy.State.Props.C124_violated",
    "TDy.State.Props.C124_partial"
   ],
   "note": "Violated: the water is evaluated at the reference temperature in thermal mode (C124_violated, Batzle-Wang density). Proved for laws that do not depend on temperature."
  },
  {
   "property": "C125",
   "status": "partial",
   "theorems": [
    "TDy.State.Props.C125_no_ghosts_partial",
    "TDy.State.Props.C125_violated"
   ],
   "note": "Violated: with ghost cells the update before a step is undefined behaviour in every mode (C125_violated). Proved without ghost cells."
  },
  {
   "property": "C126",
   "status": "partial",
   "theorems": [
    "TDy.State.Props.C126_residual_respected_partial",
    "TDy.State.Props.C126_violated"
   ],
   "note": "Violated: WY never stores the residual saturation of the material (C126_violated). Proved for the other methods."
  },
  {
   "property": "C127",
   "status": "partial",
   "theorems": [
    "TDy.State.Props.C127_boundary_states_partial",
    "TDy.State.Props.C127_boundary_slope",
    "TDy.State.Props.C127_violated"
   ],
   "note": "Values, saturation and relative permeability proved; density and viscosity of boundary faces stay those of the reference pressure (C127_violated)."
  },
  {
   "property": "C128",
   "status": "proved",
   "theorems": [
    "TDy.State.Props.C128_diagnostics"
   ],
   "note": "Compact order over the cells of this process. The stored mass is density times volume, without porosity and saturation; the theorem states it so."
  },
  {
   "property": "C129",
   "status": "partial",
   "theorems": [
    "TDy.Mpfao.Props.C129_mass_along_pressure",
    "TDy.Mpfao.Props.C129_mass_along_temperature",
    "TDy.Mpfao.Props.C129_energy_along_pressure",
    "TDy.Mpfao.Props.C129_energy_along_temperature",
    "TDy.Mpfao.Props.C129_pressure_columns_partial",
    "TDy.Mpfao.Props.C129_temperature_columns_partial",
    "TDy.Mpfao.Props.C129_violated",
    "TDy.Mpfao.Props.C129_whole_pressure_partial",
    "TDy.Mpfao.Props.C129_whole_temperature_partial"
   ],
   "note": "Water rows are proved; energy rows need stored derivatives of the internal energy that are right and do not change (EnergyP, EnergyT). The code stores u = h - P/rho and never writes du_dP: C129_violated. The formulas themselves are proved for porosity, density, saturation and energy that depend on pressure and temperature in any way."
  },
  {
   "property": "C130",
   "status": "partial",
   "theorems": [
    "TDy.Mpfao.Props.C130_rates_partial",
    "TDy.Mpfao.Props.C130_violated"
   ],
   "note": "Water rows are proved. For energy the theorem gives the exact defect: porosity*density*saturation*volume times the difference between the rate of the internal energy and the one of the stored derivatives. C130_violated: with the internal energy of the code's states the row is wrong whenever the pressure changes."
  },
  {
   "property": "C131",
   "status": "partial",
   "theorems": [
    "TDy.Mpfao.Props.C131_formula",
    "TDy.Mpfao.Props.C131_sum_partial",
    "TDy.Mpfao.Props.C131_foreign_zero",
    "TDy.Mpfao.Props.C131_repeatable",
    "TDy.Mpfao.Props.C131_count_violated",
    "TDy.Mpfao.Props.C131_linear_formula",
    "TDy.Mpfao.Props.C131_linear_exact_partial",
    "TDy.Mpfao.Props.C131_corner_violated"
   ],
   "note": "Proved: face velocity times area equals the sum of the subface rates for every local face without a corner of the domain (C131_sum_partial); exact Darcy velocity for linear pressures in uniform media of any cell shape (C131_linear_exact_partial, through the transmissibilities of C92); faces of other processes zero; independence of the earlier content. Violated and proved so: contributions of corners of the domain have the opposite sign (C131_formula, C131_linear_formula, C131_corner_violated; the source asks 'Should it be -value or value?'); vel_count is never reset (C131_count_violated)."
  },
  {
   "property": "C132",
   "status": "partial",
   "theorems": [
    "TDy.Mpfao.Props.C132_rest_partial",
    "TDy.Mpfao.Props.C132_rest_violated",
    "TDy.Mpfao.Props.C132_violated"
   ],
   "note": "Proved without a boundary pressure function (C132_rest_partial). Violated with one: rho g z is added in the cells but not on the boundary, so that a hydrostatic column gets the velocity gravity alone would drive through its boundary (C132_rest_violated gives the rate, C132_violated a column)."
  },
  {
   "property": "C133",
   "status": "partial",
   "theorems": [
    "TDy.Mpfao.Props.C133_unit_area_partial",
    "TDy.Mpfao.Props.C133_no_function",
    "TDy.Mpfao.Props.C133_area_violated"
   ],
   "note": "Proved for faces of area 1 in a domain without corners (C133_unit_area_partial), and that 0/0 is printed without a velocity function (C133_no_function). Violated otherwise: the velocity of a subface (flux over the area of the whole face) is compared with the flux through the subface (C133_area_violated)."
  },
  {
   "property": "C134",
   "status": "proved",
   "theorems": [
    "TDy.Mpfao.Props.C134_accepted",
    "TDy.Mpfao.Props.C134_internal",
    "TDy.Mpfao.Props.C134_boundary"
   ],
   "note": "C134_accepted (no vertex is refused), C134_internal and C134_boundary (the row of a face is the two-point flux), for any well-formed vertex, any number of cells, both orientations of a boundary face. The mean is the arithmetic one (see C136)."
  },
  {
   "property": "C135",
   "status": "partial",
   "theorems": [
    "TDy.Mpfao.Props.C135_diagonal_partial",
    "TDy.Mpfao.Props.C135_violated"
   ],
   "note": "Proved for diagonal tensors (C135_diagonal_partial). For tensors with off-diagonal entries the code uses the harmonic form of the diagonal only: C135_violated gives a K-orthogonal grid of slanted cells where the flux of p = x is wrong."
  },
  {
   "property": "C136",
   "status": "partial",
   "theorems": [
    "TDy.Mpfao.Props.C136_same_partial",
    "TDy.Mpfao.Props.C136_violated"
   ],
   "note": "C136_same_partial: right when both cells are equally permeable along the line between them. C136_violated: wrong in every other case, the flux is larger than that of two halves in series (the arithmetic mean is used, while the gravity term uses the distance-weighted harmonic mean)."
  },
  {
   "property": "C137",
   "status": "partial",
   "theorems": [
    "TDy.Mpfao.Props.C137_two_point_formula",
    "TDy.Mpfao.Props.C137_two_point_partial",
    "TDy.Mpfao.Props.C137_default_partial",
    "TDy.Mpfao.Props.C137_layers_violated",
    "TDy.Mpfao.Props.C137_default_violated"
   ],
   "note": "Two-point option: C137_two_point_formula gives what drives the flux at rest, C137_two_point_partial proves that it is zero in a uniform medium, C137_layers_violated that layers of different permeability flow at rest. Default method: C137_default_partial for one tensor and K-orthogonal grids, C137_default_violated for a tensor not aligned with the grid, where the gravity term only sees the component of gravity along the line between the centroids."
  },
  {
   "property": "C138",
   "status": "partial",
   "theorems": [
    "TDy.Mpfao.Props.C138_internal_formula",
    "TDy.Mpfao.Props.C138_boundary_formula",
    "TDy.Mpfao.Props.C138_accepted",
    "TDy.Mpfao.Props.C138_axis_partial",
    "TDy.Mpfao.Props.C138_reversed_violated",
    "TDy.Mpfao.Props.C138_boundary_violated"
   ],
   "note": "C138_internal_formula and C138_boundary_formula give the heat through every face; C138_axis_partial: right for faces with a positive axis as normal and diagonal conductivities. C138_reversed_violated and C138_boundary_violated: for every face whose normal has a negative sum of components heat goes from cold to hot, because nu_star has the same number in its three components."
  },
  {
   "property": "C139",
   "status": "proved",
   "theorems": [
    "TDy.Traverse.Props.C139_neighbours",
    "TDy.Traverse.Props.C139_ring",
    "TDy.Traverse.Props.C139_chain",
    "TDy.Traverse.Props.C139_anticlockwise"
   ],
   "note": "C139_neighbours (soundness for any result), C139_ring and C139_chain (success for every ring and chain of any length, in any given order), C139_anticlockwise."
  },
  {
   "property": "C140",
   "status": "proved",
   "theorems": [
    "TDy.Traverse.Props.C140_vertex",
    "TDy.Traverse.Props.C140_mesh",
    "TDy.Traverse.Props.C140_well_formed"
   ],
   "note": "C140_vertex, C140_mesh (whole setup, by induction over the vertices), C140_well_formed (the numbering satisfies the hypotheses of C46, C47, C92, C134). The meshes are described in Spec/MeshTraverse.lean (Columnar); eight cubes are shown to be one."
  },
  {
   "property": "C141",
   "status": "partial",
   "theorems": [
    "TDy.Traverse.Props.C141_violated_error_ignored",
    "TDy.Traverse.Props.C141_violated_code_as_index",
    "TDy.Traverse.Props.C141_refused_partial",
    "TDy.Traverse.Props.C141_violated"
   ],
   "note": "Violated. C141_violated_error_ignored: the error of the first pass is dropped and an array is written at index -1; C141_violated_code_as_index: for up to 83 vertices the error code is used as a vertex number; C141_violated: eight leaning prisms meet both. C141_refused_partial: the function that detects it does return an error."
  },
  {
   "property": "C142",
   "status": "proved",
   "theorems": [
    "TDy.Traverse.Props.C142_levels"
   ],
   "note": "C142_levels, for every mesh that is Columnar (Spec/MeshTraverse.lean)."
  },
  {
   "property": "C143",
   "status": "proved",
   "theorems": [
    "TDy.FaceOrient.Props.C143_inner",
    "TDy.FaceOrient.Props.C143_first_to_second",
    "TDy.FaceOrient.Props.C143_boundary",
    "TDy.FaceOrient.Props.C143_oriented"
   ],
   "note": "In three dimensions; a face whose first cell is outside the domain reads the centroid of cell -1 (undefined behaviour, an outcome of its own in the model)."
  },
  {
   "property": "C144",
   "status": "partial",
   "theorems": [
    "TDy.FaceOrient.Props.C144_vertices",
    "TDy.FaceOrient.Props.C144_order_and_normal",
    "TDy.FaceOrient.Props.C144_quadrilateral_partial",
    "TDy.FaceOrient.Props.C144_triangle",
    "TDy.FaceOrient.Props.C144_saddle_violated"
   ],
   "note": "Violated: the normal of a quadrilateral is the mean of four unit normals, shorter than 1 for every face that is not plane (C144_saddle_violated). Proved for triangles and for plane convex quadrilaterals listed in order or with the last two corners swapped; that the normal is the one computed from the stored order holds for every face."
  },
  {
   "property": "C145",
   "status": "partial",
   "theorems": [
    "TDy.FaceOrient.Props.C145_swapped_partial",
    "TDy.FaceOrient.Props.C145_crosswise_violated",
    "TDy.FaceOrient.Props.C145_crosswise_normal_violated"
   ],
   "note": "Violated: corners listed crosswise stay crosswise, and for a parallelogram the normal is then 0/0. Proved: corners listed in order, or with the last two swapped."
  },
  {
   "property": "C146",
   "status": "partial",
   "theorems": [
    "TDy.FaceOrient.Props.C146_several_cells_partial",
    "TDy.FaceOrient.Props.C146_corner_violated",
    "TDy.Mpfao.Props.C146_row_of_another",
    "TDy.Mpfao.Props.C146_flux_violated"
   ],
   "note": "Violated: the numbers of corners of the domain are written down before the vertex lists are turned round and never again, while their transmissibilities are saved under the new place: the flux of another vertex is counted twice and that of the corner not at all. Proved for local vertices with several cells."
  },
  {
   "property": "C147",
   "status": "proved",
   "theorems": [
    "TDy.FaceGeom.Props.C147_triangle",
    "TDy.FaceGeom.Props.C147_quadrilateral",
    "TDy.FaceGeom.Props.C147_plane",
    "TDy.FaceGeom.Props.C147_boundary",
    "TDy.FaceGeom.Props.C147_boundary_area"
   ],
   "note": "Face areas, centroids and cell centres come from DMPlexComputeCellGeometryFVM or the mesh file and are inputs; the normal is that of C143, C144."
  },
  {
   "property": "C148",
   "status": "proved",
   "theorems": [
    "TDy.FaceGeom.Props.C148_triangle_area",
    "TDy.FaceGeom.Props.C148_quadrilateral_area",
    "TDy.FaceGeom.Props.C148_plane",
    "TDy.FaceGeom.Props.C148_triangle",
    "TDy.FaceGeom.Props.C148_same_as_plex"
   ],
   "note": "Inner faces; the loop over the faces of the grid and the boundary part of the function are not modelled."
  },
  {
   "property": "C149",
   "status": "partial",
   "theorems": [
    "TDy.FaceGeom.Props.C149_triangle",
    "TDy.FaceGeom.Props.C149_mean",
    "TDy.FaceGeom.Props.C149_parallelogram_partial",
    "TDy.FaceGeom.Props.C149_trapezoid_violated"
   ],
   "note": "Violated: the mean of the corners is stored, which for a trapezoid is not its centre of mass (C149_trapezoid_violated). Proved for triangles and parallelograms."
  },
  {
   "property": "C150",
   "status": "partial",
   "theorems": [
    "TDy.Regress.Props.C150_richards",
    "TDy.Regress.Props.C150_th"
   ],
   "note": "Violated: in the salinity mode concentrations are counted as pressures (C151_salinity_violated). Proved for one unknown per cell, and for TH mode when every rank has the requested number of cells."
  },
  {
   "property": "C151",
   "status": "partial",
   "theorems": [
    "TDy.Regress.Props.C151_richards",
    "TDy.Regress.Props.C151_th_partial",
    "TDy.Regress.Props.C151_salinity_violated"
   ],
   "note": "Violated: in the salinity mode the concentration of a cell is listed as the pressure of a further cell (C151_salinity_violated). Proved for one unknown per cell, and for TH mode when every rank has the requested number of cells (see C73 for the rest)."
  },
  {
   "property": "C152",
   "status": "partial",
   "theorems": [
    "TDy.MeshCount.Props.C152_fields",
    "TDy.MeshCount.Props.C152_one_field_partial",
    "TDy.MeshCount.Props.C152_violated"
   ],
   "note": "Violated: with two fields the number of fields enters twice and two cells get the same number (C152_violated). C152_fields gives the number for all cases, C152_one_field_partial is the property for one field. DMPlexNaturalToGlobal is assumed to move the block of a cell to the cell."
  },
  {
   "property": "C153",
   "status": "proved",
   "theorems": [
    "TDy.MeshCount.Props.C153_local"
   ],
   "note": "The start of the unknowns is what DMPlexGetPointGlobal gives, an input."
  },
  {
   "property": "C154",
   "status": "partial",
   "theorems": [
    "TDy.MeshCount.Props.C154_face_counts",
    "TDy.MeshCount.Props.C154_columns",
    "TDy.MeshCount.Props.C154_serial",
    "TDy.MeshCount.Props.C154_ghosts_partial",
    "TDy.MeshCount.Props.C154_enclosed_violated"
   ],
   "note": "Violated: a cell of another rank enclosed by local cells has no column of its own, so the last boundary face is written behind the last column (C154_enclosed_violated). Proved on one rank, and on several if every cell of another rank has a face that no local cell has."
  },
  {
   "property": "C155",
   "status": "proved",
   "theorems": [
    "TDy.Mpfao.Buf.Props.C155_buffers",
    "TDy.Mpfao.Buf.Props.C155_flux"
   ],
   "note": "Refines the matrix form of C47 to the code's blocks and column-major buffers. dgesv and dgemm are given by their documented effect; a singular system is an error."
  },
  {
   "property": "C156",
   "status": "partial",
   "theorems": [
    "TDy.Boundary.Props.C156_boundary_faces_are_listed_partial",
    "TDy.Boundary.Props.C156_faces_with_given_pressure",
    "TDy.Boundary.Props.C156_boundary_faces_never_alone",
    "TDy.Boundary.Props.C156_violated"
   ],
   "note": "Violated: the label is completed before it is read, so that edges and vertices of boundary faces are returned as faces (26 points for one cube), and for meshes read from a PFLOTRAN file there is no label and a NULL pointer is read. Proved: every boundary face is listed once, every listed face is a boundary face, and the finite-element method imposes pressures on exactly these."
  },
  {
   "property": "C157",
   "status": "proved",
   "theorems": [
    "TDy.Mem.Props.C157_arrays_are_released",
    "TDy.Mem.Props.C157_rows_do_not_overlap",
    "TDy.Mem.Props.C157_flat_release"
   ],
   "note": "Which blocks are live is modelled; allocation does not fail."
  },
  {
   "property": "C158",
   "status": "partial",
   "theorems": [
    "TDy.Mem.Props.C158_arrays_of_a_mode",
    "TDy.Mem.Props.C158_destroy_releases_all_but_some_partial",
    "TDy.Mem.Props.C158_every_lifetime_loses_memory",
    "TDy.Mem.Props.C158_violated"
   ],
   "note": "Violated: permeability, porosity, conductivity and six arrays of faces are never released, so that every lifetime loses memory. Proved: nothing is released twice, and everything else is released, for every mode and choice of materials."
  },
  {
   "property": "C159",
   "status": "partial",
   "theorems": [
    "TDy.Mem.Props.C159_local_problems_release_all_partial",
    "TDy.Mem.Props.C159_velocity_recovery_loses_memory",
    "TDy.Mem.Props.C159_violated"
   ],
   "note": "Violated: the recovery of velocities and the steady assembly lose a matrix at each call (four blocks). Proved: the local problem of the transmissibilities releases everything."
  },
  {
   "property": "C160",
   "status": "partial",
   "theorems": [
    "TDy.Api.Props.C160_latest_condition_in_force_partial",
    "TDy.Api.Props.C160_command_line_in_force",
    "TDy.Api.Props.C160_latest_material_in_force_partial",
    "TDy.Api.Props.C160_calls_after_options_are_defined",
    "TDy.Api.Props.C160_setters_before_options_undefined",
    "TDy.Api.Props.C160_options_forget",
    "TDy.Api.Props.C160_violated",
    "TDy.Api.Props.C160_options_after_setup_refused"
   ],
   "note": "Violated: every TDySetFromOptions creates conditions and material properties anew and forgets what was set, and a setter called before the first one dereferences a NULL pointer. Proved: between two calls of TDySetFromOptions the latest setting, of the program or of the command line, is in force for every quantity."
  },
  {
   "property": "C161",
   "status": "partial",
   "theorems": [
    "TDy.Api.Props.C161_unknown_name_refused_partial",
    "TDy.Api.Props.C161_unknown_name_not_reported",
    "TDy.Api.Props.C161_violated"
   ],
   "note": "Violated: ReadCommandLineOptions drops the return codes of the functions that select boundary functions, so that a wrong name on the command line is not reported. Proved: the calls themselves refuse the name and change nothing."
  },
  {
   "property": "C162",
   "status": "partial",
   "theorems": [
    "TDy.Fvtpf.Props.C162_type_of_centroid_partial",
    "TDy.Fvtpf.Props.C162_other_values_refused",
    "TDy.Fvtpf.Props.C162_without_types_closed",
    "TDy.Fvtpf.Props.C162_option_without_effect",
    "TDy.Fvtpf.Props.C162_violated"
   ],
   "note": "Violated: the option -tdy_fvtpf_boundary_condition_type is stored and never read, so that without a type function the boundary is closed whatever pressures are given. Proved: with a type function every boundary face has the type given at its centroid, other values are refused."
  },
  {
   "property": "C163",
   "status": "partial",
   "theorems": [
    "TDy.Settings.Props.C163_latest_in_force_partial",
    "TDy.Settings.Props.C163_setters_after_options_defined",
    "TDy.Settings.Props.C163_setter_before_options_undefined",
    "TDy.Settings.Props.C163_defaults",
    "TDy.Settings.Props.C163_options_forget",
    "TDy.Settings.Props.C163_bdm_uses_quadrature",
    "TDy.Settings.Props.C163_wy_ignores_quadrature",
    "TDy.Settings.Props.C163_violated"
   ],
   "note": "Violated: TDySetFromOptions creates the struct of the method anew and forgets settings, a setter before it dereferences a NULL pointer, and WY never uses its quadrature. Proved: between two calls of TDySetFromOptions the latest setting is in force, and BDM uses it."
  },
  {
   "property": "C164",
   "status": "proved",
   "theorems": [
    "TDy.Sizes.Props.C164_largest_numbers",
    "TDy.Sizes.Props.C164_pressure_fits",
    "TDy.Sizes.Props.C164_temperature_fits",
    "TDy.Sizes.Props.C164_too_few_asked_for"
   ],
   "note": "The arrays of temperature and concentration are asked for with too few columns (theorem C164_too_few_asked_for); they suffice because the size of an entry is multiplied twice on allocation."
  },
  {
   "property": "C165",
   "status": "partial",
   "theorems": [
    "TDy.Timers.Props.C165_calls_and_time_partial",
    "TDy.Timers.Props.C165_never_stopped",
    "TDy.Timers.Props.C165_violated",
    "TDy.Timers.Props.C165_stages"
   ],
   "note": "Violated: three functions start their timer and never stop it, so that their record says one call and a negative time; the stages of stepping and of I/O are never entered, and state updates in time steps count as set-up. Proved: calls and times of all other functions, the balance of timers and stages, the time of the set-up stage."
  },
  {
   "property": "C166",
   "status": "partial",
   "theorems": [
    "TDy.Timers.Props.C166_describes_the_run_partial",
    "TDy.Timers.Props.C166_disabled_no_effect",
    "TDy.Timers.Props.C166_other_methods_undefined",
    "TDy.Timers.Props.C166_filename_ignored",
    "TDy.Timers.Props.C166_nothing_set_up",
    "TDy.Timers.Props.C166_stale",
    "TDy.Timers.Props.C166_violated"
   ],
   "note": "Violated: the file name is ignored; with timers the set-up of BDM, WY and the DAE form takes another struct (or a NULL pointer) for the mesh; a program that sets nothing up is undefined at the end; a second set-up keeps the data of the first. Proved: for one TDy with MPFA-O or the two-point method the footer is right, with the cells summed over all ranks."
  },
  {
   "property": "C167",
   "status": "partial",
   "theorems": [
    "TDy.Output.Props.C167_hdf5_complete_partial",
    "TDy.Output.Props.C167_several_ranks",
    "TDy.Output.Props.C167_finished_file_spoilt",
    "TDy.Output.Props.C167_text_undefined",
    "TDy.Output.Props.C167_exodus_steps",
    "TDy.Output.Props.C167_violated"
   ],
   "note": "Violated: every rank appends a footer to out.xmf, so that on several ranks it is not well-formed; a TDy with another format appends a footer to a file it did not write; text output overflows the buffer of the file name at every time. Proved: on one rank HDF5 output is complete and well-formed for every history; the k-th Exodus output is step k."
  },
  {
   "property": "C168",
   "status": "partial",
   "theorems": [
    "TDy.Output.Props.C168_one_unknown_partial",
    "TDy.Output.Props.C168_one_rank_partial",
    "TDy.Output.Props.C168_more_unknowns_undefined",
    "TDy.Output.Props.C168_violated"
   ],
   "note": "Violated: with two or more unknowns per cell on several ranks the conversion runs past the end of the vectors. Proved: natural order with one unknown per cell on any number of ranks, and on one rank with any number of unknowns."
  },
  {
   "property": "C169",
   "status": "partial",
   "theorems": [
    "TDy.Output.Props.C169_hdf5_pressure_partial",
    "TDy.Output.Props.C169_hdf5_saturation_iff",
    "TDy.Output.Props.C169_text_mixed_orders",
    "TDy.Output.Props.C169_two_unknowns",
    "TDy.Output.Props.C169_violated"
   ],
   "note": "Violated: the saturation is converted to natural order twice, so that it is right for all fields exactly if the natural numbering is the identity; text files mix the two orders; the thermal mode cannot write HDF5. Proved: pressures are in natural order; where each saturation goes."
  },
  {
   "property": "C170",
   "status": "partial",
   "theorems": [
    "TDy.Subcells.Props.C170_faces_at_vertex",
    "TDy.Subcells.Props.C170_neighbours",
    "TDy.Subcells.Props.C170_not_on_face",
    "TDy.Subcells.Props.C170_tables_partial",
    "TDy.Subcells.Props.C170_centroids_never_written",
    "TDy.Subcells.Props.C170_other_numbers_undefined",
    "TDy.Subcells.Props.C170_lookup",
    "TDy.Subcells.Props.C170_find_subcell",
    "TDy.Subcells.Props.C170_violated"
   ],
   "note": "Violated: centroids of the parts of faces are written to another table, so that each is read as the origin; a cell with another number of faces than three at a vertex makes the set-up undefined instead of being refused. Proved: all other data of every part of a face, the searches, and what the set-up stores."
  },
  {
   "property": "C171",
   "status": "partial",
   "theorems": [
    "TDy.Subcells.Props.C171_origin_only",
    "TDy.Subcells.Props.C171_report_origin_only",
    "TDy.Subcells.Props.C171_constant_partial",
    "TDy.Subcells.Props.C171_violated"
   ],
   "note": "Violated: the user's function is evaluated at the origin only; functions that agree there give the same error. Proved: for constant functions the value compared with is right."
  },
  {
   "property": "C172",
   "status": "partial",
   "theorems": [
    "TDy.Pflotran.Props.C172_two_point_partial",
    "TDy.Pflotran.Props.C172_plex_functions",
    "TDy.Pflotran.Props.C172_functions_undefined",
    "TDy.Pflotran.Props.C172_dae_without_cells",
    "TDy.Pflotran.Props.C172_accepted_pairs",
    "TDy.Pflotran.Props.C172_other_methods_undefined",
    "TDy.Pflotran.Props.C172_reading_two_unknowns",
    "TDy.Pflotran.Props.C172_violated"
   ],
   "note": "Violated: the two-point method leaves the array of coordinates NULL on such a mesh, so that a property given as a function of the place is undefined; MPFA-O and the finite elements use the shell DM as a DMPlex; in TH mode get_num_dm_fields is never set, and with two unknowns the places for VecScatterRemap are read beyond their end. Proved for the two-point method with properties given by values; on a DMPlex mesh functions are evaluated at the centroids."
  },
  {
   "property": "C173",
   "status": "partial",
   "theorems": [
    "TDy.Pflotran.Props.C173_round_trip_partial",
    "TDy.Pflotran.Props.C173_refresh_partial",
    "TDy.Pflotran.Props.C173_refresh_undefined",
    "TDy.Pflotran.Props.C173_violated"
   ],
   "note": "Violated: with two or more unknowns the scatter within local vectors is made from an array with one entry for each cell that is read once for each unknown. Proved: the round trip between global and local vectors for all numbers of unknowns, and the refreshing of ghost values for one unknown."
  },
  {
   "property": "C174",
   "status": "partial",
   "theorems": [
    "TDy.MeshErrors.Props.C174_complete_partial",
    "TDy.MeshErrors.Props.C174_not_three_dimensional",
    "TDy.MeshErrors.Props.C174_unfinished_mesh_used",
    "TDy.MeshErrors.Props.C174_violated"
   ],
   "note": "Violated: no set-up function looks at the return code of TDyMeshCreateFromPlex, so that a mesh that is not three-dimensional ends in a NULL dereference and any other error in a set-up on an unfinished mesh; the error of a user's function that creates the DM is dropped and an uninitialised DM is used. Proved for creations in which nothing fails, and for the failure of PETSc's own creation."
  },
  {
   "property": "C175",
   "status": "partial",
   "theorems": [
    "TDy.Ledger.Props.C175_accepted_iff",
    "TDy.Ledger.Props.C175_structs_left_behind",
    "TDy.Ledger.Props.C175_violated",
    "TDy.Ledger.Props.C175_given_back_partial",
    "TDy.Ledger.Props.C175_lost"
   ],
   "note": "Violated for every object: five structs allocated by TDyCreate are never freed. Further calls of TDySetFromOptions and TDySetup lose what the calls before created; contexts of methods other than MPFA-O and the index sets of PFLOTRAN meshes are never freed; exact numbers are proved for all sequences. Proved: everything else is given back."
  },
  {
   "property": "C176",
   "status": "partial",
   "theorems": [
    "TDy.Ledger.Props.C176_lost",
    "TDy.Ledger.Props.C176_given_back_partial",
    "TDy.Ledger.Props.C176_violated"
   ],
   "note": "Violated: arrays are freed only if the number of points changes, so that two assignments for the same number of points lose two arrays. The number of arrays lost is proved exactly for all sequences; none are lost if the number changes each time."
  },
  {
   "property": "C177",
   "status": "proved",
   "theorems": [
    "TDy.Mpfao.Props.C177_solvable",
    "TDy.Mpfao.Props.C177_downhill"
   ],
   "note": "Energy argument around the vertex: the two sides of each internal face cancel, every subcell is strictly dissipative."
  },
  {
   "property": "C178",
   "status": "partial",
   "theorems": [
    "TDy.Mpfao.Props.C178_positive_partial",
    "TDy.Mpfao.Props.C178_unique_partial",
    "TDy.Mpfao.Props.C178_corner_takes_away"
   ],
   "note": "Proved if no corner vertex takes away from the diagonal; a corner of a cube with a positive definite tensor can do so because of the columns mixed up at corners (C99)."
  },
  {
   "property": "C179",
   "status": "proved",
   "theorems": [
    "TDy.Mpfao.Props.C179_symmetric"
   ],
   "note": "The form of the matrix is a sum of symmetric forms of the subcells; corners only touch the diagonal."
  },
  {
   "property": "C180",
   "status": "proved",
   "theorems": [
    "TDy.Fvtpf.Props.C180_highest",
    "TDy.Fvtpf.Props.C180_lowest",
    "TDy.Fvtpf.Props.C180_exponential_van_genuchten",
    "TDy.Fvtpf.Props.C180_incompressible_undetermined"
   ],
   "note": "C180_incompressible_undetermined shows that the condition on the water is needed: in a closed saturated domain with constant density every uniform pressure solves every step."
  },
  {
   "property": "C181",
   "status": "proved",
   "theorems": [
    "TDy.Fvtpf.Props.C181_ordered",
    "TDy.Fvtpf.Props.C181_contraction",
    "TDy.Fvtpf.Props.C181_unique"
   ],
   "note": "For solved steps whose cells all have a relative permeability above 1e-8 (below it the flux is not computed, see C43)."
  },
  {
   "property": "C182",
   "status": "partial",
   "theorems": [
    "TDy.Fvtpf.Props.C182_solvable_iff",
    "TDy.Fvtpf.Props.C182_positive",
    "TDy.Fvtpf.Props.C182_inflow_singular"
   ],
   "note": "Violated: a face of prescribed pressure counts only while water leaves through it. C182_inflow_singular proves the system singular in every saturated model fed from such faces, because RichardsBCJacobian sets the mobility to 0 for inflow. C182_solvable_iff says exactly when the system has one solution; C182_positive gives the sign."
  },
  {
   "property": "C183",
   "status": "partial",
   "theorems": [
    "TDy.Fe.Props.C183_positive_partial",
    "TDy.Fe.Props.C183_one_solution_partial",
    "TDy.Fe.Props.WyEnergyWitness.C183_violated"
   ],
   "note": "Violated: entries of a stencil below 1e4 machine epsilons of its largest entry are left out, relative to whatever cells meet at the vertex. C183_violated: three squares, the middle one with 1e-13 of the permeability of the others; its row of the matrix is empty although it has boundary faces and a source, and the system has no solution. C183_positive_partial and C183_one_solution_partial prove the claim on one process for all meshes and permeabilities where only zeros are left out."
  },
  {
   "property": "C184",
   "status": "proved",
   "theorems": [
    "TDy.Sections.Props.C184_one_place",
    "TDy.Sections.Props.C184_cell_values",
    "TDy.Sections.Props.C184_unknowns",
    "TDy.Sections.Props.C184_wy_values",
    "TDy.Sections.Props.C184_bdm_values",
    "TDy.Sections.Props.C184_bdm_blocks",
    "TDy.Sections.Props.C184_diagnostics"
   ],
   "note": "One process; offsets as PetscSectionSetUp computes them. C184_bdm_blocks discharges the assumption of C115 on one process. Diagnostics: meshes of dimension three."
  },
  {
   "property": "C185",
   "status": "proved",
   "theorems": [
    "TDy.Fe.Props.C185_exactly_one_solution"
   ],
   "note": "First assembly (later ones are C75). The numbering of the unknowns is a hypothesis (Numbered), as C115 and C184 show it to be for maps made from a mesh; the cells of all processes together. FULL: any three nodes per direction."
  },
  {
   "property": "C186",
   "status": "proved",
   "theorems": [
    "TDy.Mpfao.Props.C186_ts",
    "TDy.Mpfao.Props.C186_snes",
    "TDy.Mpfao.Props.C186_previous",
    "TDy.Mpfao.Props.C186_transient",
    "TDy.Mpfao.Props.C186_same_solutions",
    "TDy.Mpfao.Props.C186_snes_matrix",
    "TDy.Mpfao.Props.C186_ts_matrix",
    "TDy.Mpfao.Props.C186_other_columns"
   ],
   "note": "Each subface is taken to be addressed by its own slot (where this fails is C146). The rows of the Jacobian need that the water is not exactly at rest in a subface whose sides are named in the other order: there the derivative jumps. What a process holds is Sees; the transmissibilities in it are those of C187."
  },
  {
   "property": "C187",
   "status": "proved",
   "theorems": [
    "TDy.Mpfao.Props.C187_refused",
    "TDy.Mpfao.Props.C187_flux",
    "TDy.Mpfao.Props.C187_entries",
    "TDy.Mpfao.Props.C187_rows"
   ],
   "note": "Vertices with an interior or a Dirichlet boundary face, as used; rows of Neumann faces are not used for fluxes. C187_rows is the hypothesis on transmissibilities of C186."
  },
  {
   "property": "C188",
   "status": "partial",
   "theorems": [
    "TDy.Fvtpf.Props.C188_residual_partial",
    "TDy.Fvtpf.Props.C188_previous",
    "TDy.Fvtpf.Props.C188_jacobian_partial",
    "TDy.Fvtpf.Props.C188_dirichlet"
   ],
   "note": "Violated: the residual at a Dirichlet face uses the pressure of the boundary face two places further on (C44), so that it depends on the numbering of the boundary faces (C188_dirichlet). Without Dirichlet faces, with a mobile side at every face (C43) and no two dry sides named in the other order (C38) the residual is the same (C188_residual_partial); so are the rows of the Jacobian, Dirichlet faces included, where the water is not exactly at rest (C188_jacobian_partial). FULL: all boundary conditions and states."
  },
  {
   "property": "C189",
   "status": "proved",
   "theorems": [
    "TDy.UGrid.Props.C189_setting",
    "TDy.UGrid.Props.C189_owner",
    "TDy.UGrid.Props.C189_import"
   ],
   "note": "PETSc's partitioner is arbitrary; ISPartitioningCount, ISPartitioningToNumbering, MPI_Exscan and AOCreateBasic are modelled by what their manual pages say. C189_setting proves what C65-C70 and C105-C107 assume of the numbering, the offsets and the application ordering."
  },
  {
   "property": "C190",
   "status": "partial",
   "theorems": [
    "TDy.Mpfao.Props.C190_salt_partial",
    "TDy.Mpfao.Props.C190_salt_previous",
    "TDy.Mpfao.Props.C190_heat_outflow",
    "TDy.Mpfao.Props.C190_heat_partial",
    "TDy.Mpfao.Props.C190_salt_violated",
    "TDy.Mpfao.Props.C190_heat_violated"
   ],
   "note": "Violated: in the salinity mode the upwind side is chosen by the pressures alone, so that at uniform pressure the water moved by gravity depends on which side of a face is named first (C190_salt_violated); in the TH mode storage and sources of cells behind a ghost cell are lost (C190_heat_violated, C96). Proved: the salt balance always, the water balance where pressures drive the flow or gravity does not act (C190_salt_partial), the previous step (C190_salt_previous), all heat and water flows of the TH mode (C190_heat_outflow) and its balances for cells before the first ghost (C190_heat_partial). FULL: all states and numberings."
  },
  {
   "property": "C191",
   "status": "proved",
   "theorems": [
    "TDy.Mpfao.Props.C191_rows",
    "TDy.Mpfao.Props.C191_matrix",
    "TDy.Mpfao.Props.C191_right_hand_side",
    "TDy.Mpfao.Props.C191_only_own_rows",
    "TDy.Mpfao.Props.C191_same_solutions"
   ],
   "note": "For every part of the mesh a process may hold. C191_rows: the balance of a cell; C191_matrix, C191_right_hand_side: every entry; C191_only_own_rows: nothing in rows of others; C191_same_solutions: all processes together. That the transmissibilities of a vertex agree is C187."
  },
  {
   "property": "C192",
   "status": "proved",
   "theorems": [
    "TDy.Fe.Props.C192_rows",
    "TDy.Fe.Props.C192_only_own_rows",
    "TDy.Fe.Props.C192_assembled",
    "TDy.Fe.Props.C192_residual"
   ],
   "note": "For every part of the mesh a process may hold. C192_rows: rows of owned cells; C192_only_own_rows: nothing in rows of others; C192_assembled: the sum over the processes; C192_residual: the residual of owned cells. Also which entries are left out as too small is the same. The theorems are about computations that succeed; when they do is C119."
  },
  {
   "property": "C193",
   "status": "partial",
   "theorems": [
    "TDy.Time.Props.C193_two_point",
    "TDy.Time.Props.C193_two_point_failed",
    "TDy.Time.Props.C193_mpfao",
    "TDy.Time.Props.C193_salinity",
    "TDy.Time.Props.C193_reported_time_partial",
    "TDy.Time.Props.C193_water_missing"
   ],
   "note": "Violated for the reported time: if a solve fails on the step that was shortened to end at the requested time, the run reports that time with less water than the sources supplied (C193_water_missing, a consequence of C25). Proved for the time that was simulated, for every history: C193_two_point, C193_two_point_failed, C193_mpfao, C193_salinity; and for the reported time when no shortened step fails: C193_reported_time_partial. One process; C36_parallel, C48_parallel, C186, C188 and C190 say that distributed residuals are those of one process."
  },
  {
   "property": "C194",
   "status": "proved",
   "theorems": [
    "TDy.Time.Props.C194_same_steps",
    "TDy.Time.Props.C194_ordered",
    "TDy.Time.Props.C194_contraction",
    "TDy.Time.Props.C194_one_outcome"
   ],
   "note": "For steps that are solved exactly by states that conduct water (Kr above the 1e-8 below which the code leaves the flux uninitialised, C43), constant density and viscosity and monotone curves, on one process. C194_same_steps holds for every discretization."
  },
  {
   "property": "C195",
   "status": "proved",
   "theorems": [
    "TDy.Time.Props.C195_run_bounds"
   ],
   "note": "For steps that are solved exactly by states that conduct water and in which more pressure means more water (C180_exponential_van_genuchten gives that for the exponential density law; C180_incompressible_undetermined shows that it is needed), on one process."
  },
  {
   "property": "C196",
   "status": "proved",
   "theorems": [
    "TDy.Fe.Props.C196_defined",
    "TDy.Fe.Props.C196_assembled"
   ],
   "note": "For meshes on which the cells keep orientation, corners and faces in the order they have in the whole mesh (what DMPlexDistribute does with the cones); that every cell has one owner is a property of DMPlex."
  },
  {
   "property": "C197",
   "status": "partial",
   "theorems": [
    "TDy.Fortran.Props.C197_set_is_evaluated_partial",
    "TDy.Fortran.Props.C197_thirty_two_functions_undefined",
    "TDy.Fortran.Props.C197_arrays_never_grow",
    "TDy.Fortran.Props.C197_overwrites",
    "TDy.Fortran.Props.C197_violated"
   ],
   "note": "Violated: the two arrays share one counter, so that a program that sets functions of both kinds loses some (C197_overwrites); the arrays never grow, and the 32nd different function is undefined. Proved for programs that set at most 31 different functions of one kind."
  },
  {
   "property": "C198",
   "status": "partial",
   "theorems": [
    "TDy.Fortran.Props.C198_short_names_undefined",
    "TDy.Fortran.Props.C198_selected_partial",
    "TDy.Fortran.Props.C198_second_name_replaces",
    "TDy.Fortran.Props.C198_violated"
   ],
   "note": "Violated: names shorter than 32 characters read beyond the string (C198_short_names_undefined), and a second name of a function replaces the first. Proved for long names and functions registered once."
  },
  {
   "property": "C199",
   "status": "partial",
   "theorems": [
    "TDy.Fortran.Props.C199_coordinate_iff",
    "TDy.Fortran.Props.C199_coordinates_partial",
    "TDy.Fortran.Props.C199_violated",
    "TDy.Fortran.Props.C199_scalar_values",
    "TDy.Fortran.Props.C199_vector_values_not_set",
    "TDy.Fortran.Props.C199_isotropic_tensor",
    "TDy.Fortran.Props.C199_diagonal_tensor_keeps",
    "TDy.Fortran.Props.C199_diagonal_tensor_values"
   ],
   "note": "Violated: the arrays handed to a function have as many elements as there are points, whatever the number of components; only the first n of dim*n coordinates and values can be reached. In one dimension, for scalar values and for constant isotropic tensors it holds."
  },
  {
   "property": "C200",
   "status": "partial",
   "theorems": [
    "TDy.Fortran.Props.C200_last_of_any_object",
    "TDy.Fortran.Props.C200_own_constructor_partial",
    "TDy.Fortran.Props.C200_violated"
   ],
   "note": "Violated: one constructor is shared by all objects. Proved for programs that give constructors for one object only."
  },
  {
   "property": "C201",
   "status": "partial",
   "theorems": [
    "TDy.Fortran.Props.C201_names_agree_partial",
    "TDy.Fortran.Props.C201_missing_names"
   ],
   "note": "Violated: the salinity mode, the two-point method and the law of Batzle and Wang have no constant. Those that exist agree."
  },
  {
   "property": "C202",
   "status": "partial",
   "theorems": [
    "TDy.Demo.Props.C202_exact_solutions_partial",
    "TDy.Demo.Props.C202_violated"
   ],
   "note": "Violated: two of the velocities are only right for one point at a time and one of them writes behind its array; the source of the quadratic problem in space, which no option selects, is wrong. Everything else is proved for all points, by derivatives in Mathlib."
  },
  {
   "property": "C203",
   "status": "proved",
   "theorems": [
    "TDy.Demo.Props.C203_permeability",
    "TDy.Demo.Props.C203_alpha_bound"
   ],
   "note": "Also proved: the bound two thirds is sharp."
  },
  {
   "property": "C204",
   "status": "partial",
   "theorems": [
    "TDy.Demo.Props.C204_papers_partial",
    "TDy.Demo.Props.C204_violated"
   ],
   "note": "Violated: unknown problems of the default paper run without any function, and without -paper the choice depends on uninitialised memory. Proved for the two papers."
  },
  {
   "property": "C205",
   "status": "partial",
   "theorems": [
    "TDy.Demo.Props.C205_distinct_partial",
    "TDy.Demo.Props.C205_sides",
    "TDy.Demo.Props.C205_heights",
    "TDy.Demo.Props.C205_column_violated"
   ],
   "note": "Violated for -paper column in the plane, which writes behind the vertices; the column mesh cannot be selected. Proved for the others, on the whole plane and space."
  },
  {
   "property": "C206",
   "status": "partial",
   "theorems": [
    "TDy.Demo.Props.C206_random_mesh",
    "TDy.Demo.Props.C206_functions_partial",
    "TDy.Demo.Props.C206_violated"
   ],
   "note": "The mesh is proved as stated. Violated: the source sets only its first value (C206_violated)."
  },
  {
   "property": "C207",
   "status": "partial",
   "theorems": [
    "TDy.Demo.Props.C207_start_partial",
    "TDy.Demo.Props.C207_violated"
   ],
   "note": "Violated: exactly five cells are set, undefined for fewer and pressure 0 for more. Proved what the five cells get."
  },
  {
   "property": "C208",
   "status": "partial",
   "theorems": [
    "TDy.Fe.Props.C208_exact_velocities",
    "TDy.Fe.Props.C208_steady",
    "TDy.Fe.Props.C208_solution_is_linear_partial"
   ],
   "note": "The velocities and the residual are proved as stated, for any process. The solution of the assembled system is proved for one process when no entry is lost to the threshold; with entries lost C183 and C120 tell what happens."
  },
  {
   "property": "C209",
   "status": "partial",
   "theorems": [
    "TDy.Fe.Props.C209_linear_pressure_is_exact_partial",
    "TDy.Fe.Props.C209_lumped_violated"
   ],
   "note": "Proved with the quadrature FULL. Violated with LUMPED: the boundary pressure is always integrated with Gauss points, so a linear pressure that differs between a corner of a boundary face and its centre is not the solution, on any such mesh."
  },
  {
   "property": "C210",
   "status": "proved",
   "theorems": [
    "TDy.Fe.Props.C210_cell_balance",
    "TDy.Fe.Props.C210_faces_cancel",
    "TDy.Fe.Props.C210_total_balance"
   ],
   "note": "For one process; C196 relates the system of several processes to it. The mesh is described by data with the properties DMPlex gives them."
  },
  {
   "property": "C211",
   "status": "partial",
   "theorems": [
    "TDy.Fe.Props.C211_system_of_moved_mesh_partial",
    "TDy.Fe.Props.C211_velocities_of_moved_mesh",
    "TDy.Fe.Props.C211_velocities_violated",
    "TDy.Fe.Props.C211_residual_of_moved_mesh_partial",
    "TDy.Fe.Props.C211_boundary_pressure_violated"
   ],
   "note": "Proved: the stored areas cancel in the matrix, the right-hand side and the residual, so they do not depend on them if the boundary pressures are right. Violated: velocities come out multiplied by new over old area of the face, and the boundary pressure is evaluated at the old centres of the faces, so that a linear pressure is off by g.d on a mesh moved by d. Permeabilities are those of the old centres too; they are a parameter of the theorems."
  },
  {
   "property": "C212",
   "status": "partial",
   "theorems": [
    "TDy.Mpfao.Props.C212_fresh_part",
    "TDy.Mpfao.Props.C212_concentration",
    "TDy.Mpfao.Props.C212_bounds_partial",
    "TDy.Mpfao.Props.C212_not_uniform",
    "TDy.Mpfao.Props.C212_runs",
    "TDy.Mpfao.Props.C212_bounds_violated"
   ],
   "note": "Violated: the salt flux is the water flux without a concentration, so (1-psi)*W of a cell never changes without sources (C212_fresh_part, C212_runs). Cells that gain water become saltier, cells that lose water fresher, with uniform concentrations too (C212_not_uniform), and fresh water gets a negative concentration (C212_bounds_violated). Proved: the upper bound 1, the lower bound 0 exactly where the water does not fall below the fresh part, and that a cell with constant water keeps its concentration. For steps without gravity and without dispersion (which the code has at corner vertices only)."
  },
  {
   "property": "C213",
   "status": "partial",
   "theorems": [
    "TDy.Geo.Props.C213_cells",
    "TDy.Geo.Props.C213_plex_faces",
    "TDy.Geo.Props.C213_own_faces",
    "TDy.Geo.Props.C213_orientation",
    "TDy.Geo.Props.C213_traversal",
    "TDy.Geo.Props.C213_coefficients",
    "TDy.Geo.Props.C213_subcells",
    "TDy.Geo.Props.C213_velocity_partial",
    "TDy.Geo.Props.C213_velocity_violated",
    "TDy.Geo.Props.C213_th_residual",
    "TDy.Geo.Props.C213_jacobian_violated"
   ],
   "note": "Proved for everything the finite volume methods compute from the mesh: cells, faces of both mesh formats, orientation, the order of cells around vertices, subcell tables, matrices (two-point option and heat too), gravity coefficients and the TH residual. Violated for recovered velocities (rho g z with the absolute height is added to cell pressures): they depend on the height where the density varies or where the boundary pressure is given (C213_velocity_violated); otherwise they do not (C213_velocity_partial). Violated for the TH Jacobian, which contains gravity times height (C213_jacobian_violated)."
  },
  {
   "property": "C214",
   "status": "partial",
   "theorems": [
    "TDy.Objs.Props.C214_given_back_partial",
    "TDy.Objs.Props.C214_regression",
    "TDy.Objs.Props.C214_checkpoints_violated",
    "TDy.Objs.Props.C214_outputs_violated",
    "TDy.Objs.Props.C214_reading_violated",
    "TDy.Objs.Props.C214_residual_violated",
    "TDy.Objs.Props.C214_residual_small_blocks",
    "TDy.Objs.Props.C214_refused_output_violated",
    "TDy.Objs.Props.C214_violated",
    "TDy.Objs.Props.C214_run_violated",
    "TDy.Objs.Props.C214_every_step_violated"
   ],
   "note": "Violated: every checkpoint leaves one vector, every HDF5 output in natural order two, every variable read two, every initial condition read an open viewer, every DAE residual four, a refused output one; over a run, as many vectors as checkpoints plus two for each such output (C214_run_violated). Proved to give back everything: the getters, setting initial conditions, text and Exodus output, HDF5 output without natural order, the initial fields of all modes, the Jacobians that borrow a vector and the regression file (C214_given_back_partial, C214_regression). Creation is taken to succeed, and what PETSc does inside its own calls is not modelled."
  },
  {
   "property": "C215",
   "status": "partial",
   "theorems": [
    "TDy.Mpfao.Props.C215_one_enthalpy",
    "TDy.Mpfao.Props.C215_cells_at_state",
    "TDy.Mpfao.Props.C215_stream",
    "TDy.Mpfao.Props.C215_energy_balance",
    "TDy.Mpfao.Props.C215_steady_violated",
    "TDy.Mpfao.Props.C215_any_flow_violated",
    "TDy.Mpfao.Props.C215_uniform_partial",
    "TDy.Mpfao.Props.C215_hot_stream_violated"
   ],
   "note": "Violated: after setup and any update of the state all water in the cells and outside of the boundary has the enthalpy 1.8890 whatever its temperature, and the slopes with temperature stay zero (C215_one_enthalpy). So a stream brings 1.8890 times its mass from whatever temperature (C215_stream), the energy balance is 1.8890 times the water balance plus rock, pressure work, sources and conduction (C215_energy_balance), and with steady water the temperature of a cell changes at the same rate in any two flows (C215_steady_violated, C215_any_flow_violated); hot water through a cold cell of rock that does not conduct leaves it cold (C215_hot_stream_violated). Proved: with the same temperature everywhere steady flow keeps it (C215_uniform_partial). One process."
  },
  {
   "property": "C216",
   "status": "partial",
   "theorems": [
    "TDy.Mpfao.Props.C216_two_point",
    "TDy.Mpfao.Props.C216_rate",
    "TDy.Mpfao.Props.C216_highest_partial",
    "TDy.Mpfao.Props.C216_lowest_partial",
    "TDy.Mpfao.Props.C216_run_partial",
    "TDy.Mpfao.Props.C216_filling_violated"
   ],
   "note": "Violated: water that accumulates at pressure P heats the rock by P/rho, so a cell at 20 degrees that takes up water of 20 degrees gets warmer than everything around it (C216_filling_violated). Proved, where conduction goes from hot to cold through every part of a face (two-point conduction with coefficients that are not negative does, C216_two_point; C138 shows for which faces the two-point option of the code has negative ones): the upper bound if the pressure work and the sources do not heat (C216_highest_partial), the lower bound if they do not cool (C216_lowest_partial), and both over any number of steps with steady water (C216_run_partial), whatever the flow. For steps that are solved exactly, on one process."
  },
  {
   "property": "C217",
   "status": "partial",
   "theorems": [
    "TDy.Fortran.Props.C217_top_iff",
    "TDy.Fortran.Props.C217_last_point",
    "TDy.Fortran.Props.C217_one_point_partial",
    "TDy.Fortran.Props.C217_several_iff",
    "TDy.Fortran.Props.C217_violated",
    "TDy.Fortran.Props.C217_called_undefined",
    "TDy.Fortran.Props.C217_constant",
    "TDy.Fortran.Props.C217_tensor_iff",
    "TDy.Fortran.Props.C217_tensor_violated",
    "TDy.Fortran.Props.C217_tensors"
   ],
   "note": "Violated: the functions assign the whole array inside the loop over points, so all points get the value of the last one (C217_last_point, C217_violated); several points get their values exactly if these are equal (C217_several_iff). With the arrays the library hands over they read beyond the coordinates (C217_called_undefined, see C199), and the functions for permeabilities, which the programs define without using them, are defined for nine points only and set the first tensor only (C217_tensor_iff, C217_tensor_violated). Proved: one point with whole arrays (C217_one_point_partial), the test for the top (C217_top_iff), the constant function (C217_constant) and that the tensors the programs set are diagonal and positive (C217_tensors)."
  },
  {
   "property": "C218",
   "status": "partial",
   "theorems": [
    "TDy.Geo.Props.C218_cells",
    "TDy.Geo.Props.C218_plex_faces",
    "TDy.Geo.Props.C218_own_faces",
    "TDy.Geo.Props.C218_orientation",
    "TDy.Geo.Props.C218_traversal_partial",
    "TDy.Geo.Props.C218_matrices",
    "TDy.Geo.Props.C218_subcells",
    "TDy.Geo.Props.C218_two_point_partial",
    "TDy.Geo.Props.C218_gravity_partial",
    "TDy.Geo.Props.C218_upside_down",
    "TDy.Geo.Props.C218_turned_heat",
    "TDy.Geo.Props.C218_gravity_violated",
    "TDy.Geo.Props.C218_heat_violated",
    "TDy.Geo.Props.C218_tilted_violated"
   ],
   "note": "Violated: the product of gravity with a direction drops the signs of gravity, so a mesh turned upside down together with gravity has the opposite gravity coefficients (C218_upside_down, C218_gravity_violated); with the two-point option the coefficients of heat change their sign when a mesh is turned about the vertical axis by half a turn (C218_turned_heat, C218_heat_violated); a tilted mesh of cubes runs into undefined behaviour at its set up (C218_tilted_violated). Proved for all rotations: cells, faces and their orientation, the tables of the subcells and the matrices of the default option, with any tensor (C218_cells, C218_plex_faces, C218_own_faces, C218_orientation, C218_subcells, C218_matrices), and of the two-point option with isotropic tensors (C218_two_point_partial). Proved for rotations about the vertical axis: the connections around the vertices (C218_traversal_partial) and, with isotropic tensors and vertical gravity, the gravity coefficients (C218_gravity_partial)."
  },
  {
   "property": "C219",
   "status": "partial",
   "theorems": [
    "TDy.Geo.Props.C219_cells",
    "TDy.Geo.Props.C219_areas",
    "TDy.Geo.Props.C219_plex_faces",
    "TDy.Geo.Props.C219_own_faces",
    "TDy.Geo.Props.C219_orientation",
    "TDy.Geo.Props.C219_traversal_partial",
    "TDy.Geo.Props.C219_tiny_violated",
    "TDy.Geo.Props.C219_subcells",
    "TDy.Geo.Props.C219_matrices",
    "TDy.Geo.Props.C219_two_point",
    "TDy.Geo.Props.C219_gravity",
    "TDy.Geo.Props.C219_transmissibilities"
   ],
   "note": "Violated: whether two vertices are straight above each other is decided by a fixed distance of 1e-7, so the cell above a vertex of eight cubes is below it when their length is 1e-8 (C219_tiny_violated). The connections stay for meshes whose vertices are resolved in both units (C219_traversal_partial). Proved for all factors and meshes: cells, areas, faces and their orientation (C219_cells, C219_areas, C219_plex_faces, C219_own_faces, C219_orientation), the tables of the subcells (C219_subcells), the matrices of both options with any tensors (C219_matrices, C219_two_point), transmissibilities (C219_transmissibilities) and gravity coefficients (C219_gravity)."
  },
  {
   "property": "C220",
   "status": "partial",
   "theorems": [
    "TDy.Debug.C220_check",
    "TDy.Debug.C220_check_messages",
    "TDy.Debug.C220_check_accepts",
    "TDy.Debug.C220_check_bounds",
    "TDy.Debug.C220_check_small",
    "TDy.Debug.C220_check_violated",
    "TDy.Debug.C220_check_scaled",
    "TDy.Debug.C220_print_numbers",
    "TDy.Debug.C220_print_rounding",
    "TDy.Debug.C220_print_small",
    "TDy.Debug.C220_print_brackets",
    "TDy.Debug.C220_print_empty_violated",
    "TDy.Debug.C220_print_bounds",
    "TDy.Debug.C220_print_transposed"
   ],
   "note": "Violated: the tolerance of CheckSymmetric is 1e-12 whatever the size of the entries, so every matrix of entries up to 5e-13, the size of permeabilities, is called symmetric (C220_check_small, C220_check_violated); PrintMatrix shows entries below 5e-5 as zero (C220_print_small) and a matrix without rows with brackets that do not match (C220_print_empty_violated). Proved for all matrices: the exact verdict and messages (C220_check, C220_check_messages, C220_check_accepts, C220_check_scaled), the numbers printed and their rounding (C220_print_numbers, C220_print_rounding), brackets and lines (C220_print_brackets), the entries looked at (C220_check_bounds, C220_print_bounds) and both storages (C220_print_transposed)."
  },
  {
   "property": "C221",
   "status": "partial",
   "theorems": [
    "TDy.Spe10.C221_rotation_2d",
    "TDy.Spe10.C221_rotation_3d",
    "TDy.Spe10.C221_frame",
    "TDy.Spe10.C221_frame_3d",
    "TDy.Spe10.C221_symmetric",
    "TDy.Spe10.C221_principal",
    "TDy.Spe10.C221_nonneg",
    "TDy.Spe10.C221_read",
    "TDy.Spe10.C221_long_file_violated",
    "TDy.Spe10.C221_word_violated",
    "TDy.Spe10.C221_no_file_violated",
    "TDy.Spe10.C221_inside",
    "TDy.Spe10.C221_inside_2d",
    "TDy.Spe10.C221_entry",
    "TDy.Spe10.C221_entry_2d",
    "TDy.Spe10.C221_pressure_3d",
    "TDy.Spe10.C221_pressure_slopes",
    "TDy.Spe10.C221_pressure_2d_violated"
   ],
   "note": "Violated: a missing file leaves all permeabilities unset without an error (C221_no_file_violated), a longer file overruns the buffer (C221_long_file_violated), a word that is not a number keeps the program in its loop (C221_word_violated), and in two dimensions, its default, the boundary pressure reads a third coordinate (C221_pressure_2d_violated). Proved for all angles and files of the right length: orthonormal frames (C221_rotation_2d, C221_rotation_3d, C221_frame, C221_frame_3d), symmetric tensors with the listed principal permeabilities (C221_symmetric, C221_principal, C221_nonneg), the entry of each cell (C221_read, C221_entry, C221_entry_2d), bounds (C221_inside, C221_inside_2d) and the pressure in 3D (C221_pressure_3d, C221_pressure_slopes). Not modelled: TDySetCellPermeability, which is switched off in the library."
  },
  {
   "property": "C222",
   "status": "partial",
   "theorems": [
    "TDy.MeshQuery.C222_shared",
    "TDy.MeshQuery.C222_shared_error",
    "TDy.MeshQuery.C222_shared_unique",
    "TDy.MeshQuery.C222_neighbors",
    "TDy.MeshQuery.C222_natural_partial",
    "TDy.MeshQuery.C222_natural_violated",
    "TDy.MeshQuery.C222_is_local"
   ],
   "note": "Violated: the natural numbers of the local cells include those of ghost cells, so an array for the local cells is overrun (C222_natural_violated); they are right without ghost cells (C222_natural_partial). Proved for all meshes: the common face (C222_shared, C222_shared_error, C222_shared_unique), neighbouring faces (C222_neighbors) and the flags (C222_is_local). The library itself does not call these functions."
  }
 ]
}
