# Formal model of TDycore in Lean 4

## 1. Layout

| Directory | Content |
|---|---|
| `lean/Verif/Basic.lean`, `Loop.lean` | the outcome type shared by the models (`ok`, PETSc error, undefined behaviour); counted loops and array writes with their general lemmas |
| `lean/Verif/Model/*.lean` | transcription of the C sources, one file per area; every definition cites file and lines of `/repo` and says what it simplifies |
| `lean/Verif/Spec/*.lean` | small independent specifications (what the English property means), not using model helpers |
| `lean/Verif/Proofs/*.lean` | helper lemmas and loop invariants |
| `lean/Verif/Props/*.lean` | the property theorems, each with a concrete non-trivial instance of its hypotheses beside it |
| `properties.jsonl`, `MANIFEST.json` | claims and their status |
| `seeded/LOG.jsonl` | experiments with deliberately wrong models |

## 2. Trusted base

* Lean 4.33.0's kernel and Mathlib (as installed). No axiom is added, no `sorry`, no `native_decide`/`bv_decide`.
* The transcription C -> Lean in `Model/`. It is a hand translation; the line citations are there so it can be audited.
* The statements: `Props/` and `Spec/` say what is proved; `Proofs/` need not be trusted.
* Modelling conventions:
  * Reals: `PetscReal`/`PetscScalar` are modelled by exact real numbers `ℝ` (rounding, overflow, NaN and infinities are
    **not** modelled). Where a model must compute (counterexamples), literals are rationals cast to ℝ.
  * Integers: `PetscInt` is `ℕ` or `ℤ`; overflow is not modelled.
  * Undefined behaviour (out-of-range access, use after free, read of an uninitialised variable, division by integer
    zero) is a separate outcome, not a default value. Where the code reads memory it never wrote, the content is an
    arbitrary parameter of the model.
  * PETSc objects (Vec, Mat, DM, SNES, TS, VecScatter, AO, MPI) are modelled by their mathematical meaning: a Vec is a
    finite function, a Mat a finite matrix or the list of its `ADD_VALUES` contributions, a nonlinear solve is an
    arbitrary oracle that either converges or fails, LAPACK `getrf`+`getri`/`getrs` is "inverse if invertible, error
    otherwise", a scatter is the index map it was built from. The points, cones and closures of a DMPlex and the geometry
    PETSc computes are data of the models. PETSc itself is not verified.
  * MPI: models are per rank; theorems about several ranks quantify over all ranks and any partition. The MPI transport is exact.
  * Release builds: tests under `PETSC_USE_DEBUG` are not made.
  * Logging, timer events, printing and file formats are not modelled (only the decisions of when and what to write).

## 3. Axioms

Output of `#print axioms` for every theorem named in MANIFEST.json. No theorem uses any other axiom.

* `propext, Classical.choice, Quot.sound`: all theorems of MANIFEST.json not listed below (734 theorems).
* `propext, Quot.sound`: `Props.C02_rejection_has_no_effect`, `Props.C03_discretization_restores`, `Lib.Props.C05_shutdown_newest_first`, `Lib.Props.C05_library_functions_once`, `Lib.Props.C06_reinitialisation_undefined`, `Lib.Props.C06_reinitialisation_partial`, `Lib.Props.C07_latest_registration_wins`, `Slots.Props.C08_conditions_latest_setter_wins`, `Slots.Props.C08_material_latest_setter_wins`, `Slots.Props.C08_constant_at_every_point`, `Slots.Props.C09_same_context_twice`, `Driver.Props.C29_user_properties_kept_partial`, `Driver.Props.C29_molecular_weight_replaced`, `Props.C30_option_sets_its_own_setting_partial`, `Props.C30_other_settings`, `Props.C30_thermal_conductivity_sets_porosity`, `Props.C30_boundary_values`, `Props.C31_ts_jacobian_where`, `Geo.Props.C35_miss_looks_like_a_hit`, `Mesh.Props.C61_face_cell_queries_partial`, `Mesh.Props.C61_subcell_nu_vectors`, `Mesh.Props.C61_subcell_coordinates_violated`, `Custom.Props.C64_never_reports`, `Custom.Props.C64_table_partial`, `Io.Props.C73_empty_rank_undefined`, `Props.C78_destroy_defined_partial`, `Driver.Props.C84_source_of_defaults`, `Driver.Props.C84_supported_combinations`, `Props.C85_contradictory_refused`, `Geo.Props.C89_closures_saved_partial`, `Geo.Props.C89_large_closure_undefined`, `Props.C93_mesh_kept`, `Props.C94_setup_installs_eos`, `Props.C94_density_type_used`, `Props.C94_command_line_types_used`, `Props.C95_no_diagnostics_on_pflotran`, `Mesh.Props.C104_reorder`, `UGrid.Props.C105_read`, `UGrid.Props.C106_max_dual`, `Io.Props.C112_header_partial`, `Io.Props.C112_cells_violated`, `Io.Props.C112_plane_violated`, `MeshCount.Props.C154_face_counts`, `Mem.Props.C159_violated`, `Api.Props.C160_latest_condition_in_force_partial`, `Api.Props.C160_command_line_in_force`, `Api.Props.C160_calls_after_options_are_defined`, `Api.Props.C160_setters_before_options_undefined`, `Api.Props.C160_options_forget`, `Api.Props.C160_violated`, `Api.Props.C160_options_after_setup_refused`, `Api.Props.C161_unknown_name_refused_partial`, `Api.Props.C161_unknown_name_not_reported`, `Api.Props.C161_violated`, `Settings.Props.C163_setters_after_options_defined`, `Settings.Props.C163_setter_before_options_undefined`, `Timers.Props.C165_stages`, `Timers.Props.C166_filename_ignored`, `Timers.Props.C166_nothing_set_up`, `Timers.Props.C166_violated`, `Output.Props.C167_several_ranks`, `Output.Props.C167_finished_file_spoilt`, `Output.Props.C168_one_rank_partial`, `Output.Props.C168_more_unknowns_undefined`, `Pflotran.Props.C173_refresh_undefined`, `Pflotran.Props.C173_violated`, `Ledger.Props.C175_accepted_iff`, `Ledger.Props.C176_lost`, `Ledger.Props.C176_given_back_partial`, `Ledger.Props.C176_violated`, `Fortran.Props.C197_arrays_never_grow`, `Fortran.Props.C201_names_agree_partial`, `Objs.Props.C214_residual_small_blocks`, `MeshQuery.C222_neighbors`, `MeshQuery.C222_natural_partial`, `MeshQuery.C222_natural_violated`, `MeshQuery.C222_is_local`.
* `propext`: `Lib.Props.C06_named_functions_undefined`, `Slots.Props.C08_absent_condition_undefined`, `Props.C31_snes_hooks_consistent_partial`, `Props.C31_presolve_matches`, `Props.C31_ts_jacobian_matches`, `Props.C31_every_pair_has_a_driver`, `Mpfao.Props.C52_query_outside`, `Props.C93_mesh_stable`, `Props.C94_late_change_ignored`, `Props.C95_diagnostics_work`, `Props.C95_which_have_diagnostics`, `Topology.Props.C101_supported_partial`, `Topology.Props.C101_unsupported_violated`, `Io.Props.C112_pyramid_violated`, `MeshCount.Props.C152_violated`, `Mem.Props.C158_arrays_of_a_mode`, `Settings.Props.C163_defaults`, `Settings.Props.C163_options_forget`, `Settings.Props.C163_bdm_uses_quadrature`, `Settings.Props.C163_wy_ignores_quadrature`, `Settings.Props.C163_violated`, `Timers.Props.C166_disabled_no_effect`, `Timers.Props.C166_other_methods_undefined`, `Pflotran.Props.C172_accepted_pairs`, `MeshErrors.Props.C174_complete_partial`, `MeshErrors.Props.C174_not_three_dimensional`, `MeshErrors.Props.C174_unfinished_mesh_used`, `MeshErrors.Props.C174_violated`, `Fortran.Props.C198_short_names_undefined`, `Fortran.Props.C200_last_of_any_object`, `Fortran.Props.C200_own_constructor_partial`, `Fortran.Props.C201_missing_names`.
* no axioms: `Props.C31_inconsistent_hooks`, `Props.C31_time_cut_only_tpf`, `Mpfao.Props.C52_add_replaces`, `Topology.Props.C62_subcells`, `UGrid.Props.C105_violated`, `Sizes.Props.C164_too_few_asked_for`, `Fortran.Props.C200_violated`.

Names are relative to the namespace `TDy`.

## 4. Which code is modelled

Per source file: functions cited by a definition of `Model/` over most of their lines, functions of which a part is
cited (the rest is allocation, logging, PETSc calls or output, or is not modelled), and functions not modelled.
Generated from the citations.

* `src/fe/tdybdm.c`
  * modelled: TDyBDMSetQuadrature, TDyCreate_BDM, TDyDestroy_BDM, TDyGetNumDMFields_BDM, TDySetup_BDM, TDyKDotADotB, Inverse, IntegratePressureBoundary, TDyBDMComputeSystem
  * in part: TDySetFromOptions_BDM
  * not modelled: TDySetDMFields_BDM
* `src/fe/tdyfe.c`
  * modelled: CreateCellVertexMap, CreateCellVertexDirFaceMap, SetQuadrature, Piola, HdivBasisQuad, HdivBasisHex
* `src/fe/tdywy.c`
  * modelled: Pullback, FormStencil, RecoverVelocity, ElementSide, KDotADotB, TDyWYLocalElementCompute, TDyWYSetQuadrature, TDyCreate_WY, TDyDestroy_WY, TDyWYComputeSystem, TDyWYRecoverVelocity, TDyUpdateState_WY
  * in part: TDySetFromOptions_WY, TDySetup_WY, TDyWYResidual
  * not modelled: TDyGetNumDMFields_WY, TDySetDMFields_WY, IntegrateOnFaceConstant, IntegrateOnFace
* `src/fv/fvtpf/tdyfvtpf.c`
  * modelled: TDyCreate_FVTPF, TDyDestroy_FVTPF, SetFields, TDyGetNumDMFields_Richards_FVTPF, TDySetDMFields_Richards_FVTPF, InitMaterials, SetFaceBoundaryConditionType, TDyUpdateDiagnostics_FVTPF, TDyUpdateState_Richards_FVTPF, TDySetup_Richards_FVTPF, TDyFVTPFUpdateBoundaryState, FVTPFExtractUpAndDownPermeabilityTensors, FVTPFComputeFacePermeabililtyValueTPF, FVTPFCalculateDistances
  * in part: TDySetFromOptions_FVTPF, AllocateMemoryForBoundaryValues, TDyFVTPFSetBoundaryPressure
  * not modelled: AllocateMemoryForSourceSinkValues
* `src/fv/fvtpf/tdyfvtpf_snes.c`
  * modelled: TDyFVTPFSNESAccumulation, TDyFVTPFSNESJacobianAccumulation, TDyFVTPFSNESPreSolve, TDyFVTPFSNESTimeCut, RichardsResidual, RichardsBCResidual, RichardsSeepageBCResidual, RichardsJacobian, RichardsBCJacobian, RichardsSeepageBCJacobian, TDyFVTPFSNESFunction, TDyFVTPFSNESJacobian
* `src/fv/mpfao/tdympfao.c`
  * modelled: ComputeEntryOfGMatrix, ComputeGMatrix_MPFAO, ComputeGMatrix_TPF, AllocateMemoryForBoundaryValues, AllocateMemoryForEnergyBoundaryValues, AllocateMemoryForSourceSinkValues, AllocateMemoryForEnergySourceSinkValues, TDyMPFAOSetGmatrixMethod, TDyMPFAOSetBoundaryConditionType, TDyCreate_MPFAO, TDyDestroy_MPFAO, InitMaterials, SetFields, TDyGetNumDMFields_Richards_MPFAO, TDyGetNumDMFields_Richards_MPFAO_DAE, TDyGetNumDMFields_TH_MPFAO, TDyGetNumDMFields_Salinity_MPFAO, TDySetDMFields_Richards_MPFAO, TDySetDMFields_Richards_MPFAO_DAE, TDySetDMFields_TH_MPFAO, TDySetDMFields_Salinity_MPFAO, ExtractSubMatrix, DetermineNumberOfUpAndDownBoundaryFaces, ComputeCandFmatrix, ComputeAinvB, ComputeCtimesAinvB, ComputeTransmissibilityMatrix_ForNonCornerVertex, ComputeTransmissibilityMatrix_ForBoundaryVertex_NotSharedWithInternalVertices, UpdateTransmissibilityMatrix, ComputeTransmissibilityMatrix, ComputeUpDownUnitVector, ComputeUpAndDownDist, ExtractUpAndDownPermeabilityTensors, ComputeFacePermeabilityTensor, ComputeFacePermeabilityValueTPF, ComputeFacePermeabilityValueMPFAO, ComputeGravityDiscretization, TDySetup_Richards_MPFAO, TDySetup_Richards_MPFAO_DAE, TDySetup_TH_MPFAO, TDySetup_Salinity_MPFAO, TDyUpdateState_Richards_MPFAO, TDyUpdateState_TH_MPFAO, TDyUpdateState_Salinity_MPFAO, TDyUpdateDiagnostics_MPFAO, TDyMPFAOComputeSystem
  * in part: TDySetFromOptions_MPFAO, ExtractsubCMatrices, ExtractsubFMatrices
  * not modelled: ComputeGMatrix
* `src/fv/mpfao/tdympfao_snes.c`
  * modelled: TDyMPFAOSNESAccumulation, TDyMPFAOSNESPreSolve, TDyMPFAOSNESFunction, TDyMPFAOSNESJacobian
* `src/fv/mpfao/tdympfao_snes_salinity.c`
  * modelled: TDyMPFAOSNESAccumulationTransport, TDyMPFAOSNESPreSolve_Salinity, TDyMPFAOIFunction_Vertices_Salinity, TDyMPFAOSNESFunction_Salinity
  * not modelled: TDyMPFAOSNESAccumulationMass
* `src/fv/mpfao/tdympfao_steady.c`
  * modelled: TDyMPFAOComputeSystem_BoundaryVertices_SharedWithInternalVertices, TDyMPFAOComputeSystem_BoundaryVertices_NotSharedWithInternalVertices
  * in part: TDyMPFAOComputeSystem_InternalVertices
* `src/fv/mpfao/tdympfao_th_ts.c`
  * modelled: TDyMPFAOIFunction_Vertices_TH, TDyMPFAOIFunction_TH, TDyMPFAOIJacobian_Vertices_TH, TDyMPFAOIJacobian_Accumulation_TH, TDyMPFAOIJacobian_TH
* `src/fv/mpfao/tdympfao_ts.c`
  * modelled: TDyMPFAOIFunction_Vertices, TDyMPFAOIFunction, TDyMPFAOIJacobian_Vertices, TDyMPFAOIJacobian_Accumulation, TDyMPFAOIJacobian
* `src/fv/mpfao/tdympfao_ts_dae.c`
  * modelled: TDyMPFAOIFunction_DAE
* `src/fv/mpfao/tdympfao_ts_transientvar.c`
  * modelled: TDyMPFAOIFunction_TransientVariable
  * in part: TDyMPFAOTransientVariable
* `src/fv/mpfao/tdympfao_utils.c`
  * modelled: ComputeGtimesZ, TDyMPFAOUpdateBoundaryState, TDyMPFAORecoverVelocity_InternalVertices, TDyMPFAORecoverVelocity_BoundaryVertices_SharedWithInternalVertices, TDyMPFAORecoverVelocity_BoundaryVertices_NotSharedWithInternalVertices, TDyMPFAORecoverVelocity, TDyMPFAO_SetBoundaryPressure, TDyMPFAO_SetBoundaryTemperature, TDyMPFAO_SetBoundarySalineConcentration
  * not modelled: ExtractSubGmatrix, ExtractTempSubGmatrix, ExtractPsiSubGmatrix
* `src/fv/mpfao/tdyregion.c`
  * modelled: TDyRegionAddCells, TDyRegionAreCellsInTheSameRegion
  * not modelled: TDyRegionCreate, TDyRegionDestroy
* `src/fv/share/tdydm.c`
  * modelled: TDyDMCreate, TDyDMCreateFromUGrid
  * not modelled: TDyDMDestroy
* `src/fv/share/tdymesh.c`
  * modelled: AllocateCells, AllocateSubcells, AllocateVertices, AllocateEdges, AllocateFaces, GetCellType, GetNumVerticesForCellType, GetMaxNumCellsPerEdgeForCellType, GetMaxNumCellsPerFaceForCellType, GetMaxNumOfFaceVerticesForCellType, TDyGetFaceTypeForCellType, TDyGetNumVerticesForFaceType, GetNumOfVerticesOfIthFacesForCellType, GetMaxNumOfFaceEdgesForCellType, GetNumEdgesForCellType, GetNumNeighborsForCellType, GetNumFacesForCellType, GetSubcellTypeForCellType, GetNumSubcellsForSubcellType, GetNumOfNuVectorsForSubcellType, GetNumVerticesForSubcellType, GetNumFacesForSubcellType, TDyMeshGetNumberOfLocalFaces, TDyMeshGetNumberOfNonLocalFaces, TDyMeshGetNumberOfNonInternalFaces, TDyMeshDestroy, TDyMeshGetMaxVertexConnectivity, TDyMeshGetCellEdges, TDyMeshGetCellFaces, TDyMeshGetSubcellNuVectors, TDyMeshGetSubcellFaceCentroids, TDyMeshGetSubcellVerticesCoordinates
  * not modelled: TDyMeshGetCellVertices, TDyMeshGetCellNumVertices, TDyMeshGetCellNumFaces, TDyMeshGetCellNeighbors, TDyMeshGetCellNumNeighbors, TDyMeshGetCellCentroid, TDyMeshGetCellVolume, TDyMeshGetVertexInternalCells, TDyMeshGetVertexNumInternalCells, TDyMeshGetVertexNumSubcells, TDyMeshGetVertexFaces, TDyMeshGetVertexNumFaces, TDyMeshGetVertexSubfaces, TDyMeshGetVertexBoundaryFaces, TDyMeshGetVertexNumBoundaryFaces, TDyMeshGetFaceCells, TDyMeshGetFaceNumCells, TDyMeshGetFaceVertices, TDyMeshGetFaceNumVertices, TDyMeshGetFaceCentroid, TDyMeshGetFaceNormal, TDyMeshGetFaceArea, TDyMeshGetSubcellFaces, TDyMeshGetSubcellNumFaces, TDyMeshGetSubcellIsFaceUp, TDyMeshGetSubcellFaceUnknownIdxs, TDyMeshGetSubcellFaceFluxIdxs, TDyMeshGetSubcellFaceAreas, TDyMeshGetSubcellVertices, TDyMeshGetSubcellNuStarVectors, TDyMeshGetSubcellVariableContinutiyCoordinates
* `src/fv/share/tdymeshcustom.c`
  * modelled: ComputeVolume, GetHexFaceVertices, GetWedgeFaceVertices, GetPyramidFaceVertices, GetTetFaceVertices, GetFaceVertices, AreAllVerticesPresentInDual, GetCorrespondingFaceInDualCell, SetupMaps_C2F_F2C_F2V, RemoveDuplicateFaces, UpdateMapsC2F_F2C_F2V, SetupMap_V2C, CreateInternalFaces, ComputeTriArea, ComputeTriAreasAndIntercpet, ComputeGeoAttrOfInternalFaces, TDySetupFacesFromDiscretization
  * in part: TDySetupCellsFromDiscretization, ComputeGeoAttrOfUGridFaces
  * not modelled: TDyMeshMapIndices, TDyMeshCreateFromDiscretization
* `src/fv/share/tdymeshplex.c`
  * modelled: AreFacesNeighbors, TDySubCell_GetIthNuVector, TDySubCell_GetIthNuStarVector, TDySubCell_GetIthFaceCentroid, TDySubCell_GetFaceIndexForAFace, FindNeighboringVerticesOfAFace, TDyMeshFindFaceIDShareByTwoCells, FindFaceIDsOfACellCommonToAVertex, IdentifyLocalCells, IdentifyLocalVertices, IdentifyLocalFaces, TDyFindSubcellOfACellThatIncludesAVertex, TDyMeshGetNumLocalCells, TDyMeshGetLocalCellNaturalIDs, TDyMeshGetSubcellIDGivenCellIdVertexIdFaceId, TDyMeshGetCellIsLocal, SaveNaturalIDs, ConvertMeshElementToCompressedFormatIntegerValues, ConvertMeshElementToCompressedFormatTDyVectorValues, ConvertMeshElementToCompressedFormatTDyCoordinateValues, ConvertMeshElementToCompressedFormatRealValues, ConvertCellsToCompressedFormat, ConvertSubcellsToCompressedFormat, ConvertVerticesToCompressedFormat, ConvertFacesToCompressedFormat, UpdateFaceOrderAroundAVertex, UpdateFaceOrientationAroundAVertex, SetupUpwindFacesForSubcell, VerticesHaveSameXYCoords, VertexIdWithSameXYInACell, IsCellAboveTheVertex, DetermineCellsAboveAndBelow, AreCellsNeighbors, ArrangeCellsInCircularOrder, IDofFaceSharedByTwoCellsForACommonVertex, PointsAreInAntiClockDirInXYPlane, RearrangeCellsInListAsNeighbors, RearrangeCellsInAntiClockwiseDir, AddTwoBndFacesOfTwoCellsInTraversalDirection, AddTwoBndFacesOfACellInTraversalDirection, ConvertCellsAntiClockwiseDirInTraversalDir, AddUpDownBndFacesOfCellsInTraversalDirection, SetUpToDownConnections, DetermineUpwindFacesForSubcell_PlanarVerticalFaces, SaveCellIdsAtOppositeLevel, FindCellsAboveAndBelowAVertex, FindCellsAtUninitializedLevel, FindCellsAboveAndBelowVertices, SetupSubcells, UpdateCellOrientationAroundAFace, DetermineConnectivity, ComputeGeoAttrOfFaces, TDyMeshCreateFromPlex
  * in part: TDyPrintSubcellInfo, AssignGeometry, TDyMeshComputeGeometryFromPlex
  * not modelled: TDyEdge_GetCentroid, TDyEdge_GetNormal, TDyFace_GetCentroid, TDyFace_GetNormal, TDyVertex_GetCoordinate, TDyCell_GetCentroid, TDyCell_GetCentroid2, IdentifyLocalEdges, TDyPrintFaceInfo, IsClosureWithinBounds, UpdateCellOrientationAroundAVertex, ComputeVariableContinuityPoint, ComputeRightNormalVector, ComputeAreaOf2DTriangle, ExtractCentroidForIthJthTraversalOrder, UpdateIthTraversalOrder
* `src/fv/share/tdyugdm.c`
  * modelled: TDyUGDMCreate, CreateLocalOrderIS, CreatePetscOrderIS, CreateNaturalOrderIS, CreateVecScatters, TDyUGDMCreateFromUGrid
  * in part: TDyUGDMCreateMatrix
  * not modelled: TDyUGDMDestroy, CreateVectors, TDyUGDMCreateGlobalVec, TDyUGDMCreateLocalVec, TDyUGDMCreateNaturalVec
* `src/fv/share/tdyugrid.c`
  * modelled: TDyUGridCreate, ReadPFLOTRANMeshFile, DetermineMaxNumVerticesActivePerCell, CreateAdjacencyMatrix, DetermineMaxNumDualCells, PackNatOrderVector, PrePartNatOrder_To_PostPartNatOrder, SaveNaturalCellIDs, CellAndDualIDs_FromNatOrder_To_GlobalOrder, DualIDs_FromPetscOrder_To_LocalOrder, UpdateNaturalCellIDs, DetermineNeigbhorsCellIDsInGhostedOrder, ScatterVecPetscOrderToLocalOrder, ChangeVertexNatOrderToLocalOrder, SaveLocalVertexCoordinates
  * in part: PartitionGrid, CreateISNatOrderToPetscOrder, CreateApplicationOrder, ScatterVecNatOrderToPetscOrder, TDyUGridCreateFromPFLOTRANMesh
  * not modelled: CreateVectorNatOrder, ScatterVertexNatOrderToLocalOrder
* `src/materials/tdycharacteristiccurves.c`
  * modelled: SaturationCreate, SaturationDestroy, SaturationSetType, SaturationCompute, SaturationBuildPointMaps, SaturationComputeOnPoints, RelativePermeabilityCompute, RelativePermeabilityComputeOnPoints, RelativePermeability_Irmay, RelativePermeability_Mualem_Unsmoothed, CubicPolynomialSetup, CubicPolynomialEvaluate, RelativePermeability_Mualem_GetSmoothingCoeffs, RelativePermeability_Mualem, PressureSaturation_Gardner, PressureSaturation_VanGenuchten
  * in part: RelativePermeabilityBuildPointMaps
  * not modelled: CharacteristicCurvesCreate, CharacteristicCurvesDestroy, RelativePermeabilityCreate, RelativePermeabilityDestroy, RelativePermeabilitySetType
* `src/materials/tdyeos.c`
  * modelled: ComputeWaterDensity_Constant, ComputeWaterDensity_Exponential, ComputeWaterDensity_BatzleWang, EOSComputeWaterDensity, ComputeWaterViscosity_Constant, ComputeWaterViscosity_BatzleWang, EOSComputeWaterViscosity, ComputeWaterEnthalpy_Constant, EOSComputeWaterEnthalpy, EOSComputeSalinityFraction
* `src/materials/tdymaterialproperties.c`
  * modelled: MaterialPropCreate, MaterialPropDestroy, MaterialPropSetPermeability, MaterialPropSetPorosity, MaterialPropSetThermalConductivity, MaterialPropSetResidualSaturation, MaterialPropSetSoilDensity, MaterialPropSetSoilSpecificHeat, MaterialPropSetSalineDiffusivity, MaterialPropSetSalineMolecularWeight, MaterialPropHasPorosity, MaterialPropHasPermeability, MaterialPropHasThermalConductivity, MaterialPropHasResidualSaturation, MaterialPropHasSoilDensity, MaterialPropHasSoilSpecificHeat, MaterialPropHasSalineDiffusivity, MaterialPropHasSalineMolecularWeight, MaterialPropComputePorosity, MaterialPropComputePermeability, MaterialPropComputeThermalConductivity, MaterialPropComputeResidualSaturation, MaterialPropComputeSoilDensity, MaterialPropComputeSoilSpecificHeat, MaterialPropComputeSalineDiffusivity, MaterialPropComputeSalineMolecularWeight, CreateConstantContext, CreateSpatialContext, ConstantScalarWrapperFunction, ScalarWrapperFunction, ConstantIsotropicTensorWrapperFunction, IsotropicTensorWrapperFunction, ConstantDiagonalTensorWrapperFunction, DiagonalTensorWrapperFunction, ConstantFullTensorWrapperFunction, FullTensorWrapperFunction
  * not modelled: TDySetBlockPermeabilityValuesLocal, TDySetCellPermeability, TDySetPorosityValuesLocal, TDyGetBlockPermeabilityValuesLocal, TDyGetPorosityValuesLocal
* `src/tdyconditions.c`
  * modelled: ConditionsCreate, ConditionsDestroy, ConditionsSetForcing, ConditionsSetEnergyForcing, ConditionsSetSalinitySource, ConditionsSetBoundaryPressure, ConditionsSetBoundaryPressureType, ConditionsSetBoundaryVelocity, ConditionsSetBoundaryTemperature, ConditionsSetBoundarySalineConcentration, ConditionsHasForcing, ConditionsHasEnergyForcing, ConditionsHasSalinitySource, ConditionsHasBoundaryPressure, ConditionsHasBoundaryPressureType, ConditionsHasBoundaryVelocity, ConditionsHasBoundaryTemperature, ConditionsHasBoundarySalineConcentration, ConditionsComputeForcing, ConditionsComputeEnergyForcing, ConditionsComputeSalinitySource, ConditionsComputeBoundaryPressure, ConditionsAssignBoundaryPressureType, ConditionsComputeBoundaryVelocity, ConditionsComputeBoundaryTemperature, ConditionsComputeBoundarySalineConcentration, ConstantBoundaryFn, ConditionsSetConstantBoundaryPressure, ConditionsSetConstantBoundaryVelocity, ConditionsSetConstantBoundaryTemperature, ConditionsSetConstantBoundarySalineConcentration
* `src/tdycore.c`
  * modelled: TDyInitSubsystems, TDyInit, TDyInitNoArguments, TDyInitialized, TDyOnFinalize, TDyFinalize, DestroyFunctionRegistry, TDyRegisterFunction, TDyGetFunction, SetDefaultOptions, TDyCreate, TDySetDMConstructor, TDySetDMConstructorF90, TDyDestroy, TDyGetBoundaryFaces, ReadCommandLineOptions, TDySetFromOptions, TDySetup, TDySetMode, TDySetDiscretization, TDySetWaterDensityType, TDySetConstantPorosity, TDySetPorosityFunction, TDySetConstantIsotropicPermeability, TDySetIsotropicPermeabilityFunction, TDySetConstantDiagonalPermeability, TDySetDiagonalPermeabilityFunction, TDySetConstantTensorPermeability, TDySetTensorPermeabilityFunction, TDySetConstantIsotropicThermalConductivity, TDySetIsotropicThermalConductivityFunction, TDySetConstantDiagonalThermalConductivity, TDySetDiagonalThermalConductivityFunction, TDySetConstantTensorThermalConductivity, TDySetTensorThermalConductivityFunction, TDySetConstantResidualSaturation, TDySetResidualSaturationFunction, TDySetConstantSoilDensity, TDySetSoilDensityFunction, TDySetConstantSoilSpecificHeat, TDySetSoilSpecificHeatFunction, TDySetConstantIsotropicSalineDiffusivity, TDySetIsotropicSalineDiffusivityFunction, TDySetConstantDiagonalSalineDiffusivity, TDySetDiagonalSalineDiffusivityFunction, TDySetConstantTensorSalineDiffusivity, TDySetTensorSalineDiffusivityFunction, TDySetConstantSalineMolecularWeight, TDySetSalineMolecularWeightFunction, WrapperFunction, WrapperIntegerFunction, TDySetForcingFunction, TDySetEnergyForcingFunction, TDySetBoundaryPressureFunction, TDySetBoundaryPressureTypeFunction, TDySetBoundaryVelocityFunction, TDySetBoundaryTemperatureFunction, TDySetBoundarySalineConcentrationFunction, TDySelectForcingFunction, TDySelectEnergyForcingFunction, TDySelectBoundaryPressureFunction, TDySelectBoundaryVelocityFunction, TDySelectBoundaryTemperatureFunction, TDySelectBoundarySalineConcenctrationFunction, TDyGetNumberOfCellVertices, TDyGetNumberOfFaceVertices, TDyL1norm, TDyADotBMinusC, TDyADotB, TDySetInitialCondition, TDyUpdateDiagnostics, TDyCreateDiagnosticVector, TDyCreateGlobalVector, TDyCreateLocalVector, TDyCreatePrognosticVector, ExtractDiagnosticField, TDyCreateMatrix, TDyGetLiquidSaturation, TDyGetLiquidMass, ExtractPrognosticField, TDyGetLiquidPressure, TDySetIFunction, TDySetIJacobian, TDySetSNESFunction, TDySetSNESJacobian, TDyPostSolve, TDySetPreviousSolutionForSNESSolver, TDyPreSolveSNESSolver, TDyTimeCut, TDyCreateVectors, TDyCreateJacobian
  * in part: TDyUpdateState
  * not modelled: TDyGetDimension, TDyGetDiscretization, TDyGetDM, TDyRestoreBoundaryFaces, TDyView, TDySetWaterViscosityType, TDySetWaterEnthalpyType, TDyOutputRegression, TDySetDtimeForSNESSolver, TDyNaturalToGlobal, TDyGlobalToLocal, TDyGlobalToNatural, TDyGetInitialCondition
* `src/tdydebug.c`
  * modelled: PrintMatrix, CheckSymmetric
* `src/tdydiscretization.c`
  * modelled: TDyDiscretizationCreate, TDyDiscretizationCreateFromPFLOTRANMesh, TDyDiscretizationGlobalToNatural, TDyDiscretizationNaturalToGlobal, TDyDiscretizationNaturaltoLocal
  * in part: TDyDiscretizationCreateJacobianMatrix
  * not modelled: TDyDiscretizationDestroy, TDyDiscretizationGetTDyDM, TDyDiscretizationGetTDyUGrid, TDyDiscretizationGetDM, TDyDiscretizationGetTDyUGDM, TDyDiscretizationCreateGlobalVector, TDyDiscretizationCreateLocalVector, TDyDiscretizationCreateNaturalVector, TDyDiscretizationGlobalToLocal
* `src/tdydriver.c`
  * modelled: TDyDriverInitializeTDy
* `src/tdyio.c`
  * modelled: AssignDiagonalTensors, TDyIOReadPermeability, AssignScalars, TDyIOReadPorosity, TDyIOReadIC, TDyIOReadVariable, TDyIOOutputCheckpoint, TDyIOSetMode, TDyIOWriteVec, TDyIOInitializeHDF5, TDyIOWriteHDF5Var, TDyIOInitializeExodus, TDyIOAddExodusTime, TDyIOWriteExodusVar, TDyIOWriteAsciiViewer, TDyIOWriteXMFHeader, TDyIOWriteXMFAttribute, TDyIOWriteXMFFooter, TDyIODestroy
  * in part: TDyIOCreate
  * not modelled: TDyIOSetIOProcess, DiagonalTensorsCreate, DiagonalTensorsDestroy, ScalarsDestroy
* `src/tdymemory.c`
  * modelled: TDyFree, TDyAllocate_IntegerArray_1D, TDyAllocate_IntegerArray_2D, TDyAllocate_RealArray_1D, TDyAllocate_RealArray_2D, TDyAllocate_RealArray_3D, TDyAllocate_RealArray_4D, TDyDeallocate_RealArray_1D, TDyDeallocate_IntegerArray_1D, TDyDeallocate_IntegerArray_2D, TDyDeallocate_RealArray_2D, TDyDeallocate_RealArray_3D, TDyDeallocate_RealArray_4D, TDyAllocate_TDyCell_1D, TDyAllocate_TDyVector_1D, TDyAllocate_TDyCoordinate_1D
  * not modelled: TDySetIntArray, TDySetRealArray, TDyInitialize_IntegerArray_1D, TDyInitialize_IntegerArray_2D, TDyInitialize_RealArray_1D, TDyInitialize_RealArray_2D, TDyInitialize_RealArray_3D, TDyInitialize_RealArray_4D, TDyAllocate_TDyVertex_1D, TDyAllocate_TDyEdge_1D, TDyAllocate_TDyFace_1D, TDyAllocate_TDySubcell_1D
* `src/tdyregression.c`
  * modelled: TDyRegressionInitialize, TDyRegressionOutput, TDyRegressionDestroy
* `src/tdyrichards.c`
  * modelled: TDyRichardsInitialize
  * not modelled: TDyRichardsTSPostStep, TDyRichardsSNESPostCheck, TDyRichardsConvergenceTest
* `src/tdysalinity.c`
  * modelled: TDySalinityInitialize
  * not modelled: TDySalinityTSPostStep, TDySalinitySNESPostCheck, TDySalinityConvergenceTest
* `src/tdyth.c`
  * modelled: TDyTHInitialize
  * not modelled: TDyTHTSPostStep, TDyTHSNESPostCheck, TDyTHConvergenceTest
* `src/tdyti.c`
  * modelled: TDyTimeIntegratorCreate, TDyTimeIntegratorUpdateDT, TDyTimeIntegratorSetTargetTime, TDyTimeIntegratorSetTimeStep, TDyTimeIntegratorRunToTime
  * not modelled: TDyTimeIntegratorOutputRegression, TDyTimeIntegratorDestroy
* `src/tdytimers.c`
  * modelled: ShutDownTimers, TDyInitTimers, TDySetTimingMetadata, TDyWriteTimingProfile, TDyDestroyTimers
  * not modelled: TDyEnableTimers, TDyAddProfilingStage
* `src/tdyutils.c`
  * modelled: Increase_Closure_Array, TDySaveClosures_Elemnts, TDyGetNumberOfCellVerticesWithClosures, TDyMaxNumOfAElmTypeSharingOtherElmType, TDyMaxNumberOfCellsSharingAVertex, TDyMaxNumberOfEdgesSharingAVertex, TDyMaxNumberOfFacesSharingAVertex, TDyComputeLength, TDyCrossProduct, TDyDotProduct, Norm, ConvertToUnitVector, TDyCreateVecJoiningTwoVertices, TDyTriangleArea, TDyQuadrilateralArea, TDyUnitNormalVectorJoiningTwoVertices, TDyNormalToTriangle, TDyUnitNormalToTriangle, TDyNormalToQuadrilateral, TDyComputeVolumeOfTetrahedron, TDyReturnIndexInList, ExtractSubVectors, ComputeTheta, ComputeDeterminantOf3by3Matrix, ComputeInverseOf3by3Matrix, ComputePlaneGeometry, GeometryGetPlaneIntercept, GeometryProjectPointOnPlane, VolumeofTetrahedron
  * not modelled: TDySaveClosures_Cells, TDySaveClosures_Faces, TDySaveClosures_Vertices, TDySaveClosures, TDySavePetscVecAsBinary, TDySavePetscVecAsASCII, TDyReadBinaryPetscVec, TDySavePetscMatAsBinary, TDySavePetscMatAsASCII, TDySavePetscISAsASCII, TDySavePetscVecScatterAsASCII, TDySavePetscISLocalToGlobalMappingAsASCII

The cited lines are 18985 of the 22386 lines of function bodies in these files. `include/`, `src/f90-mod`, `src/interface`,
`demo/`, the tests and PETSc, LAPACK, MPI and HDF5 are not modelled except for what section 2 says about them.

## 5. Plan per property

How each property is modelled (M) and proved (P). Properties the code does not satisfy get a negative theorem with a
concrete witness (or one for all inputs of a kind) plus a `_partial` theorem that delimits when the property does hold.
No property of `properties.jsonl` was found to be inexpressible.

* C01 M: lifecycle state machine with the five setup flags and every public call that reads or writes them. P: invariant by induction over call lists, against a history-based specification (which calls have succeeded so far).
* C02 M: dispatch table of TDySetDiscretization. P: case analysis over all states and pairs.
* C03 M: same machine. P: negative witness (failing TDySetMode keeps the new mode); partial: induction over histories in which no TDySetMode fails.
* C04 M: same machine. P: negative witness (TDySetMode after setup), partial for the options record under all other calls.
* C05, C06 M: growable array of callbacks plus memory status. P: refinement to a list by induction; negative theorem for re-initialisation after every cycle.
* C07 M: hash map as association with overwrite and lazily created registry. P: induction over histories against "last matching registration".
* C08-C10 M: slot records with function/context/destructor and the trace of destructor calls. P: induction over setter lists; counting destructor calls.
* C11 M: loops as writes into a flat buffer. P: index arithmetic for all n, dim.
* C12-C17, C82 M: real functions with `Real.rpow`, `Real.exp`, the 4x4 system of the smoothing cubic. P: calculus in Mathlib (`HasDerivAt`), monotonicity lemmas; the cubic stays within bounds by factoring its derivative.
* C18, C19 M: per-type point lists, hash maps and loops of array writes. P: induction over histories and lists; negative witnesses.
* C20, C21, C79-C81 M: equations of state. P: real analysis; the published correlations are the specification.
* C22-C28, C83 M: RunToTime as a state machine driven by an oracle stream of solver outcomes. P: invariants over runs of any length; negative witnesses.
* C29-C31, C84-C87, C92-C95 M: options, hooks, initial conditions as decision tables and setter machines. P: case analysis over all subsets/values, induction over setter calls.
* C32-C35, C88, C89 M: vector geometry, tetrahedral volumes of cells, closures. P: polynomial identities, list induction; divergence theorem for polyhedra by summing tetrahedra.
* C36-C45, C90, C91 M: two-point flux: per-face functions, boundary conditions and assembly loops over arbitrary face lists. P: algebra, `HasDerivAt`, sums over lists, cancellation of pairs over any partition.
* C46-C52, C58-C60, C99, C100 M: MPFA-O: local systems with Mathlib matrices over arbitrary finite index types, corner vertices, assembly loops, TS, SNES and steady systems. P: matrix algebra, sums, induction over vertices and subfaces, `HasDerivAt` of the assembled residual.
* C53-C57, C96-C98 M: salinity and TH residuals and Jacobians as loops over vertices, subfaces and cells. P: conservation by cancellation; exact deviation formulas where the code is wrong.
* C61-C64, C102 M: offset tables, topology tables, face-dedup loops, accessors. P: induction, exhaustive case analysis of the fixed tables (whole domains, not samples).
* C63, C65-C70, C103-C107, C113 M: the import of unstructured meshes over any number of ranks: record packing, sort-with-permutation, ghost lists, renumbering, scatters. P: induction, permutation lemmas, end-to-end statements against the mesh of the file.
* C71-C73, C101, C108-C112 M: buffers, sampling, file reading and writing, checkpoints. P: index arithmetic; negative witnesses.
* C74, C75, C114-C118 M: H(div) basis tables, corner and face maps, BDM element and assembly. P: polynomial identities, matrix algebra, the discrete problem as a bilinear form.
* C76, C77, C119-C121 M: WY stencil, assembly, velocity recovery, residual. P: block matrix algebra, positive definiteness, sums over vertices.
* C78 M: the lifecycle machine records which members exist. P: case analysis; negative witness.
* C122-C128 M: state updates of all methods from the curves built at setup, boundary states, diagnostics. P: loop invariants over cells and boundary faces, calculus of C13, C17 along one unknown.
* C129, C130 M: accumulation Jacobian of the TH mode with the ten derivative formulas of the code; histories of cells. P: product rules, `HasDerivAt` of the assembled loop, exact defect of the energy row.
* C131-C133 M: recovery of face velocities from pressures: gathering of boundary pressures, loops over inner, boundary and corner vertices, error sum. P: loop sums, exactness through C92, exact formula with the reversed sign of corners; negative witnesses.
* C134-C138 M: the two-point matrices and `nu_star` vectors, put through the local systems of C47. P: solution of the diagonal local systems in closed form, comparison with the gravity term of C58; negative witnesses (slanted cells, layers, tilted tensor, mirrored normals).
* C139-C142 M: the split of the cells of a vertex into levels, their circular order, rows of cells and boundary faces, connections and the numbers of the faces, pass by pass over the vertices. P: induction over lists (greedy search in a ring or chain), invariant over the vertices, reduction to the well-formedness that C46, C47 assume; negative witness: leaning prisms.
* C143-C146 M: UpdateCellOrientationAroundAFace and the numbers of the parts of faces before and after it, rows of Trans_mat under the number they are written. P: case analysis of the swaps, barycentric coordinates for convex quadrilaterals, a saddle and a corner as witnesses of violations.
* C147-C149 M: ComputeGeoAttrOfFaces and its counterparts for meshes of the library, face by face. P: the intercept as a fraction of the line, barycentric coordinates for convex quadrilaterals; a trapezoid as the witness of the violation.
* C150-C151 M: TDyRegressionInitialize/Output with the pieces of all ranks, VecMax/VecMin/VecSum as folds. P: the pieces of the ranks concatenate to the range of the cells; sampled positions are those of sampled cells; salinity mode by a witness.
* C152-C154 M: SaveNaturalIDs, IdentifyLocalCells, counts of faces, number of columns, columns of boundary faces. P: entry of the concatenated pieces; loop invariants; counting, an injection of ghost cells into faces; enclosed ghost cell by kernel computation.
* C155 M: ExtractSubMatrix, the blocks of C and F, packing into column-major buffers with running indices, LAPACK solve, BLAS products, unpacking into Trans. P: closed form of the running index; refinement of the matrix form of C47.
* C156 M: marking and completing the label "boundary", its stratum. P: which points the loops label; a cube as the witness of the violation.
* C157-C159 M: a heap of numbered blocks, the allocation and release of arrays of arrays, the lists of allocations and releases of MPFA-O, its mesh and its local problem. P: the new blocks form an interval that the object owns; induction over loops and lists; names checked by kernel computation.
* C160-C161 M: the setters of conditions and material properties with their contexts as blocks, the registry of functions, TDySetFromOptions and its command line, sequences of calls. P: invariant over sequences of calls (each stored function owns its context), induction; violations by concrete sequences.
* C162-C163 M: the types of boundary faces of the two-point method with the residual's boundary loop; the settings in the structs of the methods, their setters, options and sequences of calls. P: loop invariants; induction over sequences of calls; violations by concrete programs.
* C164 M: the saved closures, the counting loops, allocation of the arrays of transmissibilities with their real sizes, the rows and columns written per vertex. P: counts as cardinalities of sets, suprema; at most two cells per face bounds cells by faces; loops of defined writes.
* C165-C166 M: the registry of timers, PETSc's event records with nesting depth, the stack and times of stages, executions as trees of calls; the structs of the methods as words, the table of metadata, the collective write. P: induction over executions; counting cells by owner; violations by concrete executions.
* C167-C169 M: the files of a run (pieces of out.xmf, data sets by label, steps of out.exo, text files with the length of their names), the footer written by each rank; vectors with lengths, conversion to natural order, diagnostic fields. P: induction over outputs; block scatter through an injective numbering; violations by counting footers, by lengths and by a cyclic numbering.
* C170-C171 M: the searches for faces of a cell at a vertex and for neighbours on a face, the loop that fills the tables of the subcells through the accessors, the readers, the value a velocity is compared with. P: loop invariants over cells and subcells; rotation of a cyclic list; a cube as witness.
* C172-C173 M: index sets, scatters and shell DM of PFLOTRAN meshes on all ranks, numbers of unknowns, material functions with and without coordinates (`Verif/Model/Pflotran.lean`). P: case analysis over methods and properties, block copies with distinct targets, offsets of ranks; undefined behaviour for the rest.
* C174 M: the calls of TDyMeshCreateFromPlex in their order, each of which may fail, its callers, and the creation of the DM (`Verif/Model/MeshErrors.lean`). P: induction over the calls; undefined behaviour for NULL meshes.
* C175-C176 M: a ledger that counts live things of each kind over any sequence of accepted calls and TDyDestroy; arrays of the curves (`Verif/Model/Ledger.lean`). P: invariant over sequences of calls with exact counts; induction over assignments.
* C177-C178 M: nothing new; the transmissibilities of a vertex (`MpfaoTrans`) and the steady system (`MpfaoSteady`). Spec: parallelepipeds, positive definite tensors, cells tied to the boundary (`Verif/Spec/MpfaoEnergy.lean`). P: energy of the homogeneous local problem, pairing of the two sides of each internal face; sum over all vertices for the global matrix; injective matrices are invertible.
* C179 M: as C178. P: the fluxes of one pressure field against another are symmetric because the subcell matrices are; entries are values of the form at unit vectors.
* C180-C181 M: nothing new; the residual of the two-point method (`Verif/Model/Fvtpf.lean`). Spec: solved steps, conducting cells, comparable states (`Verif/Spec/FvtpfMonotone.lean`). P: the balance of a cell of highest pressure; the balances summed over the cells with more pressure in one of two states, where every face helps because its flux is monotone in both pressures.
* C182 M: nothing new; `snesJacobian` (`Verif/Model/Fvtpf.lean`). Spec: cells that store, drain or seep, cells joined by faces (`Verif/Spec/FvtpfNewton.lean`). P: signs of the derivatives of each flux; columns of the matrix weighted by rows; the least weight spreads along joined cells until an anchored one contradicts it; the weights 1 on a part without anchor are in the left kernel.
* C183 M: nothing new; `wyComputeSystem` (`Verif/Model/Wy.lean`). Spec: cells that share a face, cells at the boundary, entries lost (`Verif/Spec/WyEnergy.lean`). P: the form of the matrix is the sum over the vertices of the energies of the velocities there; no energy, no difference of pressure across any face. Explicit stencils of a vertex of two squares for the violation.
* C184 M: `PetscSection` as a table, `SetFields`, the sections of WY, BDM and the diagnostics (`Verif/Model/Sections.lean`); offsets are prefix sums, as PETSc computes them. Spec: values and places (`Verif/Spec/Sections.lean`). P: prefix sums cut a range into blocks; loops as closed tables.
* C185 M: nothing new; `bdmComputeSystem` (`Verif/Model/Bdm.lean`). Spec: quadrature rules, numbers of the unknowns, chains of cells to the boundary (`Verif/Spec/BdmUnique.lean`). P: test the homogeneous problem with pressures, with itself and with velocities; basis functions are quadratic in each coordinate and nodal at the corners, so a velocity zero at the quadrature points has no coefficients; pressures agree across shared unknowns and vanish at unshared ones.
* C186-C187 M: nothing new; `Verif/Model/MpfaoFlux.lean`, `MpfaoTrans`. Spec: what a process sees of a mesh (`Verif/Spec/MpfaoParallel.lean`), a vertex listed in another way (`Verif/Spec/MpfaoReorder.lean`). P: each subface of an owned cell is met exactly once on the process and its flux changes sign with the names of its sides; face pressures that balance one list balance the other, and fluxes are functions of them (C47).
* C188 M: nothing new; `Verif/Model/Fvtpf.lean`. Spec: what a process sees of a mesh (`Verif/Spec/FvtpfParallel.lean`). P: the faces of an owned cell correspond one to one and fluxes and derivatives change sign with the names of the sides (C38); counterexample with three boundary faces.
* C189 M: counts, offsets, numbering and application ordering made from the partition (`Verif/Model/UGridPartition.lean`). P: invariants of the loops, counting, and the theorems of C65-C67 for the result.
* C190 M: nothing new; `Verif/Model/MpfaoCoupled.lean`. Spec: what a process sees of salt and heat (`Verif/Spec/CoupledParallel.lean`). P: as C186, with concentrations and temperatures in the place of pressures; two counterexamples.
* C191 M: nothing new; `Verif/Model/MpfaoSteady.lean`. Spec: what a process sees of the steady problem (`Verif/Spec/SteadyParallel.lean`). P: the rows of C60, a bijection between the vertices of a cell, permutations of subfaces and columns; entries from balances at unit vectors.
* C192 M: nothing new; `Verif/Model/Wy.lean`. Spec: what a process sees of the mesh (`Verif/Spec/WyParallel.lean`). P: the matrices of a vertex are permuted and their rows turned, so `B^T A^-1 B` is only permuted and its largest entry stays; a bijection between the vertices of a cell.
* C193 M: nothing new; `Verif/Model/TimeIntegrator.lean` with the residuals of `Fvtpf`, `MpfaoFlux` and `MpfaoCoupled`. Spec: what a list of solver calls supplies (`Verif/Spec/RunBalance.lean`). P: each accepted step changes the amount by the sum of its residuals (C36, C48, C53); failed steps change nothing (C28); induction over the solver calls and the runs.
* C194-C195 M: nothing new; `Verif/Model/TimeIntegrator.lean` and `Fvtpf`. P: erasing the vectors from a run commutes with every function of the time integrator, so that the steps depend on the failures alone; then induction over the steps of two runs side by side with C181, and over one run with C180.
* C196 M: nothing new; `Verif/Model/Bdm.lean`. P: the element of a cell depends only on what both numberings agree on; then both assemblies are sums over owned cells (`RunIs`), and every cell of the whole mesh occurs once among them.
* C197 M: `Verif/Model/Fortran.lean`: the arrays of procedures of the Fortran module, the counter, the positions held by the C side; reads beyond an array are `ub`. P: invariant `Holds` by induction over the calls; witness for the failure.
* C198 M: names in the same table. P: invariant `Named`; the search for a name finds its last position.
* C199 M: what a Fortran function can reach of the arrays handed to it, and the tensors made of its values. P: arithmetic of the positions.
* C200 M: the constructor of meshes as one variable of the process. P: induction over the calls; witness with two objects.
* C201 M: the constants of both header files. P: by cases.
* C202 M: `Verif/Model/SteadyDemo.lean`: all functions of demo/steady/steady.c as loops that write arrays, and the choice by options. S: `Verif/Spec/SteadyDemo.lean`: Darcy's law and the balance of mass with derivatives of Mathlib. P: evaluation of the loops, then derivatives; witnesses for the failures.
* C203 M: the same. P: sums of squares; a gradient for the sharp bound.
* C204 M: the same choice, with the contents of the uninitialised variable as argument. P: by cases.
* C205 M: `Verif/Model/DemoGeometry.lean`: loops over the vertices. P: the loop is a map of vertices; the maps are injective because the sines are Lipschitz.
* C206 M: the loop with the sequence of random numbers as argument. P: induction over the vertices.
* C207 M: writes with bounds. P: evaluation.
* C208 M: `Verif/Model/Wy.lean` as for C76. S: `Verif/Spec/WyLinear.lean`: affine cells and linear functions. P: the exact velocities solve the system of every vertex, which is regular when velocities are recovered; opposite corners cancel in the balance; uniqueness from C183.
* C209 M: `Verif/Model/Bdm.lean` as for C117. S: `Verif/Spec/BdmLinear.lean`: affine cells, exact and lumped quadrature, conforming faces. P: moments of the reference basis against linear functions for both rules; the fluxes of the exact velocity solve every tested equation, uniqueness from C185; for LUMPED the equation of one boundary unknown fails.
* C210 M: `Verif/Model/Bdm.lean` as for C117. S: `Verif/Spec/BdmConserve.lean`: the flux through a face as an integral of the velocity over its quadrature points. P: the integral of a basis function over a face is 1 on its own face and 0 elsewhere; the pressure row of the system is the balance; orientations cancel on shared faces.
* C211 M: `Verif/Model/Wy.lean` as for C119. S: `Verif/Spec/WyMoved.lean`: a mesh with areas, centroids and normals of another. P: the system at a vertex is scaled by S on both sides; S cancels in B^T A^-1 B and B^T A^-1 G, and stays as S^-1 in the velocities. Negation from C208.
* C212 M: `Verif/Model/MpfaoCoupled.lean` as for C53. S: `Verif/Spec/SaltBounds.lean`: the part of a cell that is not salt, solved steps. P: difference of the two residuals of a cell; algebra for the concentration; `runs_balance` of C193 for whole runs. Negation with a solved step from fresh water.
* C213 M: the models of geometry, face attributes, orientation, traversal, subcells, MPFA-O coefficients and velocities. S: `Verif/Spec/Shift.lean`: points moved by a vector, the meshes as the functions read them with all points moved. P: vectors between points stay, means move along; then function by function, by induction for the loops. Negations with a vertex between two densities and with a column of two cells.
* C214 M: `Verif/Model/Objects.lean`: which PETSc objects the functions create and destroy, in order. S: `Verif/Spec/Objects.lean`: number of objects of each kind before and after. P: each function adds a list of objects, some already gone; lists append under composition; induction over repetitions and over the events of a run.
* C215 M: `Verif/Model/HeatState.lean`: enthalpy law, boundary enthalpies, the arrays of the state as the TH residual reads them. S: `Verif/Spec/HeatState.lean`: one enthalpy for all water, conducted heat, steady water, same heat under different flows. P: the energy flux is the enthalpy times the water flux plus conduction; sum over the subfaces of a cell; C54 for the residual; C122 for what an update leaves.
* C216 M: the TH residual of `Verif/Model/MpfaoCoupled.lean` with what `Verif/Model/HeatState.lean` stores. S: `Verif/Spec/HeatBounds.lean`: conduction from hot to cold, implicit steps, heating. P: at the hottest cell conduction only takes heat away; C215 for the rest of the balance; induction over steps.
* C217 M: `Verif/Model/FortranDemo.lean`, the functions of the Fortran demo programs on arrays with extents. S: `Verif/Spec/FortranDemo.lean`: the value meant for each point. P: induction over the points.
* C218 M: the models of the mesh, the subcells, the connections and the MPFA-O coefficients. S: `Verif/Spec/Turn.lean`: rotations, turned meshes and tensors. P: invariance of products and lengths under rotations, relation of the two runs of each loop; witnesses of axes that enter.
* C219 M: the models of the mesh, the subcells, the connections and the MPFA-O coefficients. S: `Verif/Spec/Grow.lean`: points multiplied by a factor, tables in two units. P: homogeneity of each function, relation of the two runs of each loop.
* C220 M: `Verif/Model/Debug.lean`: the two loops of src/tdydebug.c with their text as a list of pieces. S: `Verif/Spec/Debug.lean`: matrices of two indices, symmetric, numbers and brackets of a text. P: the loops as list comprehensions.
* C221 M: `Verif/Model/Spe10.lean`: `Rotation`, the reading loop, the place of a cell in the buffer, the products of the tensors and the boundary pressure of demo/SPE10/steady.c. S: `Verif/Spec/Spe10.lean`: orthonormal columns, the order of the benchmark's file. P: case analysis for the axes, sums for the products, induction over the words of the file.
* C222 M: `Verif/Model/MeshQuery.lean`: the loops of the four functions of tdymeshplex.c with their breaks. S: `Verif/Spec/MeshQuery.lean`: faces of a cell, edges of a face, natural numbers of owned cells. P: induction over the loops.

## 6. Where the code violates a property

Each line: the property, what is wrong, the negative theorems. All witnesses are concrete or hold for every input of the
kind named.

* C01: Every refused/accepted order is proved for all call histories. Missing: TDySetInitialCondition before setup and TDySetup after a failed TDySetFromOptions are not refused by the code; shown by the two negative theorems. (`C01_initial_condition_before_setup`, `C01_setup_after_failed_options_is_undefined`)
* C03: The code violates the full statement (a failed TDySetMode or a command-line mode leaves the old solver installed; TH multi-field count wrong); partial theorem covers histories with no failed mode switch.
* C04: The code lets TDySetDiscretization and TDySetWaterDensityType change a set-up object; partial theorem: every other call leaves the options unchanged. (`C04_density_after_setup_ignored`)
* C06: The code violates it: after any cycle that initialised the library, re-initialisation uses freed memory (negative theorems for every first cycle). The partial theorem covers only a first cycle that did nothing. (`C06_reinitialisation_undefined`, `C06_named_functions_undefined`)
* C10: ConditionsDestroy leaks the salinity-source and boundary-pressure-type contexts (negative theorem for every history); proved for the other six.
* C11: Layout proved for every n, dim and buffer. Off-diagonal zeros hold only for zeroed buffers: the code does not write them (negative theorem). (`C11_off_diagonal_stale`)
* C18: Agreement proved for every history when no evaluated point is registered with both types. On overlaps the two evaluations disagree, and a hash miss can read past the table (negative theorems). (`C18_miss_undefined`)
* C19: RelativePermeabilityCompute ignores the registered point indices (negative theorem); proved for points 0..n-1 with one type, and for the point-list evaluation. (`C19_points_ignored`)
* C23: A first step above dt_max is used unclamped (C23_initial_step_unchecked); proved for first step <= dt_max, with the exact length of every step. (`C23_initial_step_unchecked`)
* C25: A solve that fails on a step shortened to the target makes the code report the target although less was simulated (negative theorems); proved when no solve failed on a shortened step.
* C26: The second run with TS is wrong for every t1<t2 (negative theorems: end time passed is sync-time); proved for the first run.
* C29: In salinity mode the user's molecular weight is always replaced (negative theorem); proved for every other property.
* C30: The code sets the porosity from the thermal conductivity option; proved for the other options.
* C31: Some (mode, discretization) pairs get no or mismatched SNES hooks (negative theorem); proved for the others.
* C35: On a miss the routine returns the PETSc error code 76 as if it were an index (negative theorem); proved when the value occurs.
* C38: Fails when both sides are drier than 1e-8 (negative theorem); proved otherwise.
* C42: Dirichlet inflow entry is zero although the derivative is negative; the outflow gravity term is wrong when the boundary weight is not 1 (negative theorems). Proved: outflow with full boundary weight, seepage faces.
* C43: Immobile faces leave the flux uninitialised and the residual depends on it (negative theorems); proved for mobile faces. (`C43_immobile_undefined`)
* C44: The Dirichlet residual reads the entry two further on, out of bounds for the last two faces (negative theorems). Proved: numbering one-to-one; seepage residual and both Jacobians use their own entry. (`C44_dirichlet_undefined`)
* C50: Violated at corners of the domain that read the row of another vertex (C50_corner_violated, see C146). Elsewhere (JacOk) proved: the assembled SNES and TS matrices are the derivatives of the assembled residuals, on any mesh whose tables are consistent (JacOk), away from upwind switches, with boundary states that do not depend on the unknowns. When no boundary pressure function is set the code takes the boundary pressure from the cell, a dependence the Jacobian does not have. (`C50_corner_violated`)
* C51: Corner vertices: the rows of the transmissibility matrix and the own-cell column are proved right for every corner (C51_matrix, C51_cell_column). The boundary columns are right exactly when the face reordering is an involution (C51_columns_iff); the code applies the permutation instead of its inverse, so for cyclic orders the columns are wrong (CornerWitness.wrong). The full statement is false of the code.
* C52: Connected regions: membership queries, replacement by AddCells and the zeroed transmissibilities are proved; with no gravity every subface between regions carries no flow and each region conserves its mass (C52_region_mass_partial). The full statement is false of the code: the gravity coefficient is not zeroed (C52_gravity_leaks), the transmissibility array used by the Jacobian is not updated (C52_jacobian_not_updated) and regions are ignored without the TPF discretisation (C52_ignored). (`C52_ignored`)
* C53: Conservation of water and salt and the balance over a step are proved in full. That fresh water carries no salt is false of the code: the advective salt flux is not multiplied by a concentration (C53_fresh_violated, C53_fresh_flux); proved only without pressure-driven flow (C53_fresh_partial). Also proved: there is no dispersion at vertices with more than one cell (C53_no_dispersion_inside). (`C53_fresh_violated`)
* C55: Violated: boundary subfaces cancel themselves out of the Jacobian (C55_boundary_lost, C55_violated), corner vertices are skipped (C55_corner_lost). Proved for internal subfaces and pressure derivatives, up to the threshold below which entries are dropped, when gravity is off or density constant (C55_pressure_partial). (`C55_boundary_lost`, `C55_corner_lost`, `C55_violated`)
* C56: Violated: the TS path multiplies the source by the volume, the SNES path does not; they agree exactly when the source is zero or the volume is one.
* C57: Violated: the mass already contains the volume and is multiplied by it again; right exactly when the volume is one or the mass does not change.
* C58: The face tensor is the inverse of the distance weighted mean of the inverses of the two cell tensors (and the scalar of the two-point method is proved); the code clips entries below 2.2e-16 to zero, so negative off-diagonal entries and very low permeabilities (1e-16 m2) are lost: proved by C58_negative_lost and C58_low_permeability_lost. (`C58_negative_lost`, `C58_low_permeability_lost`)
* C61: Squeezed tables are proved sound for every layout and the accessors for cells, vertices, face vertices and subcell nu vectors are proved to return exactly the recorded entries. C61_last_face_violated: the face_cells offsets are not closed after the last face (num_faces+1 offset missing), so the full property is false of the code; C61_face_cell_queries_partial covers every face whose offset the code fills. C61_subcell_coordinates_violated: the subcell face-centroid getter returns the variable-continuity coordinates. (`C61_last_face_violated`, `C61_subcell_coordinates_violated`)
* C63: Proved for every conforming mesh: duplicate removal and renumbering succeed and what UpdateMapsC2F_F2C_F2V computes numbers each face once (NumberedOnce: range, onto, same id iff same vertex set, vertices, cells). The caller does not get the result: C63_violated shows that every conforming mesh with an internal face reads the freed face-to-cell map. Two ghosts that share a face keep two numbers. (`C63_violated`)
* C64: Violated: the check reads the count of another vertex after the write, so it never reports and a crowded vertex is undefined behaviour (C64_never_reports, C64_violated). Within the capacity the table is right (C64_table_partial). (`C64_never_reports`, `C64_violated`)
* C68: The code counts slots `> 0` of 0-based ids, so the first vertex of the mesh is not counted. C68_violated: a single hexahedron gives 7 and the adjacency matrix gets only 7 vertices. C68_max_vertices_partial: never too large; exact if some largest cell does not contain the first vertex; otherwise at most one too small. (`C68_violated`)
* C71: Proved for a zeroed buffer (all discretizations allocate it so) and for repeated evaluation; C71_violated shows for every size that the memset of sizeof(dim*dim)*n = 4n bytes leaves other contents in place. (`C71_violated`)
* C73: Proved for one sampled value per cell and for TH with requests up to the cells of the smallest rank. C73_violated: a TH rank with one cell is sampled twice with the default request; an empty rank divides by zero; salinity samples concentrations as pressures. (`C73_violated`, `C73_empty_rank_undefined`, `C73_salinity_violated`)
* C75: Violated: the permeability is inverted in place, so the second call assembles the system of the inverse permeability (C75_violated, C75_second_call_inverse_partial). With regular permeabilities the third call repeats the first (C75_every_other_call_partial). (`C75_violated`)
* C77: C77_violated: the accumulation term lacks the cell volume; the partial theorem covers unit volumes and steady states. (`C77_violated`)
* C78: TDyDestroy dereferences members that exist only after TDySetFromOptions/TDySetup (negative theorem). (`C78_destroy_before_options_undefined`)
* C79: The code's salt term has 80*3*T for 80+3T; the exact set of agreement is proved. Partial: fresh water.
* C80: Sign error in the exponent: equals the published correlation only at T=0 and increases with temperature for fresh water (negative theorems). Partial: strong brines.
* C81: The Batzle-Wang type leaves both derivatives unwritten (negative theorem); proved for the other types.
* C83: An output is written after a failed solve when the current step number is a multiple of the interval (negative theorem); proved for runs without failures. (`C83_output_after_failed_solve`)
* C85: TH and salinity modes ignore -tdy_init_file and start at temperature/salinity 101325 (negative theorems); proved for Richards and for random fields. (`C85_init_file_ignored`)
* C88: Wrong for every non-flat pyramid (negative theorem); proved for tetrahedra, boxes, prisms.
* C89: A closure larger than the reserved size leads to use after free (negative theorem); proved otherwise. (`C89_large_closure_undefined`)
* C90: The code omits porosity and saturation: equal to the mass exactly when their product is 1 (iff), otherwise overstated.
* C91: Proved for cells and for pressure, saturation, relative permeability of boundary faces; boundary density and viscosity stay at the reference pressure (negative theorems). (`C91_boundary_density_stale`)
* C96: Violated: the loop over cells stops at the first ghost cell (C96_lost, C96_violated). Proved for cells before the first ghost (C96_storage_partial). (`C96_lost`, `C96_violated`)
* C97: Water: proved. Energy: proved if the stored derivatives of the internal energy are right (C97_energy_partial); the code never computes them, so the accumulation misses rho*phi*S*du/dt (C97_energy_deficit, C97_violated). (`C97_energy_deficit`, `C97_violated`)
* C98: Violated: for the two cells next to a face the entries contain an additional term with the pressure transmissibility (C98_deviation gives it exactly, C98_violated a case). Proved for the other cells (C98_other_partial). (`C98_deviation`, `C98_violated`)
* C99: Violated: the steady assembly reads the corner transmissibilities in the column order before they are reordered. Proved: what is contributed, that it is right in equilibrium, and that it is wrong whenever the first two columns of the local matrix do not sum to zero. (`C99_corner_violated`)
* C100: Violated: the matrix is zeroed but the right-hand side is not, so a second assembly doubles it. Proved: the matrix does not depend on what was there, and the vector is added to. (`C100_twice_violated`)
* C101: C101_unsupported_violated: the size functions return PETSc's error code as if it were a size (83, or 56 for mixed meshes) and creation goes on; C101_supported_partial: for hexahedra and wedges the sizes are the true ones. Missing: refusal of unsupported meshes, which the code does not do. (`C101_unsupported_violated`)
* C105: C105_read: cells, vertices and local counts as in the file; C105_unknown_cell: refused. C105_violated: num_verts_global is set from VecGetSize, which counts coordinates, so it is three times the number of vertices (used as the column dimension of the adjacency matrix). (`C105_violated`)
* C108: Proved for one unknown per cell. C108_violated: with two unknowns per cell a file of one value per cell is refused (permeability) or leaves an unset pointer in use (porosity); C108_interleaved: a file of two values per cell is assigned to the wrong cells. (`C108_violated`)
* C109: Violated: the values of local cells 0, 1, 2 become the diagonal of one constant tensor (C109_constant, C109_violated); with fewer than three local cells the read is out of bounds. (`C109_violated`, `C109_few_cells_undefined`)
* C110: Solution vectors proved for any two distributions; the clock is not restored (C110_clock_not_restored). (`C110_clock_not_restored`)
* C111: Proved for different labels; C111_violated: the label has six significant digits, so steps one second apart after 10^6 s overwrite each other. (`C111_violated`)
* C112: Proved for tetrahedra, wedges and hexahedra with one unknown per cell; violated for pyramids (null pointer), for two unknowns per cell (cell count doubled) and in two dimensions (no vertices). (`C112_pyramid_violated`, `C112_cells_violated`, `C112_plane_violated`)
* C113: Proved for CreateInternalFaces on a readable face-to-cell map; in the program that map has been freed (C63_violated).
* C116: Violated: the error macro returns an error code from a function that returns a count, so 56 is taken as the number of vertices and arrays overflow (C116_violated). Uniform meshes work (C116_uniform_partial). (`C116_violated`)
* C119: C119_violated: a vertex with thirteen faces overruns MAX_LOCAL_SIZE (reported in debug builds by the assembly only). The partial theorem covers vertices with at most twelve faces and cells. (`C119_violated`, `C119_violated_assembly`)
* C124: Violated: the water is evaluated at the reference temperature in thermal mode (C124_violated, Batzle-Wang density). Proved for laws that do not depend on temperature. (`C124_violated`)
* C125: Violated: with ghost cells the update before a step is undefined behaviour in every mode (C125_violated). Proved without ghost cells. (`C125_violated`)
* C126: Violated: WY never stores the residual saturation of the material (C126_violated). Proved for the other methods. (`C126_violated`)
* C127: Values, saturation and relative permeability proved; density and viscosity of boundary faces stay those of the reference pressure (C127_violated). (`C127_violated`)
* C129: Water rows are proved; energy rows need stored derivatives of the internal energy that are right and do not change (EnergyP, EnergyT). The code stores u = h - P/rho and never writes du_dP: C129_violated. The formulas themselves are proved for porosity, density, saturation and energy that depend on pressure and temperature in any way. (`C129_violated`)
* C130: Water rows are proved. For energy the theorem gives the exact defect: porosity*density*saturation*volume times the difference between the rate of the internal energy and the one of the stored derivatives. C130_violated: with the internal energy of the code's states the row is wrong whenever the pressure changes. (`C130_violated`)
* C131: Proved: face velocity times area equals the sum of the subface rates for every local face without a corner of the domain (C131_sum_partial); exact Darcy velocity for linear pressures in uniform media of any cell shape (C131_linear_exact_partial, through the transmissibilities of C92); faces of other processes zero; independence of the earlier content. Violated and proved so: contributions of corners of the domain have the opposite sign (C131_formula, C131_linear_formula, C131_corner_violated; the source asks 'Should it be -value or value?'); vel_count is never reset (C131_count_violated). (`C131_count_violated`, `C131_corner_violated`)
* C132: Proved without a boundary pressure function (C132_rest_partial). Violated with one: rho g z is added in the cells but not on the boundary, so that a hydrostatic column gets the velocity gravity alone would drive through its boundary (C132_rest_violated gives the rate, C132_violated a column). (`C132_rest_violated`, `C132_violated`)
* C133: Proved for faces of area 1 in a domain without corners (C133_unit_area_partial), and that 0/0 is printed without a velocity function (C133_no_function). Violated otherwise: the velocity of a subface (flux over the area of the whole face) is compared with the flux through the subface (C133_area_violated). (`C133_area_violated`)
* C135: Proved for diagonal tensors (C135_diagonal_partial). For tensors with off-diagonal entries the code uses the harmonic form of the diagonal only: C135_violated gives a K-orthogonal grid of slanted cells where the flux of p = x is wrong. (`C135_violated`)
* C136: C136_same_partial: right when both cells are equally permeable along the line between them. C136_violated: wrong in every other case, the flux is larger than that of two halves in series (the arithmetic mean is used, while the gravity term uses the distance-weighted harmonic mean). (`C136_violated`)
* C137: Two-point option: C137_two_point_formula gives what drives the flux at rest, C137_two_point_partial proves that it is zero in a uniform medium, C137_layers_violated that layers of different permeability flow at rest. Default method: C137_default_partial for one tensor and K-orthogonal grids, C137_default_violated for a tensor not aligned with the grid, where the gravity term only sees the component of gravity along the line between the centroids. (`C137_layers_violated`, `C137_default_violated`)
* C138: C138_internal_formula and C138_boundary_formula give the heat through every face; C138_axis_partial: right for faces with a positive axis as normal and diagonal conductivities. C138_reversed_violated and C138_boundary_violated: for every face whose normal has a negative sum of components heat goes from cold to hot, because nu_star has the same number in its three components. (`C138_reversed_violated`, `C138_boundary_violated`)
* C141: Violated. C141_violated_error_ignored: the error of the first pass is dropped and an array is written at index -1; C141_violated_code_as_index: for up to 83 vertices the error code is used as a vertex number; C141_violated: eight leaning prisms meet both. C141_refused_partial: the function that detects it does return an error. (`C141_violated_error_ignored`, `C141_violated_code_as_index`, `C141_violated`)
* C144: Violated: the normal of a quadrilateral is the mean of four unit normals, shorter than 1 for every face that is not plane (C144_saddle_violated). Proved for triangles and for plane convex quadrilaterals listed in order or with the last two corners swapped; that the normal is the one computed from the stored order holds for every face. (`C144_saddle_violated`)
* C145: Violated: corners listed crosswise stay crosswise, and for a parallelogram the normal is then 0/0. Proved: corners listed in order, or with the last two swapped. (`C145_crosswise_violated`, `C145_crosswise_normal_violated`)
* C146: Violated: the numbers of corners of the domain are written down before the vertex lists are turned round and never again, while their transmissibilities are saved under the new place: the flux of another vertex is counted twice and that of the corner not at all. Proved for local vertices with several cells. (`C146_corner_violated`, `C146_flux_violated`)
* C149: Violated: the mean of the corners is stored, which for a trapezoid is not its centre of mass (C149_trapezoid_violated). Proved for triangles and parallelograms. (`C149_trapezoid_violated`)
* C150: Violated: in the salinity mode concentrations are counted as pressures (C151_salinity_violated). Proved for one unknown per cell, and for TH mode when every rank has the requested number of cells.
* C151: Violated: in the salinity mode the concentration of a cell is listed as the pressure of a further cell (C151_salinity_violated). Proved for one unknown per cell, and for TH mode when every rank has the requested number of cells (see C73 for the rest). (`C151_salinity_violated`)
* C152: Violated: with two fields the number of fields enters twice and two cells get the same number (C152_violated). C152_fields gives the number for all cases, C152_one_field_partial is the property for one field. DMPlexNaturalToGlobal is assumed to move the block of a cell to the cell. (`C152_violated`)
* C154: Violated: a cell of another rank enclosed by local cells has no column of its own, so the last boundary face is written behind the last column (C154_enclosed_violated). Proved on one rank, and on several if every cell of another rank has a face that no local cell has. (`C154_enclosed_violated`)
* C156: Violated: the label is completed before it is read, so that edges and vertices of boundary faces are returned as faces (26 points for one cube), and for meshes read from a PFLOTRAN file there is no label and a NULL pointer is read. Proved: every boundary face is listed once, every listed face is a boundary face, and the finite-element method imposes pressures on exactly these. (`C156_violated`)
* C158: Violated: permeability, porosity, conductivity and six arrays of faces are never released, so that every lifetime loses memory. Proved: nothing is released twice, and everything else is released, for every mode and choice of materials. (`C158_violated`)
* C159: Violated: the recovery of velocities and the steady assembly lose a matrix at each call (four blocks). Proved: the local problem of the transmissibilities releases everything. (`C159_violated`)
* C160: Violated: every TDySetFromOptions creates conditions and material properties anew and forgets what was set, and a setter called before the first one dereferences a NULL pointer. Proved: between two calls of TDySetFromOptions the latest setting, of the program or of the command line, is in force for every quantity. (`C160_setters_before_options_undefined`, `C160_violated`)
* C161: Violated: ReadCommandLineOptions drops the return codes of the functions that select boundary functions, so that a wrong name on the command line is not reported. Proved: the calls themselves refuse the name and change nothing. (`C161_violated`)
* C162: Violated: the option -tdy_fvtpf_boundary_condition_type is stored and never read, so that without a type function the boundary is closed whatever pressures are given. Proved: with a type function every boundary face has the type given at its centroid, other values are refused. (`C162_violated`)
* C163: Violated: TDySetFromOptions creates the struct of the method anew and forgets settings, a setter before it dereferences a NULL pointer, and WY never uses its quadrature. Proved: between two calls of TDySetFromOptions the latest setting is in force, and BDM uses it. (`C163_setter_before_options_undefined`, `C163_violated`)
* C165: Violated: three functions start their timer and never stop it, so that their record says one call and a negative time; the stages of stepping and of I/O are never entered, and state updates in time steps count as set-up. Proved: calls and times of all other functions, the balance of timers and stages, the time of the set-up stage. (`C165_violated`)
* C166: Violated: the file name is ignored; with timers the set-up of BDM, WY and the DAE form takes another struct (or a NULL pointer) for the mesh; a program that sets nothing up is undefined at the end; a second set-up keeps the data of the first. Proved: for one TDy with MPFA-O or the two-point method the footer is right, with the cells summed over all ranks. (`C166_other_methods_undefined`, `C166_filename_ignored`, `C166_stale`, `C166_violated`)
* C167: Violated: every rank appends a footer to out.xmf, so that on several ranks it is not well-formed; a TDy with another format appends a footer to a file it did not write; text output overflows the buffer of the file name at every time. Proved: on one rank HDF5 output is complete and well-formed for every history; the k-th Exodus output is step k. (`C167_text_undefined`, `C167_violated`)
* C168: Violated: with two or more unknowns per cell on several ranks the conversion runs past the end of the vectors. Proved: natural order with one unknown per cell on any number of ranks, and on one rank with any number of unknowns. (`C168_more_unknowns_undefined`, `C168_violated`)
* C169: Violated: the saturation is converted to natural order twice, so that it is right for all fields exactly if the natural numbering is the identity; text files mix the two orders; the thermal mode cannot write HDF5. Proved: pressures are in natural order; where each saturation goes. (`C169_violated`)
* C170: Violated: centroids of the parts of faces are written to another table, so that each is read as the origin; a cell with another number of faces than three at a vertex makes the set-up undefined instead of being refused. Proved: all other data of every part of a face, the searches, and what the set-up stores. (`C170_other_numbers_undefined`, `C170_violated`)
* C171: Violated: the user's function is evaluated at the origin only; functions that agree there give the same error. Proved: for constant functions the value compared with is right. (`C171_violated`)
* C172: Violated: the two-point method leaves the array of coordinates NULL on such a mesh, so that a property given as a function of the place is undefined; MPFA-O and the finite elements use the shell DM as a DMPlex; in TH mode get_num_dm_fields is never set, and with two unknowns the places for VecScatterRemap are read beyond their end. Proved for the two-point method with properties given by values; on a DMPlex mesh functions are evaluated at the centroids. (`C172_functions_undefined`, `C172_other_methods_undefined`, `C172_violated`)
* C173: Violated: with two or more unknowns the scatter within local vectors is made from an array with one entry for each cell that is read once for each unknown. Proved: the round trip between global and local vectors for all numbers of unknowns, and the refreshing of ghost values for one unknown. (`C173_refresh_undefined`, `C173_violated`)
* C174: Violated: no set-up function looks at the return code of TDyMeshCreateFromPlex, so that a mesh that is not three-dimensional ends in a NULL dereference and any other error in a set-up on an unfinished mesh; the error of a user's function that creates the DM is dropped and an uninitialised DM is used. Proved for creations in which nothing fails, and for the failure of PETSc's own creation. (`C174_violated`)
* C175: Violated for every object: five structs allocated by TDyCreate are never freed. Further calls of TDySetFromOptions and TDySetup lose what the calls before created; contexts of methods other than MPFA-O and the index sets of PFLOTRAN meshes are never freed; exact numbers are proved for all sequences. Proved: everything else is given back. (`C175_violated`, `C175_lost`)
* C176: Violated: arrays are freed only if the number of points changes, so that two assignments for the same number of points lose two arrays. The number of arrays lost is proved exactly for all sequences; none are lost if the number changes each time. (`C176_lost`, `C176_violated`)
* C178: Proved if no corner vertex takes away from the diagonal; a corner of a cube with a positive definite tensor can do so because of the columns mixed up at corners (C99).
* C182: Violated: a face of prescribed pressure counts only while water leaves through it. C182_inflow_singular proves the system singular in every saturated model fed from such faces, because RichardsBCJacobian sets the mobility to 0 for inflow. C182_solvable_iff says exactly when the system has one solution; C182_positive gives the sign.
* C183: Violated: entries of a stencil below 1e4 machine epsilons of its largest entry are left out, relative to whatever cells meet at the vertex. C183_violated: three squares, the middle one with 1e-13 of the permeability of the others; its row of the matrix is empty although it has boundary faces and a source, and the system has no solution. C183_positive_partial and C183_one_solution_partial prove the claim on one process for all meshes and permeabilities where only zeros are left out. (`C183_violated`)
* C188: Violated: the residual at a Dirichlet face uses the pressure of the boundary face two places further on (C44), so that it depends on the numbering of the boundary faces (C188_dirichlet). Without Dirichlet faces, with a mobile side at every face (C43) and no two dry sides named in the other order (C38) the residual is the same (C188_residual_partial); so are the rows of the Jacobian, Dirichlet faces included, where the water is not exactly at rest (C188_jacobian_partial). FULL: all boundary conditions and states.
* C190: Violated: in the salinity mode the upwind side is chosen by the pressures alone, so that at uniform pressure the water moved by gravity depends on which side of a face is named first (C190_salt_violated); in the TH mode storage and sources of cells behind a ghost cell are lost (C190_heat_violated, C96). Proved: the salt balance always, the water balance where pressures drive the flow or gravity does not act (C190_salt_partial), the previous step (C190_salt_previous), all heat and water flows of the TH mode (C190_heat_outflow) and its balances for cells before the first ghost (C190_heat_partial). FULL: all states and numberings. (`C190_salt_violated`, `C190_heat_violated`)
* C193: Violated for the reported time: if a solve fails on the step that was shortened to end at the requested time, the run reports that time with less water than the sources supplied (C193_water_missing, a consequence of C25). Proved for the time that was simulated, for every history: C193_two_point, C193_two_point_failed, C193_mpfao, C193_salinity; and for the reported time when no shortened step fails: C193_reported_time_partial. One process; C36_parallel, C48_parallel, C186, C188 and C190 say that distributed residuals are those of one process.
* C197: Violated: the two arrays share one counter, so that a program that sets functions of both kinds loses some (C197_overwrites); the arrays never grow, and the 32nd different function is undefined. Proved for programs that set at most 31 different functions of one kind. (`C197_thirty_two_functions_undefined`, `C197_violated`)
* C198: Violated: names shorter than 32 characters read beyond the string (C198_short_names_undefined), and a second name of a function replaces the first. Proved for long names and functions registered once. (`C198_short_names_undefined`, `C198_violated`)
* C199: Violated: the arrays handed to a function have as many elements as there are points, whatever the number of components; only the first n of dim*n coordinates and values can be reached. In one dimension, for scalar values and for constant isotropic tensors it holds. (`C199_violated`)
* C200: Violated: one constructor is shared by all objects. Proved for programs that give constructors for one object only. (`C200_violated`)
* C201: Violated: the salinity mode, the two-point method and the law of Batzle and Wang have no constant. Those that exist agree.
* C202: Violated: two of the velocities are only right for one point at a time and one of them writes behind its array; the source of the quadratic problem in space, which no option selects, is wrong. Everything else is proved for all points, by derivatives in Mathlib. (`C202_violated`)
* C204: Violated: unknown problems of the default paper run without any function, and without -paper the choice depends on uninitialised memory. Proved for the two papers. (`C204_violated`)
* C205: Violated for -paper column in the plane, which writes behind the vertices; the column mesh cannot be selected. Proved for the others, on the whole plane and space. (`C205_column_violated`)
* C206: The mesh is proved as stated. Violated: the source sets only its first value (C206_violated). (`C206_violated`)
* C207: Violated: exactly five cells are set, undefined for fewer and pressure 0 for more. Proved what the five cells get. (`C207_violated`)
* C208: The velocities and the residual are proved as stated, for any process. The solution of the assembled system is proved for one process when no entry is lost to the threshold; with entries lost C183 and C120 tell what happens.
* C209: Proved with the quadrature FULL. Violated with LUMPED: the boundary pressure is always integrated with Gauss points, so a linear pressure that differs between a corner of a boundary face and its centre is not the solution, on any such mesh. (`C209_lumped_violated`)
* C211: Proved: the stored areas cancel in the matrix, the right-hand side and the residual, so they do not depend on them if the boundary pressures are right. Violated: velocities come out multiplied by new over old area of the face, and the boundary pressure is evaluated at the old centres of the faces, so that a linear pressure is off by g.d on a mesh moved by d. Permeabilities are those of the old centres too; they are a parameter of the theorems. (`C211_velocities_violated`, `C211_boundary_pressure_violated`)
* C212: Violated: the salt flux is the water flux without a concentration, so (1-psi)*W of a cell never changes without sources (C212_fresh_part, C212_runs). Cells that gain water become saltier, cells that lose water fresher, with uniform concentrations too (C212_not_uniform), and fresh water gets a negative concentration (C212_bounds_violated). Proved: the upper bound 1, the lower bound 0 exactly where the water does not fall below the fresh part, and that a cell with constant water keeps its concentration. For steps without gravity and without dispersion (which the code has at corner vertices only). (`C212_bounds_violated`)
* C213: Proved for everything the finite volume methods compute from the mesh: cells, faces of both mesh formats, orientation, the order of cells around vertices, subcell tables, matrices (two-point option and heat too), gravity coefficients and the TH residual. Violated for recovered velocities (rho g z with the absolute height is added to cell pressures): they depend on the height where the density varies or where the boundary pressure is given (C213_velocity_violated); otherwise they do not (C213_velocity_partial). Violated for the TH Jacobian, which contains gravity times height (C213_jacobian_violated). (`C213_velocity_violated`, `C213_jacobian_violated`)
* C214: Violated: every checkpoint leaves one vector, every HDF5 output in natural order two, every variable read two, every initial condition read an open viewer, every DAE residual four, a refused output one; over a run, as many vectors as checkpoints plus two for each such output (C214_run_violated). Proved to give back everything: the getters, setting initial conditions, text and Exodus output, HDF5 output without natural order, the initial fields of all modes, the Jacobians that borrow a vector and the regression file (C214_given_back_partial, C214_regression). Creation is taken to succeed, and what PETSc does inside its own calls is not modelled. (`C214_checkpoints_violated`, `C214_outputs_violated`, `C214_reading_violated`, `C214_residual_violated`, `C214_refused_output_violated`, `C214_violated`, `C214_run_violated`, `C214_every_step_violated`)
* C215: Violated: after setup and any update of the state all water in the cells and outside of the boundary has the enthalpy 1.8890 whatever its temperature, and the slopes with temperature stay zero (C215_one_enthalpy). So a stream brings 1.8890 times its mass from whatever temperature (C215_stream), the energy balance is 1.8890 times the water balance plus rock, pressure work, sources and conduction (C215_energy_balance), and with steady water the temperature of a cell changes at the same rate in any two flows (C215_steady_violated, C215_any_flow_violated); hot water through a cold cell of rock that does not conduct leaves it cold (C215_hot_stream_violated). Proved: with the same temperature everywhere steady flow keeps it (C215_uniform_partial). One process. (`C215_steady_violated`, `C215_any_flow_violated`, `C215_hot_stream_violated`)
* C216: Violated: water that accumulates at pressure P heats the rock by P/rho, so a cell at 20 degrees that takes up water of 20 degrees gets warmer than everything around it (C216_filling_violated). Proved, where conduction goes from hot to cold through every part of a face (two-point conduction with coefficients that are not negative does, C216_two_point; C138 shows for which faces the two-point option of the code has negative ones): the upper bound if the pressure work and the sources do not heat (C216_highest_partial), the lower bound if they do not cool (C216_lowest_partial), and both over any number of steps with steady water (C216_run_partial), whatever the flow. For steps that are solved exactly, on one process. (`C216_filling_violated`)
* C217: Violated: the functions assign the whole array inside the loop over points, so all points get the value of the last one (C217_last_point, C217_violated); several points get their values exactly if these are equal (C217_several_iff). With the arrays the library hands over they read beyond the coordinates (C217_called_undefined, see C199), and the functions for permeabilities, which the programs define without using them, are defined for nine points only and set the first tensor only (C217_tensor_iff, C217_tensor_violated). Proved: one point with whole arrays (C217_one_point_partial), the test for the top (C217_top_iff), the constant function (C217_constant) and that the tensors the programs set are diagonal and positive (C217_tensors). (`C217_violated`, `C217_called_undefined`, `C217_tensor_violated`)
* C218: Violated: the product of gravity with a direction drops the signs of gravity, so a mesh turned upside down together with gravity has the opposite gravity coefficients (C218_upside_down, C218_gravity_violated); with the two-point option the coefficients of heat change their sign when a mesh is turned about the vertical axis by half a turn (C218_turned_heat, C218_heat_violated); a tilted mesh of cubes runs into undefined behaviour at its set up (C218_tilted_violated). Proved for all rotations: cells, faces and their orientation, the tables of the subcells and the matrices of the default option, with any tensor (C218_cells, C218_plex_faces, C218_own_faces, C218_orientation, C218_subcells, C218_matrices), and of the two-point option with isotropic tensors (C218_two_point_partial). Proved for rotations about the vertical axis: the connections around the vertices (C218_traversal_partial) and, with isotropic tensors and vertical gravity, the gravity coefficients (C218_gravity_partial). (`C218_gravity_violated`, `C218_heat_violated`, `C218_tilted_violated`)
* C219: Violated: whether two vertices are straight above each other is decided by a fixed distance of 1e-7, so the cell above a vertex of eight cubes is below it when their length is 1e-8 (C219_tiny_violated). The connections stay for meshes whose vertices are resolved in both units (C219_traversal_partial). Proved for all factors and meshes: cells, areas, faces and their orientation (C219_cells, C219_areas, C219_plex_faces, C219_own_faces, C219_orientation), the tables of the subcells (C219_subcells), the matrices of both options with any tensors (C219_matrices, C219_two_point), transmissibilities (C219_transmissibilities) and gravity coefficients (C219_gravity). (`C219_tiny_violated`)
* C220: Violated: the tolerance of CheckSymmetric is 1e-12 whatever the size of the entries, so every matrix of entries up to 5e-13, the size of permeabilities, is called symmetric (C220_check_small, C220_check_violated); PrintMatrix shows entries below 5e-5 as zero (C220_print_small) and a matrix without rows with brackets that do not match (C220_print_empty_violated). Proved for all matrices: the exact verdict and messages (C220_check, C220_check_messages, C220_check_accepts, C220_check_scaled), the numbers printed and their rounding (C220_print_numbers, C220_print_rounding), brackets and lines (C220_print_brackets), the entries looked at (C220_check_bounds, C220_print_bounds) and both storages (C220_print_transposed). (`C220_check_violated`, `C220_print_empty_violated`)
* C221: Violated: a missing file leaves all permeabilities unset without an error (C221_no_file_violated), a longer file overruns the buffer (C221_long_file_violated), a word that is not a number keeps the program in its loop (C221_word_violated), and in two dimensions, its default, the boundary pressure reads a third coordinate (C221_pressure_2d_violated). Proved for all angles and files of the right length: orthonormal frames (C221_rotation_2d, C221_rotation_3d, C221_frame, C221_frame_3d), symmetric tensors with the listed principal permeabilities (C221_symmetric, C221_principal, C221_nonneg), the entry of each cell (C221_read, C221_entry, C221_entry_2d), bounds (C221_inside, C221_inside_2d) and the pressure in 3D (C221_pressure_3d, C221_pressure_slopes). Not modelled: TDySetCellPermeability, which is switched off in the library. (`C221_long_file_violated`, `C221_word_violated`, `C221_no_file_violated`, `C221_pressure_2d_violated`)
* C222: Violated: the natural numbers of the local cells include those of ghost cells, so an array for the local cells is overrun (C222_natural_violated); they are right without ghost cells (C222_natural_partial). Proved for all meshes: the common face (C222_shared, C222_shared_error, C222_shared_unique), neighbouring faces (C222_neighbors) and the flags (C222_is_local). The library itself does not call these functions. (`C222_natural_violated`)
