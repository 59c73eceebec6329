{"id": "C01", "title": "Setup happens only after mode, discretization and options", "statement": "Whatever calls were made before, TDySetup succeeds only on an object on which a discretization has been chosen and TDySetFromOptions has succeeded, and calls that need a set-up object (diagnostics, prognostic vectors, initial condition) succeed only after a successful TDySetup.", "quantifier": "every finite sequence of public calls on a TDy object, including failing calls", "why_tests_cant": "call histories are unbounded; tests run a handful of scripts", "anchors": ["src/tdycore.c:TDySetup", "src/tdycore.c:TDySetFromOptions", "src/tdycore.c:TDySetDiscretization", "src/tdycore.c:TDyUpdateDiagnostics"]}
{"id": "C02", "title": "Unsupported mode/discretization pairs are rejected without effect", "statement": "TDySetDiscretization succeeds exactly for the supported (mode, discretization) pairs once a mode is set; when it fails, the object is unchanged.", "quantifier": "every object state and every (mode, discretization) pair", "why_tests_cant": "the claim is about every reachable object state, not only fresh objects", "anchors": ["src/tdycore.c:TDySetDiscretization"]}
{"id": "C03", "title": "The installed solver always matches the reported mode and discretization", "statement": "After any sequence of TDySetMode/TDySetDiscretization calls the operations table in use is the one belonging to the mode and discretization the object reports.", "quantifier": "every finite sequence of TDySetMode/TDySetDiscretization calls", "why_tests_cant": "unbounded histories; failing calls in the middle are the interesting ones", "anchors": ["src/tdycore.c:TDySetMode", "src/tdycore.c:TDySetDiscretization"]}
{"id": "C04", "title": "Options are frozen by setup", "statement": "After a successful TDySetup no later call changes the options the object was set up with (mode, discretization, material defaults).", "quantifier": "every continuation of every call history after TDySetup", "why_tests_cant": "unbounded continuations", "anchors": ["src/tdycore.c:TDySetup", "src/tdycore.c:TDySetFromOptions", "src/tdycore.c:TDySetMode"]}
{"id": "C05", "title": "Shutdown functions run exactly once, newest first", "statement": "TDyFinalize calls every function registered with TDyOnFinalize exactly once per registration, in reverse order of registration, for any number of registrations.", "quantifier": "every list of registrations, of any length (the array grows by doubling)", "why_tests_cant": "growth boundaries (32, 64, 128, ...) are unbounded", "anchors": ["src/tdycore.c:TDyOnFinalize", "src/tdycore.c:TDyFinalize"]}
{"id": "C06", "title": "The library can be re-initialised after TDyFinalize", "statement": "A second TDyInit/TDyOnFinalize/TDyFinalize cycle runs only the functions registered in that cycle and touches no freed memory.", "quantifier": "every pair of init/finalize cycles", "why_tests_cant": "needs a history with a second cycle and detection of use of freed memory", "anchors": ["src/tdycore.c:TDyInit", "src/tdycore.c:TDyOnFinalize", "src/tdycore.c:TDyFinalize"]}
{"id": "C07", "title": "Named functions: the latest registration wins", "statement": "TDyGetFunction(name) returns the function most recently registered under that name, and an error with the output untouched when there is none.", "quantifier": "every sequence of registrations and every name", "why_tests_cant": "all histories and all names", "anchors": ["src/tdycore.c:TDyRegisterFunction", "src/tdycore.c:TDyGetFunction"]}
{"id": "C08", "title": "Boundary/source/material callbacks: the latest setter wins", "statement": "After any sequence of setters, evaluating a condition or a material property calls the function and context given by the last setter of that quantity; setters of other quantities do not disturb it; a quantity never set is reported as absent.", "quantifier": "every sequence of setter calls on every slot", "why_tests_cant": "histories and slot interleavings are unbounded", "anchors": ["src/tdyconditions.c:ConditionsSetForcing", "src/tdyconditions.c:ConditionsComputeForcing", "src/materials/tdymaterialproperties.c:MaterialPropSetPermeability", "src/materials/tdymaterialproperties.c:MaterialPropComputePermeability"]}
{"id": "C09", "title": "Material-property contexts are released exactly once", "statement": "Each context handed to a material-property setter with a destructor has its destructor called exactly once over the life of the object (when replaced, or when the object is destroyed).", "quantifier": "every sequence of setter calls followed by destruction, with distinct contexts", "why_tests_cant": "leaks and double frees depend on the history", "anchors": ["src/materials/tdymaterialproperties.c:MaterialPropDestroy", "src/materials/tdymaterialproperties.c:MaterialPropSetPermeability"]}
{"id": "C10", "title": "Condition contexts are released exactly once", "statement": "Each context handed to a condition setter with a destructor has its destructor called exactly once over the life of the object.", "quantifier": "every sequence of setter calls followed by destruction, with distinct contexts", "why_tests_cant": "leaks depend on which slot was used", "anchors": ["src/tdyconditions.c:ConditionsDestroy"]}
{"id": "C11", "title": "Constant and spatial material tensors have the documented layout", "statement": "For every number of points and dimension, the isotropic, diagonal and full-tensor property setters fill the n*dim*dim output so that entry (i; r,c) is the value, the diagonal value, or the full entry of point i, and off-diagonal entries of isotropic/diagonal tensors are zero.", "quantifier": "every n, dim, value and evaluation buffer", "why_tests_cant": "all sizes and all previous buffer contents", "anchors": ["src/materials/tdymaterialproperties.c:ConstantIsotropicTensorWrapperFunction", "src/materials/tdymaterialproperties.c:ConstantDiagonalTensorWrapperFunction", "src/materials/tdymaterialproperties.c:ConstantFullTensorWrapperFunction", "src/materials/tdymaterialproperties.c:IsotropicTensorWrapperFunction", "src/materials/tdymaterialproperties.c:DiagonalTensorWrapperFunction"]}
{"id": "C12", "title": "Van Genuchten saturation stays in [Sr,1] and never increases with suction", "statement": "For 0<m<1, alpha>0, 0<=Sr<1 the computed saturation lies in (Sr,1], equals 1 exactly when the capillary pressure is <=0, and is strictly decreasing for positive capillary pressure.", "quantifier": "every real capillary pressure and admissible parameters", "why_tests_cant": "continuum of inputs", "anchors": ["src/materials/tdycharacteristiccurves.c:PressureSaturation_VanGenuchten"]}
{"id": "C13", "title": "Van Genuchten derivatives are the derivatives of the saturation", "statement": "dS_dP and d2S_dP2 returned at P are the first and second derivatives with respect to liquid pressure of the returned saturation.", "quantifier": "every capillary pressure (also at the saturation threshold for the first derivative) and admissible parameters", "why_tests_cant": "limits cannot be tested", "anchors": ["src/materials/tdycharacteristiccurves.c:PressureSaturation_VanGenuchten"]}
{"id": "C14", "title": "Gardner saturation: bounds, monotonicity and derivatives", "statement": "For alpha,m>0 and 0<=Sr<1 the saturation lies in (Sr,1], is antitone in capillary pressure, and dS_dP, d2S_dP2 are its derivatives away from the threshold.", "quantifier": "every real capillary pressure and admissible parameters", "why_tests_cant": "continuum of inputs, limits", "anchors": ["src/materials/tdycharacteristiccurves.c:PressureSaturation_Gardner"]}
{"id": "C15", "title": "Relative permeability lies in [0,1] and is monotone", "statement": "Irmay and unsmoothed Mualem relative permeabilities are in [0,1], 0 at Se=0, 1 at Se>=1, and nondecreasing in effective saturation.", "quantifier": "every effective saturation >=0 and 0<m<1", "why_tests_cant": "continuum of inputs", "anchors": ["src/materials/tdycharacteristiccurves.c:RelativePermeability_Irmay", "src/materials/tdycharacteristiccurves.c:RelativePermeability_Mualem_Unsmoothed"]}
{"id": "C16", "title": "Relative permeability derivatives are derivatives", "statement": "dKr_dSe returned by Irmay, unsmoothed Mualem and the cubic part of smoothed Mualem is the derivative of the returned Kr.", "quantifier": "every 0<Se<1 and 0<m<1", "why_tests_cant": "limits cannot be tested", "anchors": ["src/materials/tdycharacteristiccurves.c:RelativePermeability_Irmay", "src/materials/tdycharacteristiccurves.c:RelativePermeability_Mualem_Unsmoothed", "src/materials/tdycharacteristiccurves.c:RelativePermeability_Mualem"]}
{"id": "C17", "title": "The Mualem smoothing polynomial joins smoothly", "statement": "With the coefficients the library computes, the smoothed relative permeability matches the unsmoothed value and slope at the start of the smoothing interval and the value 1 with slope 0 at its end.", "quantifier": "every admissible m and interval data", "why_tests_cant": "all parameter values; linear solve correctness", "anchors": ["src/materials/tdycharacteristiccurves.c:CubicPolynomialSetup", "src/materials/tdycharacteristiccurves.c:CubicPolynomialEvaluate", "src/materials/tdycharacteristiccurves.c:RelativePermeability_Mualem_GetSmoothingCoeffs"]}
{"id": "C18", "title": "Whole-array and per-point saturation evaluation agree", "statement": "SaturationCompute and SaturationComputeOnPoints give the same saturation at a point for the same data.", "quantifier": "every assignment of points to saturation models (any history of SaturationSetType), every evaluation list", "why_tests_cant": "all histories and overlaps", "anchors": ["src/materials/tdycharacteristiccurves.c:SaturationCompute", "src/materials/tdycharacteristiccurves.c:SaturationComputeOnPoints", "src/materials/tdycharacteristiccurves.c:SaturationBuildPointMaps"]}
{"id": "C19", "title": "Relative permeability is evaluated at the points it was assigned to", "statement": "RelativePermeabilityCompute writes Kr for each registered point at that point's own index, from that point's own effective saturation.", "quantifier": "every list of registered points", "why_tests_cant": "all point lists, including non-identity ones", "anchors": ["src/materials/tdycharacteristiccurves.c:RelativePermeabilityCompute"]}
{"id": "C20", "title": "Water density: positive, nondecreasing, with exact derivatives", "statement": "The constant and exponential density models return a positive density, nondecreasing in pressure, continuous everywhere, and their first and second derivatives away from the cut-off pressure.", "quantifier": "every real pressure", "why_tests_cant": "continuum, limits", "anchors": ["src/materials/tdyeos.c:ComputeWaterDensity_Constant", "src/materials/tdyeos.c:ComputeWaterDensity_Exponential"]}
{"id": "C21", "title": "Salinity mass fraction lies in [0,1) and increases with concentration", "statement": "EOSComputeSalinityFraction returns a value in [0,1), zero only for zero concentration, strictly increasing in concentration.", "quantifier": "every nonnegative concentration and positive molecular weight, any number of cells", "why_tests_cant": "continuum of inputs", "anchors": ["src/materials/tdyeos.c:EOSComputeSalinityFraction"]}
{"id": "C22", "title": "Time never overshoots the requested time", "statement": "During TDyTimeIntegratorRunToTime no accepted step ends after the requested time, and on success the integrator's time equals the requested time exactly.", "quantifier": "every initial state with time<=target, every sequence of solver successes/failures", "why_tests_cant": "all solver outcomes", "anchors": ["src/tdyti.c:TDyTimeIntegratorRunToTime", "src/tdyti.c:TDyTimeIntegratorSetTargetTime", "src/tdyti.c:TDyTimeIntegratorUpdateDT"]}
{"id": "C23", "title": "Step size bounded and restored after a clipped step", "statement": "The step never exceeds dt_max, grows by at most the growth factor per accepted step, and a step shortened only to land on the requested time does not lower the next step.", "quantifier": "every run without solver failures", "why_tests_cant": "all step sequences", "anchors": ["src/tdyti.c:TDyTimeIntegratorUpdateDT", "src/tdyti.c:TDyTimeIntegratorSetTargetTime"]}
{"id": "C24", "title": "A run ends: bounded number of step cuts and of steps", "statement": "RunToTime either reports an error after at most 25 solver failures or reaches the target after finitely many steps.", "quantifier": "every positive first step and maximum step, growth factor at least one, target and solver behaviour", "why_tests_cant": "termination for all solver behaviours", "anchors": ["src/tdyti.c:TDyTimeIntegratorRunToTime"]}
{"id": "C25", "title": "Reported time is simulated time", "statement": "The time the integrator reports is the initial time plus the sum of the lengths of the steps actually solved.", "quantifier": "every solver success/failure sequence", "why_tests_cant": "needs a failure exactly on a clipped step", "anchors": ["src/tdyti.c:TDyTimeIntegratorUpdateDT", "src/tdyti.c:TDyTimeIntegratorRunToTime"]}
{"id": "C26", "title": "Consecutive runs with the TS integrator both advance", "statement": "Calling RunToTime(t1) then RunToTime(t2) with t2>t1 in TS mode leaves the integrator at t2.", "quantifier": "every pair of targets and start time", "why_tests_cant": "histories of calls", "anchors": ["src/tdyti.c:TDyTimeIntegratorRunToTime"]}
{"id": "C27", "title": "Every run with checkpointing leaves the last accepted solution on disk", "statement": "With checkpoints enabled, when RunToTime returns the last accepted solution has been written, whatever the interval.", "quantifier": "every interval >=1 and every number of steps", "why_tests_cant": "all step counts modulo interval", "anchors": ["src/tdyti.c:TDyTimeIntegratorRunToTime", "src/tdyio.c:TDyIOOutputCheckpoint"]}
{"id": "C28", "title": "A failed solve does not change the accepted solution", "statement": "The previous-solution vector changes only on converged steps; after a time cut the next attempt starts from it.", "quantifier": "every sequence of solver outcomes", "why_tests_cant": "all failure patterns", "anchors": ["src/tdyti.c:TDyTimeIntegratorRunToTime", "src/fv/fvtpf/tdyfvtpf_snes.c:TDyFVTPFSNESTimeCut", "src/tdycore.c:TDyPostSolve", "src/tdycore.c:TDyTimeCut"]}
{"id": "C29", "title": "User-supplied properties survive driver initialisation", "statement": "TDyDriverInitializeTDy fills in a default for each material property only if the user set none.", "quantifier": "every subset of properties set by the user and every mode", "why_tests_cant": "exponentially many subsets, each with arbitrary functions", "anchors": ["src/tdydriver.c:TDyDriverInitializeTDy"]}
{"id": "C30", "title": "Each command-line option changes its own setting only", "statement": "Every -tdy_* value option read by TDySetFromOptions changes exactly the setting it names.", "quantifier": "every set of options given with every value", "why_tests_cant": "all combinations of options", "anchors": ["src/tdycore.c:ReadCommandLineOptions"]}
{"id": "C31", "title": "Solver hooks are consistent", "statement": "If TDySetSNESFunction accepts a (mode, discretization), then TDySetSNESJacobian and the pre-solve hook used by the time integrator accept it as well.", "quantifier": "every supported (mode, discretization)", "why_tests_cant": "agreement between four independently written tables", "anchors": ["src/tdycore.c:TDySetSNESFunction", "src/tdycore.c:TDySetSNESJacobian", "src/tdycore.c:TDyPreSolveSNESSolver", "src/tdycore.c:TDyTimeCut"]}
{"id": "C32", "title": "3x3 inverse and determinant are exact", "statement": "ComputeInverseOf3by3Matrix returns the two-sided inverse of every invertible matrix and ComputeDeterminantOf3by3Matrix its determinant.", "quantifier": "every real 3x3 matrix with nonzero determinant", "why_tests_cant": "continuum of inputs", "anchors": ["src/tdyutils.c:ComputeDeterminantOf3by3Matrix", "src/tdyutils.c:ComputeInverseOf3by3Matrix"]}
{"id": "C33", "title": "Cell volumes of prisms and boxes are exact", "statement": "The two tetrahedron volume routines agree, and the hex/wedge/pyramid volume by tetrahedra equals the true volume for every parallelepiped, triangular prism and parallelogram-based pyramid.", "quantifier": "every placement of the vertices", "why_tests_cant": "continuum of inputs", "anchors": ["src/tdyutils.c:TDyComputeVolumeOfTetrahedron", "src/tdyutils.c:VolumeofTetrahedron", "src/fv/share/tdymeshcustom.c:ComputeVolume"]}
{"id": "C34", "title": "Plane intercept lies on the plane and on the segment's line", "statement": "GeometryGetPlaneIntercept returns a point of the plane that lies on the line through the two given points, whenever the line is not parallel to the plane; ComputePlaneGeometry's plane contains its three points.", "quantifier": "every plane and pair of points", "why_tests_cant": "continuum of inputs", "anchors": ["src/tdyutils.c:ComputePlaneGeometry", "src/tdyutils.c:GeometryGetPlaneIntercept"]}
{"id": "C35", "title": "List search", "statement": "TDyReturnIndexInList returns the first index of the value and -1 exactly when the value is absent.", "quantifier": "every list and value", "why_tests_cant": "all lists", "anchors": ["src/tdyutils.c:TDyReturnIndexInList"]}
{"id": "C36", "title": "Two-point flux: internal faces conserve mass", "statement": "Summed over all cells, the contributions of internal faces to the FV-TPF residual are zero.", "quantifier": "every mesh (any number of cells and faces) and every state with defined fluxes", "why_tests_cant": "all meshes and states", "anchors": ["src/fv/fvtpf/tdyfvtpf_snes.c:TDyFVTPFSNESFunction", "src/fv/fvtpf/tdyfvtpf_snes.c:RichardsResidual"]}
{"id": "C37", "title": "Two-point face permeability is a weighted harmonic mean", "statement": "The effective face coefficient lies between the two cells' values divided by the distance, is symmetric under swapping sides, and is zero iff one side is impermeable.", "quantifier": "all positive permeabilities and distances", "why_tests_cant": "continuum of inputs", "anchors": ["src/fv/fvtpf/tdyfvtpf.c:FVTPFComputeFacePermeabililtyValueTPF", "src/fv/fvtpf/tdyfvtpf.c:FVTPFCalculateDistances"]}
{"id": "C38", "title": "Two-point flux is antisymmetric", "statement": "Exchanging the up and down sides of a face negates the computed flux.", "quantifier": "every face geometry and state", "why_tests_cant": "continuum of inputs incl. switch points", "anchors": ["src/fv/fvtpf/tdyfvtpf_snes.c:RichardsResidual"]}
{"id": "C39", "title": "Two-point flux is upwinded down the potential", "statement": "The flux has the sign of the potential difference, is zero at hydrostatic balance, and takes the mobility of the higher-potential side.", "quantifier": "every state with nonnegative mobility", "why_tests_cant": "continuum of inputs", "anchors": ["src/fv/fvtpf/tdyfvtpf_snes.c:RichardsResidual"]}
{"id": "C40", "title": "Seepage faces never let water in", "statement": "On a seepage face of the two-point scheme, when the boundary pressure is at or below reference pressure the flux is never from the boundary into the cell.", "quantifier": "every state", "why_tests_cant": "continuum of inputs", "anchors": ["src/fv/fvtpf/tdyfvtpf_snes.c:RichardsSeepageBCResidual"]}
{"id": "C41", "title": "Two-point internal Jacobian is the derivative of the residual", "statement": "The two internal-face Jacobian entries are the partial derivatives of the internal-face flux with respect to the up and down pressures (away from upwind switches).", "quantifier": "every smooth constitutive law and state", "why_tests_cant": "limits", "anchors": ["src/fv/fvtpf/tdyfvtpf_snes.c:RichardsJacobian", "src/fv/fvtpf/tdyfvtpf_snes.c:RichardsResidual"]}
{"id": "C42", "title": "Two-point boundary Jacobians are the derivatives of the residual", "statement": "The boundary-face Jacobian entry is the derivative of the boundary-face flux with respect to the cell pressure.", "quantifier": "every state", "why_tests_cant": "limits", "anchors": ["src/fv/fvtpf/tdyfvtpf_snes.c:RichardsBCJacobian", "src/fv/fvtpf/tdyfvtpf_snes.c:RichardsSeepageBCJacobian"]}
{"id": "C43", "title": "The two-point flux is defined for every state", "statement": "RichardsResidual assigns its output for every state of the two cells.", "quantifier": "every state, including both sides immobile", "why_tests_cant": "the bad state is a corner (both relative permeabilities tiny)", "anchors": ["src/fv/fvtpf/tdyfvtpf_snes.c:RichardsResidual"]}
{"id": "C44", "title": "Boundary faces are addressed consistently", "statement": "The encoding of boundary faces as negative ids and every decoding of them are mutually inverse, so each boundary term uses its own face's pressure, saturation and mobility.", "quantifier": "every number of boundary faces", "why_tests_cant": "all indices", "anchors": ["src/fv/fvtpf/tdyfvtpf_snes.c:RichardsBCResidual", "src/fv/fvtpf/tdyfvtpf_snes.c:RichardsSeepageBCResidual", "src/fv/fvtpf/tdyfvtpf.c:TDyFVTPFSetBoundaryPressure"]}
{"id": "C45", "title": "Accumulation term and its derivatives", "statement": "The SNES accumulation is rho*phi*S*V/dt and the Jacobian contribution is its derivative with respect to pressure; the TS Jacobian is the exact derivative of the TS accumulation with the shift rule.", "quantifier": "every smooth constitutive law, state and step", "why_tests_cant": "limits", "anchors": ["src/fv/fvtpf/tdyfvtpf_snes.c:TDyFVTPFSNESAccumulation", "src/fv/fvtpf/tdyfvtpf_snes.c:TDyFVTPFSNESJacobianAccumulation", "src/fv/mpfao/tdympfao_ts.c:TDyMPFAOIJacobian_Accumulation", "src/fv/mpfao/tdympfao_ts.c:TDyMPFAOIFunction", "src/fv/mpfao/tdympfao_snes.c:TDyMPFAOSNESJacobian"]}
{"id": "C46", "title": "MPFA-O: constant pressure gives zero flux", "statement": "The transmissibilities computed at every vertex (interior, boundary or corner) annihilate constant pressures: if all cell and boundary pressures are equal every subface flux is zero.", "quantifier": "every local geometry, permeability and vertex configuration for which the local system is solvable", "why_tests_cant": "all meshes; linear algebra with inverse", "anchors": ["src/fv/mpfao/tdympfao.c:ComputeCandFmatrix", "src/fv/mpfao/tdympfao.c:ComputeTransmissibilityMatrix_ForNonCornerVertex", "src/fv/mpfao/tdympfao.c:ComputeTransmissibilityMatrix_ForBoundaryVertex_NotSharedWithInternalVertices"]}
{"id": "C47", "title": "MPFA-O: fluxes are continuous across subfaces", "statement": "At every vertex the interface pressures eliminated by the local solve make the up-side and down-side fluxes of each shared subface equal, and the transmissibility times pressures is that common flux.", "quantifier": "every local geometry and pressure", "why_tests_cant": "all meshes; linear algebra with inverse", "anchors": ["src/fv/mpfao/tdympfao.c:ComputeTransmissibilityMatrix_ForNonCornerVertex"]}
{"id": "C48", "title": "MPFA-O: mass is conserved over any mesh", "statement": "In the MPFA-O residual, internal subface fluxes leave one cell and enter the other: summed over cells they cancel, so the total residual is accumulation minus sources plus boundary fluxes.", "quantifier": "every mesh, any number of vertices/subfaces/cells, every state", "why_tests_cant": "all meshes", "anchors": ["src/fv/mpfao/tdympfao_ts.c:TDyMPFAOIFunction_Vertices", "src/fv/mpfao/tdympfao_ts.c:TDyMPFAOIFunction"]}
{"id": "C49", "title": "MPFA-O: flux takes the upstream mobility and seepage never lets water in", "statement": "The subface mass flux has the sign opposite to its driving term, uses the mobility of the side the water leaves, and on a seepage boundary with pressure at or below reference has no inflow.", "quantifier": "every state", "why_tests_cant": "continuum of inputs", "anchors": ["src/fv/mpfao/tdympfao_ts.c:TDyMPFAOIFunction_Vertices"]}
{"id": "C50", "title": "MPFA-O flux Jacobian is the derivative of the flux", "statement": "The entry the Jacobian adds for a cell is the partial derivative of the subface flux with respect to that cell's pressure.", "quantifier": "every smooth constitutive law and state away from upwind switches", "why_tests_cant": "limits", "anchors": ["src/fv/mpfao/tdympfao_ts.c:TDyMPFAOIJacobian_Vertices", "src/fv/mpfao/tdympfao_ts.c:TDyMPFAOIFunction_Vertices"]}
{"id": "C51", "title": "Corner-vertex transmissibilities belong to the right boundary faces", "statement": "After reordering, column k of the corner transmissibility is the coefficient of the k-th boundary face of the vertex.", "quantifier": "every ordering of the three boundary faces", "why_tests_cant": "needs all 6 orderings with independent coefficients", "anchors": ["src/fv/mpfao/tdympfao.c:ComputeTransmissibilityMatrix_ForBoundaryVertex_NotSharedWithInternalVertices"]}
{"id": "C52", "title": "Faces between different regions are impermeable", "statement": "With connected regions in use, faces whose two cells are in different regions carry no flux and all other faces are unaffected; region membership queries answer for every pair of cells.", "quantifier": "every mesh and region assignment", "why_tests_cant": "all meshes and assignments", "anchors": ["src/fv/mpfao/tdympfao.c:UpdateTransmissibilityMatrix", "src/fv/mpfao/tdyregion.c:TDyRegionAreCellsInTheSameRegion"]}
{"id": "C53", "title": "Salt transport: fresh water carries no salt; total salt is conserved", "statement": "In salinity mode the salt residual cancels over internal subfaces, and if the concentration is zero everywhere there is no salt flux.", "quantifier": "every mesh and state", "why_tests_cant": "all meshes and states", "anchors": ["src/fv/mpfao/tdympfao_snes_salinity.c:TDyMPFAOIFunction_Vertices_Salinity"]}
{"id": "C54", "title": "Thermal mode: water and energy are conserved", "statement": "In TH mode the water and energy fluxes cancel over internal subfaces of any mesh.", "quantifier": "every mesh and state", "why_tests_cant": "all meshes and states", "anchors": ["src/fv/mpfao/tdympfao_th_ts.c:TDyMPFAOIFunction_Vertices_TH"]}
{"id": "C55", "title": "Thermal mode Jacobian includes boundary fluxes", "statement": "In TH mode the contribution of a boundary subface to the Jacobian row of its cell is the derivative of the boundary flux.", "quantifier": "every state", "why_tests_cant": "limits", "anchors": ["src/fv/mpfao/tdympfao_th_ts.c:TDyMPFAOIJacobian_Vertices_TH"]}
{"id": "C56", "title": "Sources are applied identically by both time discretisations", "statement": "For the same forcing function, the steady-state balance solved by the SNES path and by the TS path is the same.", "quantifier": "every forcing, volume and step", "why_tests_cant": "all meshes", "anchors": ["src/fv/mpfao/tdympfao_snes.c:TDyMPFAOSNESFunction", "src/fv/mpfao/tdympfao_ts.c:TDyMPFAOIFunction"]}
{"id": "C57", "title": "DAE and transient-variable forms accumulate the mass in the cell", "statement": "The accumulation term of the DAE and transient-variable forms is the time derivative of the water mass in the cell, as in the standard form.", "quantifier": "every cell volume and state history", "why_tests_cant": "all histories", "anchors": ["src/fv/mpfao/tdympfao_ts_dae.c:TDyMPFAOIFunction_DAE", "src/fv/mpfao/tdympfao_ts_transientvar.c:TDyMPFAOIFunction_TransientVariable"]}
{"id": "C58", "title": "Face permeability tensor", "statement": "The permeability used at a face by the gravity term is the inverse of the distance-weighted mean of the inverses of the two cells' tensors.", "quantifier": "every pair of symmetric positive definite tensors and weight", "why_tests_cant": "continuum of inputs", "anchors": ["src/fv/mpfao/tdympfao.c:ComputeFacePermeabilityTensor", "src/fv/mpfao/tdympfao.c:ComputeFacePermeabilityValueTPF"]}
{"id": "C59", "title": "Gravity term uses the area of its own subface", "statement": "The gravity coefficient stored for a subface is computed from that subface's own area.", "quantifier": "every mesh", "why_tests_cant": "all meshes", "anchors": ["src/fv/mpfao/tdympfao.c:ComputeGravityDiscretization"]}
{"id": "C60", "title": "Steady MPFA-O system conserves and preserves constants", "statement": "In the assembled steady system the contributions of internal subfaces cancel over cells and a constant pressure equal to the boundary pressure is a solution when there is no forcing.", "quantifier": "every mesh", "why_tests_cant": "all meshes", "anchors": ["src/fv/mpfao/tdympfao_steady.c:TDyMPFAOComputeSystem_InternalVertices", "src/fv/mpfao/tdympfao.c:TDyMPFAOComputeSystem"]}
{"id": "C61", "title": "Mesh queries return the right slices", "statement": "For every entity the accessors of the compressed connectivity tables return the number of entries reserved for that entity and a slice disjoint from every other entity's.", "quantifier": "every mesh size and every entity index including the last", "why_tests_cant": "last-element boundary for every size", "anchors": ["src/fv/share/tdymesh.c:AllocateCells", "src/fv/share/tdymesh.c:AllocateFaces", "src/fv/share/tdymesh.c:TDyMeshGetFaceVertices", "src/fv/share/tdymesh.c:TDyMeshGetFaceCells", "src/fv/share/tdymesh.c:TDyMeshGetCellFaces"]}
{"id": "C62", "title": "Cell topology tables are consistent", "statement": "For each cell type the vertex, edge, face and neighbour counts satisfy Euler's formula, the face tables list each local vertex correctly and every edge is shared by exactly two faces with opposite orientation.", "quantifier": "every cell type and face", "why_tests_cant": "agreement between independently written tables", "anchors": ["src/fv/share/tdymesh.c:GetNumVerticesForCellType", "src/fv/share/tdymesh.c:GetNumEdgesForCellType", "src/fv/share/tdymesh.c:GetNumFacesForCellType", "src/fv/share/tdymeshcustom.c:GetFaceVertices"]}
{"id": "C63", "title": "Faces of an imported mesh are numbered once", "statement": "After duplicate removal each face has one id, the two cells sharing it refer to the same id, and renumbering is a bijection onto 0..num_faces-1 preserving which cell faces coincide.", "quantifier": "every mesh (any number of cells and shared faces)", "why_tests_cant": "all meshes", "anchors": ["src/fv/share/tdymeshcustom.c:SetupMaps_C2F_F2C_F2V", "src/fv/share/tdymeshcustom.c:RemoveDuplicateFaces", "src/fv/share/tdymeshcustom.c:UpdateMapsC2F_F2C_F2V"]}
{"id": "C64", "title": "Too many cells at a vertex is reported", "statement": "SetupMap_V2C reports an error before writing beyond the per-vertex capacity.", "quantifier": "every mesh", "why_tests_cant": "needs an adversarial mesh", "anchors": ["src/fv/share/tdymeshcustom.c:SetupMap_V2C"]}
{"id": "C65", "title": "Packing and unpacking of cell records is lossless", "statement": "The record a rank packs for each cell (id, vertices, neighbours) and sends through the scatter is decoded to the same id, vertices and neighbours.", "quantifier": "every number of cells, vertices and neighbours within the maxima", "why_tests_cant": "all sizes", "anchors": ["src/fv/share/tdyugrid.c:PackNatOrderVector", "src/fv/share/tdyugrid.c:SaveNaturalCellIDs"]}
{"id": "C66", "title": "Ghost numbering is a faithful renumbering", "statement": "After converting neighbour ids to local order, each neighbour entry decodes to the same global cell, ghosts are listed once, in increasing order, after the owned cells, and owned cells are never listed as ghosts.", "quantifier": "every ownership range and every neighbour table", "why_tests_cant": "all tables, duplicates, sizes", "anchors": ["src/fv/share/tdyugrid.c:DualIDs_FromPetscOrder_To_LocalOrder"]}
{"id": "C67", "title": "Local vertex numbering is a faithful renumbering", "statement": "After conversion each cell's local vertex index decodes to the same global vertex and each vertex is stored once.", "quantifier": "every cell-vertex table", "why_tests_cant": "all tables, duplicates, sizes", "anchors": ["src/fv/share/tdyugrid.c:ChangeVertexNatOrderToLocalOrder"]}
{"id": "C68", "title": "The largest cell's vertex count is found", "statement": "DetermineMaxNumVerticesActivePerCell returns the largest number of vertices of any cell.", "quantifier": "every mesh file", "why_tests_cant": "needs a mesh where vertex 0 is in the largest cells only", "anchors": ["src/fv/share/tdyugrid.c:DetermineMaxNumVerticesActivePerCell"]}
{"id": "C69", "title": "Matrix preallocation counts match the neighbours", "statement": "The diagonal/off-diagonal nonzero counts given to PETSc equal 1 + number of owned neighbours and the number of ghost neighbours of each cell, under the sign encoding used for neighbours.", "quantifier": "every neighbour table", "why_tests_cant": "all tables", "anchors": ["src/fv/share/tdyugdm.c:TDyUGDMCreateMatrix", "src/fv/share/tdyugrid.c:DetermineNeigbhorsCellIDsInGhostedOrder"]}
{"id": "C70", "title": "Natural/global reordering loses nothing", "statement": "Converting a vector from global to natural order and back yields the original vector, and natural order places the value of the cell with natural id k at position k.", "quantifier": "every partition (any bijection of cells) and number of dofs", "why_tests_cant": "all partitions", "anchors": ["src/tdydiscretization.c:TDyDiscretizationGlobalToNatural", "src/tdydiscretization.c:TDyDiscretizationNaturalToGlobal", "src/fv/share/tdyugdm.c:CreateNaturalOrderIS"]}
{"id": "C71", "title": "Permeability files: each cell gets its own diagonal tensor", "statement": "With anisotropic permeability read from file, the tensor of cell i is diag(Kx[i],Ky[i],Kz[i]) regardless of previous buffer contents.", "quantifier": "every number of cells, dimension and buffer contents", "why_tests_cant": "all buffers", "anchors": ["src/tdyio.c:AssignDiagonalTensors"]}
{"id": "C72", "title": "Variables read from file fit their buffer", "statement": "TDyIOReadVariable allocates enough memory for the values it copies.", "quantifier": "every number of cells", "why_tests_cant": "memory size for every n", "anchors": ["src/tdyio.c:TDyIOReadVariable"]}
{"id": "C73", "title": "Regression sampling picks distinct valid cells", "statement": "The entries sampled for regression output are within the local vector and pairwise distinct for every local size and requested count.", "quantifier": "every local size, number requested, dofs", "why_tests_cant": "all sizes", "anchors": ["src/tdyregression.c:TDyRegressionInitialize"]}
{"id": "C74", "title": "BDM basis: unit divergence and nodal normal components", "statement": "Each reference H(div) basis function has integral of divergence equal to one, and its normal components at the reference vertices are those of a nodal basis, consistent with the +-1 coupling entries the system uses.", "quantifier": "every point of the reference element; every basis function", "why_tests_cant": "polynomial identities on a continuum", "anchors": ["src/fe/tdyfe.c:HdivBasisQuad", "src/fe/tdyfe.c:HdivBasisHex", "src/fe/tdybdm.c:TDyBDMComputeSystem"]}
{"id": "C75", "title": "Assembling the BDM system is repeatable", "statement": "Calling TDyBDMComputeSystem twice with a BDM discretization assembles the same system twice.", "quantifier": "every permeability", "why_tests_cant": "histories of calls", "anchors": ["src/fe/tdybdm.c:TDyBDMComputeSystem", "src/fe/tdybdm.c:Inverse"]}
{"id": "C76", "title": "WY stencil is symmetric and conservative", "statement": "The per-vertex stencil B'A^-1B is symmetric when A is, and the recovered velocity satisfies the discrete Darcy law; equal cell and boundary pressures give zero velocity.", "quantifier": "every local system", "why_tests_cant": "all systems", "anchors": ["src/fe/tdywy.c:FormStencil", "src/fe/tdywy.c:RecoverVelocity", "src/fe/tdywy.c:TDyWYComputeSystem"]}
{"id": "C77", "title": "WY residual scales accumulation with the cell volume", "statement": "The transient WY residual balances rate of change of stored water in the cell, net outflow and source of the same cell, i.e. the three terms scale consistently with cell size.", "quantifier": "every cell volume", "why_tests_cant": "all meshes", "anchors": ["src/fe/tdywy.c:TDyWYResidual"]}
{"id": "C78", "title": "TDyDestroy is defined on every live object", "statement": "TDyDestroy can be called on any object returned by TDyCreate, whatever subset of the configuration calls has been made since, without undefined behaviour.", "quantifier": "every call history", "why_tests_cant": "histories of calls", "anchors": ["src/tdycore.c:TDyDestroy", "src/tdycore.c:TDyCreate", "src/tdycore.c:TDySetFromOptions"]}
{"id": "C79", "title": "Brine density is the Batzle-Wang correlation", "statement": "With the Batzle-Wang water density, the density is that of the published brine correlation (Batzle and Wang 1992, eqs. 27a-b).", "quantifier": "every pressure, temperature and salinity", "why_tests_cant": "continuum of inputs", "anchors": ["src/materials/tdyeos.c:ComputeWaterDensity_BatzleWang"]}
{"id": "C80", "title": "Brine viscosity is the Batzle-Wang correlation and falls with temperature", "statement": "With the Batzle-Wang viscosity, the viscosity is that of the published correlation (eq. 32), and at fixed salinity it does not increase with temperature.", "quantifier": "every temperature and salinity", "why_tests_cant": "continuum of inputs", "anchors": ["src/materials/tdyeos.c:ComputeWaterViscosity_BatzleWang"]}
{"id": "C81", "title": "Every density model delivers its derivatives", "statement": "Every accepted water density type writes the density and its first and second derivative with respect to pressure.", "quantifier": "every density type, pressure, temperature and salinity", "why_tests_cant": "an unwritten output is only seen with the right memory contents", "anchors": ["src/materials/tdyeos.c:EOSComputeWaterDensity"]}
{"id": "C82", "title": "Smoothed Mualem curve stays physical", "statement": "With smoothing on an interval ending at effective saturation one, the smoothed relative permeability stays in [0,1] and never decreases on [0,1].", "quantifier": "every van Genuchten exponent in (0,1), interval start in [1/25,1), scaling", "why_tests_cant": "continuum of inputs", "anchors": ["src/materials/tdycharacteristiccurves.c:RelativePermeability_Mualem", "src/materials/tdycharacteristiccurves.c:RelativePermeability_Mualem_GetSmoothingCoeffs"]}
{"id": "C83", "title": "Solution output follows the accepted steps", "statement": "With an output interval of k steps, RunToTime writes the solution exactly once for each accepted step whose number is a multiple of k and never for a failed solve.", "quantifier": "every output interval, number of steps and sequence of solver outcomes", "why_tests_cant": "schedules of failures", "anchors": ["src/tdyti.c:TDyTimeIntegratorRunToTime", "src/tdyio.c:TDyIOWriteVec"]}
{"id": "C84", "title": "A mode's material properties are all available after driver initialisation", "statement": "After TDyDriverInitializeTDy succeeds every material property the flow mode uses has a value: the user's if set, else the file's for porosity and permeability, else the option's; unsupported combinations are reported.", "quantifier": "every mode, integrator, discretization and subset of user-set properties", "why_tests_cant": "combinations", "anchors": ["src/tdydriver.c:TDyDriverInitializeTDy"]}
{"id": "C85", "title": "The run starts from the requested initial state", "statement": "The initial solution is the one of the initial-condition file or of -tdy_init_file if given, else random within the documented ranges if asked for, else a physical default (pressure, temperature, salinity), in every mode.", "quantifier": "every mode, integrator and combination of options", "why_tests_cant": "combinations", "anchors": ["src/tdydriver.c:TDyDriverInitializeTDy", "src/tdyrichards.c:TDyRichardsInitialize", "src/tdyth.c:TDyTHInitialize", "src/tdysalinity.c:TDySalinityInitialize"]}
{"id": "C86", "title": "Polar angles order vertices around a face", "statement": "ComputeTheta returns, for every point but the origin, its polar angle in [0,2pi).", "quantifier": "every point of the plane", "why_tests_cant": "continuum, quadrant boundaries", "anchors": ["src/tdyutils.c:ComputeTheta"]}
{"id": "C87", "title": "Face areas and normals are exact for planar faces", "statement": "The triangle area is that of Euclidean geometry, the quadrilateral area that of every planar quadrilateral star-shaped about its vertex mean, and the normals have unit length and are orthogonal to the face.", "quantifier": "every triangle; every such quadrilateral", "why_tests_cant": "continuum of shapes", "anchors": ["src/tdyutils.c:TDyTriangleArea", "src/tdyutils.c:TDyQuadrilateralArea", "src/tdyutils.c:TDyUnitNormalToTriangle", "src/tdyutils.c:TDyNormalToQuadrilateral"]}
{"id": "C88", "title": "Cell centroids are centres of mass", "statement": "The centroid recorded for a cell of an imported mesh is its centre of mass (tetrahedra, boxes, prisms, pyramids on parallelograms).", "quantifier": "every cell shape and placement", "why_tests_cant": "continuum of shapes", "anchors": ["src/fv/share/tdymeshcustom.c:TDySetupCellsFromDiscretization"]}
{"id": "C89", "title": "Mesh closures of any size are saved", "statement": "TDySaveClosures stores the closure of every mesh point, whatever its size, without undefined behaviour.", "quantifier": "every mesh and closure size", "why_tests_cant": "needs meshes with unusually large closures", "anchors": ["src/tdyutils.c:TDySaveClosures", "src/tdyutils.c:Increase_Closure_Array"]}
{"id": "C90", "title": "Reported liquid mass is the mass of water in the cell", "statement": "The diagnostic liquid mass written for a cell is density times porosity times saturation times volume.", "quantifier": "every state and every cell", "why_tests_cant": "A test would compare with a reference file produced by the same formula; the relation must hold for every porosity and saturation.", "anchors": ["src/fv/fvtpf/tdyfvtpf.c:TDyUpdateDiagnostics_FVTPF", "src/fv/mpfao/tdympfao.c:TDyUpdateDiagnostics_MPFAO"]}
{"id": "C91", "title": "States follow the pressures", "statement": "After a state update every cell and every boundary face holds the saturation, relative permeability, density and viscosity that its material gives at its own current pressure, whatever it held before.", "quantifier": "every mesh, material, pressure field and history", "why_tests_cant": "A stale or misaddressed entry shows only for particular numberings, pressures and histories.", "anchors": ["src/fv/fvtpf/tdyfvtpf.c:TDyUpdateState_Richards_FVTPF", "src/fv/fvtpf/tdyfvtpf.c:TDyFVTPFUpdateBoundaryState", "src/fv/fvtpf/tdyfvtpf.c:TDyFVTPFSetBoundaryPressure"]}
{"id": "C92", "title": "Linear pressure fields are reproduced exactly", "statement": "If all the cells around a vertex have the same permeability tensor K, and the pressures at the cell centres and at the Dirichlet boundary faces are the values of one linear function with gradient g, then the MPFA-O transmissibilities of that vertex give through every internal and every Dirichlet subface exactly the Darcy flux area*n.K g, whatever the shapes of the cells.", "quantifier": "every vertex with a solvable local system, every permeability tensor (not only diagonal), every cell geometry whose subcells are not degenerate, every linear pressure", "why_tests_cant": "Tests use a few meshes and grid-aligned tensors; an error in a cross product, an index or a sign may cancel on them.", "anchors": ["src/fv/mpfao/tdympfao.c: ComputeEntryOfGMatrix, ComputeGMatrix_MPFAO, ComputeTransmissibilityMatrix_ForNonCornerVertex", "src/fv/share/tdymeshplex.c: ComputeIthSubcellNuVector / SetupSubcells"]}
{"id": "C93", "title": "The mesh comes from the documented source", "statement": "The first successful TDySetFromOptions gives the object the mesh named by the order of precedence: PFLOTRAN file, mesh file, the constructor registered last, the Fortran constructor, PETSc default. Later calls keep that mesh unless a PFLOTRAN file is named, and no other call changes it.", "quantifier": "every call history, every command line, with or without a Fortran constructor", "why_tests_cant": "The choice depends on the whole history of calls and on the command line; tests use one source each.", "anchors": ["src/tdycore.c: TDySetFromOptions, TDySetDMConstructor"]}
{"id": "C94", "title": "The chosen density and viscosity laws reach the equation of state", "statement": "After TDySetup the equation of state uses the density and viscosity types that were set last before it, by TDySetWaterDensityType or on the command line.", "quantifier": "every state in which TDySetup succeeds", "why_tests_cant": "With the constant law, which tests mostly use, a lost choice cannot be seen.", "anchors": ["src/tdycore.c: TDySetup, TDySetWaterDensityType, ReadCommandLineOptions"]}
{"id": "C95", "title": "Diagnostics are available exactly where supported", "statement": "After TDySetup on a mesh in PFLOTRAN format every request for diagnostics is refused without effect; on other meshes all of them work for the finite volume discretizations, and the finite element discretizations have none.", "quantifier": "every state in which TDySetup succeeds, every discretization", "why_tests_cant": "Tests do not combine PFLOTRAN meshes with diagnostics.", "anchors": ["src/tdycore.c: TDySetup, TDyUpdateDiagnostics, TDyCreateDiagnosticVector, TDyGetLiquidSaturation"]}
{"id": "C96", "title": "Thermal mode: storage of every owned cell enters the residual", "statement": "In TH mode the residual of every cell a process owns contains the rate of change of its water and energy and its sources, wherever ghost cells are in the local numbering.", "quantifier": "every mesh, partition and state", "why_tests_cant": "needs partitions in which a ghost cell is numbered before an owned one", "anchors": ["src/fv/mpfao/tdympfao_th_ts.c: TDyMPFAOIFunction_TH"]}
{"id": "C97", "title": "Thermal mode: accumulation terms are rates of change of water and energy", "statement": "In TH mode the accumulation terms of a cell are the time derivatives of the water and of the energy (water plus rock) it contains.", "quantifier": "every smooth path of states", "why_tests_cant": "a test compares a few values, the identity is about derivatives at every state", "anchors": ["src/fv/mpfao/tdympfao_th_ts.c: TDyMPFAOIFunction_TH", "src/fv/mpfao/tdympfao.c: TDyUpdateState_TH_MPFAO"]}
{"id": "C98", "title": "Thermal mode Jacobian: temperature derivatives", "statement": "In TH mode the entries stored for the derivatives of the water and energy fluxes with respect to the temperatures are these derivatives.", "quantifier": "every mesh and state away from changes of the direction of flow", "why_tests_cant": "a test with a finite difference samples a few states", "anchors": ["src/fv/mpfao/tdympfao_th_ts.c: TDyMPFAOIJacobian_Vertices_TH"]}
{"id": "C99", "title": "Steady MPFA-O system at corner vertices uses the corner fluxes", "statement": "The contribution of a corner vertex of the domain to the row of its cell in the steady system is the flux through its three boundary subfaces that the transmissibilities of the vertex stand for.", "quantifier": "every corner vertex, local matrix, cell and boundary pressure", "why_tests_cant": "all pressures and tensors", "anchors": ["src/fv/mpfao/tdympfao_steady.c:TDyMPFAOComputeSystem_BoundaryVertices_NotSharedWithInternalVertices", "src/fv/mpfao/tdympfao.c:ComputeTransmissibilityMatrix_ForBoundaryVertex_NotSharedWithInternalVertices"]}
{"id": "C100", "title": "Assembling the steady MPFA-O system is repeatable", "statement": "Calling the assembly of the steady system again on the same matrix and vector gives the same matrix and right-hand side.", "quantifier": "every mesh, forcing, matrix and vector", "why_tests_cant": "all histories of calls", "anchors": ["src/fv/mpfao/tdympfao.c:TDyMPFAOComputeSystem"]}
{"id": "C101", "title": "Unsupported meshes are refused", "statement": "Creating a finite-volume mesh from cells whose type the code has no tables for (tetrahedra, pyramids, cells of mixed type) fails with an error instead of building tables from meaningless sizes.", "quantifier": "every mesh", "why_tests_cant": "all combinations of cell types", "anchors": ["src/fv/share/tdymesh.c:GetNumVerticesForCellType", "src/fv/share/tdymeshplex.c:TDyMeshCreateFromPlex", "src/tdyutils.c:TDyGetNumberOfCellVerticesWithClosures"]}
{"id": "C102", "title": "Connectivity tables are the incidence relation", "statement": "After mesh creation the cells listed at a vertex (with their subcell number), the cells behind a face, the faces and boundary faces at a vertex, the vertices and faces of a cell and the vertices of a face are exactly those of the mesh, each once and in mesh order; a vertex with more cells than the table has room for is reported and never written past its row.", "quantifier": "every mesh topology of any size", "why_tests_cant": "unbounded meshes and all orders of incidence", "anchors": ["src/fv/share/tdymeshplex.c:DetermineConnectivity"]}
{"id": "C103", "title": "Local vertices, faces and boundary numbers", "statement": "A vertex is local exactly if one of its cells is, a face exactly if one of its cells is, and the boundary faces are numbered -1, -2, ... without gaps or repetition while keeping their cell.", "quantifier": "every mesh and every distribution of cells over processes", "why_tests_cant": "all partitions of a mesh", "anchors": ["src/fv/share/tdymeshplex.c:IdentifyLocalVertices", "src/fv/share/tdymeshplex.c:IdentifyLocalFaces"]}
{"id": "C104", "title": "Faces around a vertex are reordered without loss", "statement": "Around every vertex the faces between two cells come before the boundary faces, the order inside each group is kept, every face keeps its subface number and no face is lost or repeated.", "quantifier": "every vertex with any number of faces", "why_tests_cant": "all interleavings of internal and boundary faces", "anchors": ["src/fv/share/tdymeshplex.c:UpdateFaceOrderAroundAVertex"]}
{"id": "C105", "title": "Reading a mesh file keeps its cells and counts", "statement": "Importing a PFLOTRAN mesh gives every cell the vertices the file lists for it, refuses files with unknown cell types, and records the number of cells and vertices of the mesh.", "quantifier": "every mesh file", "why_tests_cant": "all files and sizes", "anchors": ["src/fv/share/tdyugrid.c:ReadPFLOTRANMeshFile"]}
{"id": "C106", "title": "Adjacency rows and record widths cover the mesh", "statement": "The adjacency rows handed to the partitioner list for each cell exactly its vertices, and the record width for neighbours is the largest number of neighbours of any cell.", "quantifier": "every mesh and width", "why_tests_cant": "all meshes", "anchors": ["src/fv/share/tdyugrid.c:CreateAdjacencyMatrix", "src/fv/share/tdyugrid.c:DetermineMaxNumDualCells"]}
{"id": "C107", "title": "Ghost exchange delivers the right cells' values", "statement": "After the exchange of ghost values, entry l of a rank's local vector is the value of the cell whose natural number the rank stores for local cell l, for owned and ghost cells and every component.", "quantifier": "every partition, mesh, rank, local cell and number of components", "why_tests_cant": "all partitions", "anchors": ["src/fv/share/tdyugdm.c:CreatePetscOrderIS", "src/fv/share/tdyugdm.c:CreateVecScatters", "src/fv/share/tdyugrid.c:UpdateNaturalCellIDs"]}
{"id": "C108", "title": "Material values in files reach their own cell", "statement": "After reading porosity or anisotropic permeability from file, the value used for each local cell, owned or ghost, is the file value at the natural number of that cell, in every mode and for every distribution of the cells.", "quantifier": "every mesh, partition, mode and file contents", "why_tests_cant": "all partitions and file contents", "anchors": ["src/tdyio.c:TDyIOReadPermeability", "src/tdyio.c:TDyIOReadPorosity", "src/tdyio.c:TDyIOReadVariable", "src/tdydiscretization.c:TDyDiscretizationNaturaltoLocal"]}
{"id": "C109", "title": "An isotropic permeability file gives each cell its value", "statement": "Reading a permeability file without -anisotropic_perm gives every cell the isotropic tensor of its own file value.", "quantifier": "every mesh and file contents", "why_tests_cant": "all file contents", "anchors": ["src/tdyio.c:TDyIOReadPermeability"]}
{"id": "C110", "title": "Restarting from a checkpoint continues the run", "statement": "A run that reads a checkpoint file as its initial condition, on any number of ranks, starts from the saved solution of every cell and from the saved time and step.", "quantifier": "every mesh, both partitions, every solution and time", "why_tests_cant": "all pairs of partitions, all solutions", "anchors": ["src/tdyio.c:TDyIOOutputCheckpoint", "src/tdyio.c:TDyIOReadIC", "src/tdycore.c:TDySetInitialCondition"]}
{"id": "C111", "title": "Checkpoints of different steps are kept apart", "statement": "Each checkpoint has a file of its own: writing one does not replace an earlier one.", "quantifier": "every pair of times", "why_tests_cant": "all pairs of times", "anchors": ["src/tdyio.c:TDyIOOutputCheckpoint"]}
{"id": "C112", "title": "The visualisation header describes the mesh", "statement": "The header written for HDF5 output names the topology of the cells and gives their number, the number of vertices and the dimension of the mesh.", "quantifier": "every uniform mesh, dimension and number of unknowns per cell", "why_tests_cant": "all meshes", "anchors": ["src/tdyio.c:TDyIOSetMode", "src/tdyio.c:TDyIOWriteXMFHeader"]}
{"id": "C113", "title": "Internal faces of an imported mesh are listed once", "statement": "On an imported mesh every face between an owned cell and another cell is listed exactly once, with its two cells in increasing order, its number and its number of vertices, and the number of faces announced is the number listed.", "quantifier": "every conforming mesh with owned and ghost cells", "why_tests_cant": "all meshes", "anchors": ["src/fv/share/tdymeshcustom.c:CreateInternalFaces", "src/fv/share/tdymeshcustom.c:TDySetupFacesFromDiscretization"]}
{"id": "C114", "title": "Corners and faces of a finite element cell are numbered consistently", "statement": "In every cell that is the image of the reference cell, the corner of each number is the vertex at the image of that reference corner, and the face recorded for a corner and direction is the face of the cell across that direction at that corner, negative exactly if its normal points into the cell.", "quantifier": "every mesh, cell and numbering of the mesh points", "why_tests_cant": "all meshes and numberings", "anchors": ["src/fe/tdyfe.c:CreateCellVertexMap", "src/fe/tdyfe.c:CreateCellVertexDirFaceMap"]}
{"id": "C115", "title": "BDM velocity unknowns are shared exactly by the cells around a face", "statement": "Two local velocity unknowns have the same global number exactly if they belong to the same vertex of the same face, no velocity unknown has the number of a pressure unknown, and its orientation is +1 or -1 according to whether the normal of the face leaves the cell.", "quantifier": "every mesh of quadrilaterals or hexahedra, every pair of cells", "why_tests_cant": "all meshes and pairs of unknowns", "anchors": ["src/fe/tdybdm.c:TDySetup_BDM"]}
{"id": "C116", "title": "Finite element setup refuses meshes that mix cell types", "statement": "Setup of a finite element discretisation fails with an error on a mesh whose cells have different numbers of vertices.", "quantifier": "every mesh", "why_tests_cant": "all meshes", "anchors": ["src/tdycore.c:TDyGetNumberOfCellVertices", "src/fe/tdyfe.c:CreateCellVertexMap"]}
{"id": "C117", "title": "The BDM system is the discrete mixed Darcy problem", "statement": "For all coefficients x and test coefficients y, y.Kx is the sum over the owned cells of (K^-1 u, v) - (p, div v) - (r, div u) and y.F is -<g, v.n> over the faces with a given pressure minus (f, r), by the quadrature rules of the cells and faces; in particular the matrix is symmetric.", "quantifier": "every mesh, geometry, quadrature rule, orientation, permeability (regular, symmetric), boundary value, source and pair of coefficient vectors", "why_tests_cant": "all vectors and meshes", "anchors": ["src/fe/tdybdm.c:TDyBDMComputeSystem", "src/fe/tdybdm.c:IntegratePressureBoundary"]}
{"id": "C118", "title": "BDM: a uniform pressure is at rest", "statement": "If the pressure given on the whole boundary is the same everywhere and nothing is injected, zero velocity and that pressure in every cell solve the assembled BDM system.", "quantifier": "every closed mesh of quadrilaterals or hexahedra (curved or not), permeability, pressure", "why_tests_cant": "all meshes and permeabilities", "anchors": ["src/fe/tdybdm.c:TDyBDMComputeSystem", "src/fe/tdybdm.c:IntegratePressureBoundary", "src/fe/tdyfe.c:HdivBasisQuad", "src/fe/tdyfe.c:HdivBasisHex"]}
{"id": "C119", "title": "WY systems of regular meshes can always be solved", "statement": "On every mesh of regular cells with positive definite permeabilities, computing the WY system and the velocities succeeds, whatever the pressures and boundary values and however many cells meet at a vertex.", "quantifier": "every mesh, permeability and pressure field", "why_tests_cant": "meshes and tensors are unbounded; overruns of fixed arrays depend on the mesh and need not crash", "anchors": ["src/fe/tdywy.c:TDyWYComputeSystem", "src/fe/tdywy.c:TDyWYRecoverVelocity", "src/fe/tdywy.c:FormStencil", "src/fe/tdywy.c:MAX_LOCAL_SIZE"]}
{"id": "C120", "title": "WY residual agrees with the WY system", "statement": "For every mesh, pressure field and rate, the residual the time integrator gets is the accumulation plus the matrix times the pressures less the right-hand side of the steady system, up to the small entries that the assembly leaves out.", "quantifier": "every mesh, permeability, pressure field, boundary condition and source", "why_tests_cant": "two independent assembly paths must agree for all inputs", "anchors": ["src/fe/tdywy.c:TDyWYResidual", "src/fe/tdywy.c:TDyWYComputeSystem", "src/fe/tdywy.c:TDyWYRecoverVelocity"]}
{"id": "C121", "title": "WY residual conserves water", "statement": "Summed over all cells of a mesh, flow through internal faces cancels in the WY residual: what is left is accumulation, flow through the boundary and sources.", "quantifier": "every mesh, permeability and pressure field", "why_tests_cant": "a sum over unbounded meshes; must hold identically", "anchors": ["src/fe/tdywy.c:TDyWYResidual", "src/fe/tdywy.c:TDyWYRecoverVelocity"]}
{"id": "C122", "title": "After an update, every cell's state follows its unknowns", "statement": "After every state update each cell holds the van Genuchten saturation and the smoothed Mualem relative permeability at its own pressure, the permeability scaled with it, water density and viscosity of the chosen laws, and, in salinity and thermal modes, the salt fraction and internal energy of its own second unknown, whatever was stored before.", "quantifier": "every method and mode, options, number of cells, material and unknowns", "why_tests_cant": "all unknown vectors, materials and histories of evaluations", "anchors": ["src/tdycore.c:TDyUpdateState", "src/fv/mpfao/tdympfao.c:TDyUpdateState_Richards_MPFAO", "src/fv/mpfao/tdympfao.c:TDyUpdateState_TH_MPFAO", "src/fv/mpfao/tdympfao.c:TDyUpdateState_Salinity_MPFAO", "src/fv/fvtpf/tdyfvtpf.c", "src/fe/tdywy.c"]}
{"id": "C123", "title": "Stored derivatives of the cell state are derivatives, and the state is physical", "statement": "The stored slopes of saturation and relative permeability are the derivatives with respect to the cell's pressure of the values the update stores, the curvature is the second derivative away from the reference pressure, the saturation lies above the residual saturation and is 1 exactly at or above the reference pressure, and the relative permeability lies between 0 and 1.", "quantifier": "every method and mode, options, cell and unknowns", "why_tests_cant": "real analysis over all pressures", "anchors": ["src/tdycore.c:TDyUpdateState", "src/materials/tdycharacteristiccurves.c"]}
{"id": "C124", "title": "Thermal mode evaluates the water at the temperature of the cell", "statement": "In TH mode the density and viscosity of the water of a cell are those of the chosen laws at the pressure and temperature of the cell.", "quantifier": "every mesh, material and unknowns", "why_tests_cant": "all temperatures", "anchors": ["src/fv/mpfao/tdympfao.c:TDyUpdateState_TH_MPFAO"]}
{"id": "C125", "title": "State updates before a time step stay within the data of the process", "statement": "The state update before a time step reads only unknowns this process has and evaluates the curves only in cells for which it has pressures, on any number of processes.", "quantifier": "every partition, mode and state", "why_tests_cant": "all partitions; silent reads of foreign memory", "anchors": ["src/fv/mpfao/tdympfao_snes.c:TDyMPFAOSNESPreSolve", "src/fv/mpfao/tdympfao_snes_salinity.c:TDyMPFAOSNESPreSolve_Salinity", "src/fv/fvtpf/tdyfvtpf_snes.c:TDyFVTPFSNESPreSolve", "src/fv/fvtpf/tdyfvtpf_snes.c:TDyFVTPFSNESTimeCut"]}
{"id": "C126", "title": "The residual saturation of the material is respected by every method", "statement": "Whatever the pressures, no cell becomes drier than the residual saturation given for it.", "quantifier": "every method, material and pressure field", "why_tests_cant": "all pressure fields", "anchors": ["src/materials/tdymaterialproperties.c:MaterialPropComputeResidualSaturation", "src/fe/tdywy.c:TDySetup_WY", "src/fv/mpfao/tdympfao.c:InitMaterials"]}
{"id": "C127", "title": "Boundary faces of MPFA-O hold the state at the boundary pressure", "statement": "After the boundary values have been set and the boundary states updated, every boundary face holds the value of the boundary function at its centroid or, without a function, that of its cell, both in the array and in the vector multiplied by the transmissibilities; saturation, relative permeability, density and viscosity are those at that pressure.", "quantifier": "every numbering of boundary faces, boundary function and state", "why_tests_cant": "all meshes and functions", "anchors": ["src/fv/mpfao/tdympfao_utils.c:TDyMPFAO_SetBoundaryPressure", "src/fv/mpfao/tdympfao_utils.c:TDyMPFAOUpdateBoundaryState", "src/fv/mpfao/tdympfao.c:AllocateMemoryForBoundaryValues"]}
{"id": "C128", "title": "Diagnostics are those of the cells of the process, in order", "statement": "The vector of diagnostics holds, for the k-th cell of this process, its saturation and liquid mass at entries 2k and 2k+1, and nothing else.", "quantifier": "every mesh and pattern of ghost cells", "why_tests_cant": "all partitions", "anchors": ["src/fv/mpfao/tdympfao.c:TDyUpdateDiagnostics_MPFAO", "src/fv/fvtpf/tdyfvtpf.c:TDyUpdateDiagnostics_FVTPF"]}
{"id": "C129", "title": "The accumulation part of the TH Jacobian is the derivative of the accumulation part of the residual", "statement": "For every cell, state, rates and shift of the time integrator, the block assembled for the cell holds the derivatives of the accumulated water and energy with respect to its pressure and its temperature, where the rates move with the unknown by the shift; no other block receives anything from it.", "quantifier": "every mesh, state, rate and shift", "why_tests_cant": "holds at all states, not at sampled ones", "anchors": ["src/fv/mpfao/tdympfao_th_ts.c:TDyMPFAOIJacobian_Accumulation_TH", "src/fv/mpfao/tdympfao_th_ts.c:TDyMPFAOIFunction_TH"]}
{"id": "C130", "title": "The accumulation of the TH residual is the rate of change of water and energy", "statement": "Along every history of a cell the water row of the residual, without fluxes, is the rate of change of the water in the cell less its source, and the energy row is the rate of change of the energy of water and rock less the heat source.", "quantifier": "every differentiable history of every cell", "why_tests_cant": "all histories", "anchors": ["src/fv/mpfao/tdympfao_th_ts.c:TDyMPFAOIFunction_TH", "src/fv/mpfao/tdympfao.c:TDyUpdateState_TH_MPFAO"]}
{"id": "C131", "title": "Recovered face velocities are the fluxes through the faces", "statement": "After velocities are recovered from a pressure vector, the velocity of every face owned by the process times the area of the face is the sum over the face's vertices of the flux through the part of the face next to the vertex, in the direction of the face normal; in a uniform medium a linear pressure gives the exact Darcy velocity -n.K grad p in every face, whatever the shape of the cells. Faces of other processes get zero. The result does not depend on what an earlier recovery left behind, and the number of contributions counted per face is that of the last recovery.", "quantifier": "all meshes, permeability tensors, pressures, boundary pressures, gravity and earlier contents of the arrays", "why_tests_cant": "The recovery has separate code for inner vertices, boundary vertices and corners of the domain; a test prints one norm over all faces and a sign error at the few corner faces hides in it", "anchors": ["src/fv/mpfao/tdympfao_utils.c:TDyMPFAORecoverVelocity", "src/fv/mpfao/tdympfao_utils.c:TDyMPFAORecoverVelocity_InternalVertices", "src/fv/mpfao/tdympfao_utils.c:TDyMPFAORecoverVelocity_BoundaryVertices_SharedWithInternalVertices", "src/fv/mpfao/tdympfao_utils.c:TDyMPFAORecoverVelocity_BoundaryVertices_NotSharedWithInternalVertices"]}
{"id": "C132", "title": "A fluid at rest has no recovered velocity", "statement": "If pressure plus rho g z is the same everywhere, in the cells and on the boundary, the recovered velocity of every face is zero, with and without a boundary pressure function.", "quantifier": "all meshes, transmissibilities whose rows sum to zero, densities, gravity and hydrostatic pressures", "why_tests_cant": "Hydrostatic equilibrium has to hold for every mesh and every way of giving boundary pressures; tests recover velocities without gravity", "anchors": ["src/fv/mpfao/tdympfao_utils.c:TDyMPFAORecoverVelocity_BoundaryVertices_SharedWithInternalVertices", "src/fv/mpfao/tdympfao_utils.c:ComputeGtimesZ"]}
{"id": "C133", "title": "The reported velocity error is zero for exact fluxes", "statement": "When the flux through every subface is exactly that of the velocity function, the velocity error reported after the recovery is zero, whatever the areas of the faces; without a velocity function no number is reported.", "quantifier": "all meshes, face areas, velocity functions and pressures", "why_tests_cant": "On the unit meshes of the tests a wrong scaling changes only the size of the printed number, and convergence tests compare ratios", "anchors": ["src/fv/mpfao/tdympfao_utils.c:TDyMPFAORecoverVelocity"]}
{"id": "C134", "title": "Two-point fluxes couple two cells", "statement": "With -tdy_mpfao_gmatrix_method MPFAO_GMATRIX_TPF the transmissibility of a part of a face multiplies only the difference of the pressures of the two cells of the face (or of the cell and the boundary value), divided by the distance between their centroids and multiplied by the area, by the cosine between normal and connecting line, and by the mean of the permeabilities of the cells along that line; no vertex is refused.", "quantifier": "all meshes, vertices with any number of cells, boundary parts, diagonal entries of the permeability, pressures", "why_tests_cant": "The local systems depend on the number and arrangement of cells at a vertex; tests use bricks.", "anchors": ["src/fv/mpfao/tdympfao.c:ComputeGMatrix_TPF", "src/fv/mpfao/tdympfao.c:ComputeTransmissibilityMatrix"]}
{"id": "C135", "title": "Two-point fluxes are exact on K-orthogonal grids", "statement": "On a grid where K n is parallel to the line between the centroids at every face, the two-point option gives the exact flux of every linear pressure.", "quantifier": "all vertices, uniform permeability tensors, K-orthogonal grids, linear pressures", "why_tests_cant": "Tests use diagonal tensors on bricks, where most errors in the use of the tensor cancel.", "anchors": ["src/fv/mpfao/tdympfao.c:ComputeGMatrix_TPF"]}
{"id": "C136", "title": "Two-point fluxes between different media", "statement": "With the two-point option the flux between two cells of different permeability is that through the two halves in series.", "quantifier": "all faces, permeabilities of the two cells, pressures", "why_tests_cant": "Needs arbitrary pairs of permeabilities; a test with one medium cannot see which mean is used.", "anchors": ["src/fv/mpfao/tdympfao.c:ComputeGMatrix_TPF", "src/fv/mpfao/tdympfao.c:ComputeFacePermeabilityValueTPF"]}
{"id": "C137", "title": "A fluid at rest does not flow", "statement": "When pressure plus density times gravity times height is the same in all cells and on the boundary around a vertex, the Richards mass flux through every face at the vertex is zero, for both ways to compute transmissibilities.", "quantifier": "all vertices, meshes, permeabilities, densities, pressure levels, mobilities", "why_tests_cant": "Tests compare with stored results; equilibrium has to hold for all media and cell shapes.", "anchors": ["src/fv/mpfao/tdympfao.c:ComputeGMatrix_TPF", "src/fv/mpfao/tdympfao.c:ComputeGravityDiscretizationForVertex", "src/fv/mpfao/tdympfao_ts.c:TDyMPFAOIFunction_Vertices"]}
{"id": "C138", "title": "Heat goes from hot to cold with two-point fluxes", "statement": "With the two-point option of the TH mode heat is conducted through every face from the hotter to the colder side, in the amount given by the conductivities of the two cells in series.", "quantifier": "all faces, orientations of the normal, conductivities, temperatures", "why_tests_cant": "The sign and size depend on the direction of the face normal; tests use faces along positive axes.", "anchors": ["src/fv/mpfao/tdympfao.c:ComputeGMatrix_TPF", "src/fv/share/tdymeshplex.c:SetupSubcells"]}
{"id": "C139", "title": "Cells around a vertex are listed in order", "statement": "Whatever order the cells of one level come in, the setup of the local flux problems lists them so that each shares a face with the next, around the vertex or from one side of the domain to the other, and anticlockwise when their centres turn one way.", "quantifier": "all numbers and orders of cells around a vertex, rings and chains", "why_tests_cant": "The number of cells around a vertex and their order in the mesh file are arbitrary; a test has one mesh.", "anchors": ["src/fv/share/tdymeshplex.c:ArrangeCellsInCircularOrder", "src/fv/share/tdymeshplex.c:ArrangeCellsInAntiClockwiseDirection"]}
{"id": "C140", "title": "Each face at a vertex is one unknown of its local problem", "statement": "On every mesh of vertical prisms in columns the setup succeeds, and at each vertex with several cells every face, inside or on the boundary, belongs to exactly one connection, between the two cells of the face or between its cell and the outside, cells first; the local flux problems are those the transmissibilities assume.", "quantifier": "all meshes of vertical prisms in columns, all numbers of cells around a vertex, all numberings of vertices, cells and faces", "why_tests_cant": "Depends on the number of cells, on the level, on the sides of the domain and on the numbering; a lost or doubled connection changes fluxes at a few vertices only.", "anchors": ["src/fv/share/tdymeshplex.c:SetUpToDownConnections", "src/fv/share/tdymeshplex.c:DetermineUpwindFacesForSubcell_PlanarVerticalFaces", "src/fv/share/tdymeshplex.c:SetupUpwindFacesForSubcell"]}
{"id": "C141", "title": "Meshes without vertical edges are refused", "statement": "A mesh with a vertex at which no cell has a vertical edge, which the method cannot handle, is refused with an error.", "quantifier": "all meshes, all numberings of vertices", "why_tests_cant": "The behaviour depends on the number of vertices and on their numbering.", "anchors": ["src/fv/share/tdymeshplex.c:SetupSubcells", "src/fv/share/tdymeshplex.c:FindCellsAboveAndBelowVertices", "src/fv/share/tdymeshplex.c:VertexIdWithSameXYInACell"]}
{"id": "C142", "title": "Cells above and below a vertex", "statement": "On every mesh of vertical prisms in columns the setup finds for each vertex exactly the cells above it and the cells below it, whether it looks at the vertex itself or takes the result over from the vertex at the other end of a vertical edge.", "quantifier": "all meshes of vertical prisms in columns, all numberings of vertices", "why_tests_cant": "Results are passed on from vertex to vertex in the order of their numbers.", "anchors": ["src/fv/share/tdymeshplex.c:FindCellsAboveAndBelowVertices", "src/fv/share/tdymeshplex.c:DetermineCellsAboveAndBelow", "src/fv/share/tdymeshplex.c:SaveCellIdsAtOppositeLevel"]}
{"id": "C143", "title": "The two cells of a face are the ones before and behind it", "statement": "After the mesh is created, an inner face has the same two cells it was given, and where the face separates their centres its normal points from the first cell to the second. A boundary face has the outside as its first cell and a normal that points into the cell. Every face with three or four vertices and a first cell is oriented.", "quantifier": "every mesh, every face and every listing of its vertices and cells", "why_tests_cant": "all coordinates and listings", "anchors": ["src/fv/share/tdymeshplex.c:UpdateCellOrientationAroundAFace"]}
{"id": "C144", "title": "The normal of a face is its unit normal and fits the order of its vertices", "statement": "The vertices of an oriented face are those it was given; its normal has length one, is perpendicular to the face, and is on the side from which the stored vertices are anticlockwise.", "quantifier": "every face and listing", "why_tests_cant": "all coordinates and listings", "anchors": ["src/fv/share/tdymeshplex.c:UpdateCellOrientationAroundAFace", "src/tdyutils.c:TDyNormalToQuadrilateral", "src/tdyutils.c:TDyUnitNormalToTriangle"]}
{"id": "C145", "title": "The vertices of a quadrilateral face are put in cyclic order", "statement": "Whatever the order in which the four corners of a convex face are listed, the stored list goes round the face.", "quantifier": "every convex quadrilateral and every listing of its corners", "why_tests_cant": "all coordinates and listings", "anchors": ["src/fv/share/tdymeshplex.c:UpdateCellOrientationAroundAFace"]}
{"id": "C146", "title": "Every vertex has its own part of each of its faces", "statement": "The part of a face whose flux is computed at a vertex is the part next to that vertex: no two vertices use the same part and none is left out.", "quantifier": "every mesh and every vertex, corners of the domain included", "why_tests_cant": "all meshes and listings", "anchors": ["src/fv/share/tdymeshplex.c:SetupUpwindFacesForSubcell", "src/fv/share/tdymeshplex.c:SetupSubcells", "src/fv/mpfao/tdympfao.c:ComputeTransmissibilityMatrix_ForBoundaryVertex_NotSharedWithInternalVertices", "src/fv/mpfao/tdympfao_ts.c:TDyMPFAOIFunction_Vertices"]}
{"id": "C147", "title": "The distances of two cells from their face add up to the distance of the cells", "statement": "For an inner face that separates the centres of its cells, the line between the centres is cut where it meets the face: the two distances are those of the centres from that point and add up to the distance of the centres, the weight is the share of the first, the direction has length one and points from the first cell to the second, and the projected area is the area times the cosine. For a boundary face the distance is that of the centre of the cell from the plane of the face, the direction is the inward normal, the weight of the outside is 0 and the projected area is the area.", "quantifier": "every triangle, every plane convex quadrilateral, every quadrilateral whose two corner planes separate the centres, and every position of the centres", "why_tests_cant": "all coordinates", "anchors": ["src/fv/share/tdymeshplex.c:ComputeGeoAttrOfFaces"]}
{"id": "C148", "title": "A mesh read by the library has the same areas and distances as one read through DMPlex", "statement": "The area of an inner face is the area of the triangle or plane convex quadrilateral, its distances, direction and weight are those of C147, and all numbers agree with those of the DMPlex mesh for a face oriented from its first cell to its second.", "quantifier": "every triangle, every plane convex quadrilateral and every position of the centres", "why_tests_cant": "all coordinates", "anchors": ["src/fv/share/tdymeshcustom.c:ComputeTriArea", "src/fv/share/tdymeshcustom.c:ComputeTriAreasAndIntercpet", "src/fv/share/tdymeshcustom.c:ComputeGeoAttrOfInternalFaces", "src/fv/share/tdymeshcustom.c:ComputeGeoAttrOfUGridFaces"]}
{"id": "C149", "title": "The centroid of a face is its centre of mass", "statement": "The point stored as the centroid of a face of a mesh read by the library is the centre of mass of the face.", "quantifier": "every triangle and every plane quadrilateral", "why_tests_cant": "all coordinates", "anchors": ["src/fv/share/tdymeshcustom.c:ComputeGeoAttrOfUGridFaces"]}
{"id": "C150", "title": "The statistics of the regression file are those of the solution", "statement": "The largest, smallest and mean pressure written to the regression file are those of the pressures of all cells of all ranks, and in TH mode the same holds of the temperatures.", "quantifier": "every number of ranks and cells per rank, every requested number of lines and every solution", "why_tests_cant": "all partitions and solutions", "anchors": ["src/tdyregression.c:TDyRegressionOutput", "src/tdyregression.c:TDyRegressionInitialize"]}
{"id": "C151", "title": "Each line of the regression file belongs to a cell", "statement": "Each line of the regression file gives the number of a cell and the pressure (or temperature) of that cell; no cell occurs twice and each rank contributes the same number of cells, the requested number if every rank has as many.", "quantifier": "every number of ranks and cells per rank, every requested number of lines and every solution", "why_tests_cant": "all partitions and solutions", "anchors": ["src/tdyregression.c:TDyRegressionOutput", "src/tdyregression.c:TDyRegressionInitialize"]}
{"id": "C152", "title": "The natural number of a cell is its place in the natural order", "statement": "The natural number stored for a cell of a mesh read through DMPlex is its place in the order of the mesh file, on every rank and for every number of fields.", "quantifier": "every number of ranks, cells per rank and fields", "why_tests_cant": "all partitions", "anchors": ["src/fv/share/tdymeshplex.c:SaveNaturalIDs"]}
{"id": "C153", "title": "Local cells are those whose unknowns the rank owns", "statement": "A cell is local exactly if the rank owns its unknowns, its global number is the global start of its unknowns also for a cell of another rank, and the number of local cells is the number of owned ones.", "quantifier": "every number of cells and every distribution over the ranks", "why_tests_cant": "all distributions", "anchors": ["src/fv/share/tdymeshplex.c:IdentifyLocalCells"]}
{"id": "C154", "title": "Every cell and boundary face has a column in the transmissibility matrix", "statement": "The columns written for the cells (also those of other ranks) and for the boundary faces are columns of the matrix created by the set-up, and no boundary face shares a column with a cell.", "quantifier": "every mesh and every distribution of its cells over the ranks", "why_tests_cant": "all meshes and distributions", "anchors": ["src/fv/mpfao/tdympfao.c:TDySetup_Richards_MPFAO", "src/fv/mpfao/tdympfao.c:TDySetup_TH_MPFAO", "src/fv/mpfao/tdympfao.c:TDySetup_Salinity_MPFAO", "src/fv/share/tdymesh.c:TDyMeshGetNumberOfNonLocalFaces", "src/fv/share/tdymesh.c:TDyMeshGetNumberOfNonInternalFaces"]}
{"id": "C155", "title": "The transmissibilities saved for a vertex are those of its flux continuity problem", "statement": "Each row of transmissibilities saved for a face at a vertex, applied to the pressures of the cells and of the boundary, is the flux that both sides of the face see once the face pressures balance the fluxes; rows and columns that do not belong to the vertex's problem are left as they were.", "quantifier": "every vertex (any number of cells, internal and boundary faces), every tensor and geometry, every earlier content of the saved rows", "why_tests_cant": "all sizes of blocks and all layouts of the buffers", "anchors": ["src/fv/mpfao/tdympfao.c:ExtractSubMatrix", "src/fv/mpfao/tdympfao.c:ExtractsubCMatrices", "src/fv/mpfao/tdympfao.c:ExtractsubFMatrices", "src/fv/mpfao/tdympfao.c:ComputeAinvB", "src/fv/mpfao/tdympfao.c:ComputeCtimesAinvB", "src/fv/mpfao/tdympfao.c:ComputeTransmissibilityMatrix_ForNonCornerVertex"]}
{"id": "C156", "title": "Asking for the boundary faces gives the boundary faces", "statement": "TDyGetBoundaryFaces returns the indices of the faces of the domain boundary, each once, and their number; the finite-element method imposes given pressures on exactly these faces.", "quantifier": "every mesh (any numbers of points, any incidences), created by PETSc or read from a PFLOTRAN file", "why_tests_cant": "the claim is about every mesh", "anchors": ["src/tdycore.c:TDyGetBoundaryFaces", "src/tdycore.c:TDySetFromOptions", "src/fe/tdywy.c:TDyWYComputeSystem"]}
{"id": "C157", "title": "Arrays of arrays are released completely", "statement": "An array of one to four dimensions, of any sizes including zero, is allocated in blocks that nothing else uses, and releasing it with the same sizes, whenever that happens, releases exactly these blocks, without an invalid access.", "quantifier": "all dimensions and sizes, every state of the heap at the allocation and at the release", "why_tests_cant": "sizes are unbounded and a leak or a double release shows only under special tools", "anchors": ["src/tdymemory.c:TDyAllocate_RealArray_2D", "src/tdymemory.c:TDyAllocate_RealArray_4D", "src/tdymemory.c:TDyDeallocate_RealArray_4D"]}
{"id": "C158", "title": "Destroying MPFA-O releases what its set-up allocated", "statement": "After a dycore using MPFA-O has been created, set up and destroyed, the heap holds what it held before; nothing is released twice.", "quantifier": "every mesh, every mode, every combination of material properties given, every state of the heap", "why_tests_cant": "a leak has no effect on results; all modes and materials together are too many to try", "anchors": ["src/fv/mpfao/tdympfao.c:TDyDestroy_MPFAO", "src/fv/mpfao/tdympfao.c:InitMaterials", "src/fv/share/tdymesh.c:TDyMeshDestroy"]}
{"id": "C159", "title": "Computations that are repeated in a run do not use up memory", "statement": "A local problem of a vertex, and the recovery of velocities after each step, leave the heap as they found it.", "quantifier": "every vertex with any numbers of cells and of internal and boundary fluxes, every state of the heap, any number of repetitions", "why_tests_cant": "memory is lost slowly and only in long runs", "anchors": ["src/fv/mpfao/tdympfao.c:ComputeTransmissibilityMatrix_ForNonCornerVertex", "src/fv/mpfao/tdympfao_utils.c:TDyMPFAORecoverVelocity_InternalVertices"]}
{"id": "C160", "title": "A function or constant the user has set stays in force until they set another", "statement": "After a user sets a function or a constant for a boundary condition, a source or a material property, evaluations use it, with the context given along with it, until the same quantity is set again; setting one quantity does not change another, and the context is released when it is replaced.", "quantifier": "every sequence of calls of the setters, of TDySelect... and of TDySetFromOptions, every registered function, every command line, all points of evaluation", "why_tests_cant": "sequences of calls are unbounded; a stale or swapped function shows only when that quantity matters", "anchors": ["src/tdycore.c:TDySetForcingFunction", "src/tdycore.c:TDySelectBoundaryPressureFunction", "src/tdycore.c:TDySetFromOptions", "src/tdycore.c:TDySetConstantPorosity", "src/materials/tdymaterialproperties.c:ConstantScalarWrapperFunction", "src/tdyconditions.c:ConditionsSetConstantBoundaryPressure"]}
{"id": "C161", "title": "A name of a boundary function that is not registered is reported", "statement": "Selecting a boundary function by a name under which nothing was registered fails with an error and leaves the condition as it was, in the program and on the command line.", "quantifier": "every registry, every name, every state before the call", "why_tests_cant": "names and registries are unbounded", "anchors": ["src/tdycore.c:TDyGetFunction", "src/tdycore.c:TDySelectBoundaryPressureFunction", "src/tdycore.c:ReadCommandLineOptions"]}
{"id": "C162", "title": "Boundary faces of the two-point method have the types the user asks for", "statement": "Each face of the boundary has the type that the user's function gives at the face's centroid, a value that is no type is refused at set-up, and a type given on the command line applies to all boundary faces if there is no function; given boundary pressures act on the faces that are not closed.", "quantifier": "every mesh, every type function, every option, every boundary pressure", "why_tests_cant": "type functions and meshes are unbounded; a wrong type at one face shows only for flows across it", "anchors": ["src/fv/fvtpf/tdyfvtpf.c:SetFaceBoundaryConditionType", "src/fv/fvtpf/tdyfvtpf.c:TDySetFromOptions_FVTPF", "src/fv/fvtpf/tdyfvtpf_snes.c:TDyFVTPFSNESFunction"]}
{"id": "C163", "title": "A setting of a method stays in force until it is set again, and is used", "statement": "TDyMPFAOSetGmatrixMethod, TDyMPFAOSetBoundaryConditionType, TDyWYSetQuadrature and TDyBDMSetQuadrature, and the options of the command line, set what the method uses until the same setting is made again; other settings do not change.", "quantifier": "every sequence of setters and of TDySetFromOptions, every command line, every method", "why_tests_cant": "sequences of calls are unbounded", "anchors": ["src/fv/mpfao/tdympfao.c:TDyMPFAOSetGmatrixMethod", "src/fv/mpfao/tdympfao.c:TDySetFromOptions_MPFAO", "src/fe/tdywy.c:TDyWYSetQuadrature", "src/fe/tdybdm.c:TDyBDMSetQuadrature", "src/tdycore.c:TDySetFromOptions"]}
{"id": "C164", "title": "The transmissibilities of every vertex fit into their arrays", "statement": "The numbers of cells and faces that the mesh reports as the most that meet at a vertex are exact, and on every mesh the transmissibilities of pressure, temperature and concentration are written inside the arrays that set-up makes with these numbers.", "quantifier": "every mesh, every boundary type, every vertex", "why_tests_cant": "an overrun needs a mesh with a vertex of the right kind and may go unnoticed when it happens", "anchors": ["src/tdyutils.c:TDyMaxNumOfAElmTypeSharingOtherElmType", "src/fv/mpfao/tdympfao.c:TDySetup_TH_MPFAO", "src/fv/mpfao/tdympfao.c:ComputeTransmissibilityMatrix", "src/tdymemory.c:TDyAllocate_RealArray_3D"]}
{"id": "C165", "title": "Profiles attribute the time of every call to its function and its stage", "statement": "With timers enabled, the profile shows for each function the number of its calls and their total time, and for each profiling stage the time spent in that part of the run; timers and stages are balanced in every execution.", "quantifier": "every execution (any nesting and number of calls, any times)", "why_tests_cant": "call histories are unbounded; an unbalanced timer shows only in the figures of later calls", "anchors": ["include/tdytimers.h:TDyGetTimer", "include/tdytimers.h:TDY_START_FUNCTION_TIMER", "include/tdytimers.h:TDyEnterProfilingStage", "src/fv/fvtpf/tdyfvtpf_snes.c:TDyFVTPFSNESJacobian", "src/tdycore.c:TDyUpdateState"]}
{"id": "C166", "title": "The timing profile describes the run", "statement": "With timers enabled, TDyWriteTimingProfile writes the file that was asked for, with the mode, the discretization, the number of processes and the number of cells of the run; enabling timers does not change whether a run works.", "quantifier": "every number of processes, every distribution of cells, every mode and discretization, every history of set-ups", "why_tests_cant": "distributions and histories are unbounded", "anchors": ["src/tdytimers.c:TDySetTimingMetadata", "src/tdytimers.c:TDyWriteTimingProfile", "src/tdycore.c:TDySetup"]}
{"id": "C167", "title": "Output files of a run are complete and can be read", "statement": "In each output format, after any number of outputs and TDyDestroy, the files of the run hold every output that was written; out.xmf has one header, the attributes of each output and one footer, and each attribute refers to a data set that exists.", "quantifier": "every format, every number of ranks, every history of outputs", "why_tests_cant": "histories of outputs are unbounded; the footer of out.xmf is only written at the end", "anchors": ["src/tdyio.c:TDyIOSetMode", "src/tdyio.c:TDyIOWriteVec", "src/tdyio.c:TDyIOWriteXMFAttribute", "src/tdyio.c:TDyIOWriteAsciiViewer", "src/tdyio.c:TDyIODestroy"]}
{"id": "C168", "title": "Saturation and mass are delivered in natural order", "statement": "TDyGetLiquidSaturation and TDyGetLiquidMass return the value of every cell at the natural number of the cell, in each mode and on any number of ranks.", "quantifier": "every mesh, every distribution over ranks, every number of unknowns per cell, all values", "why_tests_cant": "distributions are unbounded; with one unknown or one rank nothing shows", "anchors": ["src/tdycore.c:TDyGetLiquidSaturation", "src/tdycore.c:TDyGetLiquidMass", "src/tdydiscretization.c:TDyDiscretizationGlobalToNatural"]}
{"id": "C169", "title": "Fields in output files belong to their cells", "statement": "In an output file the pressures and the saturations are in the same order, that of the cells of the mesh in the file.", "quantifier": "every mesh, every distribution over ranks, every number of unknowns per cell, all values", "why_tests_cant": "a wrong order only shows on several ranks with a numbering that changes", "anchors": ["src/tdyio.c:TDyIOWriteVec", "src/tdycore.c:TDyGetLiquidSaturation", "src/tdydiscretization.c:TDyDiscretizationGlobalToNatural"]}
{"id": "C170", "title": "Every part of a face is found with its own data", "statement": "For each cell, each of its vertices and each face of the cell at the vertex, the tables of a finite volume mesh give the share of the face's area, the vector of the gradient and the centroid of that part of the face; a cell that has another number of faces than three at a vertex is refused.", "quantifier": "every mesh (any numbers of cells and faces, any shape)", "why_tests_cant": "the tables are filled by nested loops over the whole mesh; one subcell with wrong data shows only in fluxes there", "anchors": ["src/fv/share/tdymeshplex.c:SetupSubcells", "src/fv/share/tdymeshplex.c:TDySubCell_GetIthFaceCentroid", "src/fv/share/tdymesh.c:TDyMeshGetSubcellFaceCentroids", "src/fv/share/tdymeshplex.c:FindFaceIDsOfACellCommonToAVertex", "src/fv/share/tdymeshplex.c:FindNeighboringVerticesOfAFace"]}
{"id": "C171", "title": "Velocities are compared with the user's function at their places", "statement": "The velocity error that is printed compares the velocity of every part of a face with the velocity function of the user at that part of the face.", "quantifier": "every mesh, every velocity function, all recovered velocities, any number of processes", "why_tests_cant": "functions are infinite objects; a constant function shows nothing", "anchors": ["src/fv/mpfao/tdympfao_utils.c:TDyMPFAORecoverVelocity", "src/fv/share/tdymeshplex.c:TDySubCell_GetIthFaceCentroid", "src/fv/share/tdymesh.c:TDyMeshGetSubcellFaceCentroids"]}
{"id": "C172", "title": "A mesh in PFLOTRAN format can be used with every method and material function", "statement": "After naming a mesh in PFLOTRAN format, TDySetFromOptions and TDySetup succeed for every pair of mode and discretization TDySetDiscretization accepts, cells have the unknowns of the mode, and every material property has the value the user asked for at the centroid of each cell.", "quantifier": "all accepted pairs of mode and discretization, all material properties given by values or by functions of the place, all numbers of cells", "why_tests_cant": "The combinations of methods, modes and material functions that are not exercised by a PFLOTRAN mesh are the ones that go wrong; functions can be any function.", "anchors": ["src/tdycore.c:TDySetFromOptions", "src/tdycore.c:TDySetDiscretization", "src/fv/share/tdyugdm.c:CreateVecScatters", "src/fv/share/tdydm.c:TDyDMCreateFromUGrid", "src/fv/fvtpf/tdyfvtpf.c:TDySetup_Richards_FVTPF", "src/fv/fvtpf/tdyfvtpf.c:InitMaterials", "src/fv/mpfao/tdympfao.c:TDySetup_Richards_MPFAO"]}
{"id": "C173", "title": "Vectors of a mesh in PFLOTRAN format convert into each other without loss", "statement": "For the DM of a mesh in PFLOTRAN format, taking a global vector to the local vectors of all ranks and back leaves it unchanged, and refreshing ghost values within local vectors gives every ghost cell the values its owner holds, for every distribution of the cells and every number of unknowns.", "quantifier": "all numbers of ranks, distributions of cells, ghost cells, numbers of unknowns and vectors", "why_tests_cant": "Distributions and ghost cells depend on the mesh, the partitioner and the number of ranks.", "anchors": ["src/fv/share/tdyugdm.c:CreateLocalOrderIS", "src/fv/share/tdyugdm.c:CreatePetscOrderIS", "src/fv/share/tdyugdm.c:CreateVecScatters", "src/fv/share/tdydm.c:TDyDMCreateFromUGrid"]}
{"id": "C174", "title": "An error while the mesh is made stops the set-up", "statement": "If the function that creates the DM fails, TDySetFromOptions returns an error; if the mesh cannot be created from the DM, because it is not three-dimensional or because a part of it cannot be made, TDySetup returns an error; no unfinished mesh is used.", "quantifier": "all set-up functions, dimensions, and steps of the creation at which an error is found", "why_tests_cant": "Errors at each step of the creation need meshes and failures that tests do not have.", "anchors": ["src/fv/share/tdymeshplex.c:TDyMeshCreateFromPlex", "src/fv/mpfao/tdympfao.c:TDySetup_Richards_MPFAO", "src/fv/mpfao/tdympfao.c:TDySetup_TH_MPFAO", "src/fv/mpfao/tdympfao.c:TDySetup_Salinity_MPFAO", "src/fv/fvtpf/tdyfvtpf.c:TDySetup_Richards_FVTPF", "src/tdycore.c:TDySetFromOptions"]}
{"id": "C175", "title": "TDyDestroy gives back everything the object acquired", "statement": "After TDyCreate, any sequence of accepted calls and TDyDestroy, nothing the object acquired is still live.", "quantifier": "all methods, kinds of mesh and sequences of calls", "why_tests_cant": "Sequences of calls are unbounded, and leaks are not observable in the results tests compare.", "anchors": ["src/tdycore.c:TDyCreate", "src/tdycore.c:TDySetFromOptions", "src/tdycore.c:TDySetup", "src/tdycore.c:TDyDestroy", "src/tdydiscretization.c:TDyDiscretizationCreate", "src/tdydiscretization.c:TDyDiscretizationDestroy", "src/fv/share/tdyugdm.c:TDyUGDMCreateFromUGrid"]}
{"id": "C176", "title": "Setting characteristic curves again gives back the arrays of the previous ones", "statement": "For any sequence of assignments of points and parameters to a type of curve, followed by the destruction of the curves, no array is still live.", "quantifier": "all sequences of numbers of points", "why_tests_cant": "Sequences of assignments are unbounded, and leaks are not observable in results.", "anchors": ["src/materials/tdycharacteristiccurves.c:SaturationSetType", "src/materials/tdycharacteristiccurves.c:RelativePermeabilitySetType", "src/materials/tdycharacteristiccurves.c:SaturationDestroy", "src/materials/tdycharacteristiccurves.c:RelativePermeabilityDestroy"]}
{"id": "C177", "title": "The transmissibilities of a vertex exist and drive flow downhill", "statement": "Around a vertex whose cells are parallelepipeds with positive definite permeability tensors, different from cell to cell, the face pressures are determined by the pressures of the cells and of the boundary, so that TDySetup does not fail; the fluxes computed from the transmissibilities go from high to low pressure on the whole.", "quantifier": "all vertices with any number of cells, all such tensors, geometries, boundary types, and pressures", "why_tests_cant": "Tensors, geometries and numbers of cells are unbounded; a singular local system shows only in particular combinations.", "anchors": ["src/fv/mpfao/tdympfao.c:ComputeTransmissibilityMatrix_ForNonCornerVertex", "src/fv/mpfao/tdympfao.c:ComputeAinvB", "src/fv/mpfao/tdympfao.c:ComputeGMatrix_MPFAO"]}
{"id": "C178", "title": "The steady problem has exactly one solution", "statement": "On one process, on a connected mesh of parallelepipeds with positive definite permeability tensors and prescribed pressures on the boundary, the system TDyComputeSystem assembles for the MPFA-O method has exactly one solution for every right-hand side.", "quantifier": "all such meshes, tensors, and right-hand sides", "why_tests_cant": "Meshes and tensors are unbounded; solvability of one system says nothing about others.", "anchors": ["src/fv/mpfao/tdympfao.c:TDyMPFAOComputeSystem", "src/fv/mpfao/tdympfao_steady.c:TDyMPFAOComputeSystem_InternalVertices", "src/fv/mpfao/tdympfao_steady.c:TDyMPFAOComputeSystem_BoundaryVertices_SharedWithInternalVertices", "src/fv/mpfao/tdympfao_steady.c:TDyMPFAOComputeSystem_BoundaryVertices_NotSharedWithInternalVertices"]}
{"id": "C179", "title": "The steady matrix is symmetric for symmetric tensors", "statement": "On one process, on a mesh of parallelepipeds with symmetric permeability tensors and prescribed pressures on the boundary, the matrix TDyComputeSystem assembles for the MPFA-O method is symmetric, so that solvers for symmetric matrices may be chosen.", "quantifier": "all such meshes and tensors, all pairs of cells", "why_tests_cant": "Meshes and tensors are unbounded; symmetry of one matrix says nothing about others.", "anchors": ["src/fv/mpfao/tdympfao.c:TDyMPFAOComputeSystem", "src/fv/mpfao/tdympfao.c:ComputeGMatrix_MPFAO", "src/fv/mpfao/tdympfao_steady.c:TDyMPFAOComputeSystem_InternalVertices"]}
{"id": "C180", "title": "Without gravity no new highest or lowest pressure appears", "statement": "In a step of the two-point method that the solver has solved on one process, without gravity, with cells that all conduct water: without inflow from sources no cell gets a pressure above all pressures before the step and on the boundary, and without outflow to sources none below, provided more pressure means more water in each cell (exponential density and van Genuchten curve do).", "quantifier": "all meshes, materials, states, boundary values and step lengths for which the residual of TDyFVTPFSNESFunction is zero", "why_tests_cant": "The bound must hold for every mesh and every solution of the nonlinear system; a test looks at one solution.", "anchors": ["src/fv/fvtpf/tdyfvtpf_snes.c:TDyFVTPFSNESFunction", "src/fv/fvtpf/tdyfvtpf_snes.c:RichardsResidual", "src/fv/fvtpf/tdyfvtpf_snes.c:RichardsSeepageBCResidual", "src/materials/tdyeos.c:ComputeWaterDensity_Exponential"]}
{"id": "C181", "title": "With incompressible water a step has one outcome and keeps the order", "statement": "In the two-point method with constant density and viscosity, with gravity and any boundary faces, on one process and with cells that all conduct: a step has at most one outcome for the water in the cells; a run that starts the step with no more water in any cell ends it with no more in any; and the difference between two runs, measured by the water to be moved, never grows.", "quantifier": "all meshes, materials, pairs of states and step lengths for which the residuals are zero", "why_tests_cant": "Uniqueness and order concern all pairs of solutions of nonlinear systems of any size.", "anchors": ["src/fv/fvtpf/tdyfvtpf_snes.c:TDyFVTPFSNESFunction", "src/fv/fvtpf/tdyfvtpf_snes.c:RichardsResidual", "src/fv/fvtpf/tdyfvtpf_snes.c:RichardsBCResidual", "src/fv/fvtpf/tdyfvtpf_snes.c:RichardsSeepageBCResidual"]}
{"id": "C182", "title": "Newton systems of the two-point method can be solved", "statement": "With incompressible water of constant viscosity, on one process and with cells that all conduct, the linear system of every Newton iteration of the two-point method has exactly one solution whenever every cell is joined by faces to a cell that can take up water or that has a boundary face with a prescribed pressure; and the pressure changes are nowhere negative if the right-hand side is nowhere negative.", "quantifier": "all meshes, materials, states, boundary values, step lengths and right-hand sides", "why_tests_cant": "Regularity of a matrix of any size for every state the iteration passes through; a test sees a few matrices.", "anchors": ["src/fv/fvtpf/tdyfvtpf_snes.c:TDyFVTPFSNESJacobian", "src/fv/fvtpf/tdyfvtpf_snes.c:RichardsJacobian", "src/fv/fvtpf/tdyfvtpf_snes.c:RichardsBCJacobian", "src/fv/fvtpf/tdyfvtpf_snes.c:RichardsSeepageBCJacobian"]}
{"id": "C183", "title": "The WY system is positive definite", "statement": "With positive definite permeabilities, on regular cells that are all tied to the boundary through faces, the matrix of a WY system is positive definite, and the system has exactly one solution whatever its right-hand side.", "quantifier": "all meshes, permeabilities and pressures, and all right-hand sides", "why_tests_cant": "Definiteness of a matrix of any size, for all permeabilities; a test sees a few matrices.", "anchors": ["src/fe/tdywy.c:TDyWYComputeSystem", "src/fe/tdywy.c:FormStencil", "src/fe/tdywy.c:TDyWYLocalElementCompute"]}
{"id": "C184", "title": "Every unknown has one place in the solution vector", "statement": "In every mode and discretization the solution vector holds every unknown of every cell (and, for the mixed finite elements, of every face) exactly once and nothing else: with n fields, value f of cell c is at n*c+f; WY pressures and BDM pressures of cell c are at c, followed by the velocities of the faces, one for each of their vertices; diagnostic saturation and mass of cell c are at 2c and 2c+1. The fields have their documented names.", "quantifier": "all meshes and all modes", "why_tests_cant": "A bijection between unknowns and places for meshes of any size.", "anchors": ["src/fv/mpfao/tdympfao.c:SetFields", "src/fv/fvtpf/tdyfvtpf.c:SetFields", "src/fe/tdywy.c:TDySetup_WY", "src/fe/tdybdm.c:TDySetup_BDM", "src/tdycore.c:TDySetup"]}
{"id": "C185", "title": "The system of the BDM method has exactly one solution", "statement": "On every mesh of quadrilaterals or hexahedra from each of whose cells a chain of neighbours leads to the boundary of the mesh, with symmetric positive definite permeabilities and cells whose map is regular, the linear system the BDM method assembles has exactly one solution, for every right hand side, with either quadrature and whatever boundary pressures are or are not given.", "quantifier": "all meshes, permeabilities, sources and boundary pressures", "why_tests_cant": "Regularity of a matrix of any size, for all coefficients.", "anchors": ["src/fe/tdybdm.c:TDyBDMComputeSystem", "src/fe/tdyfe.c:HdivBasisQuad", "src/fe/tdyfe.c:HdivBasisHex", "src/fe/tdyfe.c:SetQuadrature"]}
{"id": "C186", "title": "The equations of MPFA-O do not depend on the number of processes", "statement": "Whatever part of a mesh a process holds, in whatever order it numbers its cells, vertices, faces and boundary faces and whichever side of a face it calls up, the residuals it computes for its own cells (steady SNES form, TS form, transient-variable form), the accumulation of the last step and the rows of the Jacobian are those a single process computes for these cells. So all the processes together accept exactly the solutions a single process accepts.", "quantifier": "all meshes, distributions, numberings, orientations and states", "why_tests_cant": "Needs every distribution of every mesh; tests compare a few process counts on a few meshes up to a tolerance.", "anchors": ["src/fv/mpfao/tdympfao_ts.c", "src/fv/mpfao/tdympfao_snes.c", "src/fv/mpfao/tdympfao_ts_transientvar.c", "src/fv/share/tdymeshplex.c:IdentifyLocalVertices"]}
{"id": "C187", "title": "Transmissibilities do not depend on the order in which a mesh is listed", "statement": "Listing the cells around a vertex and the faces of each of them in another order, giving the faces other numbers and naming the sides of any of them the other way round changes neither whether the vertex is refused nor the flux through any face for given pressures, up to the sign that goes with the direction of its normal. The rows saved for the vertex have the same entries, found under the names of the same cells and boundary faces.", "quantifier": "all vertices with any number of cells, all orders, numberings, orientations and tensors", "why_tests_cant": "The local systems of the two lists differ in size order and sign; equality of the eliminated coefficients holds for all of them or is an accident of the sample.", "anchors": ["src/fv/mpfao/tdympfao.c:ComputeTransmissibilityMatrix_ForNonCornerVertex", "src/fv/share/tdymeshplex.c:SetupUpwindFacesForSubcell"]}
{"id": "C188", "title": "The equations of the two-point method do not depend on the number of processes", "statement": "Whatever part of a mesh a process holds, however it numbers its cells, faces and boundary faces and whichever side of a face between cells it calls up, the residual it computes for its own cells, the accumulation of the last step and the rows of the Jacobian are those a single process computes for these cells.", "quantifier": "all meshes, distributions, numberings, orientations and states", "why_tests_cant": "Needs every distribution of every mesh and every numbering.", "anchors": ["src/fv/fvtpf/tdyfvtpf_snes.c:TDyFVTPFSNESFunction", "src/fv/fvtpf/tdyfvtpf_snes.c:TDyFVTPFSNESJacobian", "src/fv/fvtpf/tdyfvtpf_snes.c:RichardsBCResidual", "src/fv/fvtpf/tdyfvtpf_snes.c:TDyFVTPFSNESPreSolve"]}
{"id": "C189", "title": "Whatever the partitioner answers, an imported mesh is distributed completely and unchanged", "statement": "When a mesh is read from a PFLOTRAN file, every cell of the file is held by the process the partitioner gave it and by no other, once, whatever the assignment (empty processes included); a process numbers its cells in the order of the file and its first global number is the number of cells of the processes before it, also on the first process; on its process a cell has its natural number, vertices and neighbours of the file, and a neighbour is a ghost exactly when it was given to another process.", "quantifier": "all meshes, numbers of processes, distributions of the reading and assignments of cells to processes", "why_tests_cant": "The partition comes from a library and differs with the number of processes; a test sees one.", "anchors": ["src/fv/share/tdyugrid.c:PartitionGrid", "src/fv/share/tdyugrid.c:CreateISNatOrderToPetscOrder", "src/fv/share/tdyugrid.c:CreateApplicationOrder", "src/fv/share/tdyugrid.c:ScatterVecNatOrderToPetscOrder", "src/fv/share/tdyugrid.c:TDyUGridCreateFromPFLOTRANMesh"]}
{"id": "C190", "title": "The equations of the coupled modes do not depend on the number of processes", "statement": "In the salinity and TH modes the balances of water, salt and energy a process computes for its own cells are those a single process computes, whatever part of the mesh the process holds, however it numbers it and whichever side of a face it names first.", "quantifier": "all meshes, distributions, numberings, orders of the sides and states", "why_tests_cant": "Needs every distribution of every mesh; a test compares a few runs.", "anchors": ["src/fv/mpfao/tdympfao_snes_salinity.c:TDyMPFAOSNESFunction_Salinity", "src/fv/mpfao/tdympfao_snes_salinity.c:TDyMPFAOSNESPreSolve_Salinity", "src/fv/mpfao/tdympfao_th_ts.c:TDyMPFAOIFunction_TH", "src/fv/mpfao/tdympfao_th_ts.c:TDyMPFAOIFunction_Vertices_TH"]}
{"id": "C191", "title": "The steady system of MPFA-O does not depend on the number of processes", "statement": "The rows of matrix and right-hand side that the processes assemble for their cells are those of a single process, whatever part of the mesh each process holds, however it numbers cells, vertices, subfaces and boundary faces and whichever side of a face it names first; no process adds to rows of another. The same pressures solve the system on any number of processes.", "quantifier": "all meshes, distributions, numberings, orders of the sides, transmissibilities, boundary pressures, sources and pressures", "why_tests_cant": "Needs every distribution of every mesh; a test compares a few runs.", "anchors": ["src/fv/mpfao/tdympfao.c:TDyMPFAOComputeSystem", "src/fv/mpfao/tdympfao_steady.c:TDyMPFAOComputeSystem_InternalVertices", "src/fv/mpfao/tdympfao_steady.c:TDyMPFAOComputeSystem_BoundaryVertices_SharedWithInternalVertices", "src/fv/mpfao/tdympfao_steady.c:TDyMPFAOComputeSystem_BoundaryVertices_NotSharedWithInternalVertices"]}
{"id": "C192", "title": "The WY system and its residual do not depend on the number of processes", "statement": "The rows of matrix and right-hand side that the processes assemble with the WY method add up to the system of a single process, whatever part of the mesh each process holds beyond the vertices of its own cells, however it numbers and orders cells, vertices and faces and whichever way it points the normals; no process adds to rows of another. The residual of a cell is the same too.", "quantifier": "all meshes, distributions, numberings, orders, normals, permeabilities, boundary pressures, sources and pressures", "why_tests_cant": "Needs every distribution of every mesh; a test compares a few runs.", "anchors": ["src/fe/tdywy.c:TDyWYComputeSystem", "src/fe/tdywy.c:TDyWYLocalElementCompute", "src/fe/tdywy.c:FormStencil", "src/fe/tdywy.c:TDyWYRecoverVelocity", "src/fe/tdywy.c:TDyWYResidual"]}
{"id": "C193", "title": "Over a run, water and salt change by what was supplied", "statement": "From the start of a simulation to the end of any sequence of runs, whatever steps were taken, failed, cut and repeated, the water in the domain (and the salt) changes by what sources and boundaries supplied in the time that is reported, up to the tolerance of the solver per cell and unit of time; a run that gives up leaves the balance intact.", "quantifier": "all meshes, states, sources, boundary conditions, step sizes, requested times and all outcomes of the nonlinear solver", "why_tests_cant": "Needs every history of failures and step cuts; a test sees a few runs.", "anchors": ["src/tdyti.c:TDyTimeIntegratorRunToTime", "src/fv/fvtpf/tdyfvtpf_snes.c:TDyFVTPFSNESFunction", "src/fv/fvtpf/tdyfvtpf_snes.c:TDyFVTPFSNESPreSolve", "src/fv/fvtpf/tdyfvtpf_snes.c:TDyFVTPFSNESTimeCut", "src/fv/mpfao/tdympfao_snes.c:TDyMPFAOSNESFunction", "src/fv/mpfao/tdympfao_snes.c:TDyMPFAOSNESPreSolve", "src/fv/mpfao/tdympfao_snes_salinity.c:TDyMPFAOSNESFunction_Salinity"]}
{"id": "C194", "title": "With incompressible water a run has one outcome and keeps the order", "statement": "Two simulations of the same model with the two-point method that are run to the same times and whose solvers fail at the same calls take the same steps. If one starts with no more water in any cell and its sources give no more, it never has more water in any cell; with the same sources the two never move apart; with the same start as well they hold the same water after every step, whatever solvers found it.", "quantifier": "all meshes, materials, pairs of initial states, sequences of requested times, histories of failed solves and solvers", "why_tests_cant": "Needs all pairs of runs and all solvers.", "anchors": ["src/tdyti.c:TDyTimeIntegratorRunToTime", "src/fv/fvtpf/tdyfvtpf_snes.c:TDyFVTPFSNESFunction", "src/fv/fvtpf/tdyfvtpf_snes.c:TDyFVTPFSNESPreSolve", "src/fv/fvtpf/tdyfvtpf_snes.c:TDyFVTPFSNESTimeCut"]}
{"id": "C195", "title": "Without gravity a run stays within the pressures it started with", "statement": "A simulation with the two-point method without gravity and without sources, run to any sequence of times with any number of failed solves, keeps all pressures between the lowest and the highest of those it started with and those on its boundary.", "quantifier": "all meshes, materials, initial states, boundary pressures, sequences of requested times and histories of failed solves", "why_tests_cant": "Needs all runs.", "anchors": ["src/tdyti.c:TDyTimeIntegratorRunToTime", "src/fv/fvtpf/tdyfvtpf_snes.c:TDyFVTPFSNESFunction"]}
{"id": "C196", "title": "The BDM system does not depend on how the mesh is distributed", "statement": "When every cell is owned by exactly one process, the matrix and the right hand side of the BDM method that several processes assemble together are those one process assembles for the whole mesh, up to the numbering of the rows; if one process can assemble the system, so can the several.", "quantifier": "all meshes, permeabilities, forcings and boundary pressures, all numbers of processes, distributions with ghost cells and numberings of points and rows", "why_tests_cant": "Needs all distributions.", "anchors": ["src/fe/tdybdm.c:TDyBDMComputeSystem", "src/fe/tdybdm.c:IntegratePressureBoundary", "src/fe/tdybdm.c:TDySetup_BDM"]}
{"id": "C197", "title": "The function a Fortran program sets is the function that is evaluated", "statement": "After any sequence of calls that set functions from Fortran, evaluating a quantity of an object calls the function the program set last for that quantity of that object.", "quantifier": "all sequences of calls, any number of objects, quantities and functions", "why_tests_cant": "Depends on the whole history of calls of the process, over all objects.", "anchors": ["src/f90-mod/tdycoremod.F90:TDySetPorosityFunction", "src/f90-mod/tdycoremod.F90:FindOrAppendSpatialFunction", "src/f90-mod/tdycoref.c"]}
{"id": "C198", "title": "A Fortran function selected by name is the one registered under that name", "statement": "After registering functions under names from Fortran, selecting a name for a quantity makes that quantity be evaluated by the function last registered under the name.", "quantifier": "all sequences of registrations, all names and functions", "why_tests_cant": "Depends on all names and on the history of registrations.", "anchors": ["src/f90-mod/tdycoremod.F90:TDyRegisterFunction", "src/f90-mod/tdycoremod.F90:TDySelectPorosityFunction"]}
{"id": "C199", "title": "A Fortran function sees all coordinates and sets all values", "statement": "A function of a Fortran program can read every coordinate of each of the points it is called for and set every value it is asked for.", "quantifier": "all dimensions, numbers of points, coordinates and functions", "why_tests_cant": "Needs all numbers of points and components.", "anchors": ["src/f90-mod/tdycoremod.F90:TDyCallF90SpatialFunction", "src/tdycore.c"]}
{"id": "C200", "title": "The mesh of an object is made by the constructor given for it", "statement": "In a Fortran program the mesh of an object is made by the constructor that was given for that object last before its options are set, or is the default mesh if there is none.", "quantifier": "all sequences of calls, any number of objects", "why_tests_cant": "Depends on the calls for all objects.", "anchors": ["src/f90-mod/tdycoref.c", "src/f90-mod/tdycoremod.F90:TDySetDMConstructor"]}
{"id": "C201", "title": "The constants of the Fortran interface mean what those of C mean", "statement": "Every mode, discretization and law of the density has a constant in the Fortran interface, and every constant means the same as the one of that name in C.", "quantifier": "all constants", "why_tests_cant": "Tests use few of the constants.", "anchors": ["src/f90-mod/tdycore.h", "include/tdycore.h"]}
{"id": "C202", "title": "The problems of the program steady have the exact solutions it compares with", "statement": "For every choice of paper, problem and anisotropy, the permeability, pressure, velocity and source that the program hands to the library satisfy Darcy's law and the balance of mass at every point, and each function gives its values for any number of points.", "quantifier": "all papers, problems, dimensions, anisotropies, numbers of points and points", "why_tests_cant": "Identities of derivatives at all points; runs see the quadrature points of one mesh.", "anchors": ["demo/steady/steady.c:main", "demo/steady/steady.c:ForcingWheeler2012_2", "demo/steady/steady.c:VelocityConstant"]}
{"id": "C203", "title": "The permeabilities of the program steady are symmetric and positive", "statement": "For every choice of paper and problem the permeability is a symmetric tensor at every point, positive in the plane always and in space for every anisotropy above two thirds.", "quantifier": "all papers, problems, anisotropies, points and gradients", "why_tests_cant": "Needs all gradients and anisotropies.", "anchors": ["demo/steady/steady.c:PermWheeler2012_2", "demo/steady/steady.c:PermTest3D"]}
{"id": "C204", "title": "The program steady runs a problem it knows or stops", "statement": "With every combination of options the program either has its four functions or stops with an error.", "quantifier": "all options and all contents of uninitialised memory", "why_tests_cant": "Depends on memory that tests cannot control.", "anchors": ["demo/steady/steady.c:main"]}
{"id": "C205", "title": "The program steady moves vertices without letting them meet", "statement": "Moving the vertices of the mesh keeps distinct vertices distinct, keeps the sides of the domain where they are, and writes nothing but coordinates.", "quantifier": "all papers, problems, dimensions and meshes", "why_tests_cant": "Injectivity on the whole plane or space.", "anchors": ["demo/steady/steady.c:PerturbVerticesSmooth", "demo/steady/steady.c:GeometryWheeler2006_2", "demo/steady/steady.c:GeometryColumn"]}
{"id": "C206", "title": "The random mesh of the program transient is valid whatever the random numbers are", "statement": "For every size of the mesh and every sequence of random numbers, the vertices keep their order in each column, stay in the box and keep the boundary; its functions give their values for any number of points.", "quantifier": "all mesh sizes, all sequences of random numbers, all numbers of points", "why_tests_cant": "Tests see one sequence of random numbers.", "anchors": ["demo/transient/transient.c:PerturbInteriorVertices", "demo/transient/transient.c:Forcing"]}
{"id": "C207", "title": "The program salinity starts every cell with its values", "statement": "On every mesh and distribution the program sets pressure and salt in every cell and writes only the memory of its vector.", "quantifier": "all numbers of local cells and all previous contents", "why_tests_cant": "Depends on mesh and distribution.", "anchors": ["demo/salinity/salinity.c:main"]}
{"id": "C208", "title": "Linear pressures are exact for the WY method", "statement": "On every mesh of parallelograms or parallelepipeds, if the pressure is linear in space in the cells and where it is given, and K grad p is the same everywhere, the velocities that the WY method recovers are exactly -K grad p along the normal at every vertex of every face, the residual is the accumulation less the source, and the assembled system has the linear pressure as its only solution.", "quantifier": "all meshes of affine cells, permeabilities, linear pressures and number of cells", "why_tests_cant": "A patch test passes on one mesh and one gradient; the claim is about all of them.", "anchors": ["src/fe/tdywy.c:TDyWYLocalElementCompute", "src/fe/tdywy.c:TDyWYComputeSystem", "src/fe/tdywy.c:TDyWYRecoverVelocity", "src/fe/tdywy.c:TDyWYResidual"]}
{"id": "C209", "title": "Linear pressures are exact for the BDM method", "statement": "On every mesh of parallelograms or parallelepipeds, if the given boundary pressure is linear in space, K grad p is the same everywhere and there is no source, the solution of the assembled BDM system has the linear pressure at the centre of every cell and the velocity -K grad p at every point, whatever quadrature the user chooses.", "quantifier": "all meshes of affine cells, permeabilities, linear pressures and both quadratures", "why_tests_cant": "A patch test passes on one mesh and one gradient; the claim is about all of them.", "anchors": ["src/fe/tdybdm.c:TDyBDMComputeSystem", "src/fe/tdybdm.c:IntegratePressureBoundary", "src/fe/tdyfe.c:SetQuadrature", "src/fe/tdybdm.c:TDyBDMSetQuadrature"]}
{"id": "C210", "title": "BDM velocities conserve water in every cell", "statement": "For every mesh of quadrilaterals or hexahedra, straight or not, every symmetric invertible permeability, source and quadrature, the velocities that solve the assembled BDM system conserve water: what leaves a cell through its faces is the integral of the source over the cell, what leaves a cell through a shared face enters its neighbour, and all that leaves through the boundary is all that the sources give.", "quantifier": "all meshes, permeabilities, sources, boundary conditions, quadratures and solutions of the system", "why_tests_cant": "A test sums the fluxes of one solution on one mesh up to rounding.", "anchors": ["src/fe/tdybdm.c:TDyBDMComputeSystem", "src/fe/tdybdm.c:IntegratePressureBoundary", "src/fe/tdyfe.c:HdivBasisQuad", "src/fe/tdyfe.c:HdivBasisHex"]}
{"id": "C211", "title": "The WY method follows vertices that are moved after setup", "statement": "When the vertices of the mesh are moved after TDySetup, as the program steady does, the WY method solves the problem on the moved mesh: matrix, right-hand side, residual and velocities are those of an object that was set up on the moved mesh.", "quantifier": "all meshes, moves that keep faces non-degenerate, permeabilities, pressures and states", "why_tests_cant": "Setup stores areas and centroids and the system takes Jacobians from the mesh; a test compares errors of one problem, which is not enough to see which part is stale.", "anchors": ["demo/steady/steady.c:main", "src/fe/tdywy.c:TDySetup_WY", "src/fe/tdywy.c:TDyWYComputeSystem", "src/fe/tdywy.c:TDyWYRecoverVelocity", "src/fe/tdywy.c:TDyWYResidual"]}
{"id": "C212", "title": "Concentrations of salt stay within the values they started with", "statement": "In salinity mode, without sources of salt, the concentrations of the cells after a step lie between the smallest and the largest of those before it, the boundary included: fresh water stays fresh, a uniform concentration stays uniform, and no concentration leaves [0,1].", "quantifier": "all meshes, pressures, states, lengths of steps and sequences of runs in salinity mode", "why_tests_cant": "A maximum principle holds for a scheme or fails for it; tests compare one solution with a stored one.", "anchors": ["src/fv/mpfao/tdympfao_snes_salinity.c:TDyMPFAOIFunction_Vertices_Salinity", "src/fv/mpfao/tdympfao_snes_salinity.c:TDyMPFAOSNESFunction_Salinity", "src/fv/mpfao/tdympfao_snes_salinity.c:TDyMPFAOSNESPreSolve_Salinity"]}
{"id": "C213", "title": "The place of the mesh in space does not matter", "statement": "Moving all points of a mesh by the same vector changes no result but the coordinates: volumes, areas, normals, distances, the order of cells around vertices, the tables of the subcells, the matrices of the MPFA-O method, gravity coefficients, residuals, Jacobians and recovered velocities stay as they are, and centroids move along.", "quantifier": "all meshes, vectors, states, permeabilities and gravity vectors", "why_tests_cant": "Tests use meshes at one place; whether an absolute coordinate enters a coefficient is a statement about all of them.", "anchors": ["src/tdyutils.c:TDyQuadrilateralArea", "src/fv/share/tdymeshplex.c:ComputeGeoAttrOfFaces", "src/fv/share/tdymeshplex.c:SetupSubcells", "src/fv/share/tdymeshcustom.c:ComputeGeoAttrOfUGridFaces", "src/fv/mpfao/tdympfao.c:ComputeGMatrix", "src/fv/mpfao/tdympfao.c:ComputeGravityDiscretization", "src/fv/mpfao/tdympfao_utils.c:TDyMPFAORecoverVelocity", "src/fv/mpfao/tdympfao_th_ts.c:TDyMPFAOIJacobian_TH"]}
{"id": "C214", "title": "Repeated calls give back the PETSc objects they create", "statement": "Output, checkpoints, reading of fields, getters, residuals and Jacobians leave the number of vectors, viewers and other PETSc objects of the process as they found it, so that the number does not grow with the number of calls or steps.", "quantifier": "all configurations of mesh, natural order and output format, all numbers of repetitions, all runs", "why_tests_cant": "A test makes a few calls and ends; growth over any number of steps is a statement about all run lengths.", "anchors": ["src/tdyio.c:TDyIOWriteVec", "src/tdyio.c:TDyIOOutputCheckpoint", "src/tdyio.c:TDyIOReadIC", "src/tdyio.c:TDyIOReadVariable", "src/tdycore.c:TDyGetLiquidSaturation", "src/tdyutils.c:ExtractSubVectors", "src/fv/mpfao/tdympfao_ts_dae.c:TDyMPFAOIFunction_DAE", "src/tdyregression.c:TDyRegressionOutput"]}
{"id": "C215", "title": "Flowing water carries heat with it", "statement": "In the water and heat mode, water that flows into a cell brings the heat of the temperature it comes with: a stream from a warmer cell or boundary warms the cell, and the rate of warming grows with the stream.", "quantifier": "all meshes, materials, pressures, temperatures, boundary temperatures and flow rates", "why_tests_cant": "A test with the built-in material compares with a stored result of the same code; that a quantity has no influence is a statement about all flows and temperatures.", "anchors": ["src/materials/tdyeos.c:EOSComputeWaterEnthalpy", "src/fv/mpfao/tdympfao.c:TDyUpdateState_TH_MPFAO", "src/fv/mpfao/tdympfao.c:AllocateMemoryForEnergyBoundaryValues", "src/fv/mpfao/tdympfao_th_ts.c:TDyMPFAOIFunction_TH"]}
{"id": "C216", "title": "Temperatures stay within the values they started with", "statement": "In the water and heat mode without heat sources, the temperatures after an implicit step, and after any number of them, lie between the lowest and the highest of those before it and those of the boundary.", "quantifier": "all meshes, materials, flows, temperatures, step sizes and numbers of steps", "why_tests_cant": "A test sees single runs; a maximum principle is a statement about all fields and all step sizes.", "anchors": ["src/fv/mpfao/tdympfao_th_ts.c:TDyMPFAOIFunction_TH", "src/fv/mpfao/tdympfao_th_ts.c:TDyMPFAOIFunction_Vertices_TH", "src/fv/mpfao/tdympfao.c:TDyUpdateState_TH_MPFAO"]}
{"id": "C217", "title": "The functions of the Fortran demo programs give every point its own value", "statement": "A function that a Fortran demo program sets for pressures or types of boundary conditions gives, for any number of points, each point the value meant for its coordinates; a function for permeabilities gives each point its tensor.", "quantifier": "all numbers of points and all coordinates", "why_tests_cant": "The demos run with single points and compilers that do not check bounds; a test then sees the right number.", "anchors": ["demo/transient/fv_tpff90.F90:PressureFunction", "demo/transient/fv_tpff90.F90:PressureBCTypeFunction", "demo/transient/fv_tpff90.F90:is_coordinate_top", "demo/transient/transient_snes_mpfaof90.F90:PressureFunction", "src/f90-mod/tdycoremod.F90:TDyCallF90SpatialFunction"]}
{"id": "C218", "title": "The direction of the mesh does not matter", "statement": "When the mesh, gravity and the tensors are turned together by any rotation, what is computed from them stays: volumes, areas and distances are the same, points and normals turn along, the connections of the MPFA-O method, its matrices and its gravity coefficients are the same.", "quantifier": "all rotations, all meshes and all tensors", "why_tests_cant": "A test checks a few meshes aligned with the axes; whether the axes enter anywhere is a statement about all rotations.", "anchors": ["src/fv/mpfao/tdympfao_utils.c:ComputeGtimesZ", "src/fv/share/tdymeshplex.c:VerticesHaveSameXYCoords", "src/fv/share/tdymeshplex.c:SetupSubcells", "src/fv/mpfao/tdympfao.c:ComputeGMatrix_TPF", "src/fv/mpfao/tdympfao.c:ComputeGMatrix_MPFAO", "src/fv/mpfao/tdympfao.c:ComputeGravityDiscretization"]}
{"id": "C219", "title": "The unit of length does not matter", "statement": "When all coordinates of a mesh are given in another unit of length, results follow: volumes, areas and distances by the third, second and first power, directions, weights and the connections of the MPFA-O method stay, its matrices and transmissibilities follow the unit, the gravity coefficients its square.", "quantifier": "all positive factors and all meshes", "why_tests_cant": "Tests use meshes of a few sizes; fixed tolerances show only where sizes come near them.", "anchors": ["src/fv/share/tdymeshplex.c:VerticesHaveSameXYCoords", "src/fv/share/tdymeshplex.c:IsCellAboveTheVertex", "src/fv/share/tdymeshplex.c:SetupSubcells", "src/fv/mpfao/tdympfao.c:ComputeGMatrix_MPFAO", "src/fv/mpfao/tdympfao.c:ComputeGMatrix_TPF", "src/fv/mpfao/tdympfao.c:ComputeTransmissibilityMatrix_ForNonCornerVertex", "src/fv/mpfao/tdympfao.c:ComputeGravityDiscretization"]}
{"id": "C220", "title": "The debugging helpers tell the truth about a matrix", "statement": "CheckSymmetric returns 0 exactly for symmetric matrices and prints each pair of entries that differ; PrintMatrix writes every entry of the matrix once, row by row, in well-formed brackets, for both ways of storing it; both look only at the entries of the matrix.", "quantifier": "all matrices of all sizes", "why_tests_cant": "Tests print or check a few matrices with entries of size one.", "anchors": ["src/tdydebug.c:PrintMatrix", "src/tdydebug.c:CheckSymmetric", "include/tdycore.h:CheckSymmetric"]}
{"id": "C221", "title": "The program for the SPE10 benchmark gives each cell its turned permeabilities", "statement": "Whatever the angle, the file and the mesh, the program for the SPE10 benchmark gives each cell the permeabilities the file lists for the place of its centroid, as a symmetric tensor whose principal directions are the turned axes; it stays within the data it has read, reports a file it cannot use, and its boundary pressure is defined in two and three dimensions.", "quantifier": "all angles, axes, files, centroids and earlier contents of the arrays", "why_tests_cant": "The benchmark's file is not part of the repository, and tests would use one angle and one file.", "anchors": ["demo/SPE10/steady.c:Rotation", "demo/SPE10/steady.c:ReadSPE10Permeability", "demo/SPE10/steady.c:Pressure"]}
{"id": "C222", "title": "Questions about a mesh are answered for the cells and faces asked about", "statement": "The face given for two cells is the face they share, and an error is raised exactly if they share none; faces are neighbours exactly if they share an edge; the natural numbers of the local cells are those of the cells the process owns; the flags of ownership are those of all cells.", "quantifier": "all meshes, cells, faces and distributions", "why_tests_cant": "Needs all orders of the lists of faces and all distributions of cells.", "anchors": ["src/fv/share/tdymeshplex.c:TDyMeshFindFaceIDShareByTwoCells", "src/fv/share/tdymeshplex.c:AreFacesNeighbors", "src/fv/share/tdymeshplex.c:TDyMeshGetLocalCellNaturalIDs", "src/fv/share/tdymeshplex.c:TDyMeshGetCellIsLocal"]}
