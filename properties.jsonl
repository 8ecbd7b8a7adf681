{"id": "C01", "title": "Every row of the view factor matrix sums to one", "statement": "After a full-mode run, for every surface of the array that is longer than the distance tolerance at a time step, the view factors from that surface to all other surfaces plus its view factor to the sky add up to exactly 1; for a surface shorter than the tolerance the sky view factor is 0; and the row of the sky is identically 0.", "quantifier": "all ordered PV arrays (any number of rows, any cut dictionary), all time series of sun and surface angles, all time steps, all surfaces", "why_tests_cant": "The matrix is assembled by three nested loops over a data-dependent number of surfaces; tests compare a few arrays with tabulated numbers and cannot cover every array size, cut and angle.", "anchors": ["pvfactors/viewfactors/calculator.py:VFCalculator.build_ts_vf_matrix", "pvfactors/viewfactors/vfmethods.py:VFTsMethods.vf_pvrow_gnd_surf", "pvfactors/viewfactors/vfmethods.py:VFTsMethods.vf_pvrow_to_pvrow"]}
{"id": "C02", "title": "All view factors, including the sky ones, lie in [0, 1]", "statement": "For every physically placed ordered array (rows above ground, rotation between -90 and 90 degrees, positive spacing and width) every entry of the view factor matrix is at least 0 and at most 1. In particular the sky view factors, which are computed as 1 minus the rest of the row, never become negative: neither for PV row surfaces (ground plus neighbouring row never exceeds 1) nor for ground surfaces (all rows together never exceed 1).", "quantifier": "all row counts, widths, heights, gcr, rotations in [-90, 90], sun positions, cuts and time steps", "why_tests_cant": "Non-negativity of the sky term is a geometric inequality between sums of distances over unboundedly many surfaces; sampling angles cannot exclude a bad configuration.", "anchors": ["pvfactors/viewfactors/calculator.py:VFCalculator.build_ts_vf_matrix", "pvfactors/viewfactors/vfmethods.py:VFTsMethods._vf_hottel_gnd_surf", "pvfactors/viewfactors/vfmethods.py:VFTsMethods._hottel_string_length", "pvfactors/viewfactors/vfmethods.py:VFTsMethods._vf_surface_to_surface"]}
{"id": "C03", "title": "Reciprocity of view factors", "statement": "For every pair of surfaces i, j both longer than the tolerance at a time step, length_i * F_ij = length_j * F_ji in the view factor matrix.", "quantifier": "all arrays, all pairs of surfaces, all time steps", "why_tests_cant": "Holds or fails per branch of the assembly (swapped indices or lengths only show for particular shapes); must hold for each of the unboundedly many pairs.", "anchors": ["pvfactors/viewfactors/vfmethods.py:VFTsMethods.vf_pvrow_gnd_surf", "pvfactors/viewfactors/vfmethods.py:VFTsMethods.vf_pvrow_to_pvrow", "pvfactors/viewfactors/calculator.py:VFCalculator.build_ts_vf_matrix"]}
{"id": "C04", "title": "View factors are non-zero only between surfaces that face each other", "statement": "The view factor between two surfaces is 0 whenever both are ground surfaces, both belong to the same PV row, both are on the same kind of side (front/front or back/back), belong to rows that are not direct neighbours, or face away from each other for the current tilt direction (e.g. the front of row i and the back of row i+1 when the array is tilted to the left; the front of a row and the ground to the right of its cut point when tilted to the left). The diagonal is 0.", "quantifier": "all arrays, all pairs of surfaces, all rotations, all time steps", "why_tests_cant": "A universally quantified absence of entries; a test only looks at some entries.", "anchors": ["pvfactors/viewfactors/vfmethods.py:VFTsMethods.vf_pvrow_gnd_surf", "pvfactors/viewfactors/vfmethods.py:VFTsMethods.vf_pvrow_to_pvrow", "pvfactors/viewfactors/calculator.py:VFCalculator.build_ts_vf_matrix"]}
{"id": "C05", "title": "View factors do not depend on how the ground is cut", "statement": "Splitting a ground interval at any additional point leaves the total view factor from a PV row surface to that interval unchanged, with and without an obstructing neighbour; hence the total view factor to a contiguous stretch of ground depends only on its two end points.", "quantifier": "all PV segments, obstruction points, ground intervals and split points", "why_tests_cant": "An additivity law over all real split points.", "anchors": ["pvfactors/viewfactors/vfmethods.py:VFTsMethods._vf_hottel_gnd_surf", "pvfactors/viewfactors/vfmethods.py:VFTsMethods.vf_pvrow_surf_to_gnd_surf_obstruction_hottel", "pvfactors/geometry/pvground.py:TsGroundElement"]}
{"id": "C06", "title": "Full mode solves the radiosity equations", "statement": "After a full-mode run, for every surface i and time step: the incident irradiance equals the direct/circumsolar/horizon irradiance of the surface plus the sum over all surfaces (and the sky) of F_ij times outgoing radiosity of j, the outgoing radiosity equals reflectivity times incident irradiance, and the sky's radiosity equals the isotropic sky luminance.", "quantifier": "all view factor matrices for which the system is solvable, all reflectivities different from 0, all irradiance vectors, all time steps", "why_tests_cant": "The solution is obtained by numerical inversion of a matrix of data-dependent size; tests see a handful of matrices.", "anchors": ["pvfactors/engine.py:PVEngine.run_full_mode"]}
{"id": "C07", "title": "The full-mode system is always solvable and has one solution", "statement": "If all reflectivities are in (0,1) and the view factor matrix is non-negative with rows summing to at most one, then the matrix inverted by full mode is invertible (no LinAlgError), and the radiosity equations have exactly one solution, the returned one. The hypothesis on the view factor matrix holds for every physically placed array (C02).", "quantifier": "all array sizes, all view factor matrices with the stated property, all reflectivities in (0,1)", "why_tests_cant": "Invertibility for every matrix of every size.", "anchors": ["pvfactors/engine.py:PVEngine.run_full_mode"]}
{"id": "C08", "title": "Irradiance and radiosity are non-negative and bounded", "statement": "If direct, circumsolar, horizon and isotropic irradiance are non-negative and reflectivities are in (0,1) then incident irradiance and radiosity of every surface are non-negative, the reflected part of the incident irradiance is non-negative, and incident irradiance is at most max(irradiance)/(1-max(reflectivity)) style bound.", "quantifier": "all arrays, reflectivities in (0,1), non-negative irradiance vectors", "why_tests_cant": "A maximum principle for all system sizes.", "anchors": ["pvfactors/engine.py:PVEngine.run_full_mode"]}
{"id": "C09", "title": "Incident irradiance splits exactly into its published components", "statement": "After full mode, for each surface, qinc = direct + circumsolar + horizon (the model's irradiance components) + isotropic + reflection; where isotropic is the sky view factor times the isotropic luminance and reflection equals the sum over non-sky surfaces of F_ij * rho_j * qinc_j.", "quantifier": "all arrays, irradiance models and time steps", "why_tests_cant": "An identity over all inputs, and reflection is computed by subtraction, so it is only meaningful if the identity with the sum over surfaces holds.", "anchors": ["pvfactors/engine.py:PVEngine.run_full_mode", "pvfactors/irradiance/models.py:HybridPerezOrdered"]}
{"id": "C10", "title": "Absorbed irradiance is incident minus reflected when no AOI model is used", "statement": "Without fAOI functions, after full mode, for every surface and time step: qabs = (1 - rho) * qinc, hence qinc = qabs + q0: what is not absorbed is reflected.", "quantifier": "all arrays, reflectivities, irradiance models without fAOI functions, time steps", "why_tests_cant": "An exact energy balance across three separately computed quantities (components, absorbed components, AOI view factor matrix).", "anchors": ["pvfactors/engine.py:PVEngine.run_full_mode", "pvfactors/viewfactors/calculator.py:VFCalculator.build_ts_vf_aoi_matrix", "pvfactors/irradiance/models.py:HybridPerezOrdered._calculate_faoi_modifiers"]}
{"id": "C11", "title": "Global energy balance", "statement": "In full mode, summed over all surfaces (weighted by length), absorbed power equals direct power plus power received from the sky minus power that surfaces send back to the sky through their sky view factors.", "quantifier": "all arrays with reciprocal view factors, any reflectivities and irradiance", "why_tests_cant": "Sums over unboundedly many surfaces; relies on reciprocity and row sums jointly.", "anchors": ["pvfactors/engine.py:PVEngine.run_full_mode", "pvfactors/viewfactors/calculator.py:VFCalculator.build_ts_vf_matrix"]}
{"id": "C12", "title": "Full-mode response is linear and monotone in the irradiance inputs", "statement": "Scaling all irradiance inputs by a factor scales q0, qinc, isotropic, reflection and qabs by that factor; adding two irradiance inputs adds the outputs; increasing any irradiance input never decreases the incident irradiance of any surface.", "quantifier": "all arrays, irradiance vectors, scalars", "why_tests_cant": "Superposition is a statement about all pairs of inputs.", "anchors": ["pvfactors/engine.py:PVEngine.run_full_mode"]}
{"id": "C13", "title": "Parallel run returns the same report as the serial run", "statement": "For a simulation whose report is computed independently per time step, run_parallel_engine returns the same report as run_timeseries_engine, for any number of processes (also more processes than time steps, and -1 for all CPUs), any completion order of the workers, scalar or vector albedo, and with or without ghi.", "quantifier": "all input time series, all numbers of processes, all worker completion orders", "why_tests_cant": "Schedules and fold sizes are unbounded; a test runs one pool once.", "anchors": ["pvfactors/run.py:run_parallel_engine", "pvfactors/run.py:run_timeseries_engine", "pvfactors/run.py:_run_serially", "pvfactors/report.py:ExampleReportBuilder.merge"]}
{"id": "C14", "title": "Splitting the inputs into folds loses, duplicates and reorders nothing", "statement": "The folds given to the workers, concatenated, are the original time series; there are exactly n_processes folds; their sizes differ by at most one; and the i-th entries of all eight (nine) argument lists belong to the same time stamps.", "quantifier": "all lengths and numbers of processes", "why_tests_cant": "Off-by-one behaviour depends on the remainder of an arbitrary division.", "anchors": ["pvfactors/run.py:run_parallel_engine"]}
{"id": "C15", "title": "Results at a time step do not depend on the other time steps", "statement": "Running the engine on a time series and picking time step t gives the same view factors and irradiance as running the engine on a time series that contains only a subset, permutation or repetition of the time steps; exactly so whenever every surface is at each time step either a point (length 0) or longer than the tolerance.", "quantifier": "all time series, all re-indexings (subsets, permutations, repetitions) of time steps", "why_tests_cant": "Cross-time-step leaks (e.g. through shared or broadcast arrays, or through 'is_empty' flags that aggregate over time) only show for particular combinations of time steps.", "anchors": ["pvfactors/geometry/timeseries.py:TsSurface.is_empty", "pvfactors/viewfactors/calculator.py:VFCalculator.build_ts_vf_matrix", "pvfactors/engine.py:PVEngine.run_full_mode"]}
{"id": "C16", "title": "Surface indices are a bijection onto 0..n-1", "statement": "After fit, the indices of the timeseries surfaces are exactly 0,1,...,n-1 in order (ground first, then rows from left to right), each used once, with n = n_ts_surfaces = (2r+1)(r+1) + 2*sum(number of front and back segments) for r rows; so rows and columns of the view factor matrices identify surfaces unambiguously and index n is the sky.", "quantifier": "all row counts and cut dictionaries", "why_tests_cant": "Counting over unboundedly many configurations.", "anchors": ["pvfactors/geometry/base.py:BasePVArray._index_all_ts_surfaces", "pvfactors/geometry/base.py:BasePVArray.all_ts_surfaces", "pvfactors/geometry/pvground.py:TsGround.all_ts_surfaces", "pvfactors/geometry/base.py:BasePVArray.n_ts_surfaces"]}
{"id": "C17", "title": "Ground surfaces tile the ground", "statement": "At every time step the shaded and illuminated ground surfaces cover [-100, 100] without gaps and without overlap, so the total ground length is 200, if direct shading is either absent or larger than the tolerance.", "quantifier": "all arrays, sun positions with the sun not exactly on the horizon, rotations, time steps", "why_tests_cant": "A tiling statement over all real geometries; the overlap flag, clipping and cut points interact.", "anchors": ["pvfactors/geometry/pvground.py:TsGround.from_ts_pvrows_and_angles", "pvfactors/geometry/pvground.py:TsGround.from_ordered_shadows_coords", "pvfactors/geometry/pvground.py:TsGround.length", "pvfactors/geometry/pvground.py:TsGroundElement._create_all_ts_surfaces"]}
{"id": "C18", "title": "A ground point is in a shaded surface exactly when a PV row hides the sun", "statement": "For every ground point strictly between -100 and 100 that is not a boundary of a surface: it belongs to a shaded ground surface if and only if the ray from it towards the sun meets some PV row.", "quantifier": "all arrays, sun positions above the horizon, ground points", "why_tests_cant": "Correctness of the shadow computation against an independent ray-tracing specification for all reals.", "anchors": ["pvfactors/geometry/pvground.py:TsGround.from_ts_pvrows_and_angles", "pvfactors/geometry/pvarray.py:OrderedPVArray.fit"]}
{"id": "C19", "title": "Cutting a ground element keeps its length and order", "statement": "Each ground element is split by n cut points into n+1 consecutive surfaces that start and end where the element starts and ends, each one beginning where the previous one stops; their lengths add up to the element's length, for every position of the cut points (also outside the ground or infinite).", "quantifier": "all ground elements within bounds and all lists of cut points (extended reals)", "why_tests_cant": "Arbitrary number and position of cut points including infinite ones.", "anchors": ["pvfactors/geometry/pvground.py:TsGroundElement._create_all_ts_surfaces", "pvfactors/geometry/pvground.py:TsGroundElement._coords_left_of_cut_point", "pvfactors/geometry/pvground.py:TsGroundElement._coords_right_of_cut_point"]}
{"id": "C20", "title": "Left and right of a cut point partition the ground surfaces", "statement": "For each cut point, each ground surface is listed exactly once, either left or right; every surface listed left ends at or before the cut point (clipped to the ground) and every surface listed right starts at or after it.", "quantifier": "all arrays, all cut points, all time steps", "why_tests_cant": "A statement on a dictionary built by nested loops of arbitrary size plus ordering of reals.", "anchors": ["pvfactors/geometry/pvground.py:TsGround.ts_surfaces_side_of_cut_point", "pvfactors/geometry/pvground.py:TsGroundElement._create_all_ts_surfaces"]}
{"id": "C21", "title": "PV row sides keep their length", "statement": "For every rotation, width, cut number and shaded length, the segments of a PV row side have equal length width/n, follow each other without gap from one end of the row to the other, and each is the union of its shaded and illuminated part, so the side's length equals the width.", "quantifier": "all widths, rotations, cut numbers, shaded lengths between 0 and width", "why_tests_cant": "Numbers of segments and positions of the shading boundary are arbitrary.", "anchors": ["pvfactors/geometry/pvrow.py:TsSide.from_raw_inputs", "pvfactors/geometry/pvrow.py:TsPVRow.from_raw_inputs"]}
{"id": "C22", "title": "Shading put on a side is the shading found on it", "statement": "The total shaded length of a PV row side equals the shaded length computed by the array for that side (0 when the row is flat), and the shaded part always touches the lower edge of the row.", "quantifier": "all rotations strictly between 0 and 180 degrees in absolute value, all shaded lengths in [0,width], all cut numbers", "why_tests_cant": "The shading boundary may fall into any of arbitrarily many segments, or on a segment boundary.", "anchors": ["pvfactors/geometry/pvrow.py:TsSide.from_raw_inputs", "pvfactors/geometry/pvarray.py:OrderedPVArray._calculate_pvrow_elements_coords"]}
{"id": "C23", "title": "Direct shading between rows agrees with ray tracing", "statement": "When the sun is above the horizon and rows do not overlap (gcr at most 1), a point of a PV row side facing the sun is in the shaded part iff the ray from it to the sun meets another row; both edges rows included (the outermost row towards the sun is unshaded).", "quantifier": "all arrays with gcr <= 1, rotations, sun positions, rows and points on the row", "why_tests_cant": "Correctness against an independent specification for all reals and all rows.", "anchors": ["pvfactors/geometry/pvarray.py:OrderedPVArray._calculate_interrow_shading", "pvfactors/geometry/pvarray.py:OrderedPVArray._calculate_pvrow_elements_coords"]}
{"id": "C24", "title": "Shaded lengths are bounded and exclusive", "statement": "Computed inter-row shaded lengths lie in [0, width]; front and back are never both shaded unless the sun is exactly on the horizon; with one row there is none; and direct shading (shaded length larger than 0) occurs exactly when consecutive ground shadows overlap.", "quantifier": "all arrays, rotations, sun positions", "why_tests_cant": "Trigonometric identity for all angles.", "anchors": ["pvfactors/geometry/pvarray.py:OrderedPVArray._calculate_interrow_shading", "pvfactors/geometry/pvground.py:TsGround.from_ts_pvrows_and_angles"]}
{"id": "C25", "title": "Rotation angle conventions", "statement": "The rotation has absolute value tilt, is unchanged when any azimuth is shifted by 360 degrees, changes sign when the surface azimuth is turned by 180 degrees (unless it is parallel to the axis), and a flat surface always has its cut point to the far right so that all the ground belongs to the back side of the rows.", "quantifier": "all azimuths and tilts", "why_tests_cant": "Modular arithmetic on all reals and a signed-zero convention.", "anchors": ["pvfactors/geometry/base.py:_get_rotation_from_tilt_azimuth", "pvfactors/geometry/pvground.py:TsGround.from_ts_pvrows_and_angles"]}
{"id": "C26", "title": "Rows keep their position and width while rotating", "statement": "For every rotation the centre of each PV row stays at (i*width/gcr, height), its length stays equal to the width, its two ends are at height +- (width/2)*sin(rotation), and all rows are translates of each other.", "quantifier": "all arrays, rotations and rows", "why_tests_cant": "Holds for all real angles.", "anchors": ["pvfactors/geometry/pvrow.py:TsPVRow._calculate_full_coords", "pvfactors/geometry/pvarray.py:OrderedPVArray._calculate_pvrow_elements_coords"]}
{"id": "C27", "title": "Mirror symmetry of shading and ground shadows", "statement": "Mirroring the scene (negating the rotation and the horizontal sun component) leaves the front and back inter-row shaded lengths unchanged and mirrors the ground shadows.", "quantifier": "all arrays, rotations, sun positions", "why_tests_cant": "Left/right asymmetries in sign conventions can hide for particular angles.", "anchors": ["pvfactors/geometry/pvarray.py:OrderedPVArray._calculate_interrow_shading", "pvfactors/geometry/pvground.py:TsGround.from_ts_pvrows_and_angles"]}
{"id": "C28", "title": "Fast-mode view factors are complete and split correctly", "statement": "For each back-side element in fast mode, view factors to ground, to the neighbouring row and to the sky add up to one; the ground part is the sum of its shaded and illuminated parts and the row part likewise; an element shorter than the tolerance gets 0 everywhere but the sky.", "quantifier": "all arrays, rows, elements, time steps", "why_tests_cant": "Identity for all inputs.", "anchors": ["pvfactors/viewfactors/calculator.py:VFCalculator.get_vf_ts_pvrow_element", "pvfactors/viewfactors/vfmethods.py:VFTsMethods.calculate_vf_to_gnd", "pvfactors/viewfactors/vfmethods.py:VFTsMethods.calculate_vf_to_pvrow"]}
{"id": "C29", "title": "Fast mode and full mode agree on view factors", "statement": "For a surface on the back of any row of a physically placed array whose surfaces are points or longer than the tolerance, the fast-mode view factors to the ground shadows, to the rows and to the shaded and illuminated parts of the rows equal the sums of the full-mode view factors to all such surfaces. The fast-mode view factor to the whole ground is never smaller than in full mode; it is equal for the outermost row (if ground lies in front of its back) and for a row with a neighbour whenever the lines from the surface past the neighbour meet the ground within its extent; otherwise it exceeds it at most by what the low end of the surface sees below the neighbour behind the end of the ground. Where the ground agrees so do illuminated ground and sky.", "quantifier": "all physically placed arrays, rows, back surfaces, time steps", "why_tests_cant": "Two different formulas over all real geometries.", "anchors": ["pvfactors/viewfactors/calculator.py:VFCalculator.get_vf_ts_pvrow_element", "pvfactors/viewfactors/calculator.py:VFCalculator.build_ts_vf_matrix"]}
{"id": "C30", "title": "Fast-mode incident irradiance is the sum of its parts", "statement": "In fast mode, qinc of a back-side surface equals its sky term plus the sum over shaded/illuminated ground and neighbouring row and sky of view factor times published irradiance times reflectivity, and the published isotropic and reflection components add up with the sky term to qinc.", "quantifier": "all arrays, rows, irradiance values, time steps", "why_tests_cant": "Identity for all inputs.", "anchors": ["pvfactors/engine.py:PVEngine.run_fast_mode", "pvfactors/engine.py:PVEngine._calculate_back_ts_segment_qinc"]}
{"id": "C31", "title": "Effective reflectivity from an fAOI function is in [0,1]", "statement": "For any fAOI function with values in [0,1], the global hemispherical reflectivity derived from it lies in [0,1]; it is 0 for the constant function 1 and 1-c for the constant c; it is antitone in the function. With any number of integration sections the section view factors add up to 1. For a continuous fAOI function it is the reflected share of light that comes alike from all directions in front of the surface, up to the change of the function over half a section, and tends to this share as the number of sections grows.", "quantifier": "all fAOI functions and numbers of integration sections", "why_tests_cant": "Universally quantified over functions and grid sizes.", "anchors": ["pvfactors/viewfactors/aoimethods.py:AOIMethods.rho_from_faoi_fn", "pvfactors/viewfactors/aoimethods.py:AOIMethods.fit"]}
{"id": "C32", "title": "AOI view factor of a wedge is bounded by the wedge and by the fAOI function", "statement": "The AOI-corrected view factor of a wedge is non-negative, at most the view factor of the section-aligned cover of the wedge (every section that meets the wedge counts fully, so no part of the wedge is lost, and a section that touches two adjoining wedges is counted in both), monotone in the fAOI function, and 0 for fAOI = 0; it is at least c times the wedge's view factor if fAOI >= c.", "quantifier": "all wedges, fAOI functions with values in [0,1], numbers of sections", "why_tests_cant": "Discretised integral with arbitrary grid and arbitrary functions.", "anchors": ["pvfactors/viewfactors/aoimethods.py:AOIMethods._calculate_vf_aoi_wedge_level", "pvfactors/viewfactors/aoimethods.py:AOIMethods._calculate_vfaoi_integrand"]}
{"id": "C33", "title": "Shaded direct light is between zero and the unshaded direct light", "statement": "For spacing and transparency in [0,1], the direct and circumsolar irradiance on shaded surfaces is the fraction s+(1-s)t of that on illuminated ones, hence between 0 and it; zero for opaque modules without spacing, all of it for full transparency; and it is increasing in both parameters.", "quantifier": "all DNI, angles, spacing and transparency in [0,1]", "why_tests_cant": "Inequalities for all reals.", "anchors": ["pvfactors/irradiance/models.py:IsotropicOrdered.fit", "pvfactors/irradiance/models.py:HybridPerezOrdered.fit"]}
{"id": "C34", "title": "Direct light hits only one side of the rows", "statement": "For all sun and surface angles, direct irradiance on the front and on the back of the PV rows are not both positive, both are non-negative for non-negative DNI, and their difference is DNI times the cosine of the angle of incidence.", "quantifier": "all angles and DNI >= 0", "why_tests_cant": "Trigonometric statement for all angles.", "anchors": ["pvfactors/irradiance/models.py:IsotropicOrdered.fit", "pvfactors/irradiance/models.py:HybridPerezOrdered._calculate_luminance_poa_components"]}
{"id": "C35", "title": "Horizon band and circumsolar shading percentages are well behaved", "statement": "The horizon band shading percentage lies in [0,100], is 0 at elevation 0 and below and 100 above the band, and grows with the elevation of the obstacle; circumsolar disc shading (uniform) lies in [0,100], grows with the covered fraction of the diameter, and is complementary: f(100-p) = 100-f(p); rows at the edge get no horizon shading on their outward side.", "quantifier": "all elevations, all percentages in [0,100]", "why_tests_cant": "Monotonicity and range on all reals, with square roots and arccos.", "anchors": ["pvfactors/irradiance/utils.py:calculate_horizon_band_shading", "pvfactors/irradiance/utils.py:uniform_circumsolar_disk_shading", "pvfactors/irradiance/models.py:HybridPerezOrdered._calculate_horizon_shading_pct_ts"]}
{"id": "C36", "title": "Perez decomposition for back surfaces terminates", "statement": "The recursive evaluation of the Perez luminance for surfaces facing away from the sun calls itself at most once: turning the surface over reverses the sign of the cosine of incidence.", "quantifier": "all sun and surface angles", "why_tests_cant": "Termination for all inputs.", "anchors": ["pvfactors/irradiance/utils.py:perez_diffuse_luminance"]}
{"id": "C37", "title": "Weighted averages are averages", "statement": "The length-weighted parameter of a shade collection, segment, side, or the ground lies between the minimum and maximum of the surface values, equals the common value if all surfaces agree, and the length-times-value of a side is the sum over its segments.", "quantifier": "all numbers of surfaces, lengths (total positive) and parameter values", "why_tests_cant": "Convexity for all numbers of surfaces.", "anchors": ["pvfactors/geometry/timeseries.py:TsShadeCollection", "pvfactors/geometry/pvrow.py:TsSide.get_param_weighted", "pvfactors/geometry/pvrow.py:TsSegment.get_param_weighted", "pvfactors/geometry/pvground.py:TsGround"]}
{"id": "C38", "title": "Results do not depend on the history of the engine", "statement": "Whatever sequence of fit, full-mode and fast-mode calls preceded, fitting the engine to some inputs and running full (or fast) mode gives the same results as a new engine would; running full mode twice gives the same results; running fast mode in between does not change full-mode results. Before the first fit every run raises an exception and leaves the engine without results.", "quantifier": "all finite histories of engine operations", "why_tests_cant": "Unbounded histories of a mutable object.", "anchors": ["pvfactors/engine.py:PVEngine.fit", "pvfactors/engine.py:PVEngine.run_full_mode", "pvfactors/engine.py:PVEngine.run_fast_mode"]}
{"id": "C39", "title": "The stored view factor matrix is the one used", "statement": "After a full-mode run without fAOI functions the stored view factor matrix is the matrix of view factors (rows sum to one) used in the solution. With fAOI functions this fails: the stored view factor matrix is overwritten in place with AOI-corrected values.", "quantifier": "all arrays; all fAOI settings", "why_tests_cant": "Aliasing of a mutable array; needs a model of references.", "anchors": ["pvfactors/viewfactors/calculator.py:VFCalculator.build_ts_vf_aoi_matrix", "pvfactors/engine.py:PVEngine.run_full_mode"]}
{"id": "C40", "title": "Merging reports concatenates the time series", "statement": "Merging a list of reports gives, for every key of the first report, the concatenation of the lists of all reports in order; merging is associative and keeps the total number of entries.", "quantifier": "all lists of reports", "why_tests_cant": "Arbitrary number and length of reports.", "anchors": ["pvfactors/report.py:ExampleReportBuilder.merge"]}
{"id": "C41", "title": "Cutting and removing parts of shapely surfaces keeps total length", "statement": "Cutting a collection of surfaces at a point splits the first surface passing through it and keeps total length (exactly if the point lies on the surface, up to twice the distance tolerance otherwise). Removing a collinear line string leaves exactly the points of the surfaces outside it and removes exactly the overlapping length, unless the line string sticks out at both ends of a surface: such a fully covered surface is left unchanged although it should vanish.", "quantifier": "all collections, points and collinear line strings; exactly if end points are equal or farther apart than the tolerance, up to twice the tolerance for each surface otherwise", "why_tests_cant": "Geometry over all reals, with many orderings of the end points; the case of a fully covered surface is not tested.", "anchors": ["pvfactors/geometry/base.py:ShadeCollection.cut_at_point", "pvfactors/geometry/base.py:ShadeCollection.remove_linestring", "pvfactors/geometry/utils.py:difference"]}
{"id": "C42", "title": "Ground geometry at a time step has the lengths of the time series ground", "statement": "Building the ground geometry for a time step yields shaded surfaces (with merged shadows when they overlap) and illuminated surfaces that lie on the ground, are ordered from left to right, cover exactly the shadows or the ground between them, and have the total length of the time series elements. They are broken at the cut points, except where merging hides a cut point at the place where two shadows meet. This needs that no surface is shorter than the tolerance without being a point; otherwise a merged shadow can be lost.", "quantifier": "all ordered grounds without tiny surfaces, all arrays and time steps meeting the geometry conditions, all merge and cut options", "why_tests_cant": "Loop with carried state over arbitrarily many shadows and surfaces.", "anchors": ["pvfactors/geometry/pvground.py:TsGround.at", "pvfactors/geometry/pvground.py:TsGround._merge_shadow_surfaces"]}
{"id": "C43", "title": "Counting non-point ground surfaces at a time step", "statement": "The list of non-point ground surfaces at an index contains exactly the surfaces longer than the tolerance at time step 0, with the coordinates and parameters of time step 0, whatever the index. So it is right for index 0 and constant series, and wrong for later time steps with other surfaces, although the documentation promises the time step of the index.", "quantifier": "all arrays, time series and indices", "why_tests_cant": "The code uses index 0 for every idx; a test with one time step never sees it.", "anchors": ["pvfactors/geometry/pvground.py:TsGround.non_point_shaded_surfaces_at", "pvfactors/geometry/pvground.py:TsGround.non_point_illum_surfaces_at", "pvfactors/geometry/pvground.py:TsGround.n_non_point_surfaces_at"]}
{"id": "C44", "title": "Reflectivity initialisation follows the documented precedence", "statement": "When the engine is created with reflectivity initialisation, the PV row reflectivities are: the given value when given; else the one derived from the fAOI function when such a function exists; else the default; and explicit values are never overwritten. When a value and its fAOI function are both missing, initialisation through the engine fails, because the reflectivity is computed from the missing function before the precedence is applied.", "quantifier": "all combinations of given values and fAOI functions", "why_tests_cant": "Decision logic over all combinations, with values arbitrary.", "anchors": ["pvfactors/irradiance/base.py:BaseModel.initialize_rho", "pvfactors/engine.py:PVEngine.with_rho_initialization"]}
{"id": "C45", "title": "Shaded and illuminated front in fast mode differ by the direct light kept out", "statement": "The total plane-of-array irradiance that fast mode uses for a shaded front side equals that of the illuminated front side minus the direct (and circumsolar) light on the illuminated side plus the direct (and circumsolar) light on the shaded side. True for the hybrid Perez model; the isotropic model leaves out the direct light that the rows in front let through, so its value is too low by exactly that amount.", "quantifier": "all irradiance values, spacing and transparency", "why_tests_cant": "An identity between two irradiance models; holds in one and fails in the other only when modules transmit light.", "anchors": ["pvfactors/irradiance/models.py:IsotropicOrdered.fit", "pvfactors/irradiance/models.py:HybridPerezOrdered.fit"]}
{"id": "C46", "title": "Absorbed light of the ground when fAOI functions are used", "statement": "With fAOI functions, full mode reports for a ground surface an absorbed irradiance equal to the incident one minus the albedo times its direct part only: the diffuse and reflected light on the ground counts as fully absorbed although the fraction albedo of it is sent out again, so absorbed plus sent out exceeds incident by albedo times the non-direct incident light.", "quantifier": "all arrays, fAOI functions, irradiance values and time steps", "why_tests_cant": "An accounting identity over the whole solved system, visible only when the ground's absorbed light is added to the light it sends out.", "anchors": ["pvfactors/viewfactors/calculator.py:VFCalculator.build_ts_vf_aoi_matrix", "pvfactors/engine.py:PVEngine.run_full_mode"]}
{"id": "C47", "title": "Difference between fast-mode and full-mode irradiance", "statement": "The incident irradiances of a back surface in fast mode and in full mode differ exactly by the sum over all surfaces of the full-mode view factor times (light that fast mode assumes the surface to send out minus the radiosity found by full mode), plus the additional ground seen by fast mode times (illuminated ground minus sky). If the ground view factors agree and the assumed light is within delta of the radiosity of every surface seen, qinc agrees within delta.", "quantifier": "all physically placed arrays, irradiance models, back surfaces, time steps", "why_tests_cant": "Relates two algorithms over all inputs.", "anchors": ["pvfactors/engine.py:PVEngine.run_fast_mode", "pvfactors/engine.py:PVEngine.run_full_mode"]}
{"id": "C48", "title": "Negative row indices in fast mode", "statement": "A negative Python index for the row gives the same view factors as the index counted from the start, except for index -1 with rows tilted to the left, where fast mode takes the first row of the array for the neighbour of the last one (defect; the view factor is positive though the last row sees no row).", "quantifier": "all arrays, row indices between -n+1 and -1, elements, time steps", "why_tests_cant": "Index arithmetic over all sizes; the defect needs a specific index and tilt.", "anchors": ["pvfactors/viewfactors/calculator.py:VFCalculator.get_vf_ts_pvrow_element", "pvfactors/viewfactors/vfmethods.py:VFTsMethods.calculate_vf_to_pvrow", "pvfactors/viewfactors/vfmethods.py:VFTsMethods.calculate_vf_to_gnd"]}
{"id": "C49", "title": "Contents of the example report", "statement": "In full mode, the example report of an array with at least two rows holds, under each of its four keys and for each time step in order, the length-weighted mean over the front or back of row 1 of the incident irradiance or its isotropic part. In fast mode building it always raises an exception, because fast mode computes nothing for front surfaces; so it does for arrays with a single row.", "quantifier": "all arrays, time series, irradiance models", "why_tests_cant": "All lengths of time series and all geometries; the error in fast mode is not tested.", "anchors": ["pvfactors/report.py:example_fn_build_report", "pvfactors/run.py:run_timeseries_engine"]}
{"id": "C50", "title": "Weighted ground parameters at a time step", "statement": "The shaded ground surfaces made for a time step without merging of overlapping shadows have the same length-weighted sum of any parameter (for example absorbed irradiance) as the time series surfaces. With merging this is not so: a merged surface gets the parameters of its right part only.", "quantifier": "all ordered grounds without tiny surfaces, all parameters", "why_tests_cant": "Sums over arbitrarily many surfaces; the tests compare lengths only.", "anchors": ["pvfactors/geometry/pvground.py:TsGround.at", "pvfactors/geometry/pvground.py:TsGround._merge_shadow_surfaces"]}
{"id": "C51", "title": "View factors agree with tracing of rays", "statement": "The view factor between any two surfaces of a physically placed array, computed from lengths of (hidden) crossed strings, is the share of the diffuse light leaving the first surface, each point sending light out in proportion to the cosine of the angle with its normal, that arrives on a straight way at the outer side of the second surface without meeting any row or the ground before.", "quantifier": "all physically placed arrays (flat rows must not touch), all pairs of surfaces that are longer than the tolerance (the second may also be a point), all time steps", "why_tests_cant": "The crossed strings formulas and the rule for which row obstructs the view are checked against a physical definition over a continuum of points and directions; tests compare a few numbers with other implementations.", "anchors": ["pvfactors/viewfactors/calculator.py:VFCalculator.build_ts_vf_matrix", "pvfactors/viewfactors/vfmethods.py:VFTsMethods.vf_pvrow_gnd_surf", "pvfactors/viewfactors/vfmethods.py:VFTsMethods.vf_pvrow_to_pvrow"]}
{"id": "C52", "title": "Sky view factors agree with tracing of rays", "statement": "All diffuse light leaving a surface either arrives at some surface of the array or meets nothing; and the view factor to the sky, which the package computes as 1 minus the others, is the share of light that meets nothing.", "quantifier": "all physically placed arrays in which no surface is shorter than the tolerance without being a point, all surfaces, all time steps", "why_tests_cant": "Shows that nothing is lost or counted twice over a continuum of points and directions, whatever the cuts and shadows.", "anchors": ["pvfactors/viewfactors/calculator.py:VFCalculator.build_ts_vf_matrix"]}
{"id": "C53", "title": "Direct light in the irradiance model and in the geometry agree", "statement": "The cosine of incidence that the irradiance models compute in three dimensions is the one of the two-dimensional geometry exactly if modules face at a right angle to the axis of rotation. If they do, direct light is neither lost nor created: the direct components of all illuminated surfaces (ground and both sides of rows), weighted by length, add up to the direct light on 200 m of bare ground when no row casts its shadow beyond the ends of the ground, and to no less in any case.", "quantifier": "all physically placed arrays, sun positions above the horizon, direct irradiances, both irradiance models", "why_tests_cant": "Connects shading lengths on rows, shadows on the ground with overlaps, and the transposition formula over all sun positions and numbers of rows.", "anchors": ["pvfactors/irradiance/models.py:IsotropicOrdered.fit", "pvfactors/irradiance/models.py:HybridPerezOrdered.fit", "pvfactors/geometry/pvarray.py:OrderedPVArray.fit"]}
{"id": "C54", "title": "Brighter surfaces never darken anything", "statement": "In full mode, raising the albedo of the ground or the reflectivity of front or back modules (all below 1), with the same light from the sky, never lowers the radiosity, incident irradiance or reflected part of any surface, and leaves the isotropic part as it is. A lighter ground never lowers the irradiance absorbed by modules (without fAOI functions).", "quantifier": "all physically placed arrays, light without negative components, both irradiance models, time steps", "why_tests_cant": "A monotonicity statement over pairs of runs with infinitely many reflections; tests compare single values.", "anchors": ["pvfactors/engine.py:PVEngine.run_full_mode", "pvfactors/irradiance/models.py:IsotropicOrdered.transform", "pvfactors/irradiance/models.py:HybridPerezOrdered.transform"]}
{"id": "C55", "title": "AOI view factors agree with tracing of rays", "statement": "With fAOI functions, the AOI view factor from a module surface to any other surface is the share of the light reaching the middle of the module surface that comes on a straight way from the outer side of the other one and is not reflected, and likewise for the sky (rows not flat, ends of the ground out of sight or beyond an outermost row). For continuous fAOI functions the error is at most their change over half a section plus pi over the number of sections plus the tolerance, so it vanishes with more sections; the absorbed irradiance follows with the corresponding error.", "quantifier": "all physically placed arrays, fAOI functions, numbers of sections, module surfaces longer than the tolerance, time steps", "why_tests_cant": "Angles to hidden and visible points are compared with a physical definition over a continuum of directions; tests compare numbers for single cases.", "anchors": ["pvfactors/viewfactors/aoimethods.py:AOIMethods.vf_aoi_pvrow_to_gnd", "pvfactors/viewfactors/aoimethods.py:AOIMethods.vf_aoi_pvrow_to_pvrow", "pvfactors/viewfactors/aoimethods.py:AOIMethods.vf_aoi_pvrow_to_sky", "pvfactors/viewfactors/calculator.py:VFCalculator.build_ts_vf_aoi_matrix"]}
{"id": "C56", "title": "Horizon band shading agrees with tracing of rays", "statement": "What is left of the horizon band after shading, on any surface of a row, is the share of the elevations of the band, in the direction the surface looks to, at which a ray from the middle of the surface meets neither a row nor the ground. The horizon component on the back of a row is the horizon irradiance on the tilted plane times that share, and so is the absorbed part; the front gets all of it.", "quantifier": "all arrays whose rows are above the ground and do not overlap seen from above, all tilts, band angles between 0 and 90 degrees, surfaces", "why_tests_cant": "Only the highest point of one neighbour is used by the code; that no other row and no other part of it matters, for every tilt and direction, is a statement over a continuum of rays.", "anchors": ["pvfactors/irradiance/models.py:HybridPerezOrdered._calculate_horizon_shading_pct_ts", "pvfactors/irradiance/utils.py:calculate_horizon_band_shading", "pvfactors/irradiance/models.py:HybridPerezOrdered.transform"]}
{"id": "C57", "title": "Circumsolar shading models are area and Gaussian shares", "statement": "For a disk covered from one side up to some percentage of its diameter, the uniform disk model gives the covered share of its area, and the Gaussian model the covered share of the light under a bell curve that reaches to three standard deviations; both in [0, 100], growing and complementary. A neighbouring row that ends below the disk shades nothing, one that reaches above it everything, and one behind whose edge the sun stands half of it. Unknown model names raise an error, and so does a missing neighbour although it is documented as allowed.", "quantifier": "all percentages, elevations, circumsolar angles and model names", "why_tests_cant": "Compares closed formulas with areas and integrals for every real argument, and checks continuity between the branches; tests check a few points.", "anchors": ["pvfactors/irradiance/utils.py:calculate_circumsolar_shading", "pvfactors/irradiance/utils.py:gaussian_shading", "pvfactors/irradiance/utils.py:uniform_circumsolar_disk_shading", "pvfactors/irradiance/models.py:HybridPerezOrdered._calculate_circumsolar_shading_pct"]}
{"id": "C58", "title": "The PV row of a time step is the time series row at that time", "statement": "A PV row of a fitted array can be turned into a geometry for every time step; no check on shading or collinearity fails. Its segments and surfaces are those of the time series row, in the same order and with the coordinates, shading status, index and parameter values of that time step, leaving out surfaces shorter than the tolerance. The surfaces of a side add up to the width of the row and the shaded ones to its shaded length; normal vectors are at right angles to the surfaces and point out of the side they belong to; weighted parameters agree with the time series ones; the lowest and highest points agree except for a flat row, whose highest point is taken to be the other end. A collection of surfaces is refused exactly if it would mix shaded and illuminated ones; otherwise it has the shading status of its surfaces and is collinear exactly if all normal vectors are parallel to the first up to the tolerance. A segment is refused exactly if one of its collections has the wrong shading status or is not collinear or the two are not parallel, and a side exactly if the first surfaces of its non-empty segments are not parallel.", "quantifier": "all arrays, time series, parameter dictionaries, time indices, rows", "why_tests_cant": "Any number of segments, any shading and any parameter values; the checks that could raise errors depend on all surfaces.", "anchors": ["pvfactors/geometry/pvrow.py:TsPVRow.at", "pvfactors/geometry/pvrow.py:TsSide.at", "pvfactors/geometry/pvrow.py:TsSegment.at", "pvfactors/geometry/timeseries.py:TsSurface.at", "pvfactors/geometry/timeseries.py:_get_params_at_idx", "pvfactors/geometry/utils.py:is_collinear", "pvfactors/geometry/base.py:_check_uniform_shading", "pvfactors/geometry/base.py:ShadeCollection.__init__", "pvfactors/geometry/base.py:PVSegment.__init__", "pvfactors/geometry/base.py:BaseSide.__init__"]}
{"id": "C59", "title": "Projection of a point onto a line string", "statement": "The projection of a point along a vector is the common point of the straight line through the point and the straight line through the line string; if the result has to lie on the line string there is a result exactly if the two meet, it lies on the line string and is closer to the common point than the distance tolerance. Nothing is returned if vector and line string span an area below 1e-5, in particular for unit vectors and line strings shorter than that. The sense of the vector does not count: points are also projected backwards.", "quantifier": "all points, vectors and line strings", "why_tests_cant": "Equations, a tolerance test and three distance tests have to agree with incidence for every real position; tests check six positions.", "anchors": ["pvfactors/geometry/utils.py:projection", "pvfactors/geometry/utils.py:are_2d_vecs_collinear"]}
{"id": "C60", "title": "PV rows made from coordinates agree with those of the fitted array", "statement": "A PV row can be made from every line, with every number of segments on its sides; no check fails. Each side is divided into equal parts in order, every part has its share of the length, and the normal vectors of the back are the negatives of those of the front. Made from centre, tilt angle, width and azimuths, the row has the line of the row of the fitted array in that place, its normal vectors point out of front and back, and its segments cover the same points as the surfaces of the fitted array.", "quantifier": "all lines, numbers of segments, angles, rows of fitted arrays", "why_tests_cant": "Two independent ways to compute the same geometry are compared for all angles and numbers of segments.", "anchors": ["pvfactors/geometry/pvrow.py:PVRow.from_linestring_coords", "pvfactors/geometry/pvrow.py:PVRow.from_center_tilt_width", "pvfactors/geometry/base.py:BaseSide.from_linestring_coords", "pvfactors/geometry/base.py:_coords_from_center_tilt_length"]}
{"id": "C61", "title": "Casting a shadow on a segment moves length from illuminated to shaded", "statement": "A shadow cast on a segment moves the length that it covers from the illuminated to the shaded collection, up to twice the tolerance for every illuminated surface, as long as it does not cover an illuminated surface with a margin of the tolerance at both ends. In that case the surface stays illuminated although the shadow is added, so that the segment gets too long; a shadow over two illuminated surfaces with a gap raises an error.", "quantifier": "all collections of surfaces on a line and all shadows on that line", "why_tests_cant": "Any number of illuminated surfaces and any position of the shadow; the tests never cover a whole surface.", "anchors": ["pvfactors/geometry/base.py:PVSegment.cast_shadow", "pvfactors/geometry/base.py:ShadeCollection.add_linestring", "pvfactors/geometry/base.py:ShadeCollection.remove_linestring"]}
{"id": "C62", "title": "Merging surfaces of a collection", "statement": "Merging two or more surfaces on a horizontal or rising line gives one surface from the first to the last end point. On a falling line the merged surface is the mirror image, off the line. Its length is in both cases the distance between first and last end point, at least the total length of surfaces that lie apart and equal to it without gaps.", "quantifier": "all lists of collinear surfaces", "why_tests_cant": "Any number and order of surfaces and all directions; the test uses a horizontal line only.", "anchors": ["pvfactors/geometry/base.py:ShadeCollection.merge_surfaces", "pvfactors/geometry/base.py:BaseSide.merge_shaded_areas"]}
{"id": "C63", "title": "Operations on sides act on each segment alone", "statement": "If segments share no collection, casting a shadow on a side, cutting it at a point and merging its shaded areas act on every segment as on this segment alone and leave other collections as they are; cutting never shortens and lengthens a segment by at most twice the tolerance. Segments made with the default shaded collection share it, so that a shadow cast on one also appears on the other. The list of all surfaces that a segment returned once is returned for ever, whatever happens to its collections.", "quantifier": "all memories, lists of segments, shadows and points", "why_tests_cant": "Interference through shared objects can only be excluded for all orders and numbers of segments.", "anchors": ["pvfactors/geometry/base.py:BaseSide.cast_shadow", "pvfactors/geometry/base.py:BaseSide.cut_at_point", "pvfactors/geometry/base.py:PVSegment.cut_at_point", "pvfactors/geometry/base.py:PVSegment.__init__", "pvfactors/geometry/base.py:PVSegment.all_surfaces"]}
{"id": "C64", "title": "Perez luminances do not depend on the modules", "statement": "If pvlib follows Perez' formulas, the isotropic and circumsolar luminances that the hybrid model uses at a time step are the shares 1-F1 and F1 of the diffuse horizontal irradiance, whatever the orientation of the modules and whichever side the sun shines on: two runs with the same sun and irradiance use the same luminances, and these add up to DHI.", "quantifier": "all runs, time steps with the sun not below the horizon and not in the plane of the modules, all brightening coefficients", "why_tests_cant": "The circumsolar luminance of surfaces facing away comes from a recursive call for the surface turned over; agreement is needed for all orientations.", "anchors": ["pvfactors/irradiance/utils.py:perez_diffuse_luminance", "pvfactors/irradiance/models.py:HybridPerezOrdered._calculate_luminance_poa_components"]}
{"id": "C65", "title": "Ground under the whole sky receives the global irradiance", "statement": "In both models, direct and circumsolar light on illuminated ground and light from the whole sky dome add up to DNI cos(zenith) + DHI, the amount used by fast mode when GHI is not given; on shaded ground they add up to the irradiance fast mode uses for shaded ground. Hence incident irradiance of the ground in full mode is that of fast mode less the isotropic light kept out by rows, plus reflections.", "quantifier": "all runs, models, spacing and transparency, all ground surfaces", "why_tests_cant": "Relates two modes and two irradiance models for all inputs.", "anchors": ["pvfactors/irradiance/models.py:HybridPerezOrdered.fit", "pvfactors/irradiance/models.py:IsotropicOrdered.fit", "pvfactors/engine.py:PVEngine.run_full_mode"]}
{"id": "C66", "title": "Circumsolar light on the back of modules", "statement": "Direct light on an illuminated back is the direct light on the front of the same modules turned over. Circumsolar light is so for zeniths up to 85 degrees; beyond, it is larger by the factor cos(85)/cos(zenith), because the limit that pvlib applies is not applied to the back. The factor is not bounded: for every bound there is a sun above the horizon for which 50 W/m2 of circumsolar light give more than that on the back of vertical modules.", "quantifier": "all runs, orientations, suns", "why_tests_cant": "The defect shows only within five degrees of the horizon and with the sun behind the modules.", "anchors": ["pvfactors/irradiance/models.py:HybridPerezOrdered._calculate_luminance_poa_components", "pvfactors/irradiance/models.py:HybridPerezOrdered.fit"]}
{"id": "C67", "title": "Irradiance of shaded fronts in fast mode", "statement": "Fast mode takes the irradiance of the fronts of rows from an isotropic transposition (the default of pvlib's function). For opaque modules the value for shaded fronts is light from the dome and from bare ground in the isotropic model, and never negative. In the hybrid model the circumsolar light of Perez' model is subtracted from it, although it is not contained, and the result can be negative. With Perez' transposition it could not.", "quantifier": "all runs, orientations, suns, coefficients", "why_tests_cant": "A negative irradiance needs a certain combination of tilt, sun and coefficients.", "anchors": ["pvfactors/irradiance/models.py:HybridPerezOrdered.fit", "pvfactors/irradiance/models.py:IsotropicOrdered.fit"]}
{"id": "C68", "title": "Angles at which losses of direct light are evaluated", "statement": "What a surface of a row absorbs of direct and circumsolar light is the value of the fAOI function of its side at the elevation of the sun over the plane of the modules (between 0 and 90 degrees) times the light; for light from the horizon it is the tilt, which is the elevation of the horizontal direction that the modules face. Without fAOI functions, and on the ground, it is the share that is not reflected.", "quantifier": "all suns and orientations, all fAOI functions, both models and sides", "why_tests_cant": "Angle conventions (from the normal or from the plane) agree only at single angles.", "anchors": ["pvfactors/irradiance/models.py:IsotropicOrdered._calculate_faoi_modifiers", "pvfactors/irradiance/models.py:HybridPerezOrdered._calculate_faoi_modifiers"]}
{"id": "C69", "title": "Updating parameters changes exactly the part addressed", "statement": "update_params of a surface collection, segment, side, row, of the shaded or illuminated ground, of the ground or of the array changes the parameter dictionaries of exactly the surfaces of that part (for the ground also of its elements and of the ground as a whole), and in each exactly the given keys. After fit, the ground as a whole, its elements and their surfaces agree in all parameters. run_full_mode writes its results to the surfaces only, so that the ground geometry of a time step made without cut points has the irradiance inputs but no results (get_param('qinc') is a KeyError), and all its surfaces with the same shading share one dictionary: setting a parameter on one sets it on all.", "quantifier": "all arrays with any numbers of rows and segments, all parameter dictionaries before, all new entries, all inputs of fit and results of a run, all grounds", "why_tests_cant": "Tests set parameters on one small array and read some of them back; that nothing else is touched, for any array, and which dictionaries are shared is not visible in samples.", "anchors": ["pvfactors/geometry/timeseries.py:TsShadeCollection.update_params", "pvfactors/geometry/timeseries.py:TsSurface.update_params", "pvfactors/geometry/timeseries.py:_get_params_at_idx", "pvfactors/geometry/pvrow.py:TsPVRow.update_params", "pvfactors/geometry/pvrow.py:TsSide.update_params", "pvfactors/geometry/pvrow.py:TsSegment.update_params", "pvfactors/geometry/pvground.py:TsGround.update_params", "pvfactors/geometry/pvground.py:TsGround.update_illum_params", "pvfactors/geometry/pvground.py:TsGround.update_shaded_params", "pvfactors/geometry/pvground.py:TsGround.at", "pvfactors/geometry/base.py:BasePVArray.update_params", "pvfactors/engine.py:PVEngine.run_full_mode"]}
{"id": "C70", "title": "Cutting, shading and merging of surfaces lose their parameters", "statement": "When a surface of a time step geometry is cut at a point, touched by the removal of a line string, or merged with others, the new surfaces keep normal vector, shading status and parameter names, but lose their index and all parameter values: names listed in param_names have the value None and all other keys are gone, so that weighted parameters of the collection raise an error until they are set again. All other surfaces keep everything, and if the point is on no surface (or near an end) nothing changes. A shadow cast on a row made by at(idx) has no parameters at all. The lines of the surfaces are those of the geometric properties. Setting a parameter of a surface changes that parameter and nothing else.", "quantifier": "all lists of surfaces with any parameters, all points and line strings, all relations of nearness", "why_tests_cant": "Tests check lengths after cutting and casting; which attributes survive for every combination of surfaces and parameters is not checked.", "anchors": ["pvfactors/geometry/base.py:BaseSurface.__init__", "pvfactors/geometry/base.py:PVSurface.__init__", "pvfactors/geometry/base.py:ShadeCollection.cut_at_point", "pvfactors/geometry/base.py:ShadeCollection.remove_linestring", "pvfactors/geometry/base.py:ShadeCollection.merge_surfaces", "pvfactors/geometry/base.py:ShadeCollection.add_linestring", "pvfactors/geometry/base.py:ShadeCollection.get_param_ww", "pvfactors/geometry/base.py:PVSegment.cast_shadow", "pvfactors/geometry/timeseries.py:TsShadeCollection.at", "pvfactors/geometry/base.py:BaseSurface.update_params"]}
{"id": "C71", "title": "Turning the whole scene about the vertical changes no result", "statement": "If the axis azimuth of the rows, the surface azimuths and the solar azimuths are all turned by the same angle (azimuths may also differ by full circles, differently at every time step), the geometry, the view factor matrices and every result stored by any sequence of calls of fit, run_full_mode and run_fast_mode stay the same, every call returns or fails alike, and run_timeseries_engine returns the same example report, provided that the pvlib functions depend on azimuths only through the difference between sun and surface.", "quantifier": "for all angles, arrays, engine configurations (both irradiance models, with or without AOI functions), sequences of calls and time series", "why_tests_cant": "tests fix one compass direction; an absolute direction leaking into a comparison, a modulus or the reversal of surfaces hit from behind would only show for certain directions and sun positions", "anchors": ["pvfactors/geometry/base.py:_get_rotation_from_tilt_azimuth", "pvfactors/geometry/base.py:_get_solar_2d_vectors", "pvfactors/engine.py:PVEngine.fit", "pvfactors/run.py:run_timeseries_engine", "pvfactors/irradiance/utils.py:perez_diffuse_luminance"]}
{"id": "C72", "title": "fAOI functions of modules in the Sandia database", "statement": "faoi_fn_from_pvlib_sandia returns, for every module in the database, a function whose value at an angle measured from the surface is the incidence angle modifier of the module at the angle from the normal; values lie in [0, 1] at all angles, angles x and 180 - x give the same value, the reflectivity derived from it lies in [0, 1], and given to the irradiance models it makes a row absorb of direct and circumsolar light the modifier at the angle between sun and normal, on the side that the sun hits. A function and an object with a method faoi are treated alike by the calculator and by the irradiance models; if either side has no function no AOI methods are created. The front function is used for the front and the back function for the back, other parameters of the model stay as they are, and a name that is not in the database is an error.", "quantifier": "for all modules (polynomial coefficients), all angles, all inputs of the irradiance models", "why_tests_cant": "tests evaluate one module at a few angles", "anchors": ["pvfactors/viewfactors/aoimethods.py:faoi_fn_from_pvlib_sandia", "pvfactors/viewfactors/calculator.py:VFCalculator.__init__", "pvfactors/irradiance/models.py:IsotropicOrdered.__init__", "pvfactors/irradiance/models.py:HybridPerezOrdered.__init__"]}
{"id": "C73", "title": "Cutting sides into segments changes no light exchanged between sides", "statement": "Take two arrays that differ only in the numbers of segments into which the fronts and backs of their rows are cut. At every time step, the light exchanged between the shaded or illuminated part of a side and any other such part, or any ground surface (view factors from each surface of the first to each surface of the second, weighted with lengths) is the same in both arrays; so is what each part sees of the sky, and its length. What a ground surface, or a surface of a side with the same number of segments in both arrays, sees of such a part is the same. In fast mode every view factor of the back of a row (each ground shadow, shaded, illuminated and all ground, shaded, illuminated and all of the next row, sky), added up over the segments of its shaded or illuminated part with the lengths of the segments, is the same; hence the average incident irradiance of the back of a row in fast mode with the isotropic model does not depend on how the back, or the fronts it looks at, are cut.", "quantifier": "all physically placed arrays, all pairs of cuts with at least one segment per side, all time steps at which each surface is a point or longer than the tolerance, all pairs of parts, all irradiance inputs", "why_tests_cant": "tests compare a few arrays with a few numbers of segments at single angles, and only some entries; that sums over segments telescope exactly, including for shaded parts and obstructed views of the ground, needs a proof for all numbers of segments", "anchors": ["pvfactors/geometry/pvrow.py:TsSide.from_raw_inputs", "pvfactors/viewfactors/vfmethods.py:VFTsMethods.vf_pvrow_gnd_surf", "pvfactors/viewfactors/vfmethods.py:VFTsMethods.vf_pvrow_to_pvrow", "pvfactors/viewfactors/calculator.py:VFCalculator.build_ts_vf_matrix", "pvfactors/viewfactors/calculator.py:VFCalculator.get_vf_ts_pvrow_element", "pvfactors/engine.py:PVEngine.run_fast_mode"]}
{"id": "C74", "title": "Full mode adds up all reflections", "statement": "The incident irradiance that full mode returns for a surface is the sum, over all numbers of reflections, of the light that arrives at the surface after exactly so many reflections: without reflection it is the direct, circumsolar, horizon and isotropic sky light of the surface; after one more reflection it is what all surfaces, seen with their view factors, reflect of the light that arrived there after one less. The returned reflected irradiance is the sum over one and more reflections. If no reflectivity is above r, stopping after n steps leaves out at most r to the n-th, divided by 1 - r, of the largest light that comes from the sky; without negative light from the sky, stopping early always gives too little.", "quantifier": "all physically placed arrays, all time steps, all irradiance inputs, all reflectivities between 0 and 1 as accepted by the irradiance models, all numbers of reflections", "why_tests_cant": "tests compare single numbers from the matrix inverse; they cannot show that the inverse is the limit of infinitely many reflections, nor bound the rest for every n", "anchors": ["pvfactors/engine.py:PVEngine.run_full_mode", "pvfactors/viewfactors/calculator.py:VFCalculator.build_ts_vf_matrix"]}
{"id": "C75", "title": "Sender and receiver of reflected light can be exchanged", "statement": "Take two full mode runs of the same array and sun position with the same reflectivities but different light. The light that surfaces send out in the first run, weighted by their lengths and by the light that they get from the sky in the second run, adds up to the same sum as with the two runs exchanged. In particular, if only one surface gets light from the sky in the first run, and only another one in the second run, then what the second surface sends out in the first run and what the first surface sends out in the second run are in the ratio of their lengths and of the light put in.", "quantifier": "all arrays, all time steps at which each surface is a point or longer than the tolerance, all pairs of irradiance inputs (also of different irradiance models) with the same reflectivities, all pairs of surfaces", "why_tests_cant": "the symmetry links two different runs through all reflections; tests look at the numbers of one run at a time", "anchors": ["pvfactors/engine.py:PVEngine.run_full_mode", "pvfactors/viewfactors/calculator.py:VFCalculator.build_ts_vf_matrix", "pvfactors/viewfactors/vfmethods.py:VFTsMethods.vf_pvrow_gnd_surf", "pvfactors/viewfactors/vfmethods.py:VFTsMethods.vf_pvrow_to_pvrow"]}
{"id": "C76", "title": "Light exchanged between modules depends only on the shape of the array", "statement": "The view factors between surfaces of two neighbouring rows do not change if the height of the rows, or the number of rows, is changed, or if another pair of neighbouring rows is taken, as long as the rows are cut in the same way and edge rows are compared with edge rows. They do not change either if the rows become wider or narrower at the same ground coverage ratio (surfaces keep their proportions and are longer than the tolerance in both arrays). If rows, modules and sun are mirrored about the axis, so that rows and segments are counted from the other end, each surface keeps its length and each view factor between surfaces of modules is the same.", "quantifier": "all arrays with the same axis and ground coverage ratio, all factors of the width, all heights, all numbers of rows, all pairs of rows, segments and shaded or illuminated parts, all sun positions and tilts (mirror: not flat, not facing along the axis, physically placed, sun neither in the horizon nor in the plane of the rows)", "why_tests_cant": "tests use single arrays; that height and place drop out, that shapes scale exactly and that left and right are treated alike holds for infinitely many pairs of arrays", "anchors": ["pvfactors/geometry/timeseries.py:TsPointCoords", "pvfactors/geometry/pvrow.py:TsPVRow.from_raw_inputs", "pvfactors/geometry/pvrow.py:TsSide.from_raw_inputs", "pvfactors/geometry/pvarray.py:OrderedPVArray.fit", "pvfactors/viewfactors/vfmethods.py:VFTsMethods.vf_pvrow_to_pvrow"]}
{"id": "C77", "title": "Indices of surfaces at a time step", "statement": "The surfaces of a fitted array have the indices 0, 1, ..., n - 1 in the order in which the array lists them. The geometry of a row (or of one of its sides) at a time step lists exactly the indices of those surfaces of the time series row that are at least 1e-8 m long at that time step, in the same order, front before back, and it counts as many surfaces. Taken row after row, these indices increase, so no index occurs twice; they come after the (2n+1)(n+1) indices of the ground of n rows and stay below the number of surfaces of the array. The index of a surface of the geometry is its position in the list of all surfaces, where the surface with the same coordinates stands, and that row of the view factor matrix adds up to 1 (unless the surface is exactly as long as the tolerance). surfaces_at_idx gives the surfaces of the segments one after the other, front before back.", "quantifier": "all arrays with all cuts, all time series, all time steps, all rows and sides, all parameter dictionaries", "why_tests_cant": "tests look at indices of one array with two or three rows; they cannot show that no other combination of cuts and point surfaces gives a wrong or a double index", "anchors": ["pvfactors/geometry/base.py:BasePVArray.ts_surface_indices", "pvfactors/geometry/base.py:ShadeCollection.n_surfaces", "pvfactors/geometry/base.py:ShadeCollection.surface_indices", "pvfactors/geometry/base.py:PVSegment.n_surfaces", "pvfactors/geometry/base.py:PVSegment.surface_indices", "pvfactors/geometry/base.py:BaseSide.n_surfaces", "pvfactors/geometry/base.py:BaseSide.surface_indices", "pvfactors/geometry/pvrow.py:PVRow.surface_indices", "pvfactors/geometry/pvrow.py:TsPVRow.surfaces_at_idx"]}
{"id": "C78", "title": "Arrays, models and calculators from dictionaries of parameters", "statement": "init_from_dict makes an array exactly if the five required keys are there with values of the right kind, and then each parameter is the value of its key and row i is cut as the entry of row i under cut says (not at all without such an entry). The dictionaries given to run_timeseries_engine make an engine exactly if the array dictionary describes an array and all other keys are names of arguments; each value goes to its place, a missing one is replaced by its documented default, and AOI methods are used exactly if the calculator gets a fAOI function for both sides. A run is then the run of that engine; it fails if a required key is missing or if a model or calculator argument is unknown (for the isotropic model also those of the horizon band and of circumsolar light). Other keys of the array dictionary, and the order of keys, have no effect; circumsolar_angle and circumsolar_model have no effect on the results of a run. An array made from a dictionary of scalars has the single time step that the dictionary gives, and the view factors of this time step in any longer time series. The parts of a dataframe are its index and the columns of the given names.", "quantifier": "all dictionaries, both irradiance models, all engine options, all report builders, all time series", "why_tests_cant": "tests give complete dictionaries; they do not try every subset, order, wrong kind of value or unknown name", "anchors": ["pvfactors/geometry/pvarray.py:OrderedPVArray.init_from_dict", "pvfactors/geometry/pvarray.py:OrderedPVArray.fit_from_dict_of_scalars", "pvfactors/run.py:run_timeseries_engine", "pvfactors/irradiance/models.py:IsotropicOrdered.__init__", "pvfactors/irradiance/models.py:HybridPerezOrdered.__init__", "pvfactors/viewfactors/calculator.py:VFCalculator.__init__", "pvfactors/irradiance/utils.py:breakup_df_inputs"]}
{"id": "C79", "title": "Ground geometries of a time step", "statement": "A flat ground is a single surface from end to end with the given shading status and a normal vector that points up. From lists of shaded and illuminated surfaces with vertical normal vectors a ground can always be made: no check on collinearity or shading fails, it has these surfaces, illuminated ones first, and its ends are the given ones or -100 and 100. The ground of every time step can therefore be turned into a geometry, with or without cut points and merging of shadows; its surfaces are the illuminated and then the shaded surfaces of the time step, its shaded length is the sum of the lengths of the latter, and if the shadows are in order and not tiny this is the shaded length of the time series ground. The given ends do not change the surfaces.", "quantifier": "all grounds with any number of shadows and any cut points, all end points, all heights of a flat ground, both options of merging and of cut points", "why_tests_cant": "tests build a handful of grounds; that no placement of shadows and cut points makes a check of the constructors fail is a statement about all of them", "anchors": ["pvfactors/geometry/pvground.py:PVGround.__init__", "pvfactors/geometry/pvground.py:PVGround.as_flat", "pvfactors/geometry/pvground.py:PVGround.from_lists_surfaces", "pvfactors/geometry/pvground.py:PVGround.boundary", "pvfactors/geometry/pvground.py:TsGround.at"]}
{"id": "C80", "title": "Small errors in inputs and in solving stay small", "statement": "If no reflectivity is above r < 1, any values that satisfy the balance of light at each surface up to ε (for example those of a solver with rounding errors) are within ε / (1 - r) of the incident irradiance of full mode. Two runs on the same array may differ in sun position, tilt, light and reflectivities: if the light from the sky differs by at most ε, the reflectivities by at most δ and the view factors of each surface by at most φ in total, the incident irradiances differ by at most (ε + (δ + φ r') Q) / (1 - r), where r' and Q bound reflectivities and incident irradiance of the second run. No incident irradiance is above the largest light from the sky divided by 1 - r.", "quantifier": "all arrays with all cuts, both irradiance models or other ones, all pairs of physical time steps, all errors", "why_tests_cant": "tests compare single values with a tolerance; that no input in the physical range makes the system amplify errors by more than 1 / (1 - r) is a statement about all of them", "anchors": ["pvfactors/engine.py:PVEngine.run_full_mode", "pvfactors/viewfactors/calculator.py:VFCalculator.build_ts_vf_matrix"]}
{"id": "C81", "title": "Time steps with missing values", "statement": "Where a time step has missing values (NaN), the results of all other time steps are exactly those of the time series made of these other steps only, in any order and number: view factors, and all results of full mode with or without AOI methods, whatever is missing elsewhere. Steps with missing values never make a run fail: it fails exactly if the run of the other steps does. The result has values at all steps that have all inputs.", "quantifier": "all arrays with all cuts, all time series with missing values at any steps, both irradiance models or other ones, with and without AOI methods, all time steps whose surfaces are points or at least 1e-8 m long", "why_tests_cant": "tests use NaN at one or two steps of one series; is_empty sums lengths over the time series with nansum, so that a missing step could change others", "anchors": ["pvfactors/geometry/timeseries.py:TsSurface.is_empty", "pvfactors/engine.py:PVEngine.run_full_mode", "pvfactors/viewfactors/calculator.py:VFCalculator.build_ts_vf_aoi_matrix"]}
{"id": "C82", "title": "No undefined arithmetic for physical inputs", "statement": "At a time step with the sun neither exactly in the horizon nor in the plane of the rows, rows above the ground and positive numbers of segments, no division, tangent or inverse function of the package meets an argument outside its domain: row distance, segment lengths, tangents of shadow and shade angles, cut points of tilted rows, all angles of incidence between surfaces of at least 1e-8 m (if flat rows do not overlap), inverse reflectivities, view factor of circumsolar light on the back, horizon shading of each surface (if rows do not overlap in the view from above), luminances of the Perez model (of the reversed surface where the sun hits the back), averages over segments, sides and the ground, and the arccos of the circumsolar disk. If the sun is in the horizon or in the plane of the rows, shadows and shade are indeed undefined.", "quantifier": "all arrays with all cuts, all physical time steps, all pairs of surfaces, all irradiance parameters with reflectivities strictly between 0 and 1, all numbers of integration sections", "why_tests_cant": "numpy only warns and continues with inf or nan, which np.where may hide; tests cannot show that no input in the physical range gets there", "anchors": ["pvfactors/geometry/pvarray.py:OrderedPVArray.fit", "pvfactors/geometry/pvground.py:TsGround.from_ts_pvrows_and_angles", "pvfactors/viewfactors/aoimethods.py:AOIMethods._calculate_aoi_angles", "pvfactors/irradiance/models.py:HybridPerezOrdered._calculate_horizon_shading_pct_ts", "pvfactors/irradiance/utils.py:perez_diffuse_luminance", "pvfactors/irradiance/utils.py:uniform_circumsolar_disk_shading", "pvfactors/geometry/pvrow.py:TsSide.get_param_weighted"]}
{"id": "C83", "title": "Both irradiance models agree under an isotropic sky", "statement": "If there is no circumsolar light, no horizon band, and the luminance of the sky is the diffuse horizontal irradiance, full mode gives the same result with IsotropicOrdered and with HybridPerezOrdered: it fails with both or with none, and the stored matrices and all five stored values of every surface are equal, whatever was done with the engines before. Fast mode agrees in all parts except the light reflected by shaded fronts of the neighbouring row, where the isotropic model is smaller by exactly view factor times front reflectivity times the direct light that passes through the modules.", "quantifier": "all engines, all time series with an isotropic sky, all histories of calls, all surfaces and rows", "why_tests_cant": "tests of the two models use different expected values and never compare the models", "anchors": ["pvfactors/irradiance/models.py:IsotropicOrdered.fit", "pvfactors/irradiance/models.py:IsotropicOrdered.transform", "pvfactors/irradiance/models.py:HybridPerezOrdered.fit", "pvfactors/irradiance/models.py:HybridPerezOrdered.transform", "pvfactors/engine.py:PVEngine.run_full_mode", "pvfactors/engine.py:PVEngine.run_fast_mode"]}
{"id": "C84", "title": "View factors to the sky have the textbook values", "statement": "A surface on a side that no row stands in front of (a row at the edge, or a single row, tilted so that its line meets the ground within its extent) sees no rows, and sees sky (1 + cos b)/2 and ground (1 - cos b)/2, b being the tilt of that side, up to half the slope under which the upper edge of the row is seen from the end of the ground; the exact value is given by the strings from its two ends to the end of the ground. A surface with a row in front of it sees the sky given by the strings from its ends to the upper end of that row, plus at most what its lower end sees below that row behind the end of the ground, and exactly that if the row hides the end of the ground. For a whole unshaded side of width w with a row at distance d this is (w + d - sqrt(d^2 + w^2 - 2 d w cos b))/(2 w), up to y^2/(4 X w), y being the height of the lower edge and X its distance from the end of the ground. In fast mode the view factors of a back with a row behind it to the sky and to the ground have the string values (strings to the upper and to the lower end of that row) without any error.", "quantifier": "all physical arrays and time steps with tilted rows, all rows, sides, segments and shadings, any number of time steps", "why_tests_cant": "tests compare a few matrices with stored numbers; none compares with the analytical view factor, and none could for all tilts and distances", "anchors": ["pvfactors/viewfactors/calculator.py:VFCalculator.build_ts_vf_matrix", "pvfactors/viewfactors/vfmethods.py:VFTsMethods.vf_pvrow_gnd_surf", "pvfactors/viewfactors/vfmethods.py:VFTsMethods.vf_pvrow_to_pvrow", "pvfactors/viewfactors/calculator.py:VFCalculator.get_vf_ts_pvrow_element", "pvfactors/config.py:MIN_X_GROUND"]}
{"id": "C85", "title": "Who sees more sky", "statement": "Of two surfaces on the same side of a row, the higher one sees at least as much sky. In full mode this holds on sides that no row stands in front of (there the higher one also sees at most as much ground), and behind a row that hides the end of the ground from both. In fast mode it holds for the back of a row with a row behind it, together with the opposite inequality for the ground. In fast mode a surface on such a back sees at least as much sky, at least as much ground and at most as much of the row behind it if the rows are put farther apart while everything else, including the heights of its ends, stays the same.", "quantifier": "all physical arrays and time steps with tilted rows, all pairs of segments and shadings of a side, any pair of ground coverage ratios", "why_tests_cant": "an ordering over all pairs of segments, tilts and row distances; tests check single numbers", "anchors": ["pvfactors/viewfactors/calculator.py:VFCalculator.build_ts_vf_matrix", "pvfactors/viewfactors/calculator.py:VFCalculator.get_vf_ts_pvrow_element", "pvfactors/viewfactors/vfmethods.py:VFTsMethods.vf_pvrow_gnd_surf", "pvfactors/viewfactors/vfmethods.py:VFTsMethods.calculate_vf_to_pvrow", "pvfactors/geometry/pvarray.py:OrderedPVArray.__init__"]}
{"id": "C86", "title": "Which side of the modules is called the front makes no difference", "statement": "Describe the same tilted modules by their other side: tilt angle 180 degrees minus the tilt angle, opposite azimuth, numbers of segments, reflectivities and fAOI functions of front and back exchanged (segments are then counted from the other end). Then all surfaces, shadows, cut points and shaded lengths are where they were, all view factors between surfaces and to the sky are the same, with and without reflection losses, and full mode with the isotropic model gives every surface the same radiosity, incident, isotropic, reflected and absorbed irradiance. With the hybrid Perez model this holds if no light comes from the horizon and the circumsolar light on the front comes from the circumsolar luminance; light from the horizon breaks it: a surface called front gets all of it, the same surface called back only what the neighbouring row leaves.", "quantifier": "all arrays, all time series of tilted modules that do not face along the axis, all surfaces, any fAOI functions; full mode on physical arrays", "why_tests_cant": "a relation between two runs with different tilt angles and azimuths over all surfaces of all arrays; tests use one description", "anchors": ["pvfactors/geometry/pvarray.py:OrderedPVArray.fit", "pvfactors/geometry/pvarray.py:OrderedPVArray._calculate_interrow_shading", "pvfactors/geometry/pvrow.py:TsSide.from_raw_inputs", "pvfactors/geometry/base.py:_get_rotation_from_tilt_azimuth", "pvfactors/viewfactors/calculator.py:VFCalculator.build_ts_vf_matrix", "pvfactors/viewfactors/calculator.py:VFCalculator.build_ts_vf_aoi_matrix", "pvfactors/irradiance/models.py:IsotropicOrdered.fit", "pvfactors/irradiance/models.py:HybridPerezOrdered.transform", "pvfactors/engine.py:PVEngine.run_full_mode"]}
{"id": "C87", "title": "How row-to-row shading depends on the array and on the sun", "statement": "With tilted modules and the sun up, a side of a row that faces the sun and a neighbouring row is lit over the module width or, if less, over the row distance divided by the width of the ground shadow of one metre of module; every other side has no shade. So the shaded length depends on ground coverage ratio, width, tilt and sun only, not on height, segments, number of rows or position; rows further apart never have more shade; the lower the sun stands on the side to which a lit side faces the more of it is shaded; tilting the fronts towards the sun never reduces their shade. There is no shade in the whole array exactly if the ground coverage ratio times the projection of the sun on the module normal is at most its height: with modules and sun on one azimuth across the axis this is the backtracking condition gcr * cos(zenith - tilt) <= cos(zenith).", "quantifier": "all arrays with at least one segment per side, all tilts between 0 and 180 degrees, all sun positions above the horizon and not in the plane of the modules", "why_tests_cant": "inequalities between any two arrays or time steps and an exact threshold over real angles; tests compare single numbers", "anchors": ["pvfactors/geometry/pvarray.py:OrderedPVArray._calculate_interrow_shading", "pvfactors/geometry/pvarray.py:OrderedPVArray._calculate_pvrow_elements_coords", "pvfactors/geometry/pvrow.py:TsSide.shaded_length", "pvfactors/geometry/pvground.py:TsGround.from_ts_pvrows_and_angles"]}
{"id": "C88", "title": "How much neighbouring rows see of each other", "statement": "The view factor between whole sides of two neighbouring rows that face each other (all surfaces of the sides, weighted with their lengths) is the textbook value for two equal parallel strips, (sqrt(d^2 + w^2 + 2 d w cos b) + sqrt(d^2 + w^2 - 2 d w cos b) - 2 d)/(2 w) with width w, row distance d and tilt b, in both directions, however the sides are cut and wherever the shade ends; no other two sides of rows see each other. So it depends on ground coverage ratio and tilt only: rows that stand closer or are steeper never see less of each other, and rows see at most gcr sin(b)^2 / (2 (1 - (gcr cos b)^2)) of each other.", "quantifier": "all physical arrays and time steps with tilted rows in which no surface is shorter than the tolerance without being a point, all pairs of rows and sides, all pairs of arrays and time steps", "why_tests_cant": "closed form and inequalities over all reals, segments, shadings and pairs of arrays", "anchors": ["pvfactors/viewfactors/vfmethods.py:VFTsMethods.vf_pvrow_to_pvrow", "pvfactors/viewfactors/calculator.py:VFCalculator.build_ts_vf_matrix", "pvfactors/geometry/pvrow.py:TsSide.from_raw_inputs"]}
{"id": "C89", "title": "Runs for one time step given by plain numbers", "statement": "If a run for time series returns a report, then the run for one of its time steps, with all arguments given as plain numbers, returns the report with the values of that time step only; a run for time series succeeds exactly when the runs for all its single time steps succeed, and returns their values one after the other. Fitting marks exactly the time steps with the sun below the horizon, a negative irradiance or no light at all as steps to be skipped, but they are calculated like all others: at night a positive DNI puts a negative direct light on the illuminated ground.", "quantifier": "all arguments (albedo a number or a time series, with or without ghi), time steps, engine configurations with both irradiance models in full and fast mode, external functions, report functions computed time step by time step", "why_tests_cant": "lengths of time series are unbounded; the statement compares runs for all of them", "anchors": ["pvfactors/engine.py:PVEngine.fit", "pvfactors/run.py:run_timeseries_engine"]}
{"id": "C90", "title": "Light that passes the rows", "statement": "Spacing ratio s and transparency t of the modules act only through the open share s + (1 - s) t: two models with the same share give the same results in both modes. Shaded surfaces get exactly this share of the direct and circumsolar light of illuminated surfaces of the same kind. All results of full mode (radiosity, incident, isotropic, reflected and absorbed irradiance, with or without fAOI functions) are linear in the share. A larger share never lowers radiosity, incident or reflected light of any surface, nor the incident light of back surfaces in fast mode, and leaves the isotropic part as it is.", "quantifier": "all pairs (for linearity, triples) of spacing ratios and transparencies, both irradiance models, all arrays (monotonicity: physically placed ones with light that is not negative), time series, fAOI functions", "why_tests_cant": "statements compare runs for all pairs of real parameters", "anchors": ["pvfactors/irradiance/models.py:IsotropicOrdered.fit", "pvfactors/irradiance/models.py:HybridPerezOrdered.fit", "pvfactors/engine.py:PVEngine.run_full_mode", "pvfactors/engine.py:PVEngine.run_fast_mode"]}
{"id": "C91", "title": "Full mode from first principles", "statement": "Take light that travels along straight lines: from the sun, from a sky that is equally bright everywhere, and from surfaces that reflect equally in all directions; the part of the sunlight that rows let through is the open share. An inner point of a surface that faces the sun sees it exactly if the surface is not one of those called shaded. Numbers solve the balance of this light on all surfaces that are not points exactly if they are the incident irradiance that full mode returns. This holds with the isotropic model (sun DNI, sky DHI) and with the hybrid Perez model: for a pvlib that follows Perez' formulas the sun then has strength DNI + DHI F1 / cos(zenith), the sky luminance DHI (1 - F1), and the band above the horizon adds |DHI F2 sin(tilt)|, for back surfaces the share of it that rows leave open at the middle of the surface. Without direct light the sun may be anywhere, also below the horizon, and the modules may face any way. The statement uses neither strings nor the matrix of view factors nor the computation of shadows.", "quantifier": "all physically placed arrays, time series, module parameters and irradiances; with direct light: sun above the horizon (Perez: zenith at most 85 degrees) and modules facing at right angles to the axis; no surface shorter than the tolerance except points", "why_tests_cant": "the balance contains integrals over points and directions and quantifies over all its solutions", "anchors": ["pvfactors/engine.py:PVEngine.run_full_mode", "pvfactors/irradiance/models.py:IsotropicOrdered", "pvfactors/irradiance/models.py:HybridPerezOrdered", "pvfactors/geometry/pvground.py:TsGround.from_ts_pvrows_and_angles", "pvfactors/geometry/pvarray.py:OrderedPVArray.fit", "pvfactors/viewfactors/calculator.py:VFCalculator.build_ts_vf_matrix"]}
{"id": "C92", "title": "Fast mode from first principles", "statement": "If pvlib transposes light with an isotropic sky and no global irradiance is given, the incident irradiance that fast mode returns for a back surface is the sum of: light straight from the sun (all of it where the sun is seen, the open share elsewhere), light from the sky along straight lines, and light that is reflected once on its way along straight lines by ground and rows. These are lit as on open ground: light from the sun with the shadows of the rows, the part of the sky above their plane and the light of bare ground below it. In the isotropic model, light that rows let through is counted on the ground but not on other rows. The same holds with the hybrid Perez model, for a pvlib that follows Perez' formulas: circumsolar light is taken out of the diffuse light and treated as sunlight, and the horizon band is added for the surface itself but not for the surfaces that reflect.", "quantifier": "all physically placed arrays, time steps, module parameters and irradiances; sun above the horizon (Perez: zenith at most 85 degrees), modules facing at right angles to the axis, ground seen by the surface within the scene", "why_tests_cant": "the statement contains integrals over points and directions", "anchors": ["pvfactors/engine.py:PVEngine.run_fast_mode", "pvfactors/irradiance/models.py:IsotropicOrdered", "pvfactors/viewfactors/vfmethods.py:VFTsMethods", "pvfactors/viewfactors/calculator.py:VFCalculator.get_vf_ts_pvrow_element"]}
{"id": "C93", "title": "The report of a run from first principles", "statement": "If run_timeseries_engine with the example report builder, in full mode, returns a report for an array of at least two rows, then at every time step at which light can be traced the values under qinc_front and qinc_back are the means over the front and over the back of row 1 of the light that arrives there: straight from the sun where the sun is seen (the open share elsewhere), from the sky along straight lines, and reflected any number of times along straight lines. The values under iso_front and iso_back are the means of the light that comes straight from the sky. Such light exists, and with the hybrid Perez model it follows the formula of Perez et al. with the inputs of the same time step.", "quantifier": "all arguments of a run, arrays, module parameters and time steps; sun at most 85 degrees from the zenith for the hybrid Perez model, modules facing at right angles to the axis", "why_tests_cant": "the statement contains integrals over points and directions and covers the whole path from the arguments of a run to its report", "anchors": ["pvfactors/run.py:run_timeseries_engine", "pvfactors/report.py:ExampleReportBuilder", "pvfactors/engine.py:PVEngine.run_full_mode", "pvfactors/irradiance/models.py:HybridPerezOrdered", "pvfactors/irradiance/models.py:IsotropicOrdered", "pvfactors/geometry/pvrow.py:TsSide.get_param_weighted"]}
{"id": "C94", "title": "Absorbed irradiance from first principles", "statement": "In full mode with fAOI functions, the absorbed irradiance of a PV surface is the light that arrives at its middle along straight lines and is not reflected there: of the light from the sun the fraction that the fAOI function gives for the angle between the sun and the modules, of the light from the horizon band the fraction for the tilt of the modules, and of the light from the sky and from other surfaces, lit by any number of reflections, the fraction for the angle of each ray. The error is at most (w + d pi / n + d tol) times all light that sky and surfaces send out, for n sections and an fAOI function that is continuous, at most d, and changes by at most w over half a section. With the hybrid Perez model and a pvlib that follows Perez' formulas the sun has strength DNI + DHI F1 / cos(zenith), the sky luminance DHI (1 - F1), and the horizon band |DHI F2 sin(tilt)|.", "quantifier": "all physically placed arrays, time steps, module parameters, irradiances, fAOI functions and numbers of sections; rows not flat, sun above the horizon (Perez: zenith at most 85 degrees), modules facing at right angles to the axis, ground seen from the surface within the scene", "why_tests_cant": "the statement contains integrals over points and directions, with an error bound for all fAOI functions", "anchors": ["pvfactors/engine.py:PVEngine.run_full_mode", "pvfactors/viewfactors/aoimethods.py:AOIMethods", "pvfactors/irradiance/models.py:IsotropicOrdered", "pvfactors/irradiance/models.py:HybridPerezOrdered", "pvfactors/viewfactors/calculator.py:VFCalculator.build_ts_vf_aoi_matrix"]}
{"id": "C95", "title": "Mornings and afternoons are alike in fast mode", "statement": "If a whole scene is mirrored in an upright plane along the axis of the rows (rows counted from the other end, sun and modules as far from the axis on the other side, segments of the rows in reverse order), fast mode gives every back surface and its mirror image the same view factors to sky, ground, shaded ground, next row and its shaded part, and the same irradiance components and incident irradiance, with the isotropic and with the hybrid Perez model. The list of view factors to the shadows of the single rows is reversed, unless shadows overlap.", "quantifier": "all physically placed arrays, time steps with tilted modules not facing along the axis, module parameters and irradiances; rows whose back looks at another row (or a single row); all shadows and their mirror images within the ground of the scene", "why_tests_cant": "left and right are handled by separate branches of the code, and tests look at few angles; the statement compares all pairs of mirrored scenes", "anchors": ["pvfactors/engine.py:PVEngine.run_fast_mode", "pvfactors/viewfactors/calculator.py:VFCalculator.get_vf_ts_pvrow_element", "pvfactors/viewfactors/vfmethods.py:VFTsMethods.calculate_vf_to_gnd", "pvfactors/viewfactors/vfmethods.py:VFTsMethods.calculate_vf_to_pvrow", "pvfactors/viewfactors/vfmethods.py:VFTsMethods.calculate_vf_to_shadow_obstruction_hottel", "pvfactors/irradiance/models.py:HybridPerezOrdered"]}
{"id": "C96", "title": "Rounding errors stay small", "statement": "With numbers whose operations have relative errors of at most eps (2^-53 for floating point numbers of 64 bits), every computed entry of the view factor matrix differs from the exact view factor for the same coordinates by an explicit bound of order eps that depends only on the size of the scene, the shortest surface and the height of the lower edges of the rows, although the code decides with computed angles whether the edge of a neighbouring row is in the way, and in whatever order sums are added up. If the linear system is then solved up to small residuals, the incident irradiance of full mode differs from the exact one by the residuals and the error of the matrix times the largest luminance, divided by one minus the largest reflectivity.", "quantifier": "all arithmetics with relative errors of at most 1/8 (in particular that of the hardware), arrays, coordinates whose surfaces are points or longer than twice the tolerance, orders of summation, irradiances, reflectivities below one and approximate solutions", "why_tests_cant": "tests compare with rounded expected values for a few scenes; they cannot show that a wrong decision between two branches or cancellation never amplifies rounding errors", "anchors": ["pvfactors/viewfactors/vfmethods.py:VFTsMethods._distance", "pvfactors/viewfactors/vfmethods.py:VFTsMethods._angle_with_x_axis", "pvfactors/viewfactors/vfmethods.py:VFTsMethods._hottel_string_length", "pvfactors/viewfactors/vfmethods.py:VFTsMethods._vf_hottel_gnd_surf", "pvfactors/viewfactors/vfmethods.py:VFTsMethods._vf_surface_to_surface", "pvfactors/viewfactors/calculator.py:VFCalculator.build_ts_vf_matrix", "pvfactors/engine.py:PVEngine.run_full_mode"]}
{"id": "C97", "title": "Small errors of stored coordinates change view factors little, unless the tilt is lost", "statement": "If the stored coordinates of a scene differ from the exact ones by distances of at most tau, the same end of every surface counts as the higher one, and the lower edges of rows are equally high up to sigma, then every view factor (computed with rounding errors) differs from that of the exact scene by an explicit bound of order tau, sigma and eps, and so does the incident irradiance of full mode. The ends of rows and segments are computed with errors of the order of the rounding errors. The condition on the higher end is needed: highest_point and lowest_point return the first end on ties, so for a row with a positive rotation that is so small that its stored coordinates are horizontal, the view factors of its back side to ground surfaces past the next row are the negative of the right ones.", "quantifier": "all arithmetics with relative errors of at most 1/8, arrays, physical steps, stored coordinates, irradiances and approximate solutions; rotations and centers of rows", "why_tests_cant": "tests use angles that are far from horizontal or exactly horizontal; they cannot show that small errors of coordinates are never amplified by the choice between a straight string and one over the edge of the next row, and they miss tilts that are lost in rounding", "anchors": ["pvfactors/viewfactors/vfmethods.py:VFTsMethods._hottel_string_length", "pvfactors/viewfactors/vfmethods.py:VFTsMethods._vf_hottel_gnd_surf", "pvfactors/viewfactors/vfmethods.py:VFTsMethods.vf_pvrow_surf_to_gnd_surf_obstruction_hottel", "pvfactors/geometry/timeseries.py:TsLineCoords.highest_point", "pvfactors/geometry/timeseries.py:TsLineCoords.lowest_point", "pvfactors/geometry/pvrow.py:TsPVRow._calculate_full_coords", "pvfactors/geometry/pvrow.py:TsSide.from_raw_inputs"]}
{"id": "C98", "title": "The whole computed scene is accurate", "statement": "Compute the scene of a time step (row distance and centers, ends of rows and segments, shaded lengths, ends of shade, shadows, cut points, ground surfaces) with operations of relative error at most eps and trigonometric values with errors of at most eta. Then every coordinate of every surface differs from the exact one by at most an explicit bound of order eps and eta, times the size of the array and one over the sine of the tilt, provided that rows are tilted by clearly more than this bound, the sun is not within the bound of the plane of the rows, and no shaded length is within the bound of the tolerance. The same surfaces are empty, and all view factors and the incident irradiance of full mode, computed from these inputs with rounding errors, are close to the exact ones.", "quantifier": "all arithmetics with bounded relative errors, arrays, rotations, sun vectors, errors of trigonometric values, numbers of rows and segments, time series", "why_tests_cant": "tests compare a few scenes up to some decimals; they cannot show that the case distinctions (order of shadow ends, full or partial shade, overlap of shadows, cut points, higher end of a surface) never amplify rounding errors", "anchors": ["pvfactors/geometry/pvarray.py:OrderedPVArray.fit", "pvfactors/geometry/pvarray.py:OrderedPVArray._calculate_interrow_shading", "pvfactors/geometry/pvrow.py:TsSide.from_raw_inputs", "pvfactors/geometry/pvrow.py:TsPVRow._calculate_full_coords", "pvfactors/geometry/pvground.py:TsGround.from_ts_pvrows_and_angles", "pvfactors/geometry/pvground.py:TsGround.from_ordered_shadows_coords", "pvfactors/viewfactors/calculator.py:VFCalculator.build_ts_vf_matrix"]}
{"id": "C99", "title": "View factors computed from the inputs are accurate", "statement": "Compute everything from the inputs of a run (zenith and azimuth of the sun, tilt and azimuth of the rows, parameters of the array) to the view factors with operations and trigonometric functions of relative error at most eps: side to which rows are turned, sun vector, angle of the sun, conversions between degrees and radians, sines, cosines and tangents, coordinates, lengths and view factors. If the sun is above the horizon and not in the plane of the rows, rows are not horizontal (all by a margin 1/K) and look neither along nor against the axis, then the computed rotation is exact, and the sun vector, the angle of the sun, all trigonometric values (error 24 eps (14 + G/16) K^4 for azimuths within G degrees of the axis), all coordinates, all view factors and the incident irradiance of full mode differ from the exact ones by explicit bounds.", "quantifier": "all arithmetics with bounded relative errors, arrays, angles, numbers of rows and segments, time series", "why_tests_cant": "tests compare a few scenes up to some decimals; they cannot show that near right angles, where tangents are huge, nothing is lost, and for which inputs errors stay small", "anchors": ["pvfactors/geometry/base.py:_get_rotation_from_tilt_azimuth", "pvfactors/geometry/base.py:_get_solar_2d_vectors", "pvfactors/geometry/pvarray.py:OrderedPVArray.fit", "pvfactors/geometry/pvarray.py:OrderedPVArray._calculate_interrow_shading", "pvfactors/geometry/pvground.py:TsGround.from_ts_pvrows_and_angles", "pvfactors/viewfactors/calculator.py:VFCalculator.build_ts_vf_matrix"]}
{"id": "C100", "title": "Fast mode computed from the inputs is accurate", "statement": "Compute fast mode from the inputs of a run with operations and trigonometric functions of relative error at most eps: scene, shaded lengths of the rows, ends of their shaded parts, string lengths, view factors of a back surface to every shadow, to the ground, to the neighbouring row and its shaded part, sums and differences of them (sums in any order), and the incident irradiance. For physical arrays and sun positions away from singular angles by a margin 1/K, surfaces that are either absent or at least w long and rows at least c above the ground, every view factor of every back surface differs from the exact one by explicit bounds of order eps, and the sky term, all four reflection terms, their sum, the isotropic term and the incident irradiance by bounds proportional to the light in the scene.", "quantifier": "all arithmetics with bounded relative errors, orders of summation, physical arrays, angles, numbers of rows and segments, back surfaces", "why_tests_cant": "tests compare a few results to a few decimals; they cannot show that the differences of strings in fast mode lose no more than known digits for all scenes", "anchors": ["pvfactors/viewfactors/calculator.py:VFCalculator.get_vf_ts_pvrow_element", "pvfactors/viewfactors/vfmethods.py:VFTsMethods.calculate_vf_to_pvrow", "pvfactors/viewfactors/vfmethods.py:VFTsMethods.calculate_vf_to_gnd", "pvfactors/viewfactors/vfmethods.py:VFTsMethods.calculate_vf_to_shadow_obstruction_hottel", "pvfactors/engine.py:PVEngine.run_fast_mode", "pvfactors/engine.py:PVEngine._calculate_back_ts_segment_qinc"]}
{"id": "C101", "title": "Irradiance models computed with rounding are accurate", "statement": "Compute the terms of the isotropic model and of the hybrid Perez model with operations and functions (including arccos and arctan) of relative error at most eps: angle of incidence and its side, direct light and circumsolar light on the ground, front and back, lit and shaded, light through modules, share of the horizon band hidden by the neighbouring row seen from the computed centre of a computed surface, and the totals used by both engine modes. If the computed cosine is in the domain of arccos, every isotropic term of every surface differs from the exact one by at most 13 times the error of a sine times the given light. For the hybrid Perez model the same holds with an explicit bound in terms of the margins of the scene, provided that the given circumsolar light on the front vanishes at grazing incidence. Fast mode and full mode with such terms give incident irradiance that differs from the exact one by explicit bounds.", "quantifier": "all arithmetics with bounded relative errors, both models, physical arrays, angles, light, surfaces", "why_tests_cant": "the code decides between front and back with a computed angle: near 90 degrees rounding can exchange the sides, and no finite set of inputs shows that the effect on all terms stays small", "anchors": ["pvfactors/irradiance/models.py:IsotropicOrdered.fit", "pvfactors/irradiance/models.py:IsotropicOrdered.transform", "pvfactors/irradiance/models.py:HybridPerezOrdered.fit", "pvfactors/irradiance/models.py:HybridPerezOrdered.transform", "pvfactors/irradiance/models.py:HybridPerezOrdered._calculate_horizon_shading_pct_ts", "pvfactors/irradiance/utils.py:calculate_horizon_band_shading", "pvfactors/engine.py:PVEngine.run_fast_mode", "pvfactors/engine.py:PVEngine.run_full_mode"]}
{"id": "C102", "title": "Horizontal rows computed with rounding are accurate", "statement": "Let the rows be horizontal at some or all time steps, the sun above the horizon by a margin, operations have relative errors of at most eps and keep the order of exact results, and the computed sine of 180 degrees be not negative (as in numpy, where np.radians(180) is less than pi). Then all computed coordinates of rows, shadows and cut points are close to the exact ones by the same explicit bounds as for tilted rows, the same end of every surface counts as the higher one, and so all view factors and the incident irradiance of full mode are close to the exact ones by the same bounds. Without the condition on the sine this is false: with an arithmetic that is exact except that 180 degrees are slightly more than pi, the other end of horizontal rows counts as the higher one and a view factor of a back side has the wrong sign.", "quantifier": "all arithmetics with bounded relative errors and ordered operations, physical arrays, runs that mix tilted and horizontal rows", "why_tests_cant": "for horizontal rows the code compares heights that differ only by rounding errors, so that the result depends on the last digit of pi; tests with one library see only one rounding", "anchors": ["pvfactors/geometry/pvrow.py:TsSide.from_raw_inputs", "pvfactors/geometry/pvrow.py:TsPVRow.from_raw_inputs", "pvfactors/geometry/timeseries.py:TsLineCoords", "pvfactors/geometry/pvground.py:TsGround.from_ts_pvrows_and_angles", "pvfactors/viewfactors/vfmethods.py:VFTsMethods", "pvfactors/engine.py:PVEngine.run_full_mode"]}
{"id": "C103", "title": "Fast mode and irradiance models with rounding, horizontal rows included", "statement": "Under the conditions of C102, at time steps with tilted or with horizontal rows: all view factors that fast mode computes for the back of a row, including those to shadows, to the shaded and lit part of the next row and to the sky, and everything that it stores, are close to the exact values by the explicit bounds of C100. The terms of the hybrid Perez model, with the shares of the horizon band hidden by neighbouring rows, and the incident irradiance of fast mode and full mode computed from such terms are close to the exact ones by the bounds of C101.", "quantifier": "all arithmetics with bounded relative errors and ordered operations, both engine modes, physical arrays, runs that mix tilted and horizontal rows", "why_tests_cant": "horizontal rows use infinite cut points and comparisons of heights that differ only by rounding errors, and runs with trackers mix them with tilted rows", "anchors": ["pvfactors/engine.py:PVEngine.run_fast_mode", "pvfactors/engine.py:PVEngine.run_full_mode", "pvfactors/viewfactors/vfmethods.py:VFTsMethods.calculate_vf_to_gnd", "pvfactors/viewfactors/vfmethods.py:VFTsMethods.calculate_vf_to_pvrow", "pvfactors/irradiance/models.py:HybridPerezOrdered.transform", "pvfactors/irradiance/models.py:HybridPerezOrdered._calculate_horizon_shading_pct_ts"]}
{"id": "C104", "title": "Averages over sides of rows with rounding", "statement": "The length-weighted value of a side of a row, computed with operations that have relative errors of at most ε from surfaces whose end points have errors of at most τ and whose values are at most V with errors of at most e, differs from the exact one by at most (g^k - 1)(V + e) + e + 8nτV/(W - 4nτ), where W is the width of the row, n the number of segments, g = 1/(1-ε) and k = 12 + 2n. With the bounds of C102 and C103 this applies to everything that the example report returns: incident and isotropic light of full mode and incident light of fast mode computed from the inputs, also for horizontal rows. The reflected light that full mode stores is as exact as its parts.", "quantifier": "all arithmetics with bounded relative errors and ordered operations, all sides, segments, values and arrays, both engine modes", "why_tests_cant": "the average divides sums of products that are rounded at every step, and lengths of shaded parts that are exactly zero become small numbers; a test compares a report with stored numbers", "anchors": ["pvfactors/geometry/pvrow.py:TsSide.get_param_weighted", "pvfactors/geometry/pvrow.py:TsSide.get_param_ww", "pvfactors/geometry/timeseries.py:TsShadeCollection.get_param_ww", "pvfactors/report.py:example_fn_build_report", "pvfactors/engine.py:PVEngine.run_full_mode", "pvfactors/engine.py:PVEngine.run_fast_mode"]}
{"id": "C105", "title": "Drawings of the array", "statement": "A physically placed array can be drawn at every time step and with all options (merging of shadows, cut points, surface indices). The commands given to the axes are: the shaded ground surfaces in grey, the illuminated ones in yellow, then row by row every surface that is not a point exactly once, front before back, shaded parts in red and illuminated parts in blue, and then the axes. Row surfaces carry their index, ground surfaces theirs if cut points are used and None otherwise; a label is 0.2 m from the middle of its surface on the side that the surface faces. If rows are not wider than their distance, all surfaces of all rows lie inside the limits of the axes. Labels 50 m or more from the first row are left out: rows further away by half their width and 0.2 m have none, although their surfaces are drawn inside the limits.", "quantifier": "all arrays with positive width and ground coverage ratio, all time steps with rows above the ground and the sun off the horizon and off the plane of the rows, all options", "why_tests_cant": "tests of drawings call the functions without looking at what was drawn; missing, doubled or wrongly coloured surfaces and labels on the wrong side go unnoticed", "anchors": ["pvfactors/geometry/base.py:BasePVArray.plot_at_idx", "pvfactors/geometry/base.py:BaseSurface.plot", "pvfactors/geometry/base.py:ShadeCollection.plot", "pvfactors/geometry/base.py:PVSegment.plot", "pvfactors/geometry/base.py:BaseSide.plot", "pvfactors/geometry/pvrow.py:PVRow.plot", "pvfactors/geometry/pvrow.py:TsPVRow.plot_at_idx", "pvfactors/geometry/pvrow.py:TsSide.plot_at_idx", "pvfactors/geometry/pvground.py:TsGround.plot_at_idx", "pvfactors/geometry/timeseries.py:TsSurface.plot_at_idx", "pvfactors/geometry/plot.py:plot_line"]}
{"id": "C106", "title": "Averages over the ground with rounding", "statement": "With rounded arithmetic the computed length of the ground stays close to 200 m, the shaded length close to the exact one, and the length-weighted averages of the ground and of every element of the ground that is long enough stay close to the exact averages over exact surfaces, with explicit bounds that depend on the errors of coordinates and values and on the number of rows; in full mode this holds for incident light computed from the inputs, also with horizontal rows. The code divides by the sum of the lengths of elements while it weights with the lengths of surfaces; the two sums differ when rounded.", "quantifier": "all physical arrays and steps with the margins of C102, any arithmetic with relative errors at most epsilon, any values with errors at most e", "why_tests_cant": "tests compare a few averages with stored numbers and one arithmetic; they do not bound the effect of rounding for other arrays or time steps", "anchors": ["pvfactors/geometry/pvground.py:TsGround.get_param_weighted", "pvfactors/geometry/pvground.py:TsGround.get_param_ww", "pvfactors/geometry/pvground.py:TsGround.length", "pvfactors/geometry/pvground.py:TsGround.shaded_length", "pvfactors/geometry/pvground.py:TsGroundElement.get_param_weighted", "pvfactors/geometry/pvground.py:TsGroundElement.get_param_ww"]}
{"id": "C107", "title": "Absorbed light of full mode with rounding", "statement": "If all losses by reflection are diffuse (no AOI methods), the absorbed light that full mode computes with rounded arithmetic from the inputs stays close to the exact absorbed light of the exact array, with an explicit bound that depends on the error of the view factors, the residuals of the linear solver, the errors of the light terms and the largest reflectivity. The averages of absorbed light over sides of rows and the absorbed components of both irradiance models have such bounds as well.", "quantifier": "all physical arrays and steps with the margins of C102, any arithmetic with relative errors at most epsilon, any summation order, any nearly solved linear system", "why_tests_cant": "tests compare a few absorbed values with stored numbers computed in one arithmetic; they do not bound the effect of rounding for other arrays, light or time steps", "anchors": ["pvfactors/engine.py:PVEngine.run_full_mode", "pvfactors/viewfactors/calculator.py:VFCalculator.build_ts_vf_aoi_matrix", "pvfactors/irradiance/models.py:IsotropicOrdered.transform", "pvfactors/irradiance/models.py:HybridPerezOrdered.transform"]}
{"id": "C108", "title": "Full mode with rounded view factors does not fail", "statement": "The matrix that full mode inverts is invertible also if it is built from view factors computed with rounding errors (which may be negative or add up to more than one), as long as the largest reflectivity times one plus the error of the view factors is below one. Radiosities then have an explicit bound, and incident and absorbed light stay close to the exact values of the exact array.", "quantifier": "all physical arrays and steps with the margins of C102, any arithmetic with relative errors at most epsilon, any summation order, any light and reflectivities below one", "why_tests_cant": "tests run a few arrays and see no singular matrix; they cannot exclude that rounded view factors make the matrix singular for other arrays", "anchors": ["pvfactors/engine.py:PVEngine.run_full_mode", "pvfactors/viewfactors/calculator.py:VFCalculator.build_ts_vf_matrix"]}
{"id": "C109", "title": "Full mode with a computed inverse", "statement": "If the inverse matrix that numpy returns multiplies the matrix of full mode to the identity up to an error in each entry, then the radiosities and the incident light that full mode computes from it with rounded sums and products nearly solve the radiosity equations, with explicit residuals. Incident and absorbed light computed with rounding from the inputs therefore have explicit error bounds. The exact inverse has small rows and satisfies the assumption.", "quantifier": "all physical arrays and steps with the margins of C102, any arithmetic with relative errors at most epsilon, any summation order, any computed inverse, any light and reflectivities below one", "why_tests_cant": "tests compare a few values with stored numbers; the accuracy of the linear algebra for other arrays is not measured", "anchors": ["pvfactors/engine.py:PVEngine.run_full_mode"]}
{"id": "C110", "title": "Absorbed light with AOI losses and rounding", "statement": "In full mode with AOI methods, absorbed light computed with rounded sums and products differs from the exact absorbed light by at most an explicit bound in the errors of the AOI view factors, of the view factors, of the solution of the linear system and of the absorbed light from the sky.", "quantifier": "all physical arrays and steps, AOI methods, AOI view factors and view factors with any errors, any nearly solved linear system, any arithmetic with relative errors at most epsilon, any summation order", "why_tests_cant": "tests compare a few absorbed values with stored numbers; they do not bound how errors of the AOI view factors reach the results", "anchors": ["pvfactors/engine.py:PVEngine.run_full_mode", "pvfactors/viewfactors/calculator.py:VFCalculator.build_ts_vf_aoi_matrix"]}
{"id": "C111", "title": "View factors with AOI losses for computed angles", "statement": "The view factor of the wedge between two angles with AOI losses, computed with rounding errors from a table and from angles with errors, differs from the exact one by at most one section at each end of the wedge (in total the largest fraction of transmitted light times pi divided by the number of sections) plus the errors of the table and of the sum. Wedges far below the tolerance get exactly zero, wedges above twice the tolerance are not removed.", "quantifier": "all fAOI functions between 0 and d, numbers of sections, tables and angles with errors below a quarter of a section, angles in any order, any arithmetic with relative errors at most epsilon, any summation order", "why_tests_cant": "the view factor jumps when an angle crosses the end of a section; tests with fixed angles do not see how large the jumps are for others", "anchors": ["pvfactors/viewfactors/aoimethods.py:AOIMethods._calculate_vf_aoi_wedge_level", "pvfactors/viewfactors/aoimethods.py:AOIMethods._calculate_vfaoi_integrand", "pvfactors/viewfactors/aoimethods.py:AOIMethods._vf_aoi_surface_to_surface"]}
{"id": "C112", "title": "Rounding errors of tables of AOI losses and of reflectivities", "statement": "The table of integration sections that the AOI methods compute from a fAOI function (ends of the sections, view factor of each section times the value of the function in its middle) differs from the exact table by an explicit bound that goes to zero with the rounding errors of the arithmetic and the errors of the function. So do the reflectivity computed from the function and, up to one section at each end, the view factors with AOI losses of wedges.", "quantifier": "all fAOI functions between 0 and d, their computed versions with errors at most phi at the middles of the sections, numbers of sections, angles, any arithmetic with relative errors at most epsilon < 1, any summation order", "why_tests_cant": "tests compare a few reflectivities with stored values; they do not bound the error for other functions and numbers of sections", "anchors": ["pvfactors/viewfactors/aoimethods.py:AOIMethods.fit", "pvfactors/viewfactors/aoimethods.py:AOIMethods._vf", "pvfactors/viewfactors/aoimethods.py:AOIMethods.rho_from_faoi_fn"]}
{"id": "C113", "title": "Rounding errors of AOI angles and of view factors between points", "statement": "The AOI angle of a point seen from the centre of a surface, computed with rounding errors, differs from the exact angle by a few hundred times the rounding error, divided by the sine of the angle; for any point, also in the direction of the surface, by at most a multiple of the root of the rounding error (clipping keeps the computed cosine in the domain of arccos). View factors with AOI losses computed from the two ends of a surface, with computed angles and a computed table, differ from the exact ones by at most one section at each end plus explicit small errors. The same bound holds for ground points that another row may hide, when the computed and the exact choice cannot differ.", "quantifier": "all direction vectors other than zero, centres, points other than the centre, fAOI functions between 0 and d, numbers of sections, any arithmetic with relative errors at most epsilon < 1, any summation order; for view factors wedges of at least twice the tolerance with ends away from the direction of the surface", "why_tests_cant": "arccos is badly conditioned near 0 and 180 degrees and fails outside of its domain; tests do not hit cosines slightly above one", "anchors": ["pvfactors/viewfactors/aoimethods.py:AOIMethods._calculate_aoi_angles", "pvfactors/viewfactors/aoimethods.py:AOIMethods._vf_aoi_surface_to_surface", "pvfactors/viewfactors/aoimethods.py:AOIMethods._calculate_aoi_angles_w_obstruction", "pvfactors/viewfactors/aoimethods.py:AOIMethods._angle_with_x_axis"]}
