{
 "claims": [
  {
   "property": "C01",
   "status": "proved",
   "theorems": [
    "PVF.C01_row_sum",
    "PVF.C01_sky_of_short",
    "PVF.C01_sky_row",
    "PVF.C01_demo"
   ],
   "note": "For every array, every finite time series and every index."
  },
  {
   "property": "C02",
   "status": "proved",
   "theorems": [
    "PVF.C02_viewFactorsOk",
    "PVF.C02_range",
    "PVF.C02_demo"
   ],
   "note": "Physical arrays and steps of Spec/Physical: tilt in [0,180), lower edges above the ground, sun neither in the horizon nor in the plane of the rows, no shade shorter than the tolerance. No bound on gcr, any values of the other time steps."
  },
  {
   "property": "C03",
   "status": "proved",
   "theorems": [
    "PVF.C03_reciprocity",
    "PVF.C03_demo"
   ],
   "note": "All pairs of surfaces longer than the tolerance."
  },
  {
   "property": "C04",
   "status": "proved",
   "theorems": [
    "PVF.C04_zero_unless_facing",
    "PVF.C04_special_cases",
    "PVF.C04_demo"
   ],
   "note": "Against the facing relation of Spec/Facing."
  },
  {
   "property": "C05",
   "status": "proved",
   "theorems": [
    "PVF.C05_obstructed",
    "PVF.C05_unobstructed",
    "PVF.C05_split",
    "PVF.C05_any_cuts",
    "PVF.C05_demo",
    "PVF.C05_straddle"
   ],
   "note": "With an obstructing neighbour without conditions; without one, for stretches of ground on one side of the line carrying the surface (C05_straddle shows that this is needed)."
  },
  {
   "property": "C06",
   "status": "proved",
   "theorems": [
    "PVF.C06_radiosity",
    "PVF.C06_isotropic",
    "PVF.C06_hybrid",
    "PVF.C06_demo"
   ],
   "note": "For every run that returns (no singular step), without AOI functions."
  },
  {
   "property": "C07",
   "status": "proved",
   "theorems": [
    "PVF.C07_solvable",
    "PVF.C07_unique",
    "PVF.C07_physical",
    "PVF.C07_physical_unique",
    "PVF.C07_isotropic",
    "PVF.C07_hybrid",
    "PVF.C06_demo"
   ],
   "note": "For any acceptable matrix and, with C02, for every physically placed array."
  },
  {
   "property": "C08",
   "status": "proved",
   "theorems": [
    "PVF.C08_nonneg",
    "PVF.C08_bound",
    "PVF.C08_isotropic",
    "PVF.C08_hybrid",
    "PVF.C08_physical_bound",
    "PVF.C06_demo"
   ],
   "note": "For any acceptable matrix and, with C02, for every physically placed array with both irradiance models."
  },
  {
   "property": "C09",
   "status": "proved",
   "theorems": [
    "PVF.C09_components",
    "PVF.C09_hybrid",
    "PVF.C10_demo"
   ],
   "note": ""
  },
  {
   "property": "C10",
   "status": "proved",
   "theorems": [
    "PVF.C10_absorbed",
    "PVF.C10_isotropic",
    "PVF.C10_hybrid",
    "PVF.C10_demo"
   ],
   "note": ""
  },
  {
   "property": "C11",
   "status": "proved",
   "theorems": [
    "PVF.C11_energy_balance",
    "PVF.C11_demo"
   ],
   "note": "Every surface has length 0 or more than the tolerance."
  },
  {
   "property": "C12",
   "status": "proved",
   "theorems": [
    "PVF.C12_linear",
    "PVF.C12_isotropic",
    "PVF.C12_monotone",
    "PVF.C12_physical_monotone",
    "PVF.C12_isotropic_monotone",
    "PVF.C06_demo"
   ],
   "note": ""
  },
  {
   "property": "C13",
   "status": "proved",
   "theorems": [
    "PVF.C13_parallel_eq_serial",
    "PVF.C13_refused",
    "PVF.C13_demo"
   ],
   "note": "Any engine configuration, report computed per time step, number of processes, order of delivery. More processes than time steps under the assumption that pandas and pvlib accept empty series (field emptyOk of the model of pvlib). In full mode every surface must be a point or not shorter than the tolerance (C15_repeat_changes shows why)."
  },
  {
   "property": "C14",
   "status": "proved",
   "theorems": [
    "PVF.C14_split",
    "PVF.C14_refused",
    "PVF.C14_aligned",
    "PVF.C14_demo"
   ],
   "note": ""
  },
  {
   "property": "C15",
   "status": "proved",
   "theorems": [
    "PVF.C15_view_factors",
    "PVF.C15_aoi",
    "PVF.C15_full_mode",
    "PVF.C15_full_mode_failure",
    "PVF.C15_demo",
    "PVF.C15_repeat_changes"
   ],
   "note": "Any re-indexing of time steps, any irradiance model, with or without AOI methods. C15_repeat_changes: without the hypothesis on lengths the statement is false (repeating a time step changes view factors)."
  },
  {
   "property": "C16",
   "status": "proved",
   "theorems": [
    "PVF.C16_surface_indices",
    "PVF.C16_surface_indices_injective",
    "PVF.C16_surface_count",
    "PVF.C16_surface_order",
    "PVF.C16_demo"
   ],
   "note": "All row counts and cut dictionaries."
  },
  {
   "property": "C17",
   "status": "proved",
   "theorems": [
    "PVF.C17_tiling",
    "PVF.C17_tiling_gen",
    "PVF.C17_demo",
    "PVF.C17_tiny_overlap_counterexample"
   ],
   "note": "Sun not on the horizon and not in the plane of the rows; the counterexample shows that shading between 0 and the tolerance breaks the tiling."
  },
  {
   "property": "C18",
   "status": "proved",
   "theorems": [
    "PVF.C18_ray_tracing",
    "PVF.C18_ray_tracing_gen",
    "PVF.C18_demo"
   ],
   "note": "Against Spec/Sun; also at boundaries of surfaces."
  },
  {
   "property": "C19",
   "status": "proved",
   "theorems": [
    "PVF.C19_cut",
    "PVF.C19_demo"
   ],
   "note": "Arbitrary lists of cut points, also unsorted or infinite."
  },
  {
   "property": "C20",
   "status": "proved",
   "theorems": [
    "PVF.C20_partition",
    "PVF.C20_position",
    "PVF.C20_cut_point",
    "PVF.C20_demo"
   ],
   "note": ""
  },
  {
   "property": "C21",
   "status": "proved",
   "theorems": [
    "PVF.C21_side_length",
    "PVF.C21_demo"
   ],
   "note": "Rotation strictly between -180 and 180 degrees, any shaded length."
  },
  {
   "property": "C22",
   "status": "proved",
   "theorems": [
    "PVF.C22_shaded_length",
    "PVF.C22_flat",
    "PVF.C22_shade_at_lower_edge",
    "PVF.C22_demo"
   ],
   "note": ""
  },
  {
   "property": "C23",
   "status": "proved",
   "theorems": [
    "PVF.C23_ray_tracing",
    "PVF.C23_ray_tracing_gen",
    "PVF.C23_dark_side",
    "PVF.C23_flat",
    "PVF.C23_demo"
   ],
   "note": "No hypothesis on gcr is needed; rays that only touch the edge of a row are the boundary between light and shade."
  },
  {
   "property": "C24",
   "status": "proved",
   "theorems": [
    "PVF.C24_bounds",
    "PVF.C24_row_bounds",
    "PVF.C24_exclusive",
    "PVF.C24_single",
    "PVF.C24_overlap",
    "PVF.C24_demo"
   ],
   "note": "Sun not exactly in the plane of the rows for exclusivity and overlap."
  },
  {
   "property": "C25",
   "status": "proved",
   "theorems": [
    "PVF.C25_abs",
    "PVF.C25_periodic",
    "PVF.C25_orientation",
    "PVF.C25_opposite",
    "PVF.C25_parallel",
    "PVF.C25_flat_cut",
    "PVF.C25_flat_ground",
    "PVF.C25_demo"
   ],
   "note": ""
  },
  {
   "property": "C26",
   "status": "proved",
   "theorems": [
    "PVF.C26_row_position",
    "PVF.C26_demo"
   ],
   "note": ""
  },
  {
   "property": "C27",
   "status": "proved",
   "theorems": [
    "PVF.C27_mirror_shading",
    "PVF.C27_mirror_rows",
    "PVF.C27_mirror_shadows",
    "PVF.C27_demo"
   ],
   "note": ""
  },
  {
   "property": "C28",
   "status": "proved",
   "theorems": [
    "PVF.C28_complete",
    "PVF.C28_short",
    "PVF.C28_range",
    "PVF.C28_demo"
   ],
   "note": "C28_complete and C28_short for arbitrary geometry and (also negative) row indices; C28_range for physically placed arrays."
  },
  {
   "property": "C29",
   "status": "proved",
   "theorems": [
    "PVF.C29_shadows",
    "PVF.C29_rows",
    "PVF.C29_ground_le",
    "PVF.C29_ground_edge",
    "PVF.C29_ground_inner",
    "PVF.C29_sky",
    "PVF.C29_demo",
    "PVF.C29_demo_edge"
   ],
   "note": "Exact equality of ground view factors is impossible for surfaces at the lower edge of a row with a neighbour, since fast mode counts ground up to infinity: C29_ground_inner bounds the difference. Rows need at least one front segment (C29_rows, C29_sky)."
  },
  {
   "property": "C30",
   "status": "proved",
   "theorems": [
    "PVF.C30_components",
    "PVF.C30_targets",
    "PVF.C30_targets_segment",
    "PVF.C30_bounds",
    "PVF.C30_demo"
   ],
   "note": ""
  },
  {
   "property": "C31",
   "status": "proved",
   "theorems": [
    "PVF.C31_bounds",
    "PVF.C31_constant",
    "PVF.C31_antitone",
    "PVF.C31_integral",
    "PVF.C31_limit",
    "PVF.C31_demo",
    "PVF.C31_limit_demo"
   ],
   "note": ""
  },
  {
   "property": "C32",
   "status": "proved",
   "theorems": [
    "PVF.C32_monotone",
    "PVF.C32_bounds",
    "PVF.C32_split",
    "PVF.C32_double_count",
    "PVF.C32_demo"
   ],
   "note": "C32_double_count shows that the section touching a dividing angle is counted twice."
  },
  {
   "property": "C33",
   "status": "proved",
   "theorems": [
    "PVF.C33_isotropic",
    "PVF.C33_hybrid",
    "PVF.C33_fraction",
    "PVF.C33_between",
    "PVF.C33_demo"
   ],
   "note": ""
  },
  {
   "property": "C34",
   "status": "proved",
   "theorems": [
    "PVF.C34_direct",
    "PVF.C34_one_side",
    "PVF.C34_demo"
   ],
   "note": "Against the sun vector and surface normal of Spec/Light."
  },
  {
   "property": "C35",
   "status": "proved",
   "theorems": [
    "PVF.C35_horizon_band",
    "PVF.C35_uniform_disk",
    "PVF.C35_edge_rows",
    "PVF.C35_demo"
   ],
   "note": ""
  },
  {
   "property": "C36",
   "status": "proved",
   "theorems": [
    "PVF.C36_terminates",
    "PVF.C36_rowwise",
    "PVF.C36_demo"
   ],
   "note": "For every Perez model (parameter)."
  },
  {
   "property": "C37",
   "status": "proved",
   "theorems": [
    "PVF.C37_collection",
    "PVF.C37_segment",
    "PVF.C37_side",
    "PVF.C37_side_segments",
    "PVF.C37_row_side",
    "PVF.C37_ground_element",
    "PVF.C37_ground",
    "PVF.C37_demo",
    "PVF.C37_demo_array"
   ],
   "note": "Against the length-weighted average of Spec/Average, at every level of the object tree."
  },
  {
   "property": "C38",
   "status": "proved",
   "theorems": [
    "PVF.C38_full",
    "PVF.C38_fast",
    "PVF.C38_fit",
    "PVF.C38_same_results",
    "PVF.C38_stale_matrices",
    "PVF.C38_demo",
    "PVF.C38_unfitted"
   ],
   "note": "Engine as a state machine; any history of fits and runs of any lengths, including calls that raise exceptions."
  },
  {
   "property": "C39",
   "status": "proved",
   "theorems": [
    "PVF.C39_without_aoi",
    "PVF.C39_overwritten",
    "PVF.C39_not_view_factors",
    "PVF.C39_demo"
   ],
   "note": ""
  },
  {
   "property": "C40",
   "status": "proved",
   "theorems": [
    "PVF.C40_concatenation",
    "PVF.C40_error",
    "PVF.C40_associative",
    "PVF.C40_entries",
    "PVF.C40_demo"
   ],
   "note": "Reports are different objects (merge extends the lists of the first one in place)."
  },
  {
   "property": "C41",
   "status": "proved",
   "theorems": [
    "PVF.C41_difference_length",
    "PVF.C41_difference_covered",
    "PVF.C41_difference_exact",
    "PVF.C41_remove_length",
    "PVF.C41_remove_exact",
    "PVF.C41_cut",
    "PVF.C41_cut_length",
    "PVF.C41_demo_remove",
    "PVF.C41_demo_cut"
   ],
   "note": "Includes a defect of the code: a surface covered by the removed line string with both ends sticking out is not removed. Shapely predicates are modelled in exact arithmetic."
  },
  {
   "property": "C42",
   "status": "proved",
   "theorems": [
    "PVF.C42_shaded",
    "PVF.C42_merged_breaks",
    "PVF.C42_unmerged_cut",
    "PVF.C42_cut_points",
    "PVF.C42_illum",
    "PVF.C42_array",
    "PVF.C42_demo",
    "PVF.C42_lost_counterexample",
    "PVF.C42_hidden_cut",
    "PVF.C42_demo_illum"
   ],
   "note": "Includes defects of the code: a shadow is lost if the last one consists of tiny surfaces, and merging hides cut points."
  },
  {
   "property": "C43",
   "status": "proved",
   "theorems": [
    "PVF.C43_index_zero",
    "PVF.C43_count_zero",
    "PVF.C43_counterexample"
   ],
   "note": "Includes a defect of the code (index 0 is used for all time steps)."
  },
  {
   "property": "C44",
   "status": "proved",
   "theorems": [
    "PVF.C44_precedence",
    "PVF.C44_missing_function",
    "PVF.C44_initialize_rho",
    "PVF.C44_demo"
   ],
   "note": ""
  },
  {
   "property": "C45",
   "status": "proved",
   "theorems": [
    "PVF.C45_hybrid",
    "PVF.C45_isotropic_deficit",
    "PVF.C45_isotropic_counterexample"
   ],
   "note": ""
  },
  {
   "property": "C46",
   "status": "proved",
   "theorems": [
    "PVF.C46_ground_absorbed",
    "PVF.C46_isotropic",
    "PVF.C46_demo"
   ],
   "note": ""
  },
  {
   "property": "C47",
   "status": "proved",
   "theorems": [
    "PVF.C47_difference",
    "PVF.C47_error",
    "PVF.C47_demo"
   ],
   "note": ""
  },
  {
   "property": "C48",
   "status": "proved",
   "theorems": [
    "PVF.C48_negative_index",
    "PVF.C48_last_row",
    "PVF.C48_last_row_wrong",
    "PVF.C48_demo"
   ],
   "note": "Includes a defect of the code (index -1)."
  },
  {
   "property": "C49",
   "status": "proved",
   "theorems": [
    "PVF.C49_example_report",
    "PVF.C49_fast_mode_error",
    "PVF.C49_single_row",
    "PVF.C13_demo"
   ],
   "note": ""
  },
  {
   "property": "C50",
   "status": "proved",
   "theorems": [
    "PVF.C50_weighted",
    "PVF.C50_merged_counterexample",
    "PVF.C50_demo"
   ],
   "note": "Includes a defect of the code (merged surfaces keep the parameters of their right part)."
  },
  {
   "property": "C51",
   "status": "proved",
   "theorems": [
    "PVF.C51_view_factor_by_rays",
    "PVF.C51_demo",
    "PVF.C51_demo_surface"
   ],
   "note": "View factors by rays are defined in Spec/RayView and Spec/Scene."
  },
  {
   "property": "C52",
   "status": "proved",
   "theorems": [
    "PVF.C52_rays_complete",
    "PVF.C52_sky_by_rays",
    "PVF.C51_demo"
   ],
   "note": ""
  },
  {
   "property": "C53",
   "status": "proved",
   "theorems": [
    "PVF.C53_incidence",
    "PVF.C53_conservation",
    "PVF.C53_at_least",
    "PVF.C53_demo"
   ],
   "note": ""
  },
  {
   "property": "C54",
   "status": "proved",
   "theorems": [
    "PVF.C54_brighter",
    "PVF.C54_isotropic",
    "PVF.C54_hybrid",
    "PVF.C54_absorbed",
    "PVF.C54_absorbed_hybrid",
    "PVF.C54_demo"
   ],
   "note": ""
  },
  {
   "property": "C55",
   "status": "proved",
   "theorems": [
    "PVF.C55_aoi_by_rays",
    "PVF.C55_bounds",
    "PVF.C55_sky_by_rays",
    "PVF.C55_sky_bounds",
    "PVF.C55_more_sections",
    "PVF.C55_absorbed",
    "PVF.C55_demo"
   ],
   "note": "Sky: for rows that are not flat; GroundReaches says in terms of rays that the ends of the ground at 100 m are not in sight between rows."
  },
  {
   "property": "C56",
   "status": "proved",
   "theorems": [
    "PVF.C56_band_by_rays",
    "PVF.C56_horizon_component",
    "PVF.C56_demo"
   ],
   "note": ""
  },
  {
   "property": "C57",
   "status": "proved",
   "theorems": [
    "PVF.C57_uniform_disk",
    "PVF.C57_gaussian",
    "PVF.C57_gaussian_range",
    "PVF.C57_gaussian_density",
    "PVF.C57_model",
    "PVF.C57_neighbour",
    "PVF.C57_no_neighbour",
    "PVF.C57_demo"
   ],
   "note": "The method for shading by a neighbouring row is not called in time series mode."
  },
  {
   "property": "C58",
   "status": "proved",
   "theorems": [
    "PVF.C58_surfaces",
    "PVF.C58_normals",
    "PVF.C58_lengths",
    "PVF.C58_weighted",
    "PVF.C58_ends",
    "PVF.C58_collection",
    "PVF.C58_demo",
    "PVF.C58_segment",
    "PVF.C58_side"
   ],
   "note": ""
  },
  {
   "property": "C59",
   "status": "proved",
   "theorems": [
    "PVF.C59_lines",
    "PVF.C59_contained",
    "PVF.C59_parallel",
    "PVF.C59_backwards",
    "PVF.C59_demo",
    "PVF.C59_demo_none"
   ],
   "note": ""
  },
  {
   "property": "C60",
   "status": "proved",
   "theorems": [
    "PVF.C60_row",
    "PVF.C60_row_normal",
    "PVF.C60_lengths",
    "PVF.C60_center",
    "PVF.C60_same_segments",
    "PVF.C60_from_center",
    "PVF.C60_outward",
    "PVF.C60_demo"
   ],
   "note": ""
  },
  {
   "property": "C61",
   "status": "proved",
   "theorems": [
    "PVF.C61_shadow",
    "PVF.C61_covered",
    "PVF.C61_two_parts",
    "PVF.C61_cases",
    "PVF.C61_demo"
   ],
   "note": "The intersection computed by shapely is a parameter; MeetsIn says what is expected of it."
  },
  {
   "property": "C62",
   "status": "proved",
   "theorems": [
    "PVF.C62_rising",
    "PVF.C62_falling",
    "PVF.C62_length",
    "PVF.C62_demo_rising",
    "PVF.C62_demo_falling"
   ],
   "note": ""
  },
  {
   "property": "C63",
   "status": "proved",
   "theorems": [
    "PVF.C63_cast_side",
    "PVF.C63_cut_side",
    "PVF.C63_merge_side",
    "PVF.C63_shared",
    "PVF.C63_kept_list",
    "PVF.C63_demo"
   ],
   "note": ""
  },
  {
   "property": "C64",
   "status": "proved",
   "theorems": [
    "PVF.C64_luminances",
    "PVF.C64_light_arrives",
    "PVF.C64_orientation",
    "PVF.C64_demo"
   ],
   "note": "pvlib's formulas are hypotheses (Spec/Perez); the coefficients F1 and F2 are arbitrary functions that do not depend on the orientation."
  },
  {
   "property": "C65",
   "status": "proved",
   "theorems": [
    "PVF.C65_ground",
    "PVF.C65_full_mode",
    "PVF.C64_demo"
   ],
   "note": "Under the conditions of C64."
  },
  {
   "property": "C66",
   "status": "proved",
   "theorems": [
    "PVF.C66_turned_over",
    "PVF.C66_unbounded",
    "PVF.C66_demo"
   ],
   "note": "Documents a defect (FIXME in the code)."
  },
  {
   "property": "C67",
   "status": "proved",
   "theorems": [
    "PVF.C67_shaded_front",
    "PVF.C67_isotropic_nonneg",
    "PVF.C67_hybrid_negative",
    "PVF.C67_perez_transposition",
    "PVF.C67_demo"
   ],
   "note": "Documents a defect; pvlib's transposition is a hypothesis."
  },
  {
   "property": "C68",
   "status": "proved",
   "theorems": [
    "PVF.C68_absorbed",
    "PVF.C68_diffuse_losses",
    "PVF.C68_horizon_angle",
    "PVF.C68_demo"
   ],
   "note": ""
  },
  {
   "property": "C69",
   "status": "proved",
   "theorems": [
    "PVF.C69_row_parts",
    "PVF.C69_ground_array",
    "PVF.C69_fit",
    "PVF.C69_results",
    "PVF.C69_no_results",
    "PVF.C69_shared",
    "PVF.C69_demo"
   ],
   "note": "The loops of the update methods and of transform are modelled over a memory of dictionaries; the dictionaries of surfaces are proved to be those of the engine model."
  },
  {
   "property": "C70",
   "status": "proved",
   "theorems": [
    "PVF.C70_lines",
    "PVF.C70_cut",
    "PVF.C70_remove",
    "PVF.C70_merge",
    "PVF.C70_weighted",
    "PVF.C70_set_again",
    "PVF.C70_cast",
    "PVF.C70_set_one",
    "PVF.C70_demo"
   ],
   "note": "Surfaces with all attributes; the geometry is proved to be that of C41, C61 and C62."
  },
  {
   "property": "C71",
   "status": "proved",
   "theorems": [
    "PVF.C71_geometry",
    "PVF.C71_view_factors",
    "PVF.C71_engine",
    "PVF.C71_run",
    "PVF.C71_demo"
   ],
   "note": "relation between states of two engines, preserved by every call; pvlib functions are external and assumed to depend on the difference of azimuths, which is shown for Perez' formulas with isotropic transposition"
  },
  {
   "property": "C72",
   "status": "proved",
   "theorems": [
    "PVF.C72_angle",
    "PVF.C72_range",
    "PVF.C72_symmetric",
    "PVF.C72_reflectivity",
    "PVF.C72_absorbed",
    "PVF.C72_forms",
    "PVF.C72_sides",
    "PVF.C72_demo"
   ],
   "note": "pvlib.iam.sapm is external and modelled after its documentation"
  },
  {
   "property": "C73",
   "status": "proved",
   "theorems": [
    "PVF.C73_exchange",
    "PVF.C73_length",
    "PVF.C73_seen",
    "PVF.C73_sky",
    "PVF.C73_fast",
    "PVF.C73_fast_qinc",
    "PVF.C73_fast_isotropic",
    "PVF.C73_demo"
   ],
   "note": "Parts are the shaded and illuminated parts of sides and the ground surfaces; `exchange` weights view factors of the matrix with lengths. Full-mode irradiance does depend on the cuts (each segment has one radiosity), and so does the horizon light of the Perez model (it is evaluated at the centroids of segments), so only view factors and fast mode with the isotropic model are claimed."
  },
  {
   "property": "C74",
   "status": "proved",
   "theorems": [
    "PVF.C74_reflections",
    "PVF.C74_rest",
    "PVF.C74_from_below",
    "PVF.C74_demo"
   ],
   "note": "`arriving` in Spec/Bounces is defined by recursion on the number of reflections, without matrices or inverses. Needs the range of view factors (C02) and the balance of C06."
  },
  {
   "property": "C75",
   "status": "proved",
   "theorems": [
    "PVF.C75_exchange",
    "PVF.C75_pair",
    "PVF.C75_demo"
   ],
   "note": "Irradiance inputs are those of an irradiance model at each step (`IrrStep`); the runs may use different models."
  },
  {
   "property": "C76",
   "status": "proved",
   "theorems": [
    "PVF.C76_place",
    "PVF.C76_scale",
    "PVF.C76_mirror",
    "PVF.C76_demo"
   ],
   "note": "View factors to the ground do depend on the height and on the number of rows. The mirror theorem leaves out flat arrays, whose rows lie in one plane."
  },
  {
   "property": "C77",
   "status": "proved",
   "theorems": [
    "PVF.C77_array",
    "PVF.C77_side",
    "PVF.C77_row",
    "PVF.C77_surfaces_at",
    "PVF.C77_increasing",
    "PVF.C77_position",
    "PVF.C77_demo"
   ],
   "note": "Ground surfaces of a time step carry indices too; `TsGround.at` makes its surfaces through non_point_surfaces_at, whose indices are not part of `GSurf`."
  },
  {
   "property": "C78",
   "status": "proved",
   "theorems": [
    "PVF.C78_array",
    "PVF.C78_engine",
    "PVF.C78_run",
    "PVF.C78_refused",
    "PVF.C78_other_keys",
    "PVF.C78_circumsolar",
    "PVF.C78_scalars",
    "PVF.C78_frame",
    "PVF.C78_demo"
   ],
   "note": "Values in dictionaries are numbers, counts, cut dictionaries, fAOI functions or None; a value of another kind counts as a failure. Other types that python would accept by coincidence (a bool for a number) are not modelled."
  },
  {
   "property": "C79",
   "status": "proved",
   "theorems": [
    "PVF.C79_flat",
    "PVF.C79_lists",
    "PVF.C79_at",
    "PVF.C79_shaded_length",
    "PVF.C79_demo"
   ],
   "note": "The docstring of TsGround.at says that only surfaces within x_min and x_max are returned; C79_at shows that the ends leave the surfaces as they are. Shapely's boundary of a line is taken to be its two ends."
  },
  {
   "property": "C80",
   "status": "proved",
   "theorems": [
    "PVF.C80_approximate",
    "PVF.C80_inputs",
    "PVF.C80_size",
    "PVF.C80_demo"
   ],
   "note": ""
  },
  {
   "property": "C81",
   "status": "proved",
   "theorems": [
    "PVF.C81_view_factors",
    "PVF.C81_full_mode",
    "PVF.C81_failure",
    "PVF.C81_demo"
   ],
   "note": "Assumed about numpy: arithmetic with NaN gives NaN at the same step only, nansum skips NaN, and inv of a matrix with NaN raises no error. A step with any missing input counts as missing as a whole; nothing is said about its own results."
  },
  {
   "property": "C82",
   "status": "proved",
   "theorems": [
    "PVF.C82_geometry",
    "PVF.C82_limits",
    "PVF.C82_angles",
    "PVF.C82_irradiance",
    "PVF.C82_perez",
    "PVF.C82_means",
    "PVF.C82_disk",
    "PVF.C82_demo"
   ],
   "note": "The list of operations is in `Spec/Defined`, each with its place in the source. Divisions inside np.where branches that are not taken (view factors of point surfaces) are not listed. The matrix inverse is C07. This also shows where the total division of real numbers in the model agrees with numpy."
  },
  {
   "property": "C83",
   "status": "proved",
   "theorems": [
    "PVF.C83_full",
    "PVF.C83_engine",
    "PVF.C83_fast",
    "PVF.C83_demo"
   ],
   "note": "The missing light in the isotropic model is the finding of C45, here in terms of results."
  },
  {
   "property": "C84",
   "status": "proved",
   "theorems": [
    "PVF.C84_edge_exact",
    "PVF.C84_edge",
    "PVF.C84_inner",
    "PVF.C84_row",
    "PVF.C84_fast",
    "PVF.C84_demo"
   ],
   "note": "Assumes that no surface is shorter than the tolerance without being a point, as in C29."
  },
  {
   "property": "C85",
   "status": "proved",
   "theorems": [
    "PVF.C85_higher_edge",
    "PVF.C85_higher_inner",
    "PVF.C85_higher_fast",
    "PVF.C85_apart",
    "PVF.C85_demo"
   ],
   "note": "Consequence of C84: the distance from a point is convex along a line, and the crossing strings are longer than the others. Assumes that no surface is shorter than the tolerance without being a point, as in C29."
  },
  {
   "property": "C86",
   "status": "proved",
   "theorems": [
    "PVF.C86_geometry",
    "PVF.C86_view_factors",
    "PVF.C86_aoi",
    "PVF.C86_isotropic",
    "PVF.C86_hybrid",
    "PVF.C86_horizon",
    "PVF.C86_demo",
    "PVF.C86_hybrid_demo"
   ],
   "note": "No physical assumptions for geometry and view factors. Flat modules are excluded (the code treats flat rows as turned by 0, never by 180 degrees)."
  },
  {
   "property": "C87",
   "status": "proved",
   "theorems": [
    "PVF.C87_lit_length",
    "PVF.C87_only",
    "PVF.C87_distance",
    "PVF.C87_sun",
    "PVF.C87_tilt",
    "PVF.C87_no_shade",
    "PVF.C87_backtracking",
    "PVF.C87_demo",
    "PVF.C87_strict_demo"
   ],
   "note": "The sun exactly in the plane of the modules is excluded (the code divides by zero there)."
  },
  {
   "property": "C88",
   "status": "proved",
   "theorems": [
    "PVF.C88_value",
    "PVF.C88_more",
    "PVF.C88_bound",
    "PVF.C88_demo"
   ],
   "note": "Flat rows are excluded (they do not face each other)."
  },
  {
   "property": "C89",
   "status": "proved",
   "theorems": [
    "PVF.C89_numbers",
    "PVF.C89_series",
    "PVF.C89_marks",
    "PVF.C89_not_skipped",
    "PVF.C89_demo",
    "PVF.C89_night_demo"
   ],
   "note": "In full mode, surfaces must be points or longer than the tolerance at each time step (as in C13 and C15). Calls that mix numbers and time series (apart from the albedo) are not modelled. skip_step is never read by the code."
  },
  {
   "property": "C90",
   "status": "proved",
   "theorems": [
    "PVF.C90_shaded",
    "PVF.C90_share",
    "PVF.C90_mix",
    "PVF.C90_mix_hybrid",
    "PVF.C90_more",
    "PVF.C90_more_hybrid",
    "PVF.C90_more_fast",
    "PVF.C90_demo"
   ],
   "note": ""
  },
  {
   "property": "C91",
   "status": "proved",
   "theorems": [
    "PVF.C91_lit",
    "PVF.C91_isotropic",
    "PVF.C91_hybrid",
    "PVF.C91_perez",
    "PVF.C91_demo",
    "PVF.C91_no_sun",
    "PVF.C91_no_sun_demo"
   ],
   "note": ""
  },
  {
   "property": "C92",
   "status": "proved",
   "theorems": [
    "PVF.C92_isotropic",
    "PVF.C92_perez",
    "PVF.C92_demo"
   ],
   "note": ""
  },
  {
   "property": "C93",
   "status": "proved",
   "theorems": [
    "PVF.C93_isotropic",
    "PVF.C93_perez",
    "PVF.C93_demo"
   ],
   "note": ""
  },
  {
   "property": "C94",
   "status": "proved",
   "theorems": [
    "PVF.C94_isotropic",
    "PVF.C94_hybrid",
    "PVF.C94_demo",
    "PVF.C94_perez",
    "PVF.C94_perez_demo"
   ],
   "note": ""
  },
  {
   "property": "C95",
   "status": "proved",
   "theorems": [
    "PVF.C95_view_factors",
    "PVF.C95_isotropic",
    "PVF.C95_perez",
    "PVF.C95_demo"
   ],
   "note": "Rows at the edge whose back looks at open ground are left out (unless there is one row only): the ground of the scene ends at fixed places that are not symmetric about the array."
  },
  {
   "property": "C96",
   "status": "proved",
   "theorems": [
    "PVF.C96_distance",
    "PVF.C96_string",
    "PVF.C96_matrix",
    "PVF.C96_above",
    "PVF.C96_system",
    "PVF.C96_full_mode",
    "PVF.C96_demo"
   ],
   "note": "Coordinates are taken as they are stored; how exact they are is not part of this property. Results outside of the range of floating point numbers are not considered. The linear system is solved by an external library, so its residuals are a parameter."
  },
  {
   "property": "C97",
   "status": "proved",
   "theorems": [
    "PVF.C97_string",
    "PVF.C97_matrix",
    "PVF.C97_empty",
    "PVF.C97_rows",
    "PVF.C97_computed",
    "PVF.C97_full_mode",
    "PVF.C97_exchanged",
    "PVF.C97_horizontal",
    "PVF.C97_lost_tilt",
    "PVF.C97_demo"
   ],
   "note": "Errors of the coordinates are a parameter of the theorems except for rows and segments; C98 derives those of the whole scene. Computed sines and cosines come from an external library, so their errors are a parameter."
  },
  {
   "property": "C98",
   "status": "proved",
   "theorems": [
    "PVF.C98_shade",
    "PVF.C98_coords",
    "PVF.C98_step",
    "PVF.C98_above",
    "PVF.C98_size",
    "PVF.C98_empty",
    "PVF.C98_computed",
    "PVF.C98_full_mode",
    "PVF.C98_demo"
   ],
   "note": "Computed values of trigonometric functions come from external libraries, so their errors (including those of their arguments) are a parameter."
  },
  {
   "property": "C99",
   "status": "proved",
   "theorems": [
    "PVF.C99_rotation",
    "PVF.C99_sun",
    "PVF.C99_alpha",
    "PVF.C99_trig",
    "PVF.C99_step",
    "PVF.C99_view_factors",
    "PVF.C99_full_mode",
    "PVF.C99_demo"
   ],
   "note": "Relative errors of sine, cosine, tangent, arctan2 and conversion of angles are assumed as properties of the external libraries."
  },
  {
   "property": "C100",
   "status": "proved",
   "theorems": [
    "PVF.C100_view_factors",
    "PVF.C100_stored",
    "PVF.C100_fast_mode",
    "PVF.C100_demo"
   ],
   "note": "Bounds use the margins of C99 and the smallest length and height."
  },
  {
   "property": "C101",
   "status": "proved",
   "theorems": [
    "PVF.C101_isotropic",
    "PVF.C101_hybrid",
    "PVF.C101_sky_term",
    "PVF.C101_fast_mode",
    "PVF.C101_full_mode",
    "PVF.C101_demo",
    "PVF.C101_demo_fast"
   ],
   "note": "Values of pvlib other than the angle of incidence are given. Absorbed components are not included."
  },
  {
   "property": "C102",
   "status": "proved",
   "theorems": [
    "PVF.C102_coords",
    "PVF.C102_step",
    "PVF.C102_any_step",
    "PVF.C102_view_factors",
    "PVF.C102_full_mode",
    "PVF.C102_turned",
    "PVF.C102_demo"
   ],
   "note": "The condition on the sine of 180 degrees is stated, not derived from IEEE arithmetic."
  },
  {
   "property": "C103",
   "status": "proved",
   "theorems": [
    "PVF.C103_view_factors",
    "PVF.C103_fast_mode",
    "PVF.C103_fast_light",
    "PVF.C103_hybrid",
    "PVF.C103_full_light",
    "PVF.C103_demo",
    "PVF.C103_demo_hybrid"
   ],
   "note": "As in C102, the condition on the sine of 180 degrees is stated."
  },
  {
   "property": "C104",
   "status": "proved",
   "theorems": [
    "PVF.C104_side",
    "PVF.C104_row_side",
    "PVF.C104_full_mode",
    "PVF.C104_isotropic",
    "PVF.C104_isotropic_side",
    "PVF.C104_reflection",
    "PVF.C104_fast_mode",
    "PVF.C104_demo",
    "PVF.C104_demo_changed"
   ],
   "note": "For full mode the computed radiosities are only required to solve the equations up to residuals, as in C96."
  },
  {
   "property": "C105",
   "status": "proved",
   "theorems": [
    "PVF.C105_row",
    "PVF.C105_side",
    "PVF.C105_segment",
    "PVF.C105_order",
    "PVF.C105_surface",
    "PVF.C105_ground",
    "PVF.C105_array",
    "PVF.C105_window",
    "PVF.C105_labels",
    "PVF.C105_demo"
   ],
   "note": "Marker styles, line widths, transparency and text alignment are not modelled."
  },
  {
   "property": "C106",
   "status": "proved",
   "theorems": [
    "PVF.C106_length",
    "PVF.C106_ground",
    "PVF.C106_element",
    "PVF.C106_full_mode",
    "PVF.C106_demo"
   ],
   "note": "Elements shorter than twice the number of their surfaces times the error of coordinates are not covered; the code divides by zero for elements without length."
  },
  {
   "property": "C107",
   "status": "proved",
   "theorems": [
    "PVF.C107_computed",
    "PVF.C107_full_mode",
    "PVF.C107_side",
    "PVF.C107_direct",
    "PVF.C107_isotropic",
    "PVF.C107_hybrid",
    "PVF.C107_demo"
   ],
   "note": "Reflectivities are those the code holds (no rounding error of their own). Rounding of view factors with AOI methods is not covered."
  },
  {
   "property": "C108",
   "status": "proved",
   "theorems": [
    "PVF.C108_bound",
    "PVF.C108_invertible",
    "PVF.C108_sky_row",
    "PVF.C108_full_mode",
    "PVF.C108_absorbed",
    "PVF.C108_demo"
   ],
   "note": "Here the linear system itself is solved exactly; C109 adds the errors of the inverse and of the sums."
  },
  {
   "property": "C109",
   "status": "proved",
   "theorems": [
    "PVF.C109_nearly_solved",
    "PVF.C109_full_mode",
    "PVF.C109_absorbed",
    "PVF.C109_exact_inverse",
    "PVF.C109_demo"
   ],
   "note": "How accurate np.linalg.inv is remains a parameter (external code). Inverse reflectivities are taken as exact inverses."
  },
  {
   "property": "C110",
   "status": "proved",
   "theorems": [
    "PVF.C110_absorbed",
    "PVF.C110_full_mode",
    "PVF.C110_demo"
   ],
   "note": "The errors of the AOI view factors themselves (sums over tables of AOI losses) are parameters."
  },
  {
   "property": "C111",
   "status": "proved",
   "theorems": [
    "PVF.C111_wedge",
    "PVF.C111_small",
    "PVF.C111_angles",
    "PVF.C111_demo"
   ],
   "note": "The errors of the table (numpy's linspace, cosine and the fAOI function) and of the angles (arccos) are parameters. Together with C110 this bounds absorbed light."
  },
  {
   "property": "C112",
   "status": "proved",
   "theorems": [
    "PVF.C112_table",
    "PVF.C112_smooth",
    "PVF.C112_rho",
    "PVF.C112_angles",
    "PVF.C112_demo"
   ],
   "note": "The errors of the fAOI function are a parameter; C112_smooth gives it for functions that change slowly. The errors of the angles of wedges (arccos) stay a parameter of C112_angles."
  },
  {
   "property": "C113",
   "status": "proved",
   "theorems": [
    "PVF.C113_angle",
    "PVF.C113_always",
    "PVF.C113_points",
    "PVF.C113_demo",
    "PVF.C113_obstructed",
    "PVF.C113_obstructed_demo"
   ],
   "note": "Coordinates of the points are taken as given; their own errors are the subject of C98. C113_obstructed needs a margin between the two angles that decide whether a row hides the point."
  }
 ]
}
