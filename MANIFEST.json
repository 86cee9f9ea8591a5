{
 "claims": [
  {
   "property": "C01",
   "status": "proved",
   "theorems": [
    "Rtbvh.C01_builder_errors"
   ],
   "note": ""
  },
  {
   "property": "C02",
   "status": "proved",
   "theorems": [
    "Rtbvh.C02_binned_completes"
   ],
   "note": "any float behaviour, any schedule; n <= 2^30 (i32 node links)"
  },
  {
   "property": "C03",
   "status": "proved",
   "theorems": [
    "Rtbvh.C03_binned_partition",
    "Rtbvh.C03_no_empty_leaf"
   ],
   "note": ""
  },
  {
   "property": "C04",
   "status": "proved",
   "theorems": [
    "Rtbvh.C04_binned_schedule_independent"
   ],
   "note": "for fixed boxes; with aabbs = None see C57"
  },
  {
   "property": "C05",
   "status": "proved",
   "theorems": [
    "Rtbvh.C05_binned_depth"
   ],
   "note": ""
  },
  {
   "property": "C06",
   "status": "partial",
   "theorems": [
    "Rtbvh.C06_oversized_leaf",
    "Rtbvh.C06_leaf_size_partial",
    "Rtbvh.C06_oversized_cause_partial"
   ],
   "note": "the property is false: refuted in binary32; proved for every finished build: an oversized leaf is at depth 64 or has all its primitives on one side of the chosen cut"
  },
  {
   "property": "C07",
   "status": "partial",
   "theorems": [
    "Rtbvh.C07_left_child_misses",
    "Rtbvh.C07_misplaced_there",
    "Rtbvh.C07_miss_cause_partial",
    "Rtbvh.C07_no_misplaced_partial",
    "Rtbvh.C07_binned_bounds_partial",
    "Rtbvh.C07_binned_padded_partial"
   ],
   "note": "the property is false for left children of the median fallback: refuted in binary32 with a missed hit.  Proved: the root and all right children always contain their primitives, and the cause of every miss: a primitive that no node misplaces (specified in Spec/Sah.lean: no cut pays off, too many for a leaf, and the primitive's bin lies between the cheapest and the median cut) lies in every box above it"
  },
  {
   "property": "C08",
   "status": "proved",
   "theorems": [
    "Rtbvh.C08_validate_exact"
   ],
   "note": ""
  },
  {
   "property": "C09",
   "status": "partial",
   "theorems": [
    "Rtbvh.C09_binned_validates",
    "Rtbvh.C09_locb_validates",
    "Rtbvh.C09_spatial_validate_partial",
    "Rtbvh.C09_spatial_not_valid",
    "Rtbvh.C09_spatial_no_harm_partial"
   ],
   "note": "true for the binned and LOC builders; false for the spatial builder (refuted in binary32); there validate never panics and tells exactly whether every primitive was kept"
  },
  {
   "property": "C10",
   "status": "proved",
   "theorems": [
    "Rtbvh.C10_locb_completes_iff",
    "Rtbvh.C10_locb_completes",
    "Rtbvh.C10_locb_completes_f32",
    "Rtbvh.C10_area_needed"
   ],
   "note": "the area hypothesis is necessary: refuted without it in binary32"
  },
  {
   "property": "C100",
   "status": "proved",
   "theorems": [
    "Rtbvh.C100_left_half"
   ],
   "note": "any float behaviour with the lawful order; the primitives on the left are those of the left part of the root's cut as C75 describes it"
  },
  {
   "property": "C101",
   "status": "proved",
   "theorems": [
    "Rtbvh.C101_any_center",
    "Rtbvh.C101_root_bounds",
    "Rtbvh.C101_pure_decides",
    "Rtbvh.C101_pure_same"
   ],
   "note": "Model/Impure.lean models the build with the answer of each single center() call supplied by the history; C101_pure_same: with truthful answers the whole build is that of Model/Binned.lean, history by history. The locally ordered builder asks aabb() and center() once per primitive, so its theorems already cover impure primitives."
  },
  {
   "property": "C102",
   "status": "proved",
   "theorems": [
    "Rtbvh.C102_packet_pruning",
    "Rtbvh.C102_mbvh_pruning",
    "Rtbvh.C102_mbvh_packet_pruning",
    "Rtbvh.C102_ray_no_pruning",
    "Rtbvh.C102_ffi_packet",
    "Rtbvh.C102_ffi_mbvh",
    "Rtbvh.C102_ffi_mbvh_packet"
   ],
   "note": "over any LawfulFloat (f32 and exact arithmetic), no assumption on the boxes; the upper bound also for bodies that break"
  },
  {
   "property": "C103",
   "status": "proved",
   "theorems": [
    "Rtbvh.C103_refitted_safe"
   ],
   "note": "no float laws and no validity needed; the cause is C19_refit_destroys"
  },
  {
   "property": "C104",
   "status": "proved",
   "theorems": [
    "Rtbvh.C104_center",
    "Rtbvh.C104_primitive"
   ],
   "note": "over the binary32 model of Model/F32 against Spec/Rounding; the overflowing case is exhibited in the example"
  },
  {
   "property": "C105",
   "status": "proved",
   "theorems": [
    "Rtbvh.C105_spawner",
    "Rtbvh.C105_ends",
    "Rtbvh.C105_binned",
    "Rtbvh.C105_spatial"
   ],
   "note": "crossbeam's scope (waits for all threads, joins the ones nobody joined, re-raises) is modelled from its documentation. A panicking task may leave its own node and its own part of the arrays in any state (a half-done partition); in C105_spawner it may leave any memory at all. Panics before the tasks start (the parallel filling of the initial references) are rayon's and not modelled. For the spatial builder 'the other tasks do not fault' is proved where some schedule of the same build leads to a BVH (otherwise the tasks fault also without the user's panic, C60/C61)."
  },
  {
   "property": "C106",
   "status": "proved",
   "theorems": [
    "Rtbvh.C106_edits_keep",
    "Rtbvh.C106_makers_zero",
    "Rtbvh.C106_nodes"
   ],
   "note": ""
  },
  {
   "property": "C107",
   "status": "proved",
   "theorems": [
    "Rtbvh.C107_mbvh_lanes",
    "Rtbvh.C107_lanes",
    "Rtbvh.C107_mbvh_lowering",
    "Rtbvh.C107_lowering",
    "Rtbvh.C107_nan_lane_silences",
    "Rtbvh.C107_order_can_change"
   ],
   "note": ""
  },
  {
   "property": "C108",
   "status": "partial",
   "theorems": [
    "Rtbvh.C108_frames_partial",
    "Rtbvh.C108_looking_up_narrows",
    "Rtbvh.C108_straight_up"
   ],
   "note": "False as stated: the screen always stands upright and its horizontal edge is the cross product of the direction with the vertical, which is not normalised; a camera that looks up gets a slanted, narrower picture, and one that looks straight up or down shoots one ray per row. Proved: the property for level cameras, and the exact size of the screen for every direction."
  },
  {
   "property": "C109",
   "status": "partial",
   "theorems": [
    "Rtbvh.C109_stale_boxes_partial",
    "Rtbvh.C109_second_refit",
    "Rtbvh.C109_frames",
    "Rtbvh.C109_second_refit_nowhere",
    "Rtbvh.C109_same_boxes_twice"
   ],
   "note": "the property is false: the second refit of any structure, with whatever boxes, returns and gives every node one and the same inverted box, which in binary32 contains no point (C109_second_refit, C109_second_refit_nowhere; concrete scene C109_same_boxes_twice). True and proved: the result does not depend on stale boxes, only on links, index array and new boxes (C109_stale_boxes_partial), and the first refit is right (C18)."
  },
  {
   "property": "C11",
   "status": "proved",
   "theorems": [
    "Rtbvh.C11_locb_structure"
   ],
   "note": "any float behaviour; n <= 2^29"
  },
  {
   "property": "C110",
   "status": "proved",
   "theorems": [
    "Rtbvh.C110_rounds",
    "Rtbvh.C110_linear",
    "Rtbvh.C110_always_ends",
    "Rtbvh.C110_ffi",
    "Rtbvh.C110_always_ends_built",
    "Rtbvh.C110_linear_spatial",
    "Rtbvh.C110_always_ends_spatial",
    "Rtbvh.C110_tight",
    "Rtbvh.C110_no_repeats",
    "Rtbvh.C110_prims"
   ],
   "note": "a round is one pass of the iterator's inner loop (at most two box tests, or four for quad nodes). Depth above 31 and deeper quad trees panic (C22, C29, C62) and are excluded; n <= 2^29."
  },
  {
   "property": "C12",
   "status": "proved",
   "theorems": [
    "Rtbvh.C12_locb_bounds",
    "Rtbvh.C12_locb_padded"
   ],
   "note": ""
  },
  {
   "property": "C13",
   "status": "proved",
   "theorems": [
    "Rtbvh.C13_locb_cpu_independent",
    "Rtbvh.C13_locb_rounds"
   ],
   "note": "any float behaviour"
  },
  {
   "property": "C14",
   "status": "proved",
   "theorems": [
    "Rtbvh.C14_morton_split",
    "Rtbvh.C14_morton_split_value"
   ],
   "note": ""
  },
  {
   "property": "C15",
   "status": "proved",
   "theorems": [
    "Rtbvh.C15_morton_encode",
    "Rtbvh.C15_bits",
    "Rtbvh.C15_bound_needed"
   ],
   "note": ""
  },
  {
   "property": "C16",
   "status": "proved",
   "theorems": [
    "Rtbvh.C16_encode_total"
   ],
   "note": "any float behaviour"
  },
  {
   "property": "C17",
   "status": "proved",
   "theorems": [
    "Rtbvh.C17_sorted_indices",
    "Rtbvh.stable_unique"
   ],
   "note": "the library sort is modelled by a stable sort; its result is unique"
  },
  {
   "property": "C18",
   "status": "proved",
   "theorems": [
    "Rtbvh.C18_refit_total",
    "Rtbvh.C18_refit_contains",
    "Rtbvh.C18_refit_after_binned",
    "Rtbvh.C18_refit_after_locb",
    "Rtbvh.C18_refit_after_spatial",
    "Rtbvh.C18_refit_spatial_root"
   ],
   "note": "the hypothesis on the order of nodes holds for all three builders under every schedule"
  },
  {
   "property": "C19",
   "status": "partial",
   "theorems": [
    "Rtbvh.C19_refit_destroys",
    "Rtbvh.C19_refit_counterexample"
   ],
   "note": "the property is false: the negation is proved (refit overwrites leaf/child fields)"
  },
  {
   "property": "C20",
   "status": "proved",
   "theorems": [
    "Rtbvh.C20_ray_traversal_refines",
    "Rtbvh.C20_ray_traversal_exact"
   ],
   "note": ""
  },
  {
   "property": "C21",
   "status": "proved",
   "theorems": [
    "Rtbvh.C21_ray_complete"
   ],
   "note": "any lawful float type, in particular the IEEE binary32 model; hypotheses exclude NaN in the slab products and incoherent sign bits (-0.0 directions, see C37)"
  },
  {
   "property": "C22",
   "status": "proved",
   "theorems": [
    "Rtbvh.C22_stack_safe",
    "Rtbvh.C22_stack_tight",
    "Rtbvh.C22_not_all_traversable"
   ],
   "note": ""
  },
  {
   "property": "C23",
   "status": "proved",
   "theorems": [
    "Rtbvh.C23_packet_traversal_refines",
    "Rtbvh.C23_packet_complete"
   ],
   "note": ""
  },
  {
   "property": "C24",
   "status": "proved",
   "theorems": [
    "Rtbvh.C24_prims_agree",
    "Rtbvh.C24_mbvh_prims_agree"
   ],
   "note": ""
  },
  {
   "property": "C25",
   "status": "partial",
   "theorems": [
    "Rtbvh.C25_prims_diverge",
    "Rtbvh.C25_prims_terminate_partial",
    "Rtbvh.C25_prims_exact",
    "Rtbvh.C25_packet_prims_exact",
    "Rtbvh.C25_prims_end_iff",
    "Rtbvh.C25_mbvh_prims_terminate"
   ],
   "note": "the property is false for the Bvh iterators: divergence proved on a short slice; what a loop over primitives does on a short slice is characterised exactly (it ends exactly if the slice covers every id in the leaves the ray gets to); the property holds for the Mbvh iterators"
  },
  {
   "property": "C26",
   "status": "proved",
   "theorems": [
    "Rtbvh.C26_construct",
    "Rtbvh.C26_binned_compact",
    "Rtbvh.C26_locb_compact",
    "Rtbvh.C26_construct_after_binned",
    "Rtbvh.C26_spatial_compact"
   ],
   "note": "no spare nodes, a single-leaf BVH starts at index 0, sizes below 2^31: all true of built BVHs"
  },
  {
   "property": "C27",
   "status": "proved",
   "theorems": [
    "Rtbvh.C27_slot_bounds"
   ],
   "note": ""
  },
  {
   "property": "C28",
   "status": "proved",
   "theorems": [
    "Rtbvh.C28_traversal_refines",
    "Rtbvh.C28_ray_complete",
    "Rtbvh.C28_packet_complete"
   ],
   "note": ""
  },
  {
   "property": "C29",
   "status": "proved",
   "theorems": [
    "Rtbvh.C29_stack_safe",
    "Rtbvh.C29_quad_depth",
    "Rtbvh.C29_binary_depth",
    "Rtbvh.C29_stack_tight",
    "Rtbvh.C29_not_all_traversable"
   ],
   "note": ""
  },
  {
   "property": "C30",
   "status": "partial",
   "theorems": [
    "Rtbvh.C30_order_partial",
    "Rtbvh.C30_not_sorted"
   ],
   "note": "permutation and both extremes proved; full sorting is false, refuted in binary32"
  },
  {
   "property": "C31",
   "status": "proved",
   "theorems": [
    "Rtbvh.C31_nearest_hit"
   ],
   "note": "exact arithmetic"
  },
  {
   "property": "C32",
   "status": "proved",
   "theorems": [
    "Rtbvh.C32_nearest_hit"
   ],
   "note": "exact arithmetic"
  },
  {
   "property": "C33",
   "status": "proved",
   "theorems": [
    "Rtbvh.C33_union_least",
    "Rtbvh.C33_intersection_greatest",
    "Rtbvh.C33_union_laws",
    "Rtbvh.C33_grow_agrees",
    "Rtbvh.C33_grow_bbs_least",
    "Rtbvh.C33_empty_full",
    "Rtbvh.C33_empty_has_none"
   ],
   "note": ""
  },
  {
   "property": "C34",
   "status": "proved",
   "theorems": [
    "Rtbvh.C34_grow_offset",
    "Rtbvh.C34_from_points",
    "Rtbvh.C34_union_of_list"
   ],
   "note": ""
  },
  {
   "property": "C35",
   "status": "proved",
   "theorems": [
    "Rtbvh.C35_slab_exact",
    "Rtbvh.C35_packet_exact",
    "Rtbvh.C35_packet_distance",
    "Rtbvh.C35_quad_exact"
   ],
   "note": ""
  },
  {
   "property": "C36",
   "status": "proved",
   "theorems": [
    "Rtbvh.C36_ray_monotone",
    "Rtbvh.C36_packet_monotone",
    "Rtbvh.C36_quad_monotone"
   ],
   "note": ""
  },
  {
   "property": "C37",
   "status": "partial",
   "theorems": [
    "Rtbvh.C37_negative_zero",
    "Rtbvh.C37_equal_rays_partial",
    "Rtbvh.C37_equal_packets",
    "Rtbvh.C37_equal_rays_quad_partial",
    "Rtbvh.C37_quad_negative_zero"
   ],
   "note": "the property is false for single rays: refuted with -0.0 on binary32 for Aabb::intersect and for quad nodes; true there when direction components are non-zero or have the same zero; for both packet tests it holds without exception"
  },
  {
   "property": "C38",
   "status": "proved",
   "theorems": [
    "Rtbvh.C38_intersect_protocol",
    "Rtbvh.C38_intersect_changes",
    "Rtbvh.C38_sequence"
   ],
   "note": "rounded arithmetic; the protocol for any float behaviour"
  },
  {
   "property": "C39",
   "status": "proved",
   "theorems": [
    "Rtbvh.C39_intersect_exact",
    "Rtbvh.C39_hit_in_box"
   ],
   "note": "exact arithmetic"
  },
  {
   "property": "C40",
   "status": "partial",
   "theorems": [
    "Rtbvh.C40_lane_independent",
    "Rtbvh.C40_packet_protocol",
    "Rtbvh.C40_packet_exact",
    "Rtbvh.C40_agree_partial",
    "Rtbvh.C40_thresholds_differ",
    "Rtbvh.C40_t_min_differs"
   ],
   "note": "the property is false: refuted in binary32 (determinant thresholds 1e-6 / 1e-5, t_min inclusive / exclusive); agreement proved outside these cases, and the packet test is characterised exactly"
  },
  {
   "property": "C41",
   "status": "partial",
   "theorems": [
    "Rtbvh.C41_vertices_partial",
    "Rtbvh.C41_unclipped_partial",
    "Rtbvh.C41_one_sided_empty",
    "Rtbvh.C41_split_misses_exact",
    "Rtbvh.C41_split_misses_f32"
   ],
   "note": "the property is false: refuted in exact arithmetic and binary32 (edge crossings are computed as a*t*(b-a)); vertices are covered, unclipped triangles are covered"
  },
  {
   "property": "C42",
   "status": "partial",
   "theorems": [
    "Rtbvh.C42_primitive_lost",
    "Rtbvh.C42_spatial_keeps_partial",
    "Rtbvh.C42_no_harm_keeps_partial",
    "Rtbvh.C42_spared_kept_partial",
    "Rtbvh.C42_two_quiet_partial"
   ],
   "note": "the property is false: three disjoint triangles lose one (binary32, provided split).  Proved: the only cause is the move of the right part after a cut; primitive by primitive, a primitive whose references no such move overwrites is listed; so builds without such a move keep every primitive; so do builds whose result lists no id twice; and in binary32 every scene of at most two primitives is kept whole"
  },
  {
   "property": "C43",
   "status": "proved",
   "theorems": [
    "Rtbvh.C43_packet_lanes",
    "Rtbvh.C43_packet_inverse"
   ],
   "note": ""
  },
  {
   "property": "C44",
   "status": "proved",
   "theorems": [
    "Rtbvh.C44_transformed_contains"
   ],
   "note": ""
  },
  {
   "property": "C45",
   "status": "proved",
   "theorems": [
    "Rtbvh.C45_node_encoding",
    "Rtbvh.C45_asI32_injective"
   ],
   "note": ""
  },
  {
   "property": "C46",
   "status": "proved",
   "theorems": [
    "Rtbvh.C46_ids_fresh",
    "Rtbvh.C46_handle_stable",
    "Rtbvh.C46_mbvh_handle_stable",
    "Rtbvh.C46_unknown_id",
    "Rtbvh.C46_failed_create",
    "Rtbvh.C46_use_after_free"
   ],
   "note": "handles looked up by id, any sequence of calls with fewer than 2^32 creations; the raw pointers kept in an RTBvh are dangling after free: C46_use_after_free"
  },
  {
   "property": "C47",
   "status": "proved",
   "theorems": [
    "Rtbvh.C47_nan",
    "Rtbvh.C47_nan_exact",
    "Rtbvh.C47_call_chain",
    "Rtbvh.C47_refines",
    "Rtbvh.C47_packet_refines",
    "Rtbvh.C47_packet_lanes",
    "Rtbvh.C47_mbvh_refines",
    "Rtbvh.C47_ids_prefix"
   ],
   "note": ""
  },
  {
   "property": "C48",
   "status": "proved",
   "theorems": [
    "Rtbvh.C48_round_trip",
    "Rtbvh.C48_layout"
   ],
   "note": "memory layouts are modelled as lists of 32-bit words"
  },
  {
   "property": "C49",
   "status": "partial",
   "theorems": [
    "Rtbvh.C49_fails_every_stride",
    "Rtbvh.C49_first_vertex_partial",
    "Rtbvh.C49_vertex_addresses"
   ],
   "note": "the property is false: refuted in binary32 for every vertex stride; the first vertex is contained for stride 16"
  },
  {
   "property": "C50",
   "status": "proved",
   "theorems": [
    "Rtbvh.C50_every_task_once",
    "Rtbvh.C50_binned_spawner",
    "Rtbvh.C50_spatial_spawner"
   ],
   "note": "in C50_every_task_once tasks are assumed not to panic (C02 proves it for the binned tasks)"
  },
  {
   "property": "C51",
   "status": "proved",
   "theorems": [
    "Rtbvh.C51_allocate",
    "Rtbvh.C51_allocate_any"
   ],
   "note": ""
  },
  {
   "property": "C52",
   "status": "proved",
   "theorems": [
    "Rtbvh.C52_partition",
    "Rtbvh.C52_partition_range",
    "Rtbvh.C52_partition_past",
    "Rtbvh.C52_partition_range_not_in_place"
   ],
   "note": ""
  },
  {
   "property": "C53",
   "status": "proved",
   "theorems": [
    "Rtbvh.C53_prefix_sum",
    "Rtbvh.C53_prefix_sum_zero",
    "Rtbvh.C53_prefix_sum_panics"
   ],
   "note": ""
  },
  {
   "property": "C54",
   "status": "proved",
   "theorems": [
    "Rtbvh.C54_empty_bvh",
    "Rtbvh.C54_fused",
    "Rtbvh.C54_empty_mbvh",
    "Rtbvh.C54_mbvh_fused"
   ],
   "note": ""
  },
  {
   "property": "C55",
   "status": "partial",
   "theorems": [
    "Rtbvh.C55_binned_contains_padded",
    "Rtbvh.C55_locb_contains_padded",
    "Rtbvh.C55_binned_contains_exact",
    "Rtbvh.C55_binned_contains_f32_partial",
    "Rtbvh.C55_locb_contains_exact",
    "Rtbvh.C55_locb_contains_f32_partial",
    "Rtbvh.C55_spatial_contains_padded",
    "Rtbvh.C55_spatial_contains_exact",
    "Rtbvh.C55_spatial_contains_f32_partial",
    "Rtbvh.C55_far_scene_counterexample",
    "Rtbvh.C55_binned_far",
    "Rtbvh.C55_locb_far",
    "Rtbvh.C55_spatial_far"
   ],
   "note": "false in binary32 beyond 2048 (refuted, not only by example: for every scene and each of the three builders the outermost point beyond 2048 is not strictly inside); proved for all three builders in exact arithmetic, in binary32 for |x| < 2048, and wherever the padding is not absorbed"
  },
  {
   "property": "C56",
   "status": "proved",
   "theorems": [
    "Rtbvh.C56_from_raw"
   ],
   "note": ""
  },
  {
   "property": "C57",
   "status": "partial",
   "theorems": [
    "Rtbvh.C57_boxes_in_order_partial",
    "Rtbvh.C57_same_result_partial",
    "Rtbvh.C57_arrival_order_matters"
   ],
   "note": "the property is false: refuted; true when boxes arrive in order, or every box arrives in the place of an equal one"
  },
  {
   "property": "C58",
   "status": "proved",
   "theorems": [
    "Rtbvh.C58_encode_monotone",
    "Rtbvh.C58_encode_cells"
   ],
   "note": ""
  },
  {
   "property": "C59",
   "status": "proved",
   "theorems": [
    "Rtbvh.C59_spatial_wellformed",
    "Rtbvh.C59_f32_legal",
    "Rtbvh.spatial_links_fit"
   ],
   "note": "any float behaviour, split and sort; n + floor(0.75 n) < 2^30, which in single precision covers every scene of up to six hundred million primitives"
  },
  {
   "property": "C60",
   "status": "proved",
   "theorems": [
    "Rtbvh.C60_spatial_schedule_independent"
   ],
   "note": ""
  },
  {
   "property": "C61",
   "status": "partial",
   "theorems": [
    "Rtbvh.C61_spatial_panics",
    "Rtbvh.C61_spatial_wild_write",
    "Rtbvh.C61_fault_causes_partial",
    "Rtbvh.C61_completes_partial",
    "Rtbvh.C61_no_wild_write_partial",
    "Rtbvh.C61_box_scenes_partial",
    "Rtbvh.C61_ends_partial",
    "Rtbvh.C61_room_rounds_up",
    "Rtbvh.spatial_counts_exact"
   ],
   "note": "the property is false: refuted in binary32 by a panic on five triangles and by an out-of-bounds write for a box with min > max.  Proved: a complete list of the causes of faults, completion under every schedule of scenes without a cause, a bound on the steps of every build whether it faults or not, and in binary32 no access outside the buffers when every box that splitting can produce is finite and the right way round (in particular for scenes of boxes)"
  },
  {
   "property": "C62",
   "status": "partial",
   "theorems": [
    "Rtbvh.C62_small_scenes_partial",
    "Rtbvh.C62_locb_panics",
    "Rtbvh.C62_binned_panics"
   ],
   "note": "the property is false: refuted in binary32 with 33 primitives for both builders; proved for n <= 32 (Bvh) and n <= 65 (Mbvh)"
  },
  {
   "property": "C63",
   "status": "partial",
   "theorems": [
    "Rtbvh.C63_locb_query",
    "Rtbvh.C63_locb_nearest",
    "Rtbvh.C63_binned_query_partial",
    "Rtbvh.C63_binned_nearest_partial",
    "Rtbvh.C63_locb_packets",
    "Rtbvh.C63_locb_mbvh",
    "Rtbvh.C63_binned_packets_partial",
    "Rtbvh.C63_binned_mbvh_partial",
    "Rtbvh.C68_mesh_binned_partial",
    "Rtbvh.C69_shadow_binned_partial",
    "Rtbvh.C70_mesh_binned_partial",
    "Rtbvh.C07_left_child_misses"
   ],
   "note": "proved for the clustering builder (trees at most 31 deep); false for the binned builder when its median fallback misplaces a primitive, proved for every primitive that no node misplaces (rays, packets, Mbvh) and, for nearest hits and shadows, for builds that misplace nothing"
  },
  {
   "property": "C64",
   "status": "partial",
   "theorems": [
    "Rtbvh.C64_sequence_partial",
    "Rtbvh.C64_packet_sequence_partial",
    "Rtbvh.C64_nearer_last",
    "Rtbvh.C64_packet_lowering_partial"
   ],
   "note": "the property is false: the farther child is visited first; the exact sequence is proved; a packet loop that lowers t yields a sublist of it"
  },
  {
   "property": "C65",
   "status": "proved",
   "theorems": [
    "Rtbvh.C65_constructors",
    "Rtbvh.C65_validity",
    "Rtbvh.C65_reflect",
    "Rtbvh.C65_points"
   ],
   "note": "reflection and points in exact arithmetic"
  },
  {
   "property": "C66",
   "status": "proved",
   "theorems": [
    "Rtbvh.C66_valid",
    "Rtbvh.C66_longest_axis",
    "Rtbvh.C66_monotone",
    "Rtbvh.C66_exact"
   ],
   "note": "area() equals half_area()"
  },
  {
   "property": "C67",
   "status": "proved",
   "theorems": [
    "Rtbvh.C67_sah_tree"
   ],
   "note": "any lawful float"
  },
  {
   "property": "C68",
   "status": "proved",
   "theorems": [
    "Rtbvh.C68_mesh_locb",
    "Rtbvh.meshScene_fit"
   ],
   "note": "exact arithmetic; trees at most 31 deep (Bvh), 22 deep or 65 leaves (Mbvh)"
  },
  {
   "property": "C69",
   "status": "proved",
   "theorems": [
    "Rtbvh.C69_bvh_any_hit",
    "Rtbvh.C69_mbvh_any_hit",
    "Rtbvh.C69_shadow_locb"
   ],
   "note": "the traversal theorems for any lawful float; the mesh theorem in exact arithmetic"
  },
  {
   "property": "C70",
   "status": "proved",
   "theorems": [
    "Rtbvh.C70_bvh_packet_nearest",
    "Rtbvh.C70_mbvh_packet_nearest",
    "Rtbvh.C70_mesh_locb"
   ],
   "note": "exact arithmetic"
  },
  {
   "property": "C71",
   "status": "partial",
   "theorems": [
    "Rtbvh.C71_packet_offers_partial",
    "Rtbvh.C95_locb",
    "Rtbvh.C71_packet_misses_flat"
   ],
   "note": "false in binary32: flat triangles at z = 3000 are found by the ray and missed by the packet of four copies of it (strict t_max > t_min, padding absorbed); proved in exact arithmetic for boxes padded by 1e-4, and in binary32 for clustering builds with coordinates up to 200 (C95)"
  },
  {
   "property": "C72",
   "status": "proved",
   "theorems": [
    "Rtbvh.C72_locb_rule_finished",
    "Rtbvh.C72_locb_rule",
    "Rtbvh.C72_locb_rule_f32"
   ],
   "note": "Over every lawful float; the rule is the separate specification Spec/LocRule.lean, shown deterministic (the theorem includes uniqueness)."
  },
  {
   "property": "C73",
   "status": "proved",
   "theorems": [
    "Rtbvh.C73_binned_apart",
    "Rtbvh.C73_spatial_apart"
   ],
   "note": "Spatial: for every prefix that does not fault (faults are C61). Tasks are modelled with two atomic steps (allocate / claim, then write); the theorem shows that the reads and writes of the second step stay inside the task's own memory, which is what makes that granularity sound."
  },
  {
   "property": "C74",
   "status": "proved",
   "theorems": [
    "Rtbvh.C74_locb_thread_order"
   ],
   "note": "An iteration is one atomic step of the parallel loop; that they write different slots is the lemma behind commutation (mark_order, merge_order)."
  },
  {
   "property": "C75",
   "status": "proved",
   "theorems": [
    "Rtbvh.C75_spatial_rule"
   ],
   "note": "The rule is specified in Spec/SpatialRule.lean without the builder's loops (the clipping plane in Spec/SpatialPlane.lean, C77).  It states the code's real behaviour including the shifted right half that loses references (C42)."
  },
  {
   "property": "C76",
   "status": "partial",
   "theorems": [
    "Rtbvh.C76_cuts_cover_partial",
    "Rtbvh.C76_no_harm_covers_partial",
    "Rtbvh.C76_leaf_elsewhere",
    "Rtbvh.C76_child_sticks_out",
    "Rtbvh.C76_spared_covered_partial",
    "Rtbvh.C76_once_within_partial"
   ],
   "note": "False in the code: C76_leaf_elsewhere (a leaf lists a triangle whose box is disjoint from the leaf's bounds) and C76_child_sticks_out (a node disjoint in x from both of its children), both for four small triangles in binary32 with the provided split.  Proved for every build: each cut by itself covers its node and both sides' boxes contain their references; the defect is in moving the right part afterwards: every primitive whose references no such move overwrites is covered all the way down, whatever happens to the others; a primitive listed only once is covered whole, whatever split does (C76_once_within_partial)."
  },
  {
   "property": "C77",
   "status": "proved",
   "theorems": [
    "Rtbvh.C77_plane_rule",
    "Rtbvh.C77_plane_inside",
    "Rtbvh.C77_left_box"
   ],
   "note": "the rule is exact (iff) and determines the plane; C77_left_box: the left area in the code's cost is that of the whole node"
  },
  {
   "property": "C78",
   "status": "partial",
   "theorems": [
    "Rtbvh.C78_not_area_cost",
    "Rtbvh.C77_left_box"
   ],
   "note": "the property is false: refuted in binary32 with three disjoint cubes; the cost the code does minimise is C77 (left area of the whole node, references counted by where they begin)"
  },
  {
   "property": "C79",
   "status": "proved",
   "theorems": [
    "Rtbvh.C79_binned_overlap",
    "Rtbvh.C79_spatial_overlap",
    "Rtbvh.C79_binned_whole",
    "Rtbvh.C79_spatial_whole",
    "Rtbvh.C79_binned_ends",
    "Rtbvh.C79_spatial_ends"
   ],
   "note": "Model/Fine.lean is the model without atomic steps; the theorems show that the model with atomic steps, about which the other theorems speak, loses nothing. C79_*_whole: whole steps are a special case. Memory is sequentially consistent at the level of single locations: since the tasks' locations are disjoint (C73) and hand-over between tasks goes through TaskSpawner's locks and channels, weak memory adds nothing, but that last argument is not formal."
  },
  {
   "property": "C80",
   "status": "proved",
   "theorems": [
    "Rtbvh.C80_refusals",
    "Rtbvh.C80_strides_agree",
    "Rtbvh.C80_null_boxes",
    "Rtbvh.C80_binned_returns",
    "Rtbvh.C80_locb_returns",
    "Rtbvh.C80_intersect",
    "Rtbvh.C80_intersect_packet",
    "Rtbvh.C80_intersect_mbvh"
   ],
   "note": "C80_locb_returns in binary32 (boxes of moderate size); the query theorems over every lawful float"
  },
  {
   "property": "C81",
   "status": "partial",
   "theorems": [
    "Rtbvh.C81_refusals",
    "Rtbvh.C81_schedule",
    "Rtbvh.C81_query_partial",
    "Rtbvh.C81_null_boxes",
    "Rtbvh.C81_null_boxes_miss",
    "Rtbvh.C81_hits_partial",
    "Rtbvh.C81_packet_hits_partial",
    "Rtbvh.C81_mbvh_hits_partial"
   ],
   "note": "the property is false: with null aabbs and tightly packed vertices the computed boxes are single points and a ray that hits a triangle finds nothing (C81_null_boxes_miss, binary32); with the caller's boxes C42 and C76 apply. Everything but the last clause is proved, and of that (C81_hits_partial, binary32 with rounding): with the caller's boxes, every id that is listed once and that no move overwrites is called back if its box passes the ray test, or if the box has a margin of 1e-4 around an exact hit; the same lane by lane for packets and for the four-wide structure (C81_packet_hits_partial, C81_mbvh_hits_partial)."
  },
  {
   "property": "C82",
   "status": "proved",
   "theorems": [
    "Rtbvh.C82_linearizable",
    "Rtbvh.C82_mutual_exclusion",
    "Rtbvh.C82_ids_distinct"
   ],
   "note": "Lock-level model (Model/FfiConc): every lock acquisition, vector access, build, conversion and release is a step of its own; a refit may leave its structure with arbitrary nodes until it ends. Linearizes (Spec/FfiConc) is standard linearizability against the sequential manager of C46. C82_ids_distinct carries the id bound of the u32 handle (at most 2^32 creations)."
  },
  {
   "property": "C83",
   "status": "proved",
   "theorems": [
    "Rtbvh.C83_no_deadlock",
    "Rtbvh.C83_bounded",
    "Rtbvh.C83_all_return"
   ],
   "note": "Panics inside Mbvh::construct and Bvh::refit (and a refit given too few boxes) are the predicate Broken; a panic unwinds out of an extern C function and ends the process, so nothing is claimed after one."
  },
  {
   "property": "C84",
   "status": "partial",
   "theorems": [
    "Rtbvh.C84_read_partial",
    "Rtbvh.C84_query_partial",
    "Rtbvh.C84_torn_read",
    "Rtbvh.C84_read_after_free",
    "Rtbvh.C84_mbvh_read_partial",
    "Rtbvh.C84_mbvh_query_partial",
    "Rtbvh.C84_mbvh_read_after_free"
   ],
   "note": "False as stated: a query that overlaps a refit of the same structure reads half refitted nodes (C84_torn_read) and a query that overlaps free_bvh reads freed memory (C84_read_after_free). Proved: a read at a moment when no refit of the handle is under way and the handle is never freed sees the structure the linearized calls left; and if the id is never refitted or freed, a query made after the creation returned reads exactly the created structure, whatever other threads do. For four-wide handles nothing but free_mbvh interferes: a query made after create_mbvh returned reads one and the same conversion throughout (C84_mbvh_query_partial), whatever refits and frees of the two-wide structures run meanwhile; free_mbvh under a running query is a read of freed memory (C84_mbvh_read_after_free)."
  },
  {
   "property": "C85",
   "status": "partial",
   "theorems": [
    "Rtbvh.C85_repr_c",
    "Rtbvh.C85_in_slice",
    "Rtbvh.C85_same_layout",
    "Rtbvh.C85_handles_aligned",
    "Rtbvh.C85_aligned_partial",
    "Rtbvh.C85_misaligned"
   ],
   "note": "The alignment part is false as stated: MbvhNode has alignment 4 but is read with _mm_load_ps, and RTAabb has alignment 4 but is read as the 16-aligned Aabb (C85_misaligned); proved: the accesses are aligned exactly if the base address is a multiple of 16. Sizes, offsets and the alignment of handed-out pointers are proved."
  },
  {
   "property": "C86",
   "status": "partial",
   "theorems": [
    "Rtbvh.C86_bvh_nan_partial",
    "Rtbvh.C86_guard_exact",
    "Rtbvh.C86_mbvh_no_guard"
   ],
   "note": "Proved for all four iterators of Bvh. False for the 4-wide BVH, whose iterators have no guard: C86_mbvh_no_guard is a ray with a NaN coordinate that is offered both primitives."
  },
  {
   "property": "C87",
   "status": "proved",
   "theorems": [
    "Rtbvh.C87_binned_debug",
    "Rtbvh.C87_spatial_debug",
    "Rtbvh.C87_spawner_debug",
    "Rtbvh.C87_locb_debug",
    "Rtbvh.C87_from_raw_debug"
   ],
   "note": "Model/Debug adds the assertions and the checked integer subtractions that the release model does not already report; the equalities hold also for runs that fault."
  },
  {
   "property": "C88",
   "status": "partial",
   "theorems": [
    "Rtbvh.C88_transformed_misses",
    "Rtbvh.C88_transformed_partial",
    "Rtbvh.C88_transformed_f32_partial"
   ],
   "note": "False as stated: C88_transformed_misses gives a finite box, an exact shear and a corner of the box whose image lies 0.3 outside the transformed box, because all_corners recomputes max as min + (max - min). True, for any lawful float type, whenever the recomputed corners reach max on each axis (C88_transformed_partial), in binary32 in particular whenever the three extents are representable (C88_transformed_f32_partial). C44 is the exact-arithmetic claim."
  },
  {
   "property": "C89",
   "status": "proved",
   "theorems": [
    "Rtbvh.C89_camera_packet",
    "Rtbvh.C89_chunk_pixels",
    "Rtbvh.C89_screen_centre",
    "Rtbvh.C89_ray_through_pixel",
    "Rtbvh.C89_camera_moves"
   ],
   "note": "sqrt and tan are parameters of the model: the lane theorems hold for any functions, the geometric ones need sqrt to be right at the one argument used."
  },
  {
   "property": "C90",
   "status": "proved",
   "theorems": [
    "Rtbvh.C90_sliding_window",
    "Rtbvh.C90_zero_capacity"
   ],
   "note": "Stated for the f32 averager the visualizer uses, over any float type."
  },
  {
   "property": "C91",
   "status": "partial",
   "theorems": [
    "Rtbvh.C91_noted",
    "Rtbvh.C91_noted_packet",
    "Rtbvh.C91_drawn_locb",
    "Rtbvh.C91_drawn_binned_partial",
    "Rtbvh.C91_modes_agree"
   ],
   "note": "Proved for the clustering builder and for binned builds without median fallback. The visualizer itself uses the spatial builder, which can lose triangles, so for it the property as stated is false (C42, C76, C92; true for its builds without harmful moves, C92_mesh_partial; likewise binned builds with the fallback, C07_left_child_misses)."
  },
  {
   "property": "C92",
   "status": "partial",
   "theorems": [
    "Rtbvh.C92_spared_nearest_partial",
    "Rtbvh.C92_spatial_nearest_partial",
    "Rtbvh.C92_mesh_partial",
    "Rtbvh.C92_missed_hit",
    "Rtbvh.C92_shadow_partial",
    "Rtbvh.C92_packet_partial",
    "Rtbvh.C92_packet_misses_flat",
    "Rtbvh.C92_spared_shadow_partial",
    "Rtbvh.C92_spared_packet_partial"
   ],
   "note": "False as stated: C92_missed_hit (binary32, three disjoint triangles, provided split): a ray that hits the third triangle is reported as missing everything, because the builder lost it.  Proved in exact arithmetic: the reported distance is never beyond a hit of a primitive whose references no move overwrites; so the answer is the nearest hit for every build without an overwriting move, for every split that loses no point (in particular one that cuts the primitive's box), and for any split at all (the provided one included) if the primitive is listed only once; likewise shadow rays (triangle by triangle: C92_spared_shadow_partial), and packets (C92_spared_packet_partial) if the boxes given to the builder contain the triangles strictly (with tight boxes packets miss flat triangles even in quiet builds, C92_packet_misses_flat: this builder does not pad leaf boxes)."
  },
  {
   "property": "C93",
   "status": "partial",
   "theorems": [
    "Rtbvh.C93_locb_ray_partial",
    "Rtbvh.C93_locb_packet_partial",
    "Rtbvh.C93_locb_mbvh_partial",
    "Rtbvh.C93_binned_bvh_partial",
    "Rtbvh.C93_binned_mbvh_partial",
    "Rtbvh.C93_real_hit_missed",
    "Rtbvh.C93_true_hits_partial",
    "Rtbvh.C93_true_hits_binned_partial",
    "Rtbvh.C93_in_order_partial",
    "Rtbvh.C93_in_order_binned_partial",
    "Rtbvh.C93_frame_partial",
    "Rtbvh.C93_sliver_missed"
   ],
   "note": "False as stated (binary32): with coordinates of a few thousand, where padding by 1e-4 does nothing, a ray straight into a corner of a triangle is accepted by the triangle test at t = 1 and lost by both hierarchies of both builders (C93_real_hit_missed); near the tip of a sliver the triangle test accepts a ray that misses the padded box (C93_sliver_missed). Proved, for any lawful float including binary32: if the box test lets through every triangle its own test accepts, the traversal's t is the brute-force t (and binned builds must misplace nothing). In exact arithmetic the hypothesis always holds (C68, C70). In binary32, with coordinates of at most 200, it holds for rays through the Bvh whenever the triangle test accepts nothing the ray does not really meet (C93_true_hits_partial), axis-parallel rays included; packets and everything through the Mbvh cull by the current t, and there it holds when rounding does not disturb the order of hits (C93_in_order_partial)."
  },
  {
   "property": "C94",
   "status": "proved",
   "theorems": [
    "Rtbvh.C94_protocol",
    "Rtbvh.C94_bvh_client",
    "Rtbvh.C94_mbvh_client",
    "Rtbvh.C94_nearest",
    "Rtbvh.C94_prims"
   ],
   "note": "The iterators transmute the lifetime of the `&mut Ray` they hand out (src/iter.rs 111, src/iter_indices.rs 91), so a client can hold several mutable references to one ray; the model treats them as that one ray and does not model what the compiler may assume of them."
  },
  {
   "property": "C95",
   "status": "proved",
   "theorems": [
    "Rtbvh.C95_locb",
    "Rtbvh.C95_triangle",
    "Rtbvh.C95_negative_zero_misses",
    "Rtbvh.C95_far_misses"
   ],
   "note": "C95_locb: IEEE binary32 model, error analysis of the padded slab test (Proofs/RelError, Proofs/Watertight); Watertight (Props/Watertight) spells out the four kinds of query. C95_triangle: exact triangle hits are exact box hits. The last two theorems show that -0.0 and far coordinates really lose hits."
  },
  {
   "property": "C96",
   "status": "partial",
   "theorems": [
    "Rtbvh.C96_binned_partial",
    "Rtbvh.C07_left_child_misses",
    "Rtbvh.C07_misplaced_there"
   ],
   "note": "False as stated, since a node that finds no paying cut may put a primitive into the child whose box does not cover it (C07_left_child_misses, C07_misplaced_there). C96_binned_partial proves the claim for every primitive that no node misplaces."
  },
  {
   "property": "C97",
   "status": "partial",
   "theorems": [
    "Rtbvh.C97_spatial_query_partial",
    "Rtbvh.C97_packets_partial",
    "Rtbvh.C97_margin_partial",
    "Rtbvh.C97_hit_lost",
    "Rtbvh.C92_missed_hit"
   ],
   "note": "As stated it is false: C92_missed_hit (a harmful move drops the reference) and C97_hit_lost (no harmful move, coordinates of at most 70: spatial leaves are not padded, so rounding in the slab test culls an exact hit of the corner of a triangle). What holds, rounding included: with a split that cuts the primitive's box, or any NaN-free split (the provided one included) for primitives listed only once, every primitive whose references no move overwrites and whose own valid box passes the crate's ray test (over any lawful float, f32 included) or packet test (f32) is yielded, by Bvh and Mbvh; and if the given boxes have a margin of 1e-4 around a box with coordinates at most 200, every exact hit of that inner box is offered."
  },
  {
   "property": "C98",
   "status": "proved",
   "theorems": [
    "Rtbvh.C98_bvh",
    "Rtbvh.C98_mbvh",
    "Rtbvh.C98_isolated"
   ],
   "note": "Rust's disjointness of chunks is not assumed: the buffer is one shared list and the tasks' ranges are computed from the width. One task per chunk, any interleaving; rayon's own scheduler is not modelled beyond that."
  },
  {
   "property": "C99",
   "status": "proved",
   "theorems": [
    "Rtbvh.C99_ray",
    "Rtbvh.C99_packet",
    "Rtbvh.C99_mbvh"
   ],
   "note": "IEEE binary32 model. Combines C80's handle reasoning with C95's error analysis; -0.0, larger coordinates and misplaced primitives really lose hits (C95_negative_zero_misses, C95_far_misses, C07_misplaced_there)."
  }
 ]
}