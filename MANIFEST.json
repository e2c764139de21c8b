{
 "claims": [
  {
   "property": "C01",
   "status": "proved",
   "theorems": [
    "Sdf.Octree.C01_surface_cells_delivered",
    "Sdf.Octree.C01_output_is_dense_marching_cubes"
   ],
   "note": "C01_output_is_dense_marching_cubes asks that every cell is Clear: no corner exactly on the surface, or no sub-cube around it with a centre at a depth of exactly half its diagonal. This cannot be dropped: C08_hole_wrong gives an exact capsule where a surface cell is skipped."
  },
  {
   "property": "C02",
   "status": "proved",
   "theorems": [
    "Sdf.Octree.C02_grid_covers_bounds",
    "Sdf.Octree.C02_leaf_edge",
    "Sdf.Octree.C02_levels",
    "Sdf.Octree.C02_new_panics_iff"
   ],
   "note": ""
  },
  {
   "property": "C03",
   "status": "proved",
   "theorems": [
    "Sdf.Octree.C03_stream_independent_of_buffers",
    "Sdf.Octree.C03_prefix_subperm"
   ],
   "note": ""
  },
  {
   "property": "C04",
   "status": "proved",
   "theorems": [
    "Sdf.Octree.C04_count_in_range",
    "Sdf.Octree.C04_eof_after_boundedly_many_calls",
    "Sdf.Octree.C04_call_completes_iff_nonempty",
    "Sdf.Octree.C04_workers_terminate",
    "Sdf.Octree.C04_after_eof"
   ],
   "note": ""
  },
  {
   "property": "C05",
   "status": "partial",
   "theorems": [
    "Sdf.Octree.C05_renderAll_partial",
    "Sdf.Octree.C05_renderAll_fresh_partial",
    "Sdf.Octree.C05_renderAll_loses_triangles",
    "Sdf.Octree.C05_single_worker_partial",
    "Sdf.Octree.C05_fresh_box_loses_wrong"
   ],
   "note": "The property is false of the code: RenderAll drops the triangles delivered together with io.EOF. C05_fresh_box_loses_wrong: rendering a plain 60x25x9 box with 30 cells from the start always loses exactly two triangles and the result is not closed, although the delivered mesh is. The _partial theorems say exactly what is returned: all calls but the last, all but fewer than 1024 triangles, all but at most five with one worker."
  },
  {
   "property": "C06",
   "status": "proved",
   "theorems": [
    "Sdf.Octree.C06_concurrent_same_mesh",
    "Sdf.Octree.C06_threaded_call_packs"
   ],
   "note": ""
  },
  {
   "property": "C07",
   "status": "proved",
   "theorems": [
    "Sdf.Octree.C07_cache_transparent",
    "Sdf.Octree.C07_results_as_without_cache"
   ],
   "note": ""
  },
  {
   "property": "C08",
   "status": "proved",
   "theorems": [
    "Sdf.MC.C08_mesh_closed",
    "Sdf.Octree.C08_octree_mesh_closed",
    "Sdf.Octree.C08_hole_wrong"
   ],
   "note": "Grid theorem for any sign field; the end-to-end theorem for the octree needs 1-Lipschitz, sound bounds and Clear cells (no grid vertex exactly on the surface, or no sub-cube centre at a depth of exactly half its diagonal). Without that the mesh can have a hole (C08_hole_wrong: the octree skips with >= where > is needed). The degeneracy filter is assumed to drop only triangles with two equal corners."
  },
  {
   "property": "C09",
   "status": "proved",
   "theorems": [
    "Sdf.MC.C09_vertices_on_crossing_edges",
    "Sdf.Octree.C09_vertices_near_surface"
   ],
   "note": ""
  },
  {
   "property": "C10",
   "status": "proved",
   "theorems": [
    "Sdf.MC.C10_panics_iff",
    "Sdf.MC.C10_at_most_five",
    "Sdf.MC.C10_none_without_sign_change",
    "Sdf.MC.C10_some_with_sign_change"
   ],
   "note": ""
  },
  {
   "property": "C11",
   "status": "partial",
   "theorems": [
    "Sdf.Stl.C11_round_trip_partial",
    "Sdf.Stl.C11_either_side",
    "Sdf.Stl.C11_empty_rejected",
    "Sdf.Stl.C11_round_trip_truncates",
    "Sdf.Stl.C11_degenerate_fails",
    "Sdf.Stl.C11_eof_with_data_fails"
   ],
   "note": "False as stated: readBinarySTL stops at the 10001st normal mismatch, which float32 rounding of fine triangles can cause (C11_round_trip_truncates, with IEEE rounding); and it rejects readers that return io.EOF with the last bytes. C11_round_trip_partial covers every mesh with at most 10000 mismatches, for any reader chunking."
  },
  {
   "property": "C12",
   "status": "proved",
   "theorems": [
    "Sdf.Stl.C12_writeSTL_layout",
    "Sdf.Stl.C12_writeSTL_accepts",
    "Sdf.Stl.C12_createSTL_layout"
   ],
   "note": ""
  },
  {
   "property": "C13",
   "status": "proved",
   "theorems": [
    "Sdf.Stl.C13_createSTL_eq_writeSTL",
    "Sdf.Stl.C13_file_determined",
    "Sdf.Stl.C13_read_no_panic",
    "Sdf.Stl.C13_createSTL_octree"
   ],
   "note": "For every renderer obeying the protocol; instantiated for the octree renderer. An empty stream gives an 84-byte file, where WriteSTL would report an error."
  },
  {
   "property": "C14",
   "status": "proved",
   "theorems": [
    "Sdf.Mf3.C14_lossless",
    "Sdf.Mf3.C14_rejected_iff",
    "Sdf.Mf3.C14_ids",
    "Sdf.Mf3.C14_total",
    "Sdf.Mf3.C14_read_back"
   ],
   "note": ""
  },
  {
   "property": "C15",
   "status": "partial",
   "theorems": [
    "Sdf.C15_solid_partial",
    "Sdf.C15_figure_partial",
    "Sdf.C15_support2_partial",
    "Sdf.C15_support3_partial",
    "Sdf.C15_rotated_offset_wrong",
    "Sdf.C15_tilted_extrusion_wrong",
    "Sdf.C15_scaleTwist_wrong"
   ],
   "note": "Proved by induction over every tree of the constructors listed in Verif/Spec/Bounds.lean (Boxed), graded by what growing operations need: primitives, cones, polygons, affine maps, booleans (differences and intersections also blended), cuts, offsets, shells, arrays, rotated copies, elongation, slices, all extrusions, lofts, revolutions, screws with a taper in [0, π/2). The remaining cases are false of the code and kept as witnesses: growing a rotated figure or solid whose values are only max-norm distances (C15_rotated_offset_wrong, C15_tilted_extrusion_wrong), twists of off-centre figures (C26_twist_bounds_wrong), more than one turn (C27_two_turns_box_wrong), ScaleTwistExtrude3D even without twist and scaling (C15_scaleTwist_wrong)."
  },
  {
   "property": "C16",
   "status": "proved",
   "theorems": [
    "Sdf.C16_union3",
    "Sdf.C16_union3_outside",
    "Sdf.C16_union2",
    "Sdf.C16_union2_needs_bounds",
    "Sdf.C16_difference3",
    "Sdf.C16_difference2",
    "Sdf.C16_intersect3",
    "Sdf.C16_intersect2",
    "Sdf.C16_cut3",
    "Sdf.C16_cut2"
   ],
   "note": "Union2D is proved under the interface obligation that each operand's Bounds contains it (its pruning depends on it); C16_union2_needs_bounds shows the obligation cannot be dropped."
  },
  {
   "property": "C17",
   "status": "partial",
   "theorems": [
    "Sdf.C17_solid_partial",
    "Sdf.C17_figure_partial",
    "Sdf.C17_never_over_partial",
    "Sdf.C17_union2_wrong",
    "Sdf.C17_loft_wrong",
    "Sdf.C17_scaleExtrude_wrong",
    "Sdf.C17_twist_wrong",
    "Sdf.C17_rotateCopy_wrong",
    "Sdf.C17_screw_wrong"
   ],
   "note": "Proved by induction over every tree of the listed constructors (primitives and cones, rigid moves, scaling, sharp and blended booleans, cuts, offsets, shells, arrays, extrusions, revolutions, elongations, slices). Planar unions need non-empty operands whose distances are never below the distance to their boxes: C17_union2_wrong shows that a union with an empty array jumps. Lofts, scaled and twisted extrusions, rotate-copies and screws of exact figures overestimate distances: C17_loft_wrong, C17_scaleExtrude_wrong, C17_twist_wrong, C17_rotateCopy_wrong, C17_screw_wrong give the points."
  },
  {
   "property": "C18",
   "status": "proved",
   "theorems": [
    "Sdf.C18_cone",
    "Sdf.C18_rounded_tip_wrong",
    "Sdf.C18_sphere",
    "Sdf.C18_circle",
    "Sdf.C18_box3",
    "Sdf.C18_box2",
    "Sdf.C18_line",
    "Sdf.C18_cylinder",
    "Sdf.C18_capsule",
    "Sdf.C18_overrounded_box_wrong"
   ],
   "note": "Box roundings up to half a side are meant; must3.Box also accepts larger ones and then no point evaluates below zero (C18_overrounded_box_wrong). Truncated cones: exact whenever the inset radii are not negative (C18_cone); a rounded cone that comes to a point under-reports beyond its tip (C18_rounded_tip_wrong)."
  },
  {
   "property": "C19",
   "status": "proved",
   "theorems": [
    "Sdf.C19_transform3",
    "Sdf.C19_transform2",
    "Sdf.C19_transform3_image",
    "Sdf.C19_transform2_image",
    "Sdf.C19_transform3_bounds",
    "Sdf.C19_transform2_bounds",
    "Sdf.C19_transform3_rigid",
    "Sdf.C19_transform2_rigid",
    "Sdf.C19_scale3",
    "Sdf.C19_scale2",
    "Sdf.C19_center2",
    "Sdf.C19_centerAndScale2",
    "Sdf.C19_center2_box"
   ],
   "note": "For invertible matrices; a singular matrix has no inverse to evaluate with."
  },
  {
   "property": "C20",
   "status": "proved",
   "theorems": [
    "Sdf.C20_equals_self",
    "Sdf.C20_equals_symm",
    "Sdf.C20_equals_trans",
    "Sdf.C20_equals_all",
    "Sdf.C20_equals_position",
    "Sdf.C20_box_equals",
    "Sdf.C20_mulVertices",
    "Sdf.C20_det_mul",
    "Sdf.C20_inverse",
    "Sdf.C20_mulPosition_mul",
    "Sdf.C20_inverse_mulPosition",
    "Sdf.C20_translate_scale",
    "Sdf.C20_rotate3d",
    "Sdf.C20_rotate_axes",
    "Sdf.C20_rotate2d",
    "Sdf.C20_rotation_isometry",
    "Sdf.C20_mirrors",
    "Sdf.C20_mulBox",
    "Sdf.C20_mulBox_tight"
   ],
   "note": "Matrices over the reals; every constructor and operation of matrix.go except the random generators. Float rounding is not modelled."
  },
  {
   "property": "C21",
   "status": "partial",
   "theorems": [
    "Sdf.C21_orient_partial",
    "Sdf.C21_opposite_not_rotation",
    "Sdf.C21_tiny_not_mapped"
   ],
   "note": "False as stated: for exactly opposite vectors the code returns -I, which has determinant -1 and is not a rotation (C21_opposite_not_rotation), and vectors whose components are all at most 1e-12 are not turned at all (C21_tiny_not_mapped). C21_orient_partial proves the claim for the remaining inputs."
  },
  {
   "property": "C22",
   "status": "proved",
   "theorems": [
    "Sdf.C22_int_lt",
    "Sdf.C22_array3",
    "Sdf.C22_array2",
    "Sdf.C22_iterate_inv3",
    "Sdf.C22_iterate_inv2",
    "Sdf.C22_rotateUnion3",
    "Sdf.C22_rotateUnion2",
    "Sdf.C22_empty",
    "Sdf.C22_between",
    "Sdf.C22_array3_bounds",
    "Sdf.C22_array2_bounds",
    "Sdf.C22_rotateUnion3_bounds",
    "Sdf.C22_rotateUnion2_bounds"
   ],
   "note": "Real arithmetic; the initial math.MaxFloat64 is modelled as the exact real constant."
  },
  {
   "property": "C23",
   "status": "proved",
   "theorems": [
    "Sdf.C23_sector2",
    "Sdf.C23_copies2",
    "Sdf.C23_sector3",
    "Sdf.C23_copies3",
    "Sdf.C23_invariant2",
    "Sdf.C23_invariant3",
    "Sdf.C23_panics2",
    "Sdf.C23_bounds2",
    "Sdf.C23_bounds3"
   ],
   "note": "C23_sector2/3 hold for every shape: the copies are those of its part in one sector. Both directions, bounding boxes and the panic condition are covered."
  },
  {
   "property": "C24",
   "status": "proved",
   "theorems": [
    "Sdf.C24_offset3_grow",
    "Sdf.C24_offset3_shrink",
    "Sdf.C24_offset2_grow",
    "Sdf.C24_offset2_shrink",
    "Sdf.C24_shell3",
    "Sdf.C24_shell3_empty",
    "Sdf.C24_offset3_bounds",
    "Sdf.C24_offset2_bounds",
    "Sdf.C24_shell3_bounds"
   ],
   "note": "Offset statements need an exact distance function, as the property says."
  },
  {
   "property": "C25",
   "status": "partial",
   "theorems": [
    "Sdf.C25_clamp",
    "Sdf.C25_elongate3",
    "Sdf.C25_elongate3_total",
    "Sdf.C25_elongate3_inside",
    "Sdf.C25_pulled_zero",
    "Sdf.C25_elongate3_zero",
    "Sdf.C25_elongate3_bounds",
    "Sdf.C25_elongate2_translates",
    "Sdf.C25_elongate2_partial",
    "Sdf.C25_elongate2_wrong"
   ],
   "note": "3D holds; Elongate2D as written merely translates the figure by |h|/2 (C25_elongate2_wrong), so its part is proved only for h = 0."
  },
  {
   "property": "C26",
   "status": "partial",
   "theorems": [
    "Sdf.C26_inside",
    "Sdf.C26_extrude",
    "Sdf.C26_twist",
    "Sdf.C26_scale",
    "Sdf.C26_scale_ends",
    "Sdf.C26_scaleTwist_wrong",
    "Sdf.C26_scaleTwist_partial",
    "Sdf.C26_rounded",
    "Sdf.C26_rounded_other",
    "Sdf.C26_bounds",
    "Sdf.C26_rounded_bounds",
    "Sdf.C26_twist_bounds_partial",
    "Sdf.C26_twist_bounds_wrong"
   ],
   "note": "Plain, twisted, scaled and rounded extrusions hold; ScaleTwistExtrude3D's scaling is wrong (C26_scaleTwist_wrong) and TwistExtrude3D's box is too small for off-centre figures (C26_twist_bounds_wrong)."
  },
  {
   "property": "C27",
   "status": "proved",
   "theorems": [
    "Sdf.C27_partial_turn",
    "Sdf.C27_full_turn",
    "Sdf.C27_no_turn",
    "Sdf.C27_bounds",
    "Sdf.C27_two_turns_box_wrong"
   ],
   "note": "Membership for every theta in (0, 2pi-1e-9], for full turns and for theta<=0, and the box for every theta<=2pi. Beyond one turn (outside the claim) the box is wrong: C27_two_turns_box_wrong."
  },
  {
   "property": "C28",
   "status": "partial",
   "theorems": [
    "Sdf.C28_poly",
    "Sdf.C28_poly_local",
    "Sdf.C28_poly_depth",
    "Sdf.C28_poly_one",
    "Sdf.C28_poly_zero",
    "Sdf.C28_max_dual_partial",
    "Sdf.C28_min_no_blend",
    "Sdf.C28_max_no_blend_wrong",
    "Sdf.C28_negative_degree_wrong",
    "Sdf.C28_max_degree_one_wrong",
    "Sdf.C28_exp",
    "Sdf.C28_round",
    "Sdf.C28_round_lip",
    "Sdf.C28_pow"
   ],
   "note": "Everything is proved for every degree n>=1 (and symmetry/upper bound for n=0) except the MaxPoly duality for n=1, which is false of the code: MaxPoly(1,k) is not math.Max (C28_max_degree_one_wrong). MaxPoly(0,k) divides by zero and is not modelled over the reals. With k<=0 MaxPoly returns the minimum instead of the maximum (C28_max_no_blend_wrong)."
  },
  {
   "property": "C29",
   "status": "partial",
   "theorems": [
    "Sdf.C29_slow",
    "Sdf.C29_pruning_partial",
    "Sdf.C29_agree_partial",
    "Sdf.C29_empty_operand_wrong",
    "Sdf.C29_disc_ok",
    "Sdf.C29_boxed_far",
    "Sdf.C29_trees_partial"
   ],
   "note": "Agrees whenever every operand is inside its box and reaches it, which holds for trees of any size of the constructors in Boxed (C29_trees_partial); C29_empty_operand_wrong shows a disagreement for an empty operand (a box without any solid point)."
  },
  {
   "property": "C30",
   "status": "partial",
   "theorems": [
    "Sdf.C30_box2",
    "Sdf.C30_box3_far",
    "Sdf.C30_box3_near_partial",
    "Sdf.C30_box3_near_wrong"
   ],
   "note": "The 2D function is exact (C30_box2). The 3D maximum is exact (C30_box3_far); the 3D minimum is wrong for points beside an edge (C30_box3_near_wrong), and C30_box3_near_partial gives what does hold."
  },
  {
   "property": "C31",
   "status": "proved",
   "theorems": [
    "Sdf.C31_refuse",
    "Sdf.C31_distance",
    "Sdf.C31_zero",
    "Sdf.C31_sign",
    "Sdf.C31_winding_unique",
    "Sdf.C31_bounds",
    "Sdf.C31_outside",
    "Sdf.C31_lipschitz",
    "Sdf.C31_nearly_closed_wrong"
   ],
   "note": "End vertices equal or more than 1e-9 apart; for nearer ones the closing side is dropped (C31_nearly_closed_wrong). Distances whose square exceeds MaxFloat64 saturate."
  },
  {
   "property": "C32",
   "status": "partial",
   "theorems": [
    "Sdf.C32_no_effect",
    "Sdf.C32_drop",
    "Sdf.C32_chamfer",
    "Sdf.C32_open_ends",
    "Sdf.C32_smooth_seam",
    "Sdf.C32_smooth_local",
    "Sdf.C32_smooth_proper",
    "Sdf.C32_moves",
    "Sdf.C32_arc_call",
    "Sdf.C32_smooth_call",
    "Sdf.C32_polar_of_point",
    "Sdf.C32_point_of_polar",
    "Sdf.C32_polar_range",
    "Sdf.C32_terminates",
    "Sdf.C32_relative",
    "Sdf.C32_no_panic_partial",
    "Sdf.C32_relative_first_panics",
    "Sdf.C32_stable",
    "Sdf.C32_smooth",
    "Sdf.C32_smooth_fits",
    "Sdf.C32_arc",
    "Sdf.C32_plain",
    "Sdf.C32_order",
    "Sdf.C32_smooth_vertices",
    "Sdf.C32_arc_vertices",
    "Sdf.C32_unstable"
   ],
   "note": "Proved for relative vertices that can be resolved (first vertex absolute, or closed with absolute last). Otherwise false of the code: an open polygon starting with a relative vertex panics (C32_relative_first_panics), and a closed one with relative first and last vertices changes between calls (C32_unstable). Fillet and arc geometry excludes straight corners and arcs with radius below half the chord (NaN in the code). C32_no_panic_partial also needs positive facet counts. C32_moves, C32_arc_call and C32_smooth_call state the result in terms of the calls."
  },
  {
   "property": "C33",
   "status": "partial",
   "theorems": [
    "Sdf.C33_sphere",
    "Sdf.C33_box3",
    "Sdf.C33_cylinder",
    "Sdf.C33_capsule",
    "Sdf.C33_cone",
    "Sdf.C33_circle",
    "Sdf.C33_box2",
    "Sdf.C33_line",
    "Sdf.C33_polygon",
    "Sdf.C33_nagon_partial",
    "Sdf.C33_nagon_silent",
    "Sdf.C33_chamfered_cylinder"
   ],
   "note": "All constructors except form2.Nagon, which returns nil without an error for n < 3 (C33_nagon_silent). A nil shape passed to ChamferedCylinder is outside the quantifier (dimensions)."
  },
  {
   "property": "C34",
   "status": "partial",
   "theorems": [
    "Sdf.C34_line3_partial",
    "Sdf.C34_line3_panics",
    "Sdf.C34_line2_partial",
    "Sdf.C34_line2_panics",
    "Sdf.C34_line_bytes",
    "Sdf.C34_multi3_partial",
    "Sdf.C34_multi3_panics",
    "Sdf.C34_multi2_partial",
    "Sdf.C34_multi2_panics",
    "Sdf.C34_orient3_partial",
    "Sdf.C34_orient3_panics"
   ],
   "note": "Proved whenever the pattern places at least two copies (the underlying unions panic with fewer): the C34_*_panics theorems give the failing lengths 0 and 1, so the full statement is false of the code. Non-ASCII patterns advance by bytes (C34_line_bytes)."
  },
  {
   "property": "C35",
   "status": "partial",
   "theorems": [
    "Sdf.C35_plain_vertices",
    "Sdf.C35_profiles",
    "Sdf.C35_knurl",
    "Sdf.C35_nut",
    "Sdf.C35_nut_error",
    "Sdf.C35_head_size",
    "Sdf.C35_nut_builtin",
    "Sdf.C35_nut_tolerance_ignored",
    "Sdf.C35_nut_round",
    "Sdf.C35_bolt_partial",
    "Sdf.C35_bolt_error",
    "Sdf.C35_bolt_panics",
    "Sdf.C35_bolt_builtin",
    "Sdf.C35_bolt_uts_panics",
    "Sdf.C35_bolt_tolerance_ignored",
    "Sdf.C35_bolt_npt",
    "Sdf.C35_bolt_shape",
    "Sdf.C35_panelHole_panics",
    "Sdf.C35_panelHole_shape",
    "Sdf.C35_standoff_web_shape",
    "Sdf.C35_web_middle",
    "Sdf.C35_euroRack3_shape",
    "Sdf.C35_panel_panics",
    "Sdf.C35_euroRack_panics",
    "Sdf.C35_euroRack_default_panics",
    "Sdf.C35_panel_shape",
    "Sdf.C35_panel_plain",
    "Sdf.C35_euroRack_shape",
    "Sdf.C35_euroRack3",
    "Sdf.C35_panel3",
    "Sdf.C35_standoff_panics",
    "Sdf.C35_standoff_shape",
    "Sdf.C35_standoff_pillar",
    "Sdf.C35_standoff_webs"
   ],
   "note": "false as stated: panels with a side without holes, euro-rack panels below 8 HP or with the documented default hole diameter, standoffs without a hole, and bolts with a nil thread, a shank as long as the bolt or a thread thinner than 0.08 head heights panic (C35_*_panics say exactly when); the tolerance of nuts and bolts is ignored. The shapes of panels, euro-rack panels with ridges, panel holes, standoffs and their webs are described exactly (webs higher than 1e-9)."
  },
  {
   "property": "C36",
   "status": "partial",
   "theorems": [
    "Sdf.C36_constructed",
    "Sdf.C36_section",
    "Sdf.C36_section_exists",
    "Sdf.C36_screw_motion_partial",
    "Sdf.C36_screw_inside_partial",
    "Sdf.C36_periodic",
    "Sdf.C36_mirror",
    "Sdf.C36_bounds_partial",
    "Sdf.C36_right_handed",
    "Sdf.C36_axis_wrong",
    "Sdf.C36_negative_taper_wrong"
   ],
   "note": "screw motion at the axis itself is a symmetry only when the profile is constant there (C36_axis_wrong); the bounds need a taper in [0, pi/2) (C36_negative_taper_wrong)"
  },
  {
   "property": "C37",
   "status": "partial",
   "theorems": [
    "Sdf.C37_stops",
    "Sdf.C37_result",
    "Sdf.C37_safe_partial",
    "Sdf.C37_safe_sigmoid",
    "Sdf.C37_sigmoid_unsafe",
    "Sdf.C37_sigmoid_exact",
    "Sdf.C37_raycast2"
   ],
   "note": "Everything is proved without the sigmoid (sigmoid <= 0) for every step scale in (0,1]. With the sigmoid, C37_sigmoid_exact says that no ray ever passes a surface exactly for the step scales up to 1/5; the default scale 1 is unsafe (C37_sigmoid_unsafe gives the witness)."
  },
  {
   "property": "C38",
   "status": "proved",
   "theorems": [
    "Sdf.C38_npt_found",
    "Sdf.C38_npt_unique",
    "Sdf.C38_npt_value",
    "Sdf.C38_npt_unchanged",
    "Sdf.C38_metric",
    "Sdf.C38_npt_params"
   ],
   "note": "the NPT table lookup and the metric flat-to-flat table, for every nominal size"
  },
  {
   "property": "C39",
   "status": "partial",
   "theorems": [
    "Sdf.Bih.C39_scan",
    "Sdf.Bih.C39_exact_partial",
    "Sdf.Bih.C39_shape",
    "Sdf.Bih.C39_skip_wrong"
   ],
   "note": "The tree search returns what an exhaustive scan returns and its value is the distance when no triangle is passed over; false in general because a NaN makes the search pass over a triangle (C39_skip_wrong)."
  },
  {
   "property": "C40",
   "status": "partial",
   "theorems": [
    "Sdf.C40_equals",
    "Sdf.C40_plane_linear",
    "Sdf.C40_zero_value",
    "Sdf.C40_apply",
    "Sdf.C40_mul",
    "Sdf.C40_mul_apply",
    "Sdf.C40_det",
    "Sdf.C40_inv",
    "Sdf.C40_inv_apply",
    "Sdf.C40_translate",
    "Sdf.C40_scale_partial",
    "Sdf.C40_scale_ignores_origin",
    "Sdf.C40_scale_not_about_origin",
    "Sdf.C40_compose",
    "Sdf.C40_compose_identity",
    "Sdf.C40_slice",
    "Sdf.C40_transpose",
    "Sdf.C40_plane_partial",
    "Sdf.C40_plane_identity_wrong",
    "Sdf.C40_plane_inverse_panics",
    "Sdf.C40_plane_inverse_entries"
   ],
   "note": "Everything about the 3D transform is proved except that Scale ignores the origin it is given (C40_scale_not_about_origin is the witness). For the plane transform the named identity is the zero matrix and Determinant and Inverse always panic (C40_plane_identity_wrong, C40_plane_inverse_panics)."
  },
  {
   "property": "C41",
   "status": "proved",
   "theorems": [
    "Sdf.C41_rigid",
    "Sdf.C41_inverse"
   ],
   "note": ""
  },
  {
   "property": "C42",
   "status": "partial",
   "theorems": [
    "Sdf.C42_plane_partial",
    "Sdf.C42_vertex_wrong",
    "Sdf.C42_vertex_witness",
    "Sdf.C42_clockwise_wrong",
    "Sdf.C42_space_partial",
    "Sdf.C42_tree_partial",
    "Sdf.C42_tree_nan",
    "Sdf.C42_tree_nan_witness"
   ],
   "note": "The closest point is right for the counter-clockwise plane routine and for every triangle in the tree routine when it returns one. Missing because false of the code: the reported nearest vertex (C42_vertex_wrong), clockwise corners in the plane routine (C42_clockwise_wrong), and a right angle at the first corner, where 0/0 makes the result NaN (C42_tree_nan)."
  },
  {
   "property": "C43",
   "status": "partial",
   "theorems": [
    "Sdf.Bcc.C43_accepted",
    "Sdf.Bcc.C43_numbering_partial",
    "Sdf.Bcc.C43_distinct",
    "Sdf.Bcc.C43_corner_positions",
    "Sdf.Bcc.C43_nodes_coincide",
    "Sdf.Bcc.C43_inverted"
   ],
   "note": "Proved for every box and resolution the builder accepts: no panic, one number per lattice point shared by all cells, all numbers used and in range, exact set of tetrahedra, four distinct nodes each, centres in place. The positions of corners are false of the code (the slots of a cell and the vertices of a box are in different orders): C43_corner_positions characterises exactly the corners that are right, C43_nodes_coincide and C43_inverted are the consequences."
  },
  {
   "property": "C44",
   "status": "proved",
   "theorems": [
    "Sdf.C44_exists",
    "Sdf.C44_round_trip",
    "Sdf.C44_center",
    "Sdf.C44_cell",
    "Sdf.C44_mesh"
   ],
   "note": "Integer vectors are unbounded integers; also proves the inverse direction (point to containing cell) and the points of generateMesh2D."
  },
  {
   "property": "C45",
   "status": "proved",
   "theorems": [
    "Sdf.C45_nominal",
    "Sdf.C45_scale",
    "Sdf.C45_linear",
    "Sdf.C45_internal",
    "Sdf.C45_pla",
    "Sdf.C45_ideal"
   ],
   "note": ""
  },
  {
   "property": "C46",
   "status": "proved",
   "theorems": [
    "Sdf.Bih.C46_bounds_tight",
    "Sdf.Bih.C46_triangles",
    "Sdf.Bih.C46_bounds",
    "Sdf.Bih.C46_distance",
    "Sdf.Bih.C46_wide_cell",
    "Sdf.Bih.C46_sides",
    "Sdf.Bih.C46_rejects"
   ],
   "note": ""
  },
  {
   "property": "C47",
   "status": "partial",
   "theorems": [
    "Sdf.Bih.C47_face_partial",
    "Sdf.Bih.C47_outside_negative"
   ],
   "note": "Proved when the closest mesh points lie inside faces. False when the closest point is a shared corner or edge: C47_outside_negative gives a closed outward tetrahedron and an outside point with value -1."
  },
  {
   "property": "C48",
   "status": "proved",
   "theorems": [
    "Sdf.C48_section",
    "Sdf.C48_ends",
    "Sdf.C48_rounded",
    "Sdf.C48_same",
    "Sdf.C48_impossible"
   ],
   "note": "Height equal to twice the rounding divides zero by zero in the code and is not covered; larger rounding is rejected (C48_impossible)."
  },
  {
   "property": "C49",
   "status": "partial",
   "theorems": [
    "Sdf.C49_divergence_affine",
    "Sdf.C49_gradient_affine",
    "Sdf.C49_divergence_components",
    "Sdf.Bcc.C49_connections_partial",
    "Sdf.Bcc.C49_selected_partial",
    "Sdf.Bcc.C49_refused",
    "Sdf.Bcc.C49_unused_wrong",
    "Sdf.Bcc.C49_pass",
    "Sdf.Bcc.C49_mean",
    "Sdf.Bcc.C49_factor",
    "Sdf.Bcc.C49_gradient",
    "Sdf.Bcc.C49_towards_plane",
    "Sdf.Bcc.C49_laplacian_wrong",
    "Sdf.Bcc.C49_connectivity_wrong",
    "Sdf.Bcc.C49_not_numbers_wrong"
   ],
   "note": "Proved for every shape and resolution: accepted exactly when three cells fit, the exact set of tetrahedra, distinct and existing nodes, no panic in assembly or smoothing; the movement of nodes in a pass. False of the code, with witnesses: nodes used by no kept tetrahedron come back at the origin or as NaN (C49_unused_wrong, C49_not_numbers_wrong), smoothing stops for good at the first node outside (C49_pass), links between the nodes of a tetrahedron are incomplete (C49_connectivity_wrong), laplacian is always zero (C49_laplacian_wrong)."
  },
  {
   "property": "C50",
   "status": "partial",
   "theorems": [
    "Sdf.Kd.C50_tables",
    "Sdf.Kd.C50_bounds",
    "Sdf.Kd.C50_rejects",
    "Sdf.Kd.C50_sign_partial",
    "Sdf.Kd.C50_reported_vertex",
    "Sdf.Kd.C50_vertex_wrong",
    "Sdf.Kd.C50_race_wrong"
   ],
   "note": "The sign is proved for query points whose closest point is not a corner of the model, queries not overlapping in time. It is false otherwise: C50_vertex_wrong gives a point outside a tetrahedron, nearest to a corner, that is given the value -1: of the nearest triangle another corner is reported (C50_reported_vertex), and the normal there points away, and C50_race_wrong shows that two overlapping evaluations can exchange their signs, since a triangle remembers its last measurement. That the triangle found is a nearest one is a hypothesis here; C52 is about the search."
  },
  {
   "property": "C51",
   "status": "proved",
   "theorems": [
    "Sdf.C51_ansi",
    "Sdf.C51_plastic",
    "Sdf.C51_uts_external",
    "Sdf.C51_uts_internal",
    "Sdf.C51_npt",
    "Sdf.C51_iso_mate",
    "Sdf.C51_acme",
    "Sdf.C51_iso_internal",
    "Sdf.C51_iso_external"
   ],
   "note": "Inside and outside are both characterised. The height functions of the five thread forms are stated independently; the excluded boxes are the neighbourhoods of the corners that the code rounds, where the profile is the one of C32. Sizes are reals; at least 1e-9 (below that the polygon's closing test takes the ends for one point)."
  },
  {
   "property": "C52",
   "status": "partial",
   "theorems": [
    "Sdf.Kd.C52_distance_partial",
    "Sdf.Kd.C52_nearest_partial",
    "Sdf.Kd.C52_tree_exists",
    "Sdf.Kd.C52_search_wrong"
   ],
   "note": "False of the code: triangles are compared by their centres only, but the k-d search takes the difference of the centres' coordinates for a lower bound of the distance. C52_search_wrong: for a tetrahedron and every sorted tree of its four faces there is a query whose value is too large. Proved: the value is the distance to a triangle that was measured, exceeds the distance to any triangle's point by less than that point's distance from the triangle's centre, and is exact where the nearest triangle's centre is no farther along any axis than the triangle (C52_nearest_partial, with the sign of C50). The search itself is gonum's, modelled from its documented algorithm; the tree is any tree sorted by Compare."
  },
  {
   "property": "C53",
   "status": "proved",
   "theorems": [
    "Sdf.MC.C53_outward",
    "Sdf.MC.C53_flat",
    "Sdf.Octree.C53_rendered_outward",
    "Sdf.MC.C53_grid_volume",
    "Sdf.Octree.C53_volume"
   ],
   "note": "The renderer theorem C53_volume assumes, as C08, Clear cells and that only triangles with coinciding corners are dropped; C53_grid_volume needs neither a shape nor that."
  },
  {
   "property": "C54",
   "status": "partial",
   "theorems": [
    "Sdf.C54_union3",
    "Sdf.C54_union2",
    "Sdf.C54_array3",
    "Sdf.C54_array2",
    "Sdf.C54_rotate3",
    "Sdf.C54_rotate2",
    "Sdf.C54_difference",
    "Sdf.C54_max_poly",
    "Sdf.C54_local",
    "Sdf.C54_lipschitz",
    "Sdf.C54_bounds_partial",
    "Sdf.C54_bounds_wrong",
    "Sdf.C54_union2_jump_wrong",
    "Sdf.C54_round_wrong"
   ],
   "note": "Containment, depth and locality are proved for every valid blend; blended solids stay 1-Lipschitz and join the trees of C17 (blended differences and intersections also those of C15). False of the code: a blended union leaves its box (C54_bounds_wrong; C54_bounds_partial says by how much at most), planar blended unions jump because operands are skipped by their boxes (C54_union2_jump_wrong), and MinRound overestimates distances (C54_round_wrong)."
  },
  {
   "property": "C55",
   "status": "proved",
   "theorems": [
    "Sdf.C55_thread",
    "Sdf.C55_bolt",
    "Sdf.C55_same",
    "Sdf.C55_acme_profile",
    "Sdf.C55_buttress_profiles",
    "Sdf.C55_iso_profiles",
    "Sdf.C55_iso",
    "Sdf.C55_uts"
   ],
   "note": "C55_bolt is the general statement, from the geometric condition FitsInto on the two profiles; C55_iso and C55_uts are the full statements for those threads, C55_acme_profile and C55_buttress_profiles give the condition for the threads that serve as both. Taper is zero, so NPT is not covered; the fit has no clearance, because tolerances are ignored (C35)."
  },
  {
   "property": "C56",
   "status": "proved",
   "theorems": [
    "Sdf.Octree.C56_no_stray_triangle",
    "Sdf.Octree.C56_within_bounds",
    "Sdf.Octree.C56_surface_found",
    "Sdf.Octree.C56_solid_found"
   ],
   "note": "Octree renderer to io.EOF over exact reals. C56_no_stray_triangle needs no assumption on grid vertices; C56_surface_found and C56_solid_found assume that no grid vertex is within 1e-12 of the surface (closer vertices make mcInterpolate snap to the corner and the triangle may be dropped as degenerate) and that the degeneracy filter drops only triangles with two equal corners."
  },
  {
   "property": "C57",
   "status": "proved",
   "theorems": [
    "Sdf.C57_moved_closed",
    "Sdf.Stl.C57_stl_closed",
    "Sdf.Stl.C57_stl_accurate",
    "Sdf.Stl.C57_assembled",
    "Sdf.Stl.C57_finishes"
   ],
   "note": "Joins C04, C08, C09, C12, C13, C15 and C17: the file is decoded by a separate small reader (storedTriangles). Rounding is any function of a coordinate; the accuracy theorem takes its error bound as a hypothesis. Assumes Clear cells as in C08 and that the degeneracy filter drops only triangles with two equal corners. Create3MF is not included, because RenderAll may lose triangles (C05)."
  },
  {
   "property": "C58",
   "status": "proved",
   "theorems": [
    "Sdf.Octree.C58_manifold",
    "Sdf.Octree.C58_other_side",
    "Sdf.Octree.C58_moved",
    "Sdf.Octree.C58_stl"
   ],
   "note": "C58_manifold is about the complete octree read, C58_stl about the file; C58_moved and C58_other_side relate the notion of manifold to displaced corners and to single edges. Assumes that no grid vertex is within the tolerance 1e-12 of the surface, where marching cubes snaps corners together."
  },
  {
   "property": "C59",
   "status": "proved",
   "theorems": [
    "Sdf.C59_nagon",
    "Sdf.C59_circles"
   ],
   "note": "The vertices are those of Nagon as given to the polygon constructor; the side must be longer than the closing tolerance 1e-9 of the polygon. Inside, outside, Lipschitz bound and both circles are stated for all n >= 3."
  },
  {
   "property": "C60",
   "status": "partial",
   "theorems": [
    "Sdf.C60_metric_partial",
    "Sdf.C60_hex_head_partial",
    "Sdf.C60_flats_wrong",
    "Sdf.C60_nut_vanishes_wrong"
   ],
   "note": "False of the code beyond D = 95: C60_metric_partial states exactly when the size exceeds the diameter, C60_nut_vanishes_wrong that round and hexagonal nuts of larger threads contain no point although no error is returned. C60_hex_head_partial gives the extent of hexagonal heads, C60_flats_wrong shows that they are more than 1.2 percent wider across flats than the stated size, because a hexagon of 0.92 times the radius is grown by 0.08 times the radius in all directions."
  },
  {
   "property": "C61",
   "status": "proved",
   "theorems": [
    "Sdf.C61_thread",
    "Sdf.C61_iso_profiles",
    "Sdf.C61_acme_profile",
    "Sdf.C61_buttress_profiles",
    "Sdf.C61_positions",
    "Sdf.C61_iso",
    "Sdf.C61_uts",
    "Sdf.C61_acme",
    "Sdf.C61_ansi",
    "Sdf.C61_plastic"
   ],
   "note": "C61_positions is the general statement, from the geometric conditions FitsInto (C55) and Engages on the two profiles; C61_iso, C61_uts, C61_acme, C61_ansi and C61_plastic are the full statements for those threads. Diameters are below 95 because larger nuts contain no point (C60). Taper is zero, so NPT is not covered. The bolt is its threaded part as Screw returns it."
  },
  {
   "property": "C62",
   "status": "proved",
   "theorems": [
    "Sdf.C62_convex",
    "Sdf.C62_convex_set"
   ],
   "note": "For any number of corners and both orders of the corners. Proper excludes closing corners within the rounding tolerance, as in C31."
  },
  {
   "property": "C63",
   "status": "partial",
   "theorems": [
    "Sdf.C63_chamfered_partial",
    "Sdf.C63_axis_wrong",
    "Sdf.C63_bolt_wrong"
   ],
   "note": "C63_chamfered_partial is the exact inside and outside of a chamfered shape, for chamfers that fit on its faces; the axis is not inside, although the claim says so: C63_axis_wrong for a chamfered cylinder, C63_bolt_wrong for the threaded part of all bolts."
  },
  {
   "property": "C64",
   "status": "partial",
   "theorems": [
    "Sdf.Mf3.C64_create_partial",
    "Sdf.Mf3.C64_create_box_wrong"
   ],
   "note": "False of the code, because RenderAll drops the triangles buffered for the last call: C64_create_box_wrong gives a plain box whose 3MF mesh is not closed. C64_create_partial: one object, built once, whose mesh is everything delivered but at most five triangles (one worker). The XML and zip encoding are not modelled."
  },
  {
   "property": "C65",
   "status": "proved",
   "theorems": [
    "Sdf.TriangleBuffer.C65_buffer_fifo",
    "Sdf.TriangleBuffer.C65_buffer_read"
   ],
   "note": ""
  },
  {
   "property": "C66",
   "status": "proved",
   "theorems": [
    "Sdf.Bcc.C66_equal_volumes",
    "Sdf.Bcc.C66_inside",
    "Sdf.Bcc.C66_cover",
    "Sdf.Bcc.C66_disjoint",
    "Sdf.Bcc.C66_fit"
   ],
   "note": ""
  },
  {
   "property": "C67",
   "status": "proved",
   "theorems": [
    "Sdf.C67_plane",
    "Sdf.C67_line",
    "Sdf.C67_limit",
    "Sdf.C67_limit_plane",
    "Sdf.C67_ball",
    "Sdf.C67_length",
    "Sdf.C67_length_plane"
   ],
   "note": ""
  },
  {
   "property": "C68",
   "status": "partial",
   "theorems": [
    "Sdf.Stl.C68_read_is_stored",
    "Sdf.Stl.C68_truncated_rejected",
    "Sdf.Stl.C68_write_prefix",
    "Sdf.Stl.C68_write_refused",
    "Sdf.Stl.C68_write_failure",
    "Sdf.Stl.C68_interrupted_partial",
    "Sdf.Stl.C68_torn_is_prefix",
    "Sdf.Stl.C68_torn_header_wrong"
   ],
   "note": "False while the last four bytes of the header are being written: a write of the header that is cut there leaves a smaller count, and a shorter model is read without an error (C68_torn_header_wrong, 257 triangles read as one). Proved: all other crash points (C68_interrupted_partial), and that at those points a reader can only see the first triangles of the model (C68_torn_is_prefix). Reordering of writes by the operating system is not modelled."
  },
  {
   "property": "C69",
   "status": "proved",
   "theorems": [
    "Sdf.C69_union_set",
    "Sdf.C69_union_flatten",
    "Sdf.C69_difference_union",
    "Sdf.C69_union_difference",
    "Sdf.C69_intersect_union",
    "Sdf.C69_intersect",
    "Sdf.C69_cut",
    "Sdf.C69_transform",
    "Sdf.C69_transform_booleans",
    "Sdf.C69_offset",
    "Sdf.C69_scale",
    "Sdf.C69_blend_order",
    "Sdf.C69_plane_union_set",
    "Sdf.C69_plane_order",
    "Sdf.C69_plane_union_through",
    "Sdf.C69_plane_difference",
    "Sdf.C69_plane_intersect",
    "Sdf.C69_plane_cut",
    "Sdf.C69_plane_transform",
    "Sdf.C69_plane_transform_booleans",
    "Sdf.C69_plane_offset",
    "Sdf.C69_plane_scale"
   ],
   "note": "Equalities of whole shapes (value at every point and bounding box) wherever the box agrees too, otherwise of values. C69_blend_order shows that blended unions depend on the order, C69_plane_order that the condition on planar values is needed."
  },
  {
   "property": "C70",
   "status": "partial",
   "theorems": [
    "Sdf.Mf3.C70_opens",
    "Sdf.Mf3.C70_failed",
    "Sdf.Mf3.C70_success",
    "Sdf.Mf3.C70_rendering",
    "Sdf.Mf3.C70_properties_wrong"
   ],
   "note": "Opening and failing are proved in full (C70_opens, C70_failed, C70_success, C70_rendering). The last clause is false of the code: every object is written with pid=\"0\" and pindex=\"0\", naming a property group that is not in the file (C70_properties_wrong). Trusted: encoding/xml writes the tree its struct tags describe, strconv prints float64 values so that they read back, archive/zip."
  },
  {
   "property": "C71",
   "status": "proved",
   "theorems": [
    "Sdf.C71_change",
    "Sdf.C71_change2",
    "Sdf.C71_larger",
    "Sdf.C71_smaller",
    "Sdf.C71_tolerance",
    "Sdf.C71_radius",
    "Sdf.C71_box",
    "Sdf.C71_moved"
   ],
   "note": "Planar unions are covered when their operands are at least as far as their boxes and not empty (otherwise Union2D skips operands, C29); blends must be valid ones (C28), which round and power blends are not."
  },
  {
   "property": "C72",
   "status": "partial",
   "theorems": [
    "Sdf.MC.C72_closed_wrong",
    "Sdf.MC.C72_accurate",
    "Sdf.MC.C72_gap",
    "Sdf.MC.C72_nearly_closed_partial"
   ],
   "note": "The float64 mesh need not be closed: C72_closed_wrong gives a solid of slope below one on the unit grid whose mesh is closed in exact arithmetic, but has cracks in float64 and also after rounding to float32 for STL, because mcPairTable lists some edges in the direction opposite to the neighbouring cell's, and p1 + t(p2 - p1) is not symmetric in floating point. Proved instead: bounds for the corners, for the gap, and that the mesh is near a closed one. Not represented: overflow, underflow, fused multiply-add, and rounding in the fields and in the positions of the grid points (both are taken as given numbers)."
  },
  {
   "property": "C73",
   "status": "partial",
   "theorems": [
    "Sdf.Heap.C73_history_partial",
    "Sdf.Heap.C73_box",
    "Sdf.Heap.C73_unrelated",
    "Sdf.Heap.C73_alias_wrong",
    "Sdf.Heap.C73_cycle_wrong",
    "Sdf.Heap.C73_polygon_partial",
    "Sdf.Heap.C73_polygon_overwrites_wrong"
   ],
   "note": "False for the caller's slices: Union3D keeps the slice itself, so that assigning to it later changes the union but not its box (C73_alias_wrong) or makes its evaluation endless (C73_cycle_wrong), and Polygon appends to the caller's slice, overwriting the element behind it when there is room (C73_polygon_overwrites_wrong). C73_history_partial covers all programs that do not assign to slices given to unions; C73_box and C73_unrelated hold for all. Modelled for solids; planar shapes (as operands of extrusions and revolutions) are parts that do not change."
  },
  {
   "property": "C74",
   "status": "partial",
   "theorems": [
    "Sdf.Octree.C74_move",
    "Sdf.Octree.C74_scale_partial",
    "Sdf.Octree.C74_scale_wrong"
   ],
   "note": "Displacements: proved (C74_move). Scaling is false of the code because the thresholds of 1e-12 are absolute: every solid has a scaled-down copy whose mesh is empty (C74_scale_wrong). C74_scale_partial proves it whenever the thresholds treat both sizes alike. In exact arithmetic, as everywhere outside C72."
  },
  {
   "property": "C75",
   "status": "partial",
   "theorems": [
    "Sdf.Examples.C75_base_wrong",
    "Sdf.Examples.C75_cover",
    "Sdf.Examples.C75_cover_wrong",
    "Sdf.Examples.C75_spacer",
    "Sdf.Examples.C75_bolt_fits",
    "Sdf.Examples.C75_row",
    "Sdf.Examples.C75_support_wrong",
    "Sdf.Examples.C75_flange_wrong",
    "Sdf.Examples.C75_flange_hole",
    "Sdf.Examples.C75_flange_runs"
   ],
   "note": "The spacers (C75_spacer, C75_bolt_fits, C75_row), the run of the flange program (C75_flange_runs) and its bore (C75_flange_hole), and the connector and pin openings of the sensor cover (C75_cover) are proved. False of the code: five of the eight holes drilled into the support lie beside it (C75_support_wrong, which also says exactly what the drilled plate is); eight of the twelve standoff holes of the board base are closed by the base (C75_base_wrong); the sensor does not pass the mouth of its recess, whose edge is rounded inwards (C75_cover_wrong); and the nut and the disc of the flange are at least 0.1 mm apart everywhere before the fillet bridges them (C75_flange_wrong)."
  }
 ]
}