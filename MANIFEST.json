{
 "claims": [
  {
   "property": "C01",
   "status": "proved",
   "theorems": [
    "Chrumm.Fw.C01_events_alternate"
   ],
   "note": ""
  },
  {
   "property": "C02",
   "status": "proved",
   "theorems": [
    "Chrumm.Fw.C02_settles"
   ],
   "note": ""
  },
  {
   "property": "C03",
   "status": "proved",
   "theorems": [
    "Chrumm.Fw.C03_event_iff",
    "Chrumm.Fw.C03_glitch_rejected"
   ],
   "note": ""
  },
  {
   "property": "C04",
   "status": "proved",
   "theorems": [
    "Chrumm.Fw.C04_no_overflow"
   ],
   "note": ""
  },
  {
   "property": "C05",
   "status": "proved",
   "theorems": [
    "Chrumm.Fw.C05_keys_independent"
   ],
   "note": ""
  },
  {
   "property": "C06",
   "status": "proved",
   "theorems": [
    "Chrumm.Fw.C06_no_stuck",
    "Chrumm.Fw.C06_hands_off"
   ],
   "note": ""
  },
  {
   "property": "C07",
   "status": "proved",
   "theorems": [
    "Chrumm.Fw.C07_reported_until_released"
   ],
   "note": ""
  },
  {
   "property": "C08",
   "status": "proved",
   "theorems": [
    "Chrumm.Fw.C08_report_well_formed",
    "Chrumm.Fw.C08_seventh_ignored"
   ],
   "note": ""
  },
  {
   "property": "C09",
   "status": "partial",
   "theorems": [
    "Chrumm.Fw.C09_violated_shift_stuck",
    "Chrumm.Fw.C09_not_every_change",
    "Chrumm.Fw.C09_reaches_host_partial",
    "Chrumm.Fw.C09_consumer_reaches_host"
   ],
   "note": "The full claim is false of the code: C09_violated_shift_stuck exhibits a reachable history after which the host keeps seeing Shift pressed although the report is empty (hid.c:60/87 overwrite the stale flag; matrix.c removes the usage of both layers). Proved: the claim for the consumer report, and for the keyboard report under the condition stated in C09_reaches_host_partial."
  },
  {
   "property": "C10",
   "status": "proved",
   "theorems": [
    "Chrumm.Fw.C10_layer_used",
    "Chrumm.Fw.C10_held",
    "Chrumm.Fw.C10_momentary",
    "Chrumm.Fw.C10_tap_lock",
    "Chrumm.Fw.C10_unlock",
    "Chrumm.Fw.C10_lock_stays",
    "Chrumm.Fw.C10_no_accidental_lock"
   ],
   "note": ""
  },
  {
   "property": "C11",
   "status": "proved",
   "theorems": [
    "Chrumm.Fw.C11_boot_iff",
    "Chrumm.Fw.C11_boot_last",
    "Chrumm.Fw.C11_boot_key"
   ],
   "note": ""
  },
  {
   "property": "C12",
   "status": "proved",
   "theorems": [
    "Chrumm.Fw.C12_decoder_safe"
   ],
   "note": ""
  },
  {
   "property": "C13",
   "status": "proved",
   "theorems": [
    "Chrumm.Fw.C13_counts_detents"
   ],
   "note": ""
  },
  {
   "property": "C14",
   "status": "proved",
   "theorems": [
    "Chrumm.Fw.C14_virtual_key",
    "Chrumm.Fw.C14_released_after",
    "Chrumm.Fw.C14_no_overlap"
   ],
   "note": ""
  },
  {
   "property": "C15",
   "status": "proved",
   "theorems": [
    "Chrumm.Fw.C15_led_pattern",
    "Chrumm.Fw.C15_same_pattern_no_effect"
   ],
   "note": ""
  },
  {
   "property": "C16",
   "status": "proved",
   "theorems": [
    "Chrumm.Fw.C16_led_dark"
   ],
   "note": ""
  },
  {
   "property": "C17",
   "status": "proved",
   "theorems": [
    "Chrumm.Fw.C17_nothing_typed",
    "Chrumm.Fw.C17_wakes_host"
   ],
   "note": ""
  },
  {
   "property": "C18",
   "status": "proved",
   "theorems": [
    "Chrumm.Fw.C18_one_row_at_a_time",
    "Chrumm.Fw.C18_reads_every_switch_once"
   ],
   "note": ""
  },
  {
   "property": "C19",
   "status": "proved",
   "theorems": [
    "Chrumm.Geo.C19_strict_total_order",
    "Chrumm.Geo.C19_sorting_deterministic"
   ],
   "note": ""
  },
  {
   "property": "C20",
   "status": "proved",
   "theorems": [
    "Chrumm.Geo.C20_snapped",
    "Chrumm.Geo.C20_idempotent"
   ],
   "note": ""
  },
  {
   "property": "C21",
   "status": "proved",
   "theorems": [
    "Chrumm.Geo.C21_transform_product",
    "Chrumm.Geo.C21_monoid",
    "Chrumm.Geo.C21_methods"
   ],
   "note": ""
  },
  {
   "property": "C22",
   "status": "proved",
   "theorems": [
    "Chrumm.Geo.C22_turns",
    "Chrumm.Geo.C22_polar_exists",
    "Chrumm.Geo.C22_rigid",
    "Chrumm.Geo.C22_compose"
   ],
   "note": ""
  },
  {
   "property": "C23",
   "status": "partial",
   "theorems": [
    "Chrumm.Geo.C23_aligns_partial",
    "Chrumm.Geo.C23_raises_iff",
    "Chrumm.Geo.C23_antiparallel_violated",
    "Chrumm.Geo.C23_not_always"
   ],
   "note": "The full claim is false of the code: for (nearly) antiparallel directions fromAlignment returns a mirroring that does not map source to target (C23_antiparallel_violated, C23_not_always). C23_aligns_partial proves it for all other pairs, C23_raises_iff characterises the exceptions."
  },
  {
   "property": "C24",
   "status": "proved",
   "theorems": [
    "Chrumm.Geo.C24_halfway",
    "Chrumm.Geo.C24_nearest",
    "Chrumm.Geo.C24_opposite",
    "Chrumm.Geo.C24_involution",
    "Chrumm.Geo.C24_normal",
    "Chrumm.Geo.C24_volume"
   ],
   "note": ""
  },
  {
   "property": "C25",
   "status": "proved",
   "theorems": [
    "Chrumm.Geo.C25_midpoint",
    "Chrumm.Geo.C25_raises_iff",
    "Chrumm.Geo.C25_common_point"
   ],
   "note": ""
  },
  {
   "property": "C26",
   "status": "proved",
   "theorems": [
    "Chrumm.Geo.C26_distance",
    "Chrumm.Geo.C26_distance2D"
   ],
   "note": ""
  },
  {
   "property": "C27",
   "status": "proved",
   "theorems": [
    "Chrumm.Geo.C27_three_planes",
    "Chrumm.Geo.C27_plane_line",
    "Chrumm.Geo.C27_project_normal",
    "Chrumm.Geo.C27_project_axis"
   ],
   "note": ""
  },
  {
   "property": "C28",
   "status": "proved",
   "theorems": [
    "Chrumm.Geo.C28_segment_distance"
   ],
   "note": ""
  },
  {
   "property": "C29",
   "status": "proved",
   "theorems": [
    "Chrumm.Geo.C29_intersection",
    "Chrumm.Geo.C29_raises_iff"
   ],
   "note": ""
  },
  {
   "property": "C30",
   "status": "proved",
   "theorems": [
    "Chrumm.Geo.C30_circle_line",
    "Chrumm.Geo.C30_circle_circle"
   ],
   "note": ""
  },
  {
   "property": "C31",
   "status": "proved",
   "theorems": [
    "Chrumm.Geo.C31_convex_hull",
    "Chrumm.Geo.C31_flat_hull",
    "Chrumm.Geo.C31_coincident"
   ],
   "note": ""
  },
  {
   "property": "C32",
   "status": "proved",
   "theorems": [
    "Chrumm.Geo.C32_open_strip",
    "Chrumm.Geo.C32_closed_strip",
    "Chrumm.Geo.C32_total",
    "Chrumm.Geo.C32_folded_violated"
   ],
   "note": "The boundary claim is proved for quads satisfying Spec.GoodQuad (no sliver triangles, not folded). C32_folded_violated shows that the condition is needed: for a folded quad the code adds a triangle whose boundary is not the quad's."
  },
  {
   "property": "C33",
   "status": "proved",
   "theorems": [
    "Chrumm.Geo.C33_open_strip",
    "Chrumm.Geo.C33_closed_strip",
    "Chrumm.Geo.C33_ends"
   ],
   "note": ""
  },
  {
   "property": "C34",
   "status": "proved",
   "theorems": [
    "Chrumm.Geo.C34_even_odd",
    "Chrumm.Geo.C34_start",
    "Chrumm.Geo.C34_direction",
    "Chrumm.Geo.C34_glue",
    "Chrumm.Geo.C34_triangulated",
    "Chrumm.Geo.C34_triangle_inside",
    "Chrumm.Geo.C34_triangle_outside",
    "Chrumm.Geo.C34_convex_inside",
    "Chrumm.Geo.C34_convex_outside",
    "Chrumm.Geo.C34_hull",
    "Chrumm.Geo.C34_path"
   ],
   "note": ""
  },
  {
   "property": "C35",
   "status": "proved",
   "theorems": [
    "Chrumm.Geo.C35_keeps",
    "Chrumm.Geo.C35_subsequence",
    "Chrumm.Geo.C35_repeated",
    "Chrumm.Geo.C35_not_resegmented"
   ],
   "note": ""
  },
  {
   "property": "C36",
   "status": "proved",
   "theorems": [
    "Chrumm.Geo.C36_boundary",
    "Chrumm.Geo.C36_corners",
    "Chrumm.Geo.C36_raises",
    "Chrumm.Geo.C36_raises_iff"
   ],
   "note": ""
  },
  {
   "property": "C37",
   "status": "proved",
   "theorems": [
    "Chrumm.Geo.C37_boundary",
    "Chrumm.Geo.C37_ears",
    "Chrumm.Geo.C37_complete"
   ],
   "note": ""
  },
  {
   "property": "C38",
   "status": "proved",
   "theorems": [
    "Chrumm.Geo.C38_cache_transparent",
    "Chrumm.Geo.C38_raises"
   ],
   "note": ""
  },
  {
   "property": "C39",
   "status": "proved",
   "theorems": [
    "Chrumm.Geo.C39_no_infinite_run",
    "Chrumm.Geo.C39_finishes"
   ],
   "note": ""
  },
  {
   "property": "C40",
   "status": "proved",
   "theorems": [
    "Chrumm.Geo.C40_surface",
    "Chrumm.Geo.C40_ccw",
    "Chrumm.Geo.C40_planar"
   ],
   "note": ""
  },
  {
   "property": "C41",
   "status": "proved",
   "theorems": [
    "Chrumm.Geo.C41_table",
    "Chrumm.Geo.C41_delaunay"
   ],
   "note": ""
  },
  {
   "property": "C42",
   "status": "proved",
   "theorems": [
    "Chrumm.Geo.C42_boundary",
    "Chrumm.Geo.C42_complete",
    "Chrumm.Geo.C42_total"
   ],
   "note": ""
  },
  {
   "property": "C43",
   "status": "proved",
   "theorems": [
    "Chrumm.App.C43_format",
    "Chrumm.App.C43_succeeds",
    "Chrumm.App.C43_exceptions"
   ],
   "note": ""
  },
  {
   "property": "C44",
   "status": "proved",
   "theorems": [
    "Chrumm.App.C44_names"
   ],
   "note": ""
  },
  {
   "property": "C45",
   "status": "proved",
   "theorems": [
    "Chrumm.App.C45_own_faces",
    "Chrumm.App.C45_threads",
    "Chrumm.App.C45_no_faces"
   ],
   "note": ""
  },
  {
   "property": "C46",
   "status": "proved",
   "theorems": [
    "Chrumm.App.C46_left",
    "Chrumm.App.C46_symmetric"
   ],
   "note": ""
  },
  {
   "property": "C47",
   "status": "proved",
   "theorems": [
    "Chrumm.App.C47_success",
    "Chrumm.App.C47_nothing",
    "Chrumm.App.C47_outcome",
    "Chrumm.App.C47_names"
   ],
   "note": ""
  },
  {
   "property": "C48",
   "status": "proved",
   "theorems": [
    "Chrumm.App.C48_last_wins",
    "Chrumm.App.C48_fails",
    "Chrumm.App.C48_exceptions",
    "Chrumm.App.C48_succeeds"
   ],
   "note": ""
  },
  {
   "property": "C49",
   "status": "proved",
   "theorems": [
    "Chrumm.App.C49_angle",
    "Chrumm.App.C49_other"
   ],
   "note": ""
  },
  {
   "property": "C50",
   "status": "proved",
   "theorems": [
    "Chrumm.App.C50_fresh",
    "Chrumm.App.C50_private",
    "Chrumm.App.C50_identifiers"
   ],
   "note": ""
  },
  {
   "property": "C51",
   "status": "proved",
   "theorems": [
    "Chrumm.Part.C51_rejects",
    "Chrumm.Part.C51_positions",
    "Chrumm.Part.C51_access",
    "Chrumm.Part.C51_thumbs",
    "Chrumm.Part.C51_symmetric",
    "Chrumm.Part.C51_succeeds"
   ],
   "note": ""
  },
  {
   "property": "C52",
   "status": "proved",
   "theorems": [
    "Chrumm.Part.C52_flat",
    "Chrumm.Part.C52_fold",
    "Chrumm.Part.C52_footprint",
    "Chrumm.Part.C52_complete"
   ],
   "note": ""
  },
  {
   "property": "C53",
   "status": "proved",
   "theorems": [
    "Chrumm.Part.C53_spacing",
    "Chrumm.Part.C53_on_circle",
    "Chrumm.Part.C53_ends",
    "Chrumm.Part.C53_distinct",
    "Chrumm.Part.C53_deviation",
    "Chrumm.Part.C53_angle",
    "Chrumm.Part.C53_succeeds"
   ],
   "note": ""
  },
  {
   "property": "C54",
   "status": "proved",
   "theorems": [
    "Chrumm.Part.C54_tangent",
    "Chrumm.Part.C54_succeeds"
   ],
   "note": ""
  },
  {
   "property": "C55",
   "status": "proved",
   "theorems": [
    "Chrumm.Part.C55_result",
    "Chrumm.Part.C55_necessary",
    "Chrumm.Part.C55_nearest",
    "Chrumm.Part.C55_terminates",
    "Chrumm.Part.C55_succeeds",
    "Chrumm.Part.C55_boss_keys"
   ],
   "note": ""
  },
  {
   "property": "C56",
   "status": "proved",
   "theorems": [
    "Chrumm.Part.C56_walls",
    "Chrumm.Part.C56_succeeds",
    "Chrumm.Part.C56_key_bounds"
   ],
   "note": ""
  },
  {
   "property": "C57",
   "status": "proved",
   "theorems": [
    "Chrumm.Part.C57_fit",
    "Chrumm.Part.C57_watertight"
   ],
   "note": ""
  },
  {
   "property": "C58",
   "status": "proved",
   "theorems": [
    "Chrumm.Part.C58_solid",
    "Chrumm.Part.C58_fit",
    "Chrumm.Part.C58_watertight",
    "Chrumm.Part.C58_all"
   ],
   "note": ""
  },
  {
   "property": "C59",
   "status": "proved",
   "theorems": [
    "Chrumm.Part.C59_full",
    "Chrumm.Part.C59_half",
    "Chrumm.Part.C59_succeeds"
   ],
   "note": ""
  },
  {
   "property": "C60",
   "status": "proved",
   "theorems": [
    "Chrumm.Geo.C60_projection_ccw"
   ],
   "note": ""
  },
  {
   "property": "C61",
   "status": "proved",
   "theorems": [
    "Chrumm.Geo.C61_distance",
    "Chrumm.Geo.C61_raises_iff",
    "Chrumm.Geo.C61_zero_iff",
    "Chrumm.Geo.C61_hull"
   ],
   "note": ""
  },
  {
   "property": "C62",
   "status": "proved",
   "theorems": [
    "Chrumm.Geo.C62_convex_complete",
    "Chrumm.Geo.C62_convex_delaunay",
    "Chrumm.Geo.C62_flat_face"
   ],
   "note": ""
  },
  {
   "property": "C63",
   "status": "proved",
   "theorems": [
    "Chrumm.Geo.C63_offset",
    "Chrumm.Geo.C63_raises_iff"
   ],
   "note": ""
  },
  {
   "property": "C64",
   "status": "proved",
   "theorems": [
    "Chrumm.Geo.C64_line",
    "Chrumm.Geo.C64_line_raises_iff",
    "Chrumm.Geo.C64_plane",
    "Chrumm.Geo.C64_translated"
   ],
   "note": ""
  },
  {
   "property": "C65",
   "status": "proved",
   "theorems": [
    "Chrumm.Geo.C65_circumradius",
    "Chrumm.Geo.C65_area"
   ],
   "note": ""
  },
  {
   "property": "C66",
   "status": "proved",
   "theorems": [
    "Chrumm.App.C66_syntax",
    "Chrumm.App.C66_rejected",
    "Chrumm.App.C66_first"
   ],
   "note": ""
  },
  {
   "property": "C67",
   "status": "proved",
   "theorems": [
    "Chrumm.Part.C67_hole",
    "Chrumm.Part.C67_half",
    "Chrumm.Part.C67_round",
    "Chrumm.Part.C67_succeeds"
   ],
   "note": ""
  },
  {
   "property": "C68",
   "status": "proved",
   "theorems": [
    "Chrumm.Part.C68_flush",
    "Chrumm.Part.C68_rims"
   ],
   "note": ""
  },
  {
   "property": "C69",
   "status": "proved",
   "theorems": [
    "Chrumm.Part.C69_front_back",
    "Chrumm.Part.C69_alnum",
    "Chrumm.Part.C69_right",
    "Chrumm.Part.C69_thickness",
    "Chrumm.Part.C69_ridge"
   ],
   "note": ""
  },
  {
   "property": "C70",
   "status": "proved",
   "theorems": [
    "Chrumm.Part.C70_thumb",
    "Chrumm.Part.C70_corners",
    "Chrumm.Part.C70_ridge"
   ],
   "note": ""
  },
  {
   "property": "C71",
   "status": "proved",
   "theorems": [
    "Chrumm.Part.C71_height",
    "Chrumm.Part.C71_floor",
    "Chrumm.Part.C71_middle"
   ],
   "note": ""
  },
  {
   "property": "C72",
   "status": "proved",
   "theorems": [
    "Chrumm.Part.C72_bosses"
   ],
   "note": ""
  },
  {
   "property": "C73",
   "status": "proved",
   "theorems": [
    "Chrumm.Part.C73_mitre",
    "Chrumm.Part.C73_edge",
    "Chrumm.Part.C73_caps"
   ],
   "note": ""
  },
  {
   "property": "C74",
   "status": "proved",
   "theorems": [
    "Chrumm.Part.C74_rigid",
    "Chrumm.Part.C74_grid",
    "Chrumm.Part.C74_directions"
   ],
   "note": ""
  },
  {
   "property": "C75",
   "status": "proved",
   "theorems": [
    "Chrumm.Part.C75_symmetric"
   ],
   "note": ""
  },
  {
   "property": "C76",
   "status": "proved",
   "theorems": [
    "Chrumm.Part.C76_raise",
    "Chrumm.Part.C76_threshold"
   ],
   "note": ""
  },
  {
   "property": "C77",
   "status": "proved",
   "theorems": [
    "Chrumm.Part.C77_factory",
    "Chrumm.Part.C77_key_closes",
    "Chrumm.Part.C77_succeeds"
   ],
   "note": ""
  },
  {
   "property": "C78",
   "status": "proved",
   "theorems": [
    "Chrumm.Part.C78_head",
    "Chrumm.Part.C78_thread",
    "Chrumm.Part.C78_roof_margin",
    "Chrumm.Part.C78_too_short",
    "Chrumm.Part.C78_succeeds",
    "Chrumm.Part.C78_plan"
   ],
   "note": ""
  },
  {
   "property": "C79",
   "status": "proved",
   "theorems": [
    "Chrumm.Part.C79_transition",
    "Chrumm.Part.C79_wall",
    "Chrumm.Part.C79_shape",
    "Chrumm.Part.C79_plan"
   ],
   "note": ""
  },
  {
   "property": "C80",
   "status": "proved",
   "theorems": [
    "Chrumm.Part.C80_fit",
    "Chrumm.Part.C80_closes",
    "Chrumm.Part.C80_edges"
   ],
   "note": ""
  },
  {
   "property": "C81",
   "status": "proved",
   "theorems": [
    "Chrumm.Part.C81_apart",
    "Chrumm.Part.C81_sane",
    "Chrumm.Part.C81_fit",
    "Chrumm.Part.C81_closes",
    "Chrumm.Part.C81_split",
    "Chrumm.Part.C81_edges"
   ],
   "note": ""
  },
  {
   "property": "C82",
   "status": "proved",
   "theorems": [
    "Chrumm.Part.C82_corner_fit",
    "Chrumm.Part.C82_roof_fit",
    "Chrumm.Part.C82_floor_fit",
    "Chrumm.Part.C82_floor_edges",
    "Chrumm.Part.C82_corner_closes",
    "Chrumm.Part.C82_roof_closes",
    "Chrumm.Part.C82_floor_closes"
   ],
   "note": ""
  },
  {
   "property": "C83",
   "status": "proved",
   "theorems": [
    "Chrumm.Part.C83_cable",
    "Chrumm.Part.C83_fit",
    "Chrumm.Part.C83_body",
    "Chrumm.Part.C83_watertight"
   ],
   "note": ""
  },
  {
   "property": "C84",
   "status": "proved",
   "theorems": [
    "Chrumm.Part.C84_fit",
    "Chrumm.Part.C84_lip",
    "Chrumm.Part.C84_brackets",
    "Chrumm.Part.C84_floor",
    "Chrumm.Part.C84_watertight"
   ],
   "note": ""
  },
  {
   "property": "C85",
   "status": "proved",
   "theorems": [
    "Chrumm.Part.C85_walls",
    "Chrumm.Part.C85_arc",
    "Chrumm.Part.C85_snug",
    "Chrumm.Part.C85_margin",
    "Chrumm.Part.C85_floor",
    "Chrumm.Part.C85_succeeds"
   ],
   "note": ""
  },
  {
   "property": "C86",
   "status": "proved",
   "theorems": [
    "Chrumm.Part.C86_largest",
    "Chrumm.Part.C86_grid",
    "Chrumm.Part.C86_succeeds"
   ],
   "note": ""
  },
  {
   "property": "C87",
   "status": "proved",
   "theorems": [
    "Chrumm.Part.C87_fit",
    "Chrumm.Part.C87_palm",
    "Chrumm.Part.C87_watertight"
   ],
   "note": ""
  },
  {
   "property": "C88",
   "status": "proved",
   "theorems": [
    "Chrumm.Part.C88_bumpers",
    "Chrumm.Part.C88_dimensions",
    "Chrumm.Part.C88_palm"
   ],
   "note": ""
  },
  {
   "property": "C89",
   "status": "proved",
   "theorems": [
    "Chrumm.Part.C89_palm",
    "Chrumm.Part.C89_hitch"
   ],
   "note": ""
  },
  {
   "property": "C90",
   "status": "proved",
   "theorems": [
    "Chrumm.Part.C90_screws",
    "Chrumm.Part.C90_fits"
   ],
   "note": ""
  },
  {
   "property": "C91",
   "status": "proved",
   "theorems": [
    "Chrumm.Part.C91_plan",
    "Chrumm.Part.C91_body",
    "Chrumm.Part.C91_floor",
    "Chrumm.Part.C91_plane"
   ],
   "note": ""
  },
  {
   "property": "C92",
   "status": "proved",
   "theorems": [
    "Chrumm.Part.C92_corners",
    "Chrumm.Part.C92_outer",
    "Chrumm.Part.C92_step",
    "Chrumm.Part.C92_outer_ends",
    "Chrumm.Part.C92_inner",
    "Chrumm.Part.C92_inner_ends",
    "Chrumm.Part.C92_point",
    "Chrumm.Part.C92_parallel",
    "Chrumm.Part.C92_rim",
    "Chrumm.Part.C92_succeeds"
   ],
   "note": ""
  },
  {
   "property": "C93",
   "status": "proved",
   "theorems": [
    "Chrumm.Part.C93_pinky",
    "Chrumm.Part.C93_plates"
   ],
   "note": ""
  },
  {
   "property": "C94",
   "status": "proved",
   "theorems": [
    "Chrumm.Part.C94_boundsI",
    "Chrumm.Part.C94_boundsO",
    "Chrumm.Part.C94_holeO",
    "Chrumm.Part.C94_holeI",
    "Chrumm.Part.C94_triangles"
   ],
   "note": ""
  },
  {
   "property": "C95",
   "status": "proved",
   "theorems": [
    "Chrumm.Part.C95_corners"
   ],
   "note": ""
  },
  {
   "property": "C96",
   "status": "proved",
   "theorems": [
    "Chrumm.Part.C96_ends",
    "Chrumm.Part.C96_inside",
    "Chrumm.Part.C96_which"
   ],
   "note": ""
  },
  {
   "property": "C97",
   "status": "proved",
   "theorems": [
    "Chrumm.Part.C97_outline",
    "Chrumm.Part.C97_succeeds",
    "Chrumm.Part.C97_shape",
    "Chrumm.Part.C97_shaft"
   ],
   "note": ""
  },
  {
   "property": "C98",
   "status": "proved",
   "theorems": [
    "Chrumm.Part.C98_shape",
    "Chrumm.Part.C98_body",
    "Chrumm.Part.C98_succeeds"
   ],
   "note": ""
  },
  {
   "property": "C99",
   "status": "proved",
   "theorems": [
    "Chrumm.Part.C99_shape",
    "Chrumm.Part.C99_succeeds"
   ],
   "note": ""
  },
  {
   "property": "C100",
   "status": "proved",
   "theorems": [
    "Chrumm.Part.C100_floor",
    "Chrumm.Part.C100_chamfers",
    "Chrumm.Part.C100_bosses",
    "Chrumm.Part.C100_protrude",
    "Chrumm.Part.C100_brackets",
    "Chrumm.Part.C100_cable"
   ],
   "note": ""
  },
  {
   "property": "C101",
   "status": "proved",
   "theorems": [
    "Chrumm.Part.C101_heights",
    "Chrumm.Part.C101_outline",
    "Chrumm.Part.C101_screws",
    "Chrumm.Part.C101_offset",
    "Chrumm.Part.C101_lip",
    "Chrumm.Part.C101_cut",
    "Chrumm.Part.C101_start"
   ],
   "note": ""
  },
  {
   "property": "C102",
   "status": "proved",
   "theorems": [
    "Chrumm.Part.C102_corner_succeeds",
    "Chrumm.Part.C102_floor_succeeds",
    "Chrumm.Part.C102_back",
    "Chrumm.Part.C102_front",
    "Chrumm.Part.C102_floor",
    "Chrumm.Part.C102_meets",
    "Chrumm.Part.C102_roof",
    "Chrumm.Part.C102_roof_succeeds",
    "Chrumm.Part.C102_zip",
    "Chrumm.Part.C102_top"
   ],
   "note": ""
  },
  {
   "property": "C103",
   "status": "proved",
   "theorems": [
    "Chrumm.Fw.C103_taps",
    "Chrumm.Fw.C103_ranges",
    "Chrumm.Fw.C103_default"
   ],
   "note": ""
  },
  {
   "property": "C104",
   "status": "proved",
   "theorems": [
    "Chrumm.Fw.C104_first",
    "Chrumm.Fw.C104_between",
    "Chrumm.Fw.C104_once"
   ],
   "note": ""
  },
  {
   "property": "C105",
   "status": "proved",
   "theorems": [
    "Chrumm.Part.C105_sane",
    "Chrumm.Part.C105_key",
    "Chrumm.Part.C105_layout",
    "Chrumm.Part.C105_support",
    "Chrumm.Part.C105_cable",
    "Chrumm.Part.C105_bracket",
    "Chrumm.Part.C105_corner",
    "Chrumm.Part.C105_roof",
    "Chrumm.Part.C105_floor_bracket",
    "Chrumm.Part.C105_hex",
    "Chrumm.Part.C105_encoder",
    "Chrumm.Part.C105_bumper",
    "Chrumm.Part.C105_hitch",
    "Chrumm.Part.C105_palm",
    "Chrumm.Part.C105_palm_watertight",
    "Chrumm.Part.C105_head",
    "Chrumm.Part.C105_body",
    "Chrumm.Part.C105_floor"
   ],
   "note": "C105_sane and the theorems of success hold without assumptions about the plan. C105_body, C105_floor and C105_palm_watertight speak about each plan that is made from the shipped dimensions; that the plan itself can be made is not shown for the shipped layout (Props/Whole.lean shows it for a smaller layout)."
  }
 ]
}