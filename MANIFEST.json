{
 "claims": [
  {
   "property": "C01",
   "status": "proved",
   "theorems": [
    "Gear.Params.getIntVal_run",
    "Gear.Params.getDoubleVal_run",
    "Gear.Params.getStringVal_run",
    "Gear.Params.getIntVals_run",
    "Gear.Params.getDoubleVals_run",
    "Gear.Params.getStringVals_run"
   ],
   "note": "every history of set calls on one parameter object"
  },
  {
   "property": "C02",
   "status": "proved",
   "theorems": [
    "Gear.Params.getIntKeys_run",
    "Gear.Params.getDoubleKeys_run",
    "Gear.Params.getStringKeys_run",
    "Gear.Params.getIntVecKeys_run",
    "Gear.Params.getDoubleVecKeys_run",
    "Gear.Params.getStringVecKeys_run",
    "Gear.Params.listing_unique",
    "Gear.Params.getIntKeys_twice"
   ],
   "note": ""
  },
  {
   "property": "C03",
   "status": "proved",
   "theorems": [
    "Gear.Mgr.getSection_run",
    "Gear.Mgr.getDetectorName_run",
    "Gear.Mgr.run_defined"
   ],
   "note": ""
  },
  {
   "property": "C04",
   "status": "proved",
   "theorems": [
    "Gear.Mgr.getGear_run",
    "Gear.Mgr.gearKeys_run"
   ],
   "note": ""
  },
  {
   "property": "C05",
   "status": "proved",
   "theorems": [
    "Gear.Mgr.forward_crossingAngle",
    "Gear.Mgr.forward_set_ok"
   ],
   "note": ""
  },
  {
   "property": "C06",
   "status": "proved",
   "theorems": [
    "Gear.Mgr.registerMaterial_run",
    "Gear.Mgr.getMaterial_run",
    "Gear.Mgr.materialNames_run"
   ],
   "note": ""
  },
  {
   "property": "C07",
   "status": "partial",
   "theorems": [
    "Gear.Mgr.ownership_partial",
    "Gear.Mgr.ownership_each_partial",
    "Gear.Mgr.ownership_false_leak",
    "Gear.Mgr.ownership_false_doubleFree",
    "Gear.Mgr.ownership_false_dangling"
   ],
   "note": "False as stated: registering the same object twice or replacing sections leaks or frees twice, counterexamples proved. Proved for histories that register each object once."
  },
  {
   "property": "C08",
   "status": "partial",
   "theorems": [
    "Gear.Rect.padIndex_roundtrip_partial",
    "Gear.Rect.padIndex_injective",
    "Gear.Rect.padIndex_false_negative",
    "Gear.Rect.padIndex_false_wide",
    "Gear.PadAngle.padIndex_roundtrip_partial",
    "Gear.PadAngle.padIndex_injective",
    "Gear.PadAngle.padIndex_false_negative",
    "Gear.PadSize.padIndex_roundtrip_partial",
    "Gear.PadSize.padIndex_injective",
    "Gear.PadSize.padIndex_false_negative",
    "Gear.Versatile.padIndex_roundtrip_partial",
    "Gear.Versatile.padIndex_injective",
    "Gear.Versatile.padIndex_false_negative"
   ],
   "note": "Proved for existing pads when row and pad numbers fit into 16 bits; refuted for negative pad numbers and wide rows."
  },
  {
   "property": "C09",
   "status": "partial",
   "theorems": [
    "Gear.Rect.getPadIndex_rejects_partial",
    "Gear.Rect.getPadIndex_false_negative",
    "Gear.Rect.getPadIndex_false_empty",
    "Gear.PadAngle.getPadIndex_rejects_partial",
    "Gear.PadAngle.getPadIndex_false_negativePad",
    "Gear.PadAngle.getPadIndex_false_negativeRow",
    "Gear.PadSize.getPadIndex_rejects_partial",
    "Gear.PadSize.getPadIndex_false_negative",
    "Gear.PadSize.getPadIndex_false_empty",
    "Gear.Versatile.getPadIndex_rejects_partial",
    "Gear.Versatile.getPadIndex_false",
    "Gear.Versatile.illegal_row"
   ],
   "note": "Proved for layouts with rows and non-negative pad numbers; refuted otherwise."
  },
  {
   "property": "C10",
   "status": "proved",
   "theorems": [
    "Gear.Rect.rows_stack"
   ],
   "note": ""
  },
  {
   "property": "C11",
   "status": "partial",
   "theorems": [
    "Gear.Rect.padsInRow_run",
    "Gear.Rect.getNPads_run_partial",
    "Gear.Rect.getNPads_false_rejected"
   ],
   "note": "Pad lists: proved for all histories. getNPads: proved when no call threw; refuted after a rejected addRow."
  },
  {
   "property": "C12",
   "status": "partial",
   "theorems": [
    "Gear.Rect.addRow_rejected_partial",
    "Gear.Rect.addRow_rejected_false"
   ],
   "note": "Everything but getNPads is unchanged; getNPads is not when the row height was rejected."
  },
  {
   "property": "C13",
   "status": "partial",
   "theorems": [
    "Gear.Rect.repeatRows_run_partial",
    "Gear.Rect.repeatRows_false_zero"
   ],
   "note": "Proved for 1 <= count < 2^31; count = 0 wraps around."
  },
  {
   "property": "C14",
   "status": "proved",
   "theorems": [
    "Gear.Rect.pads_disjoint",
    "Gear.Rect.isInsidePad_eq"
   ],
   "note": ""
  },
  {
   "property": "C15",
   "status": "partial",
   "theorems": [
    "Gear.Rect.center_inside",
    "Gear.Rect.nearest_center",
    "Gear.Rect.nearest_center_partial"
   ],
   "note": "Centre inside its pad: proved. Nearest pad of the centre: every outcome is the pad; the search is shown to end if the row heights only grow or only shrink (it need not end otherwise, see C16)."
  },
  {
   "property": "C16",
   "status": "partial",
   "theorems": [
    "Gear.Rect.nearest_safe_partial",
    "Gear.Rect.nearest_terminates_partial",
    "Gear.Rect.nearest_ends_iff",
    "Gear.Rect.nearest_unique",
    "Gear.Rect.nearest_false_gap",
    "Gear.Rect.nearest_false_loop"
   ],
   "note": "False as stated: the row search can loop for ever and can read outside the row table. Safety proved for points not in the outer gaps, termination for row heights that only grow or only shrink; for all layouts and points the search ends within one pass more than there are rows or never."
  },
  {
   "property": "C17",
   "status": "partial",
   "theorems": [
    "Gear.Rect.nearest_contains",
    "Gear.Rect.nearest_of_strictlyInPad",
    "Gear.Rect.insideAny_partial",
    "Gear.Rect.insideAny_false_border"
   ],
   "note": "Proved whenever the search ends; refuted on row borders with gaps between pads."
  },
  {
   "property": "C18",
   "status": "proved",
   "theorems": [
    "Gear.Rect.neighbours",
    "Gear.Rect.left_right",
    "Gear.Rect.right_left",
    "Gear.Rect.right_center",
    "Gear.PadAngle.left_neighbour",
    "Gear.PadAngle.right_neighbour",
    "Gear.PadAngle.left_right",
    "Gear.PadSize.left_neighbour",
    "Gear.PadSize.right_neighbour",
    "Gear.PadSize.left_right",
    "Gear.Versatile.left_neighbour",
    "Gear.Versatile.right_neighbour",
    "Gear.Versatile.left_right"
   ],
   "note": ""
  },
  {
   "property": "C19",
   "status": "partial",
   "theorems": [
    "Gear.Rect.copy_queries_partial",
    "Gear.Rect.copy_false_lists",
    "Gear.PadAngle.copy_queries",
    "Gear.PadSize.copy_queries",
    "Gear.PadSize.padsInRow_made",
    "Gear.Versatile.copy_queries",
    "Gear.Versatile.padsInRow_made"
   ],
   "note": "Rectangular: the copy answers all queries but getPadsInRow. The disk layouts: proved for all queries."
  },
  {
   "property": "C20",
   "status": "proved",
   "theorems": [
    "Gear.Rect.distance_isLeast",
    "Gear.Rect.distance_zero_iff"
   ],
   "note": ""
  },
  {
   "property": "C21",
   "status": "partial",
   "theorems": [
    "Gear.PadAngle.nearest_exists_partial",
    "Gear.PadAngle.nearest_negative_radius",
    "Gear.PadAngle.nearest_in_sector",
    "Gear.PadAngle.nearest_contains_partial",
    "Gear.PadAngle.nearest_center",
    "Gear.PadAngle.nearest_false_phiMax",
    "Gear.PadAngle.nearest_false_fullCircle"
   ],
   "note": "False at phi = phiMax, where the index of a pad that does not exist is returned. Proved elsewhere."
  },
  {
   "property": "C22",
   "status": "partial",
   "theorems": [
    "Gear.PadSize.rows_fit",
    "Gear.PadSize.rows_tile",
    "Gear.PadSize.pads_fit",
    "Gear.PadSize.pad_in_angle",
    "Gear.PadSize.getNPads_sum",
    "Gear.PadSize.new_rejects",
    "Gear.PadSize.new_accepts",
    "Gear.PadSize.rows_fit_false_height"
   ],
   "note": "Rows tile the ring and pads fit in the angle; pads may be up to 0.01 mm higher than the ring, counterexample proved."
  },
  {
   "property": "C23",
   "status": "partial",
   "theorems": [
    "Gear.PadSize.center_inside",
    "Gear.PadSize.nearest_center",
    "Gear.PadSize.nearest_exists",
    "Gear.PadSize.nearest_in_sector",
    "Gear.PadSize.nearest_origin",
    "Gear.PadSize.nearest_false_emptyRow"
   ],
   "note": "Proved for layouts in which every row has a pad; refuted otherwise."
  },
  {
   "property": "C24",
   "status": "partial",
   "theorems": [
    "Gear.Versatile.extent_radial",
    "Gear.Versatile.extent_phi_partial",
    "Gear.Versatile.extent_false_repeat"
   ],
   "note": "Radial part proved. Angular part proved if no row is repeated, refuted otherwise."
  },
  {
   "property": "C25",
   "status": "partial",
   "theorems": [
    "Gear.Versatile.counts",
    "Gear.Versatile.addRow_ok_iff",
    "Gear.Versatile.addRow_rejected_partial",
    "Gear.Versatile.addRow_rejected_false"
   ],
   "note": "Counts proved for successful calls; a rejected row leaves everything but getNPads unchanged, which is refuted."
  },
  {
   "property": "C26",
   "status": "partial",
   "theorems": [
    "Gear.Versatile.nearest_row",
    "Gear.Versatile.nearest_exists_partial",
    "Gear.Versatile.nearest_throws_iff",
    "Gear.Versatile.nearest_false_offset",
    "Gear.Versatile.rowDistance_isLeast_partial",
    "Gear.Versatile.rowDistance_false_side"
   ],
   "note": "Smallest row distance proved. The pad exists and contains the angle if the angle is not below a row's offset; refuted otherwise. The row distance is Euclidean within the row's sector, refuted beside it."
  },
  {
   "property": "C27",
   "status": "partial",
   "theorems": [
    "Gear.TpcModule.localToGlobal_is_placement_partial",
    "Gear.TpcModule.globalToLocal_is_placement_partial",
    "Gear.TpcModule.global_roundtrip_partial",
    "Gear.TpcModule.local_roundtrip_partial",
    "Gear.TpcModule.global_roundtrip_false_offset_along_y"
   ],
   "note": "Round trips proved after any setter calls unless a polar module in a polar TPC is moved along the y axis, where they are refuted."
  },
  {
   "property": "C28",
   "status": "partial",
   "theorems": [
    "Gear.TpcModule.setter_order_partial",
    "Gear.TpcModule.setter_order_false_z_last"
   ],
   "note": "Proved for all orders in which setOffset or setAngle follows the last setZPosition; refuted otherwise."
  },
  {
   "property": "C29",
   "status": "partial",
   "theorems": [
    "Gear.TpcModule.cartesian_extents_partial",
    "Gear.TpcModule.sector_extents_partial",
    "Gear.TpcModule.cartesian_extents_false_z_last",
    "Gear.TpcModule.sector_extents_false_new"
   ],
   "note": "Smallest bounding box proved, also for polar layouts, for histories in which setOffset or setAngle follows the last setZPosition; refuted otherwise."
  },
  {
   "property": "C30",
   "status": "proved",
   "theorems": [
    "Gear.TpcParams.getModules_eq",
    "Gear.TpcParams.addModule_ok_iff",
    "Gear.TpcParams.addModule_effect",
    "Gear.TpcParams.getModule_spec"
   ],
   "note": "For every history of calls, failures included."
  },
  {
   "property": "C31",
   "status": "proved",
   "theorems": [
    "Gear.TpcParams.queries_by_side",
    "Gear.TpcParams.no_z"
   ],
   "note": "3D queries answer as a TPC with only the modules of one side; for every history."
  },
  {
   "property": "C32",
   "status": "proved",
   "theorems": [
    "Gear.TpcParams.getPlaneExtent_spec",
    "Gear.TpcParams.smallestExtent_unique",
    "Gear.TpcParams.getPlaneExtent_order"
   ],
   "note": ""
  },
  {
   "property": "C33",
   "status": "proved",
   "theorems": [
    "Gear.TpcParams.getNearestModule_first_least",
    "Gear.TpcParams.getNearestModule_ok_iff",
    "Gear.TpcParams.queries_by_side"
   ],
   "note": "For any answers of the modules."
  },
  {
   "property": "C34",
   "status": "proved",
   "theorems": [
    "Gear.TpcParams.isInsideModule_spec",
    "Gear.TpcParams.isInsidePad_spec",
    "Gear.TpcParams.inside_union",
    "Gear.TpcParams.queries_by_side",
    "Gear.TpcParams.tpc_isInsideModule_iff_partial"
   ],
   "note": "The union over modules is proved outright; the geometric corollary for TPCModuleImpl modules inherits the restrictions of C83."
  },
  {
   "property": "C35",
   "status": "partial",
   "theorems": [
    "Gear.TpcParams.cathode_partial",
    "Gear.TpcParams.no_z",
    "Gear.TpcParams.drift_values",
    "Gear.TpcParams.cathode_false_module_without_z"
   ],
   "note": "Proved if all modules have a z position; refuted when a module without one is added first."
  },
  {
   "property": "C36",
   "status": "partial",
   "theorems": [
    "Gear.TpcParams.copy_false_never_ends",
    "Gear.TpcParams.copy_equal_partial"
   ],
   "note": "Refuted: copying never terminates. The state before the endless recursion is proved equal to the source."
  },
  {
   "property": "C37",
   "status": "proved",
   "theorems": [
    "Gear.TpcParams.globalPadIndex_order",
    "Gear.TpcParams.globalPadIndex_less_iff"
   ],
   "note": ""
  },
  {
   "property": "C38",
   "status": "proved",
   "theorems": [
    "Gear.Vector3D.cylindrical_coordinates",
    "Gear.Vector3D.spherical_coordinates",
    "Gear.Vector3D.coordinates_determine",
    "Gear.Vector3D.accessors",
    "Gear.Vector3D.vector_space",
    "Gear.Vector3D.dot_laws",
    "Gear.Vector3D.cross_laws",
    "Gear.Vector3D.equal_iff",
    "Gear.Vector3D.ofArray_eq",
    "Gear.Vector3D.unit_laws"
   ],
   "note": "Over the reals; vector space, dot and cross product laws over any ordered field."
  },
  {
   "property": "C39",
   "status": "proved",
   "theorems": [
    "Gear.ZPlanar.getters_return",
    "Gear.ZPlanar.getters_throw",
    "Gear.ZPlanar.shell_kept"
   ],
   "note": "For every sequence of addLayer calls, over any ordered field."
  },
  {
   "property": "C40",
   "status": "partial",
   "theorems": [
    "Gear.ZPlanar.point_reported_partial",
    "Gear.ZPlanar.reported_in_volume",
    "Gear.ZPlanar.point_reported_false_negative_y_axis",
    "Gear.ZPlanar.point_reported_false_offset",
    "Gear.ZPlanar.point_reported_false_start_angle"
   ],
   "note": "Soundness proved up to the explicit tolerance of the code. Completeness proved for regular layers off the negative y axis; refuted otherwise."
  },
  {
   "property": "C41",
   "status": "partial",
   "theorems": [
    "Gear.ZPlanar.nearest_partial",
    "Gear.ZPlanar.nearest_inside",
    "Gear.ZPlanar.nearest_false_origin",
    "Gear.ZPlanar.nearest_false_one_ladder",
    "Gear.ZPlanar.nearest_false_wide_ladder"
   ],
   "note": "Proved against all volumes near in angle, in layers of at least three ladders; refuted beyond."
  },
  {
   "property": "C42",
   "status": "partial",
   "theorems": [
    "Gear.ZPlanar.intersection_sound",
    "Gear.ZPlanar.intersection_first_partial",
    "Gear.ZPlanar.no_intersection_negative_z",
    "Gear.ZPlanar.intersection_first_false",
    "Gear.ZPlanar.intersection_first_false_no_gap"
   ],
   "note": "The result lies on ray and volume: proved for a gap > 0. First crossing: proved for z >= 0, refuted for z < 0 and without a gap."
  },
  {
   "property": "C43",
   "status": "partial",
   "theorems": [
    "Gear.ZPlanar.inner_phi",
    "Gear.ZPlanar.outer_phi_swapped",
    "Gear.ZPlanar.outer_phi_partial",
    "Gear.ZPlanar.outer_phi_false"
   ],
   "note": "Inner angles proved; outer angles are those of the other volume, so only right if both are the same."
  },
  {
   "property": "C44",
   "status": "partial",
   "theorems": [
    "Gear.Ftd.mirrored_partial",
    "Gear.Ftd.mirrored_sensors_partial",
    "Gear.Ftd.mirrored_iff",
    "Gear.Ftd.mirrored_false",
    "Gear.Ftd.mirrored_false_many"
   ],
   "note": "The z positions are opposite for all layers if and only if seven layers were added (the threshold is hard coded); refuted for 5 and 8."
  },
  {
   "property": "C45",
   "status": "partial",
   "theorems": [
    "Gear.Ftd.sensor_z",
    "Gear.Ftd.sensor_z_false"
   ],
   "note": "Proved when the support is not at z = 0, where the code divides by zero."
  },
  {
   "property": "C46",
   "status": "partial",
   "theorems": [
    "Gear.Ftd.never_reported",
    "Gear.Ftd.point_query_false"
   ],
   "note": "Refuted: no point is ever reported, whatever the layout."
  },
  {
   "property": "C47",
   "status": "proved",
   "theorems": [
    "Gear.Calo.contiguous",
    "Gear.Calo.stacked",
    "Gear.Calo.barrel_extent",
    "Gear.Calo.endcap_extent",
    "Gear.Calo.stacked_extent",
    "Gear.Calo.extent_covers"
   ],
   "note": "For every history; the extent is the end of the last layer, and covers all layers if none is positioned inwards."
  },
  {
   "property": "C48",
   "status": "proved",
   "theorems": [
    "Gear.Telescope.getters_return",
    "Gear.Telescope.getters_range",
    "Gear.Telescope.dut_getters",
    "Gear.Telescope.short_is_full",
    "Gear.Telescope.tracker_layers",
    "Gear.Telescope.tracker_object",
    "Gear.Telescope.tracker_by_id"
   ],
   "note": "Every history of calls, setters included. The short addLayer of the parameters object passes the resolution for x and y, that of the layout zeros."
  },
  {
   "property": "C49",
   "status": "proved",
   "theorems": [
    "Gear.Surf.global_local",
    "Gear.Surf.local_global",
    "Gear.Surf.distances_kept",
    "Gear.Surf.origin_axes"
   ],
   "note": "For every orthogonal matrix over any ordered field; CLHEP's rotations are environment."
  },
  {
   "property": "C50",
   "status": "partial",
   "theorems": [
    "Gear.Surf.rectangle",
    "Gear.Surf.trapezoid_partial",
    "Gear.Surf.trapezoid_false_documented",
    "Gear.Surf.trapezoid_false_flat",
    "Gear.Surf.surface_global"
   ],
   "note": "Rectangle proved. The trapezoid is proved to be the one with bases along u and height > 0 along v; the documentation has it the other way round (refuted), and with height 0 every point of the line is inside."
  },
  {
   "property": "C51",
   "status": "partial",
   "theorems": [
    "Gear.Surf.fill_new",
    "Gear.Surf.filled_once",
    "Gear.Surf.surface_stable",
    "Gear.Surf.surface_stable_history",
    "Gear.Surf.surface_from_filler",
    "Gear.Surf.filler_throws",
    "Gear.Surf.failed_fill",
    "Gear.Surf.failed_fill_false"
   ],
   "note": "All proved except that a failed fill leaves the store as it was, which is refuted; exactly what stays is proved."
  },
  {
   "property": "C52",
   "status": "proved",
   "theorems": [
    "Gear.Xml.tokens_roundtrip",
    "Gear.Xml.vectors_roundtrip",
    "Gear.Xml.tokens_of_any"
   ],
   "note": "Also: the tokens of any text are its maximal words."
  },
  {
   "property": "C53",
   "status": "partial",
   "theorems": [
    "Gear.Xml.params_roundtrip_partial",
    "Gear.Xml.params_file_roundtrip_partial",
    "Gear.Xml.r10_close",
    "Gear.Xml.params_false"
   ],
   "note": "Proved for 32-bit ints, strings of one word and vectors that are not empty, through the text of the file; refuted for strings with blanks, empty strings and empty vectors."
  },
  {
   "property": "C54",
   "status": "proved",
   "theorems": [
    "Gear.Xml.double_error",
    "Gear.Xml.double_exact",
    "Gear.Xml.double_stable",
    "Gear.Xml.double_not_exact"
   ],
   "note": "Numbers are rationals of any size; the rounding of atof to binary doubles, overflow and NaN are not modelled."
  },
  {
   "property": "C55",
   "status": "proved",
   "theorems": [
    "Gear.Xml.int_roundtrip"
   ],
   "note": ""
  },
  {
   "property": "C56",
   "status": "partial",
   "theorems": [
    "Gear.Xml.value_roundtrip_partial",
    "Gear.Xml.value_false"
   ],
   "note": "Proved for all values that do not contain the characters &#x; refuted for those, which are written unescaped."
  },
  {
   "property": "C57",
   "status": "partial",
   "theorems": [
    "Gear.Xml.document_roundtrip_partial",
    "Gear.Xml.document_text_false",
    "Gear.Xml.document_comment_false",
    "Gear.Xml.Save.save_load_partial",
    "Gear.Xml.Save.mark_false",
    "Gear.Xml.Save.incomplete_false",
    "Gear.Xml.Save.declaration_false"
   ],
   "note": "Proved for all trees of elements, comments, declarations, unknown tags and texts without superfluous white space, with values without &#x, comments without ampersands, declarations without quotes and ampersands and, from a declaration of UTF-8 on, complete characters and no byte order marks at the beginning of names and texts. Refuted beyond: blanks in texts, references in comments, byte order marks, incomplete characters, quotes in declarations."
  },
  {
   "property": "C58",
   "status": "partial",
   "theorems": [
    "Gear.Xml.calo_roundtrip_partial",
    "Gear.Xml.calo_same_partial",
    "Gear.Xml.calo_compressed",
    "Gear.Xml.calo_exact_partial",
    "Gear.Xml.calo_false"
   ],
   "note": "Sections whose neighbouring layers are equal or clearly different come back with the same layers, to the ten digits of the text format and exactly for numbers with ten digits; a chain of layers that differ by less than the tolerance collapses (calo_false)."
  },
  {
   "property": "C59",
   "status": "partial",
   "theorems": [
    "Gear.Xml.calo_slot_partial",
    "Gear.Xml.calo_slot_false"
   ],
   "note": "All sections that have the layout kind of their name come back into their section; barrel and endcap sections of the other kind do not (calo_slot_false)."
  },
  {
   "property": "C60",
   "status": "partial",
   "theorems": [
    "Gear.Xml.zplanar_roundtrip_partial",
    "Gear.Xml.zplanar_exact_partial",
    "Gear.Xml.zplanar_false"
   ],
   "note": "All layers and the shell come back, to the ten digits of the text format, for the three technologies that are documented; a section of another type is written but cannot be read (zplanar_false)."
  },
  {
   "property": "C61",
   "status": "partial",
   "theorems": [
    "Gear.Xml.ftd_roundtrip_partial",
    "Gear.Xml.ftd_exact_partial",
    "Gear.Xml.ftd_false",
    "Gear.Xml.ftd_type_false"
   ],
   "note": "All layers come back if there are at most seven of the documented sensor types; a section with more layers is not written at all (ftd_false)."
  },
  {
   "property": "C62",
   "status": "partial",
   "theorems": [
    "Gear.Xml.siplanes_roundtrip_partial",
    "Gear.Xml.siplanes_same_partial",
    "Gear.Xml.siplanes_false",
    "Gear.Xml.siplanes_dut_false",
    "Gear.Xml.siplanes_type_false",
    "Gear.Xml.tracker_false",
    "Gear.Xml.tracker_read_partial"
   ],
   "note": "SiPlanes sections come back except for the sensor rotations and separate resolutions, which are not written, and a device under test of a section of the type without; no TrackerPlanes section can be read back (tracker_false), files in the expected format are read completely (tracker_read_partial)."
  },
  {
   "property": "C63",
   "status": "partial",
   "theorems": [
    "Gear.Xml.rect_roundtrip_partial",
    "Gear.Xml.rect_exact_partial",
    "Gear.Xml.rect_repeat_false",
    "Gear.Xml.rect_rounding_false",
    "Gear.Xml.padSize_roundtrip_partial",
    "Gear.Xml.padSize_exact_partial",
    "Gear.Xml.padSize_same",
    "Gear.Xml.padSize_false",
    "Gear.Xml.padAngle_false",
    "Gear.Xml.padAngle_read_partial",
    "Gear.Xml.versatile_roundtrip_partial",
    "Gear.Xml.versatile_rows_partial",
    "Gear.Xml.versatile_false"
   ],
   "note": "Rectangular layouts without repeatRows and layouts with fixed pad size come back, exactly for numbers with ten digits. Refuted: repeated rows are lost, rounding can change the number of rows or make the file unreadable, layouts with fixed pad angle cannot be read back at all, versatile layouts come back with another pitch."
  },
  {
   "property": "C64",
   "status": "partial",
   "theorems": [
    "Gear.Xml.tpc_roundtrip_partial",
    "Gear.Xml.driftVelocity_false",
    "Gear.Xml.frequency_false",
    "Gear.Xml.unsupported_false"
   ],
   "note": "Drift length, coordinate type, named parameters and all modules in order come back for every TPC a user can build, layouts under C63; the drift velocity is lost, of readout frequencies only the first digit is read, and a polar TPC with a Cartesian layout is written but cannot be read."
  },
  {
   "property": "C65",
   "status": "partial",
   "theorems": [
    "Gear.Xml.material_roundtrip",
    "Gear.Xml.material_exact",
    "Gear.Xml.bField_roundtrip",
    "Gear.Xml.bField_roundtrip_partial"
   ],
   "note": "Materials and field values are proved for all values, to the ten digits of the text format and exactly for values with ten digits; the parameters of the field under the conditions of C53."
  },
  {
   "property": "C66",
   "status": "partial",
   "theorems": [
    "Gear.Xml.same_manager",
    "Gear.Xml.first_call",
    "Gear.Xml.after_failure_false"
   ],
   "note": "After a success every later call returns the same manager, whatever becomes of the file, and the first call returns a manager exactly if the file was read to the end. Refuted for every file that fails: all later calls return the same incomplete manager (after_failure_false)."
  },
  {
   "property": "C67",
   "status": "partial",
   "theorems": [
    "Gear.Xml.Merge.merge_keeps",
    "Gear.Xml.Merge.merge_adds_partial",
    "Gear.Xml.Merge.others_lost_false",
    "Gear.Xml.Merge.field_lost_false",
    "Gear.Xml.Merge.unnamed_lost_false",
    "Gear.Xml.Merge.repeated_false"
   ],
   "note": "Everything of the dominant file is kept, for all pairs of documents (merge_keeps). What only the other file has is added if elements can be told apart by name; refuted: what is below unnamed elements or outside the three sections (for example the field) is lost, repeated elements that are not adjacent are mixed up."
  },
  {
   "property": "C68",
   "status": "partial",
   "theorems": [
    "Gear.Xml.Merge.merge_safe_partial",
    "Gear.Xml.Merge.merge_refused",
    "Gear.Xml.Merge.merge_repeat",
    "Gear.Xml.Merge.merge_ub_false",
    "Gear.Xml.Merge.section_ub_false",
    "Gear.Xml.Merge.material_ub_false",
    "Gear.Xml.Merge.parameter_ub_false",
    "Gear.Xml.Merge.merge_repeat_false"
   ],
   "note": "No invalid access if all three sections exist in both files and no named element of the other file is empty; refuted otherwise: common materials or parameters and missing sections dereference null, and with the first file dominant every call swaps the files. With the second one dominant repeated calls have the same result (merge_repeat)."
  },
  {
   "property": "C69",
   "status": "partial",
   "theorems": [
    "Gear.MaterialMap.interpolation_between_partial",
    "Gear.MaterialMap.interpolation_at_grid_partial",
    "Gear.MaterialMap.outside_throws",
    "Gear.MaterialMap.interpolation_false_border",
    "Gear.MaterialMap.interpolation_false_rounding"
   ],
   "note": "Proved for all maps, points inside and grid points without rounding, with the grid points at most one step away in place of the whole map. Refuted: with the rounding of doubles the stored value is not returned at the last grid point (0 to 5 in 12 steps), and within the accepted border of 1e-5 the answer may be NaN."
  },
  {
   "property": "C70",
   "status": "partial",
   "theorems": [
    "Gear.MaterialMap.construct_rejects",
    "Gear.MaterialMap.construct_partial",
    "Gear.MaterialMap.construct_false",
    "Gear.MaterialMap.construct_iff",
    "Gear.MaterialMap.construct_no_distance",
    "Gear.MaterialMap.construct_false_last_cell",
    "Gear.MaterialMap.construct_false_endless"
   ],
   "note": "Without rounding it is decided for all arguments: proper ranges with steps and ranges shorter than 1 without steps give a map with every cell filled, all other accepted arguments are undefined. With the rounding of doubles the last cells may stay empty (0 to 1 in 9 steps) or the loop never end."
  },
  {
   "property": "C71",
   "status": "partial",
   "theorems": [
    "Gear.MapFactory.create_partial",
    "Gear.MapFactory.create_same_grid",
    "Gear.MapFactory.made_stable",
    "Gear.MapFactory.create_again",
    "Gear.MapFactory.create_false_coord",
    "Gear.MapFactory.create_false_null"
   ],
   "note": "Proved for histories without another coordinate type for the same grid; refuted otherwise: the map of the other coordinate type is returned. With left to right evaluation, allowed before C++17, a rejected request returns null the second time."
  },
  {
   "property": "C72",
   "status": "partial",
   "theorems": [
    "Gear.TGeoDistance.history_partial",
    "Gear.TGeoDistance.answers",
    "Gear.TGeoDistance.answers_equal",
    "Gear.TGeoDistance.history_false_names",
    "Gear.TGeoDistance.history_false_undefined",
    "Gear.TGeoDistance.history_false_exception"
   ],
   "note": "Proved if another path was followed last, or if the path can be followed and no query between equal points spoiled the data; refuted otherwise: names are lost, a vector is read out of bounds, an exception becomes the answer 0."
  },
  {
   "property": "C73",
   "status": "proved",
   "theorems": [
    "Gear.Xml.Registry.getHandler_last",
    "Gear.Xml.Registry.setHandler_null"
   ],
   "note": ""
  },
  {
   "property": "C74",
   "status": "proved",
   "theorems": [
    "Gear.Rect.nearestOld_exists",
    "Gear.Rect.nearestOld_contains"
   ],
   "note": ""
  },
  {
   "property": "C75",
   "status": "proved",
   "theorems": [
    "Gear.Rect.addRow_ok_iff",
    "Gear.Rect.addRow_rows"
   ],
   "note": ""
  },
  {
   "property": "C76",
   "status": "proved",
   "theorems": [
    "Gear.PadAngle.isInsidePad_iff",
    "Gear.PadAngle.center_and_size",
    "Gear.PadAngle.isInsideAnyPad_iff",
    "Gear.PadAngle.insideAny_iff",
    "Gear.PadAngle.pads_disjoint",
    "Gear.PadAngle.counts",
    "Gear.PadAngle.padsInRow_made"
   ],
   "note": ""
  },
  {
   "property": "C77",
   "status": "partial",
   "theorems": [
    "Gear.Disk.keystoneDistance_isLeast",
    "Gear.Disk.keystoneDistance_false_turn",
    "Gear.PadAngle.distance_isLeast",
    "Gear.PadSize.distance_isLeast",
    "Gear.Versatile.distance_isLeast"
   ],
   "note": "Proved for angles within a full turn of the pad, refuted otherwise."
  },
  {
   "property": "C78",
   "status": "partial",
   "theorems": [
    "Gear.PadAngle.nearest_least_partial",
    "Gear.PadAngle.nearest_false_outside"
   ],
   "note": "Proved for angles in the segment, refuted beside it."
  },
  {
   "property": "C79",
   "status": "partial",
   "theorems": [
    "Gear.PadSize.insideAny_exists",
    "Gear.PadSize.insideAny_iff_partial",
    "Gear.PadSize.insideAny_false_border"
   ],
   "note": "One direction proved outright, the other for rows with a gap between them; refuted for rows without."
  },
  {
   "property": "C80",
   "status": "partial",
   "theorems": [
    "Gear.PadSize.isInsidePad_turn_partial",
    "Gear.PadSize.nearest_turn_partial",
    "Gear.PadSize.nearest_false_turn",
    "Gear.PadSize.nearest_false_seam",
    "Gear.Versatile.nearest_turn_partial",
    "Gear.Versatile.nearest_false_seam",
    "Gear.Versatile.isInsidePad_false_turn"
   ],
   "note": "FixedPadSize: proved off the seam (isInsidePad) and for full circles (getNearestPad). Versatile: getNearestPad off the seam. Refuted otherwise."
  },
  {
   "property": "C81",
   "status": "partial",
   "theorems": [
    "Gear.Versatile.pads_placed",
    "Gear.Versatile.pads_disjoint",
    "Gear.Versatile.isInsidePad_iff_partial",
    "Gear.Versatile.isInsidePad_false_turn"
   ],
   "note": "Placement and disjointness proved; the inside test for angles from one turn below to two turns above the pad, refuted below."
  },
  {
   "property": "C82",
   "status": "partial",
   "theorems": [
    "Gear.TpcModule.localToGlobal_angle_range_partial",
    "Gear.TpcModule.globalToLocal_angle_range_partial",
    "Gear.TpcModule.globalToLocal_angle_range_false"
   ],
   "note": "Proved for rotations within explicit bounds, refuted beyond."
  },
  {
   "property": "C83",
   "status": "partial",
   "theorems": [
    "Gear.TpcModule.isInsideModule_iff_partial",
    "Gear.TpcModule.isInsideModule_false_tip"
   ],
   "note": "Proved but for the tip of a sector, offsets along y in polar TPCs and histories ending in setZPosition."
  },
  {
   "property": "C84",
   "status": "partial",
   "theorems": [
    "Gear.TpcModule.getDistanceToModule_isLeast_partial",
    "Gear.TpcModule.distance_zero_iff_partial"
   ],
   "note": "Proved but for offsets along y in polar TPCs, histories ending in setZPosition, which place the module elsewhere."
  },
  {
   "property": "C85",
   "status": "partial",
   "theorems": [
    "Gear.TpcModule.border_cartesian",
    "Gear.TpcModule.border_polar_partial",
    "Gear.TpcModule.border_polar_false_full_circle"
   ],
   "note": "Cartesian layouts: proved for all histories. Polar layouts: as long as the sector stays within a full turn, refuted otherwise."
  },
  {
   "property": "C86",
   "status": "partial",
   "theorems": [
    "Gear.TpcModule.queries_are_local_partial",
    "Gear.TpcModule.padCenter_is_placed_partial",
    "Gear.TpcModule.queries_at_padCenter"
   ],
   "note": "Proved but for offsets along y in polar TPCs and histories ending in setZPosition."
  },
  {
   "property": "C87",
   "status": "partial",
   "theorems": [
    "Gear.TpcModule.polar_extents_centred_partial",
    "Gear.TpcModule.polar_extents_false_full_circle",
    "Gear.TpcModule.polar_extents_radii_partial",
    "Gear.TpcModule.polar_extents_angles_partial",
    "Gear.TpcModule.polar_extents_angles_false_edge",
    "Gear.TpcModule.polar_extents_angles_false_graze"
   ],
   "note": "Without offset proved for less than a full ring. With an offset (not along y) the radii are proved, and the angles unless the origin is just on the border of the module (refuted on a straight edge) or the line from it to an outer corner just touches the outer circle (refuted too)."
  },
  {
   "property": "C88",
   "status": "proved",
   "theorems": [
    "Gear.TpcParams.getReadoutFrequency_ok_iff",
    "Gear.TpcParams.setReadoutFrequency_spec",
    "Gear.TpcParams.getPadLayout_ok_iff",
    "Gear.TpcParams.setPadLayout_spec"
   ],
   "note": ""
  },
  {
   "property": "C89",
   "status": "proved",
   "theorems": [
    "Gear.TpcParams.getNearestPad_first_least",
    "Gear.TpcParams.getNearestPad_few",
    "Gear.TpcParams.getNearestPad_least",
    "Gear.TpcParams.queries_by_side"
   ],
   "note": ""
  },
  {
   "property": "C90",
   "status": "partial",
   "theorems": [
    "Gear.Vector3D.bracket_components",
    "Gear.Vector3D.bracket_outside_partial",
    "Gear.Vector3D.bracket_outside_false_not_const"
   ],
   "note": "Components and harmless writes proved; that other indices read 0 is refuted for vectors that are not const, which share one static variable."
  },
  {
   "property": "C91",
   "status": "partial",
   "theorems": [
    "Gear.ZPlanar.thickness_partial",
    "Gear.ZPlanar.thickness_false_corner",
    "Gear.ZPlanar.thickness_false_turned"
   ],
   "note": "Proved for a first ladder at the top except for the corner at the start edge; refuted otherwise."
  },
  {
   "property": "C92",
   "status": "proved",
   "theorems": [
    "Gear.ZPlanar.max_radius"
   ],
   "note": ""
  },
  {
   "property": "C93",
   "status": "partial",
   "theorems": [
    "Gear.Ftd.staggered_partial",
    "Gear.Ftd.staggered_false",
    "Gear.Ftd.staggered_false_mirrored",
    "Gear.Ftd.petal_angles"
   ],
   "note": "Petal angles proved; z proved for the +z disks with index at most six and an integer sign; refuted otherwise."
  },
  {
   "property": "C94",
   "status": "partial",
   "theorems": [
    "Gear.Ftd.getters_return_partial",
    "Gear.Ftd.getters_throw",
    "Gear.Ftd.getNLayers_eq",
    "Gear.Ftd.getMaxRadius_eq",
    "Gear.Ftd.mirrored_false",
    "Gear.Ftd.mirrored_false_many"
   ],
   "note": "Proved for the indices the code accepts; mirror images have no index with five layers and the last disk has none with eight."
  },
  {
   "property": "C95",
   "status": "proved",
   "theorems": [
    "Gear.Calo.layers_return",
    "Gear.Calo.run_const"
   ],
   "note": ""
  },
  {
   "property": "C96",
   "status": "partial",
   "theorems": [
    "Gear.Telescope.getters_return",
    "Gear.Telescope.getters_range",
    "Gear.Telescope.tracker_layers",
    "Gear.Telescope.tracker_object",
    "Gear.Telescope.tracker_layout_info",
    "Gear.Telescope.tracker_layout_id_partial",
    "Gear.Telescope.tracker_layout_id_false"
   ],
   "note": "Proved for all setters but the ID of the TrackerPlanes layout, whose getter always returns 0."
  },
  {
   "property": "C97",
   "status": "partial",
   "theorems": [
    "Gear.Surf.nothing_deleted",
    "Gear.Surf.no_double_delete_partial",
    "Gear.Surf.deleted_false"
   ],
   "note": "Refuted: nothing is deleted, for all stores."
  },
  {
   "property": "C98",
   "status": "partial",
   "theorems": [
    "Gear.Xml.load_terminates_partial",
    "Gear.Xml.Place.load_ends_partial",
    "Gear.Xml.Place.load_erases",
    "Gear.Xml.Place.load_false_endless",
    "Gear.Xml.Place.stamp_ends_partial",
    "Gear.Xml.Place.stamp_false_endless",
    "Gear.Xml.Place.stamp_endless"
   ],
   "note": "Proved for all files unless one of the last two bytes is EF (hex); the walk through the text itself ends for every text (load_terminates_partial). Refuted: if the text is read as UTF-8 and such a byte precedes a place whose row and column are wanted, the search for them never ends (load_false_endless)."
  },
  {
   "property": "C99",
   "status": "partial",
   "theorems": [
    "Gear.Xml.load_safe_partial",
    "Gear.Xml.load_closed_partial",
    "Gear.Xml.load_written_partial",
    "Gear.Xml.load_safe_false"
   ],
   "note": "Proved for all files, of any encoding, in which every opened value, comment, reference and multi-byte character is closed and a declaration is followed by a last '>'; also for all files without quotation marks, ampersands, comments and declarations (with any bytes), and all written files. Refuted for files cut off in a value, comment, reference, character or declaration, one witness per clause."
  },
  {
   "property": "C100",
   "status": "partial",
   "theorems": [
    "Gear.Xml.Grammar.unclosed_iff",
    "Gear.Xml.Grammar.unclosed_rejected_partial",
    "Gear.Xml.Grammar.cut_in_child_rejected_partial",
    "Gear.Xml.truncated_rejected_partial",
    "Gear.Xml.truncated_false",
    "Gear.Xml.repeated_attribute_false"
   ],
   "note": "Proved for files that do not end in white space and for files cut off in an element inside the root or between the attributes of the root; which other ones are accepted is characterised. Refuted: without the root's end tag, behind white space, the file is accepted."
  },
  {
   "property": "C101",
   "status": "partial",
   "theorems": [
    "Gear.Xml.Registry.ownership_partial",
    "Gear.Xml.Registry.ownership_false"
   ],
   "note": "Proved if every handler is handed over once; refuted for a handler registered twice."
  },
  {
   "property": "C102",
   "status": "partial",
   "theorems": [
    "Gear.Xml.material_missing_partial",
    "Gear.Xml.bField_missing_partial",
    "Gear.Xml.material_malformed_false",
    "Gear.Xml.number_malformed_false"
   ],
   "note": "Missing attributes are always reported; malformed numbers are refuted."
  },
  {
   "property": "C103",
   "status": "proved",
   "theorems": [
    "Gear.Xml.oldSyntax"
   ],
   "note": "For files whose drift length is not -1, which the constructor takes for a missing argument."
  },
  {
   "property": "C104",
   "status": "partial",
   "theorems": [
    "Gear.Xml.file_roundtrip_partial",
    "Gear.Xml.noName_false",
    "Gear.Xml.trackerFile_false",
    "Gear.Xml.gdmlFile_false"
   ],
   "note": "For every geometry whose sections come back one by one (Savable collects the conditions of C53-C65): createXMLFile, saving, loading and createGearMgr give a manager with the same sections, named parameters and materials. Refuted: a geometry without a name comes back with another, one with TrackerPlanes cannot be read, the properties of a GDML file are not saved."
  },
  {
   "property": "C105",
   "status": "partial",
   "theorems": [
    "Gear.TGeoDistance.trace_partial",
    "Gear.TGeoDistance.thicknesses_sum_partial",
    "Gear.TGeoDistance.lengths_partial",
    "Gear.TGeoDistance.trace_false_thin",
    "Gear.TGeoDistance.trace_false_border"
   ],
   "note": "Proved for all rays with volumes not thinner than the smallest step in a world that goes on for at least 500 behind the end; refuted otherwise: a volume behind a thin one is lost, and the last volume is lost if the world ends within the next step."
  },
  {
   "property": "C106",
   "status": "proved",
   "theorems": [
    "Gear.TGeoDistance.trace_ends"
   ],
   "note": "For all navigators that never step backwards and go where SetCurrentPoint puts them, with an exact square root."
  },
  {
   "property": "C107",
   "status": "partial",
   "theorems": [
    "Gear.Print.zplanar_partial",
    "Gear.Print.ftd_partial",
    "Gear.Print.si_partial",
    "Gear.Print.dut_partial",
    "Gear.Print.zplanar_false",
    "Gear.Print.ftd_false",
    "Gear.Print.ftd_false_layers",
    "Gear.Print.si_false"
   ],
   "note": "Proved for values below 1e115 (telescopes: 1e37) and at most seven discs; refuted for values above 1e125 (1e45), which overflow the buffer, and for more than seven discs, where printing throws."
  },
  {
   "property": "C108",
   "status": "partial",
   "theorems": [
    "Gear.Print.afterMaterial_iff",
    "Gear.Print.manager_format_partial",
    "Gear.Print.manager_format_false"
   ],
   "note": "Decided for all formats: kept exactly if there are no materials, or if it was fixed, without plus signs and decimal; the format every stream has at first is changed."
  },
  {
   "property": "C109",
   "status": "proved",
   "theorems": [
    "Gear.TGeoPoint.getNumber_history",
    "Gear.TGeoPoint.getMaterialName_history",
    "Gear.TGeoPoint.matName_after"
   ],
   "note": "For any geometry. matName_after adds that the string behind the returned reference changes only with a further query for a name."
  },
  {
   "property": "C110",
   "status": "proved",
   "theorems": [
    "Gear.TGeoPoint.getList_history"
   ],
   "note": "For geometries where the top volume is not nested in another one, as ROOT guarantees."
  },
  {
   "property": "C111",
   "status": "partial",
   "theorems": [
    "Gear.TGeoPoint.local_partial",
    "Gear.TGeoPoint.local_false_first",
    "Gear.TGeoPoint.local_false_other",
    "Gear.TGeoPoint.local_false_list"
   ],
   "note": "Proved right after a query for a number or a name at the same point; refuted for the first query, after a query elsewhere, and after a list of volumes."
  },
  {
   "property": "C112",
   "status": "proved",
   "theorems": [
    "Gear.Cga.pack_eq",
    "Gear.Cga.getCellID_spec",
    "Gear.Cga.pack_injective"
   ],
   "note": ""
  },
  {
   "property": "C113",
   "status": "partial",
   "theorems": [
    "Gear.Cga.own_partial",
    "Gear.Cga.own_false"
   ],
   "note": "Decided for all histories: true exactly if no object was made before or the first one had the same setup."
  },
  {
   "property": "C114",
   "status": "partial",
   "theorems": [
    "Gear.Cga.beamOn_spec",
    "Gear.Cga.number_spec",
    "Gear.Cga.list_history"
   ],
   "note": "Proved for the beam and the numbers. The lists are static: independent of the history if Mokka replaces their contents; if it appends, every list contains all earlier ones. Which of the two, the repository does not tell."
  },
  {
   "property": "C115",
   "status": "proved",
   "theorems": [
    "Gear.Print.zplanar_shows",
    "Gear.Print.ftd_shows",
    "Gear.Print.si_shows",
    "Gear.Print.dut_shows"
   ],
   "note": "For every table that is printed at all (C107): the cells between the bars, read as numbers, are the values rounded to the digits of their column. zplanar_shows and the others quantify over all layouts with counts in the range of an int."
  },
  {
   "property": "C116",
   "status": "partial",
   "theorems": [
    "Gear.Print.si_columns_partial",
    "Gear.Print.dut_columns_false",
    "Gear.Print.zplanar_columns_partial",
    "Gear.Print.zplanar_columns_false"
   ],
   "note": "Telescopes: proved if the values fit into the columns. Refuted for the device under test, whose head is one character wider than its rows, and for vertex detectors with lengths of three digits before the point."
  },
  {
   "property": "C117",
   "status": "partial",
   "theorems": [
    "Gear.Print.calo_partial",
    "Gear.Print.calo_false"
   ],
   "note": "Thickness and absorber thickness of every layer can be read off for all layouts; cell sizes and distances of the layers without a line cannot (calo_false)."
  },
  {
   "property": "C118",
   "status": "proved",
   "theorems": [
    "Gear.Print.params_history"
   ],
   "note": "The lines are lists of keys and values; the format of numbers is not part of this claim."
  },
  {
   "property": "C119",
   "status": "partial",
   "theorems": [
    "Gear.Print.manager_partial",
    "Gear.Print.manager_false"
   ],
   "note": "Proved for all histories and both orders of evaluation; refuted for the inner and outer silicon trackers, which are printed twice. Headings of sections that are not there are printed or not depending on the compiler."
  },
  {
   "property": "C120",
   "status": "proved",
   "theorems": [
    "Gear.Xml.Dom.tree_history",
    "Gear.Xml.Dom.link_false_twice"
   ],
   "note": "For all allowed histories; not allowed are calls on deleted nodes, linking a node that already has a parent (link_false_twice shows what happens), removing a node that is not a child, deleting a node that has a parent, and assigning between nodes of the same tree."
  },
  {
   "property": "C121",
   "status": "proved",
   "theorems": [
    "Gear.Xml.Dom.memory_history",
    "Gear.Xml.Dom.no_leak"
   ],
   "note": "For all allowed histories."
  },
  {
   "property": "C122",
   "status": "partial",
   "theorems": [
    "Gear.Xml.Dom.copy_content_partial",
    "Gear.Xml.Dom.copy_content_false",
    "Gear.Xml.Dom.assign_false_self",
    "Gear.Xml.Dom.assign_false_child"
   ],
   "note": "Proved for trees whose texts and comments have no children, as all read from files. Refuted for children of texts and comments; assigning a node to itself empties it, assigning it one of its children reads deleted memory."
  },
  {
   "property": "C123",
   "status": "proved",
   "theorems": [
    "Gear.Xml.Dom.reads_history"
   ],
   "note": "The value a node is compared with is any property of its data. GetDocument: for trees with a document only at the root."
  },
  {
   "property": "C124",
   "status": "partial",
   "theorems": [
    "Gear.Xml.Attr.attr_history_partial",
    "Gear.Xml.Attr.walked_all",
    "Gear.Xml.Attr.attr_lists",
    "Gear.Xml.Attr.attr_history_false"
   ],
   "note": "Proved for all histories up to an attribute without name and value, which hides the following ones (attr_history_false). attr_lists connects the lists with those of the model of documents in Xml.lean."
  },
  {
   "property": "C125",
   "status": "partial",
   "theorems": [
    "Gear.Xml.Attr.attr_memory",
    "Gear.Xml.Attr.attr_unique_partial",
    "Gear.Xml.Attr.attr_unique_false",
    "Gear.Xml.Attr.attr_copy_partial"
   ],
   "note": "Release of memory: proved for all histories. Different names: proved without SetName, refuted with it. Copies: proved for different names, none of them belonging to an attribute without name and value."
  },
  {
   "property": "C126",
   "status": "proved",
   "theorems": [
    "Gear.Ftd.getThicknessForAngle_eq",
    "Gear.Ftd.getThicknessForAngle_throws"
   ],
   "note": "For every layout and every line between the faces."
  },
  {
   "property": "C127",
   "status": "partial",
   "theorems": [
    "Gear.Ftd.start_end_phi",
    "Gear.Ftd.start_end_phi_false"
   ],
   "note": "Refuted; proved what the functions return."
  },
  {
   "property": "C128",
   "status": "partial",
   "theorems": [
    "Gear.Xml.Place.stamp_place_partial",
    "Gear.Xml.Place.stamp_place_false_cut",
    "Gear.Xml.Place.stamp_off",
    "Gear.Xml.Place.load_places_partial",
    "Gear.Xml.Place.load_places_false_late"
   ],
   "note": "Stamp: proved for all texts that consist of signs of the encoding, all tab sizes and all sequences of earlier places; refuted for bytes that are no UTF-8. Loading: proved for all files in ASCII, in UTF-8 (announced by a byte order mark or by a declaration with only ASCII in front of it) and in encodings of one byte; refuted for a file with characters of two bytes in front of the declaration."
  },
  {
   "property": "C129",
   "status": "partial",
   "theorems": [
    "Gear.Xml.Place.setError_first",
    "Gear.Xml.Place.load_error_iff_partial",
    "Gear.Xml.Place.load_error_false_empty",
    "Gear.Xml.Place.load_error_place_partial"
   ],
   "note": "Proved for all files but the empty one, the places for files in ASCII, in UTF-8 (see C128) and in encodings of one byte. Refuted for the empty file: loading fails without an error, and the exception has no reason in it."
  },
  {
   "property": "C130",
   "status": "proved",
   "theorems": [
    "Gear.Xml.Grammar.load_iff",
    "Gear.Xml.Grammar.file_unique",
    "Gear.Xml.Grammar.load_lenient"
   ],
   "note": "The grammar has the leniencies of the library: stray ampersands are left out, a reference can hide markup, what follows the nodes at the top is not read, the last node at the top may lack its end tag or repeat an attribute."
  },
  {
   "property": "C131",
   "status": "proved",
   "theorems": [
    "Gear.Gdml.properties_of_last",
    "Gear.Gdml.null_iff",
    "Gear.Gdml.initialize_throws_iff",
    "Gear.Xml.gdml_read",
    "Gear.Xml.gdml_unreadable",
    "Gear.Xml.gdml_ignored"
   ],
   "note": "ROOT is a function from file names to geometries."
  },
  {
   "property": "C132",
   "status": "proved",
   "theorems": [
    "Gear.Xml.Dom.handle_history"
   ],
   "note": "A negative index is taken for zero. A value is any property of the data of a node."
  },
  {
   "property": "C133",
   "status": "partial",
   "theorems": [
    "Gear.Xml.Stream.written_read_partial",
    "Gear.Xml.Stream.written_read_all_partial",
    "Gear.Xml.Stream.comment_false",
    "Gear.Xml.Stream.unknown_false",
    "Gear.Xml.Stream.after_false",
    "Gear.Xml.Stream.replaced_false"
   ],
   "note": "Proved for all documents whose nodes survive files (C57; the fields of declarations may contain quotes here), with no comment that begins with > or -> and no unknown tag that looks like an end tag; refuted for these two (comment_false, unknown_false). Nodes behind the root are not written (after_false), and the nodes the document had before are kept (replaced_false)."
  },
  {
   "property": "C134",
   "status": "partial",
   "theorems": [
    "Gear.Xml.Stream.read_takes_partial",
    "Gear.Xml.Stream.read_as_file_partial",
    "Gear.Xml.Stream.read_zero_false",
    "Gear.Xml.Stream.read_greater_false",
    "Gear.Xml.Stream.read_slash_false"
   ],
   "note": "Proved for all streams without zero bytes; refuted with one in the content of an element: reading never ends. Refuted: a > in the value of an attribute of the root makes it take all that follows, and /> makes it stop too early. The rows and columns, whose search may not end (C98), are left out here."
  },
  {
   "property": "C135",
   "status": "partial",
   "theorems": [
    "Gear.Xml.Save.resave_partial",
    "Gear.Xml.Save.resave_reference_false",
    "Gear.Xml.Save.resave_stray_false",
    "Gear.Xml.Save.resave_blank_false",
    "Gear.Xml.Save.resave_comment_false",
    "Gear.Xml.Save.resave_declaration_false",
    "Gear.Xml.Save.resave_incomplete_false"
   ],
   "note": "Proved for all files in which every ampersand begins one of the five entities (and not &amp; with #x behind it), with no references in comments and declarations, whose declarations have no double quotes in them and whose characters are complete if they are said to be in UTF-8. Refuted otherwise: values that have become references, stray ampersands and blanks given by their number in texts, comments with references, declarations with quotes, incomplete characters. References to other characters by number are not treated."
  },
  {
   "property": "C136",
   "status": "partial",
   "theorems": [
    "Gear.Xml.saved_copy_partial",
    "Gear.Xml.copy_copy_partial",
    "Gear.Xml.rect_stable_partial",
    "Gear.Xml.padSize_stable_partial",
    "Gear.Xml.velocity_copy_false",
    "Gear.Xml.frequency_copy_false",
    "Gear.Xml.versatile_copy_false",
    "Gear.Xml.calo_copy_false"
   ],
   "note": "Proved for all geometries that can be saved (C104) whose TPC has no drift velocity and only readout frequencies of one digit, whose pad layouts are written again as before (proved for rectangular layouts, and for disks with pads of a fixed size) and whose calorimeters have no layers that differ by less than the precision of files. Refuted for the others: the drift velocity is not read, the frequency is written with one digit, every copy of a versatile disk divides the pitch of its pads by the radius of the row, and layers that differ by little become equal."
  },
  {
   "property": "C137",
   "status": "partial",
   "theorems": [
    "Gear.Xml.Merge.mergeXML_files",
    "Gear.Xml.Merge.mergeXML_zero_partial",
    "Gear.Xml.Merge.mergeXML_fails",
    "Gear.Xml.Merge.mergeXML_target_partial",
    "Gear.Xml.Merge.exception_false",
    "Gear.Xml.Merge.text_false"
   ],
   "note": "That only the target is changed, and only if the status is zero, and the reasons for the other statuses are proved for all calls. The target is proved for files whose sections are clear (C67), which survive saving (C57) and which have no texts between the elements that are merged. Refuted: after an exception the status is zero although nothing was written; texts of both files become one text."
  },
  {
   "property": "C138",
   "status": "partial",
   "theorems": [
    "Gear.TGeoDistance.printMaterials_partial",
    "Gear.TGeoDistance.printMaterials_same",
    "Gear.TGeoDistance.piece_false"
   ],
   "note": "Proved for every path of which no volume is thinner than the smallest step (C105) and which ends at least 500 before the end of the world; in exact arithmetic, and for the values rather than the text. Refuted: that a line shows the radiation and interaction lengths of its own piece; they are counted from the first point."
  },
  {
   "property": "C139",
   "status": "proved",
   "theorems": [
    "Gear.VectorND.get_spec",
    "Gear.VectorND.negative",
    "Gear.VectorND.history",
    "Gear.VectorND.constructed"
   ],
   "note": ""
  },
  {
   "property": "C140",
   "status": "proved",
   "theorems": [
    "Gear.PadAngle.Double.nearest_near",
    "Gear.PadAngle.Double.nearest_deep",
    "Gear.PadAngle.Double.nearest_is_pad",
    "Gear.PadAngle.Double.nearest_turns_double",
    "Gear.PadAngle.Double.nearest_beyond_double",
    "Gear.PadAngle.Double.nearest_before_double",
    "Gear.PadAngle.Double.inside_deep",
    "Gear.PadAngle.Double.nearest_center_double",
    "Gear.PadAngle.Double.nearest_double_false_below_end",
    "Gear.PadAngle.Double.inside_double_false_gap",
    "Gear.Doubles.binary64_rounding"
   ],
   "note": "Up to the margins that the statement names. The two theorems with false show that within the margins the answers can be wrong: an exception for a double below the end of the range of angles, and a double between two pads that is in none."
  },
  {
   "property": "C141",
   "status": "partial",
   "theorems": [
    "Gear.PadAngle.Double.nearest_ends_partial",
    "Gear.PadAngle.Double.nearest_is_pad",
    "Gear.PadAngle.Double.nearest_valid_partial",
    "Gear.PadAngle.Double.nearest_ends_false_large",
    "Gear.PadAngle.Double.nearest_valid_false_far",
    "Gear.PadAngle.Double.nearest_valid_false_below"
   ],
   "note": "False as it stands: the loop does not end for any double from 2^57 on, the conversion of the row is undefined for a point far out, and a point just below the inner radius gets row -1. Proved for angles of which a rounding is below half a radian, for radii up to 2^30 rows, and outside eight roundings below the inner radius. cos and sin are taken to give the nearest doubles."
  },
  {
   "property": "C142",
   "status": "proved",
   "theorems": [
    "Gear.PadSize.Double.rows_fit_double",
    "Gear.PadSize.Double.pads_fit_double",
    "Gear.PadSize.Double.nearest_in_sector_double",
    "Gear.PadSize.Double.nearest_deep_double",
    "Gear.PadSize.Double.inside_double",
    "Gear.PadSize.Double.nearest_center_double",
    "Gear.PadSize.Double.pads_fit_double_false_exact"
   ],
   "note": "Up to the margins that the statement names. The theorem with false shows that the number of pads can be one more than fits. The inner radius and the angular range are taken to be doubles; overflow and underflow are not modelled."
  },
  {
   "property": "C143",
   "status": "partial",
   "theorems": [
    "Gear.PadSize.Double.nearest_exists_double_partial",
    "Gear.PadSize.Double.nearest_origin_double",
    "Gear.PadSize.Double.nearest_exists_double_false_large",
    "Gear.PadSize.Double.nearest_exists_double_false_far"
   ],
   "note": "False as it stands: the loop does not end for any double from 2^57 on, and the conversion of the row is undefined for a point far out. Proved for angles of which a rounding is below half a radian and for radii up to 2^30 rows."
  },
  {
   "property": "C144",
   "status": "proved",
   "theorems": [
    "Gear.Calo.Double.contiguous_double",
    "Gear.Calo.Double.ordered_double",
    "Gear.Calo.Double.stacked_double",
    "Gear.Calo.Double.extent_double",
    "Gear.Calo.Double.stacked_double_false_exact",
    "Gear.Calo.Double.ordered_double_false_strict"
   ],
   "note": "The theorems with false show that the places are not the exact sums and that a layer of positive thickness need not move the next one. Overflow and underflow are not modelled."
  },
  {
   "property": "C145",
   "status": "proved",
   "theorems": [
    "Gear.TpcModule.Double.localToGlobal_double",
    "Gear.TpcModule.Double.globalToLocal_double",
    "Gear.TpcModule.Double.local_roundtrip_double",
    "Gear.TpcModule.Double.global_roundtrip_double",
    "Gear.TpcModule.Double.offset_along_y_never",
    "Gear.TpcModule.Double.roundtrip_double_false_exact"
   ],
   "note": "The bounds are 100 roundings for one way and 3000 for both, times the size of the coordinates, of the offset and of one plus the angle. The theorem with false shows that the round trip is not exact. Overflow, underflow and negative zero are not modelled; that the condition on setZPosition is needed is shown with C27."
  },
  {
   "property": "C146",
   "status": "partial",
   "theorems": [
    "Gear.Rect.Double.nearest_double_partial",
    "Gear.Rect.Double.nearest_double_ends_partial",
    "Gear.Rect.Double.nearest_double_safe_partial",
    "Gear.Rect.Double.nearest_double_false_endless",
    "Gear.Rect.Double.nearest_double_false_throws"
   ],
   "note": "Missing: points within ten times the rounding error of a border of two rows, and near the border of two pads or the right edge. The property is false there: getNearestPad(0.5, 2.7) does not return for four rows of height 0.9 from 0, and it throws std::out_of_range for the largest double below the right edge. Overflow and underflow are not modelled."
  },
  {
   "property": "C147",
   "status": "proved",
   "theorems": [
    "Gear.Rect.Double.index_double",
    "Gear.Rect.Double.center_double",
    "Gear.Rect.Double.inside_double",
    "Gear.Rect.Double.nearest_center_double",
    "Gear.Rect.Double.exact_arithmetic"
   ],
   "note": "The errors are xError and yError in RectDoubleSpec. exact_arithmetic shows that without rounding the functions are those of C15 and C16."
  },
  {
   "property": "C148",
   "status": "proved",
   "theorems": [
    "Gear.TGeoDistance.Double.radlen_double",
    "Gear.TGeoDistance.Double.intlen_double",
    "Gear.TGeoDistance.Double.radlen_grows",
    "Gear.TGeoDistance.Double.intlen_grows",
    "Gear.TGeoDistance.Double.radlen_double_false_exact",
    "Gear.TGeoDistance.Double.exact_arithmetic"
   ],
   "note": "radlen_double_false_exact shows that the sum is not exact. The path itself (trace) is followed in exact arithmetic, under C105."
  },
  {
   "property": "C149",
   "status": "proved",
   "theorems": [
    "Gear.Versatile.Double.counts_double",
    "Gear.Versatile.Double.extent_double",
    "Gear.Versatile.Double.sizes_double",
    "Gear.Versatile.Double.angle_double",
    "Gear.Versatile.Double.exact_arithmetic"
   ],
   "note": "Angles for first pads that start less than a turn from the angle 0. exact_arithmetic shows that without rounding the functions are those of C24, C81 and C26. Overflow and underflow are not modelled."
  },
  {
   "property": "C150",
   "status": "partial",
   "theorems": [
    "Gear.Versatile.Double.nearest_double_partial",
    "Gear.Versatile.Double.nearest_center_double_partial",
    "Gear.Versatile.Double.inside_double_partial",
    "Gear.Versatile.Double.inside_only_double_partial",
    "Gear.Versatile.Double.nearest_ends_double",
    "Gear.Versatile.Double.nearest_endless_false",
    "Gear.Versatile.Double.nearest_corner_false"
   ],
   "note": "Missing: points nearer to the border than the rounding errors, or than four times the square root of a rounding error where a row below has no pads at the angle of the point. The property is false there: a point 1e-7 above the corner of a row of radius 12 gets the pad of that row, although it is in the next row, because its distance to the corner is computed as zero. Also missing: angles outside a full turn; from 2^57 the search does not end."
  },
  {
   "property": "C151",
   "status": "partial",
   "theorems": [
    "Gear.PadSize.nearest_least_partial",
    "Gear.PadSize.nearest_distance_partial",
    "Gear.PadSize.nearest_least_circle",
    "Gear.PadSize.nearest_false_opening",
    "Gear.PadSize.nearest_false_lower"
   ],
   "note": "Proved for angles in the segment and beside it up to half of the opening, for full circles at all angles. Missing: angles nearer to the other end, and angles given a turn lower; there it is refuted (nearest_false_opening, nearest_false_lower)."
  },
  {
   "property": "C152",
   "status": "partial",
   "theorems": [
    "Gear.Rect.nearest_least_partial",
    "Gear.Rect.nearest_least_aligned",
    "Gear.Rect.nearest_least_noGaps",
    "Gear.Rect.nearest_least_false"
   ],
   "note": "Proved when the pads of all rows are in line, when the rows have no gaps, and at every x where each row has an equally near pad. Missing: rows with different gaps, refuted by nearest_least_false, and points in the gap below the first or above the last pads (nearest_false_gap)."
  },
  {
   "property": "C153",
   "status": "proved",
   "theorems": [
    "Gear.Rect.Double.distance_double",
    "Gear.Rect.Double.distance_double_inside",
    "Gear.Rect.Double.exact_distance"
   ],
   "note": "The exactness inside of a pad needs the point and the sizes to be doubles, which the parameters of the functions are. exact_distance says that without rounding it is the model of C152."
  },
  {
   "property": "C154",
   "status": "partial",
   "theorems": [
    "Gear.Disk.Double.distance_double_partial",
    "Gear.Disk.Double.distance_double_within",
    "Gear.Disk.Double.distance_false_nan",
    "Gear.Disk.Double.distance_false_far"
   ],
   "note": "Proved for points within the angles of the pad (relative error of one rounding) and for points beside it that are further away than ten times the square root of the rounding unit times the radii; the pad is the keystone between the limits rounded to doubles. Missing: points nearer than that to an edge or corner, where the result can be NaN (distance_false_nan) or the distance from the far edge (distance_false_far)."
  },
  {
   "property": "C155",
   "status": "proved",
   "theorems": [
    "Gear.Surf.Double.local_double",
    "Gear.Surf.Double.global_double",
    "Gear.Surf.Double.round_trip_double",
    "Gear.Surf.Double.round_trip_local_double",
    "Gear.Surf.Double.exact_surface"
   ],
   "note": "CLHEP's products are taken from left to right. exact_surface says that without rounding the functions are those of C49 and C50."
  },
  {
   "property": "C156",
   "status": "proved",
   "theorems": [
    "Gear.Surf.Double.rectangle_double",
    "Gear.Surf.Double.trapezoid_double",
    "Gear.Surf.Double.rectangle_global_double",
    "Gear.Surf.Double.wider_zero"
   ],
   "note": "The trapezoid is the one of C50 with its height along v. wider_zero says that the trapezoid with margins zero is the trapezoid."
  },
  {
   "property": "C157",
   "status": "partial",
   "theorems": [
    "Gear.ZPlanar.Float.reported_float",
    "Gear.ZPlanar.Float.point_reported_float_partial",
    "Gear.ZPlanar.Float.point_reported_float_false",
    "Gear.ZPlanar.Float.binary32_converts",
    "Gear.ZPlanar.Float.exact_floats"
   ],
   "note": "Completeness is refuted on the side faces with IEEE floats (a point that exact borders report). exact_floats says that without rounding the functions are those of C40 to C42; only the conversions to float are rounded, the double operations are exact."
  },
  {
   "property": "C158",
   "status": "partial",
   "theorems": [
    "Gear.ZPlanar.Float.nearest_float_partial",
    "Gear.ZPlanar.Float.nearest_inside_float"
   ],
   "note": "The restrictions are those of C41, where they are shown to be needed."
  },
  {
   "property": "C159",
   "status": "partial",
   "theorems": [
    "Gear.ZPlanar.Float.intersection_sound_float",
    "Gear.ZPlanar.Float.intersection_first_float_partial",
    "Gear.ZPlanar.Float.intersection_first_float_false"
   ],
   "note": "The first crossing is refuted at the edges with IEEE floats, for a ray that meets the ladder with exact borders."
  },
  {
   "property": "C160",
   "status": "partial",
   "theorems": [
    "Gear.Print.Tracker.tracker_partial",
    "Gear.Print.Tracker.tracker_shows",
    "Gear.Print.Tracker.tracker_columns_partial",
    "Gear.Print.Tracker.tracker_false"
   ],
   "note": "Proved for texts of at most 255 characters and numbers below 1e38; whatever is printed shows the values if the info texts are words. Refuted: every layout with an info text of 819 or more characters overflows the buffer."
  },
  {
   "property": "C161",
   "status": "partial",
   "theorems": [
    "Gear.Print.Geo.print_partial",
    "Gear.Print.Geo.print_saved_partial",
    "Gear.Print.Geo.print_unreadable",
    "Gear.Print.Geo.print_missing",
    "Gear.Print.Geo.print_usage",
    "Gear.Print.Geo.seven_false",
    "Gear.Print.Geo.seven_file_false"
   ],
   "note": "Proved for every file whose geometry has at most seven discs, tables that fit in their buffers (C107, C160) and texts of TrackerPlanes that are words; for every file that cannot be read. Refuted: for every file with more than seven discs the status is one and the sections and materials after them are not shown."
  },
  {
   "property": "C162",
   "status": "partial",
   "theorems": [
    "Gear.TpcModule.Double.distance_double",
    "Gear.TpcModule.Double.center_double",
    "Gear.TpcModule.Double.inside_double",
    "Gear.TpcModule.Double.nearest_double_partial",
    "Gear.TpcModule.Double.tpc_nearest_double_partial",
    "Gear.TpcModule.Double.tpc_side_double_partial"
   ],
   "note": "Distance, centre and isInsidePad proved for every rectangular module; the nearest pad for points on a pad, not near to its border, and for a TPC where the pads that the other modules answer with are further away than the roundings. Disk layouts in modules: C163; near borders the refutations of C146 apply."
  },
  {
   "property": "C163",
   "status": "partial",
   "theorems": [
    "Gear.TpcModule.Double.disk_nearest_double_partial",
    "Gear.TpcModule.Double.disk_inside_double_partial",
    "Gear.TpcModule.Double.disk_distance_double_partial",
    "Gear.TpcModule.Double.disk_center_double",
    "Gear.TpcModule.Double.tpc_disk_nearest_double_partial",
    "Gear.TpcModule.Double.disk_far_double_partial",
    "Gear.TpcModule.Double.tpc_disks_nearest_double_partial",
    "Gear.TpcModule.Double.disk_inside_false",
    "Gear.TpcModule.Double.tpc_disk_nearest_false"
   ],
   "note": "getNearestPad of a module and getPadCenter proved for Cartesian and polar TPCs; isInsidePad, the distance 0 and the TPC's nearest pad for Cartesian TPCs and pads at angles between 0 and a full turn. For pads at negative angles isInsidePad is proved to be false everywhere, and a TPC with two modules is given that answers with the wrong module. Distances of points that are not on the pad are proved for points away from it, for Cartesian TPCs, pads at angles between 0 and a full turn and correctly rounded cos, sin and sqrt."
  },
  {
   "property": "C164",
   "status": "proved",
   "theorems": [
    "Gear.TpcModule.Double.size_nearest_double",
    "Gear.TpcModule.Double.size_inside_double",
    "Gear.TpcModule.Double.size_distance_double",
    "Gear.TpcModule.Double.size_center_double",
    "Gear.TpcModule.Double.tpc_size_nearest_double"
   ],
   "note": "Up to the margins that the statement names, for Cartesian TPCs (getPadCenter also for polar ones). Overflow and underflow are not modelled."
  },
  {
   "property": "C165",
   "status": "partial",
   "theorems": [
    "Gear.TpcModule.Double.area_distance_double",
    "Gear.TpcModule.Double.area_inside_double",
    "Gear.TpcModule.Double.any_pad_double",
    "Gear.TpcModule.Double.tpc_inside_double",
    "Gear.TpcModule.Double.tpc_nearest_module_double",
    "Gear.TpcModule.Double.tpc_any_pad_double_partial"
   ],
   "note": "Up to the margins that the statement names. isInsidePad of the TPC is shown if every module answers; between two rows, and beside the last one, the search of a layout can read past the rows. Modules with polar layouts are left out. Overflow and underflow are not modelled."
  },
  {
   "property": "C166",
   "status": "partial",
   "theorems": [
    "Gear.TpcModule.Double.disk_area_inside_double_partial",
    "Gear.TpcModule.Double.disk_any_pad_double_partial",
    "Gear.TpcModule.Double.disk_any_pad_only_double",
    "Gear.TpcModule.Double.tpc_disk_inside_double_partial",
    "Gear.TpcModule.Double.disk_pad_queries_false"
   ],
   "note": "Up to the margins that the statement names, for points that are not at the middle of the ring and borders that leave a gap between the ends of the segment (C85 refutes the area for other borders). isInsidePad without a pad is shown to be true on pads, and to be true only there; beside the pads the search can throw. That the two queries for pads agree is refuted. Overflow and underflow are not modelled."
  },
  {
   "property": "C167",
   "status": "partial",
   "theorems": [
    "Gear.TpcModule.Double.disk_area_far_double_partial",
    "Gear.TpcModule.Double.disk_area_within_double",
    "Gear.TpcModule.Double.tpc_disk_nearest_module_double_partial"
   ],
   "note": "Up to the margins that the statement names, for points whose distance is large compared with the square root of the rounding (near to a corner the computed square can be negative, C154), which are not at the middle of the ring or at the angle where the area begins. Overflow and underflow are not modelled."
  },
  {
   "property": "C168",
   "status": "partial",
   "theorems": [
    "Gear.TpcModule.Double.any_area_inside_double_partial",
    "Gear.TpcModule.Double.any_area_within_double",
    "Gear.TpcModule.Double.any_area_far_double_partial",
    "Gear.TpcModule.Double.tpc_any_inside_double_partial",
    "Gear.TpcModule.Double.tpc_mixed_nearest_module_double_partial",
    "Gear.TpcModule.Double.size_ring",
    "Gear.TpcModule.Double.size_area_inside_double_partial"
   ],
   "note": "Up to the margins that the statements name, for points that are not near to an edge of the area, to the middle of the ring or to the angle where the area begins. A border around a full ring makes the area smaller instead of larger (C85). Overflow and underflow are not modelled."
  },
  {
   "property": "C169",
   "status": "partial",
   "theorems": [
    "Gear.TpcModule.Double.versatile_nearest_double_partial",
    "Gear.TpcModule.Double.versatile_inside_double_partial",
    "Gear.TpcModule.Double.versatile_distance_double",
    "Gear.TpcModule.Double.tpc_versatile_nearest_double_partial",
    "Gear.TpcModule.Double.versatile_center_double",
    "Gear.TpcModule.Double.versatile_segment_double",
    "Gear.TpcModule.Double.versatile_area_inside_double_partial"
   ],
   "note": "Up to the margins that the statements name. getNearestPad: for pads between the angles 0 and a full turn, and where rows nearer to the origin have no pads at the same angle the margin is the square root of a rounding error (C150). The second half of isInsidePad: for pads at angles of up to 6. Overflow and underflow are not modelled."
  },
  {
   "property": "C170",
   "status": "partial",
   "theorems": [
    "Gear.TpcModule.Double.size_far_double_partial",
    "Gear.TpcModule.Double.versatile_far_double_partial",
    "Gear.TpcModule.Double.size_beside_double_partial",
    "Gear.TpcModule.Double.versatile_beside_double_partial",
    "Gear.TpcModule.Double.pad_distance_double_partial",
    "Gear.TpcModule.Double.tpc_mixed_versatile_nearest_double_partial",
    "Gear.TpcModule.Double.tpc_mixed_size_nearest_double_partial",
    "Gear.TpcModule.Double.tpc_mixed_angle_nearest_double_partial",
    "Gear.TpcModule.Double.tpc_mixed_rectangular_nearest_double_partial"
   ],
   "note": "For points that are away from the pad by more than a multiple of the square root of the rounding error, and pads whose angles lie between 0 and a full turn; for a pad that starts at the angle 0 or before it (the two theorems with beside) the angle of the point must be less than a full turn away from both borders of the pad. The mixed TPC is for the first kind of pads. Which pads the other modules answer with is a hypothesis of the last four theorems. Overflow and underflow are not modelled."
  }
 ]
}
