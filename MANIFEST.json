{
 "claims": [
  {
   "property": "C01",
   "status": "proved",
   "theorems": [
    "Ecad.c01_next_name"
   ],
   "note": ""
  },
  {
   "property": "C02",
   "status": "proved",
   "theorems": [
    "Ecad.Coll.c02_dictionary",
    "Ecad.Coll.c02_copy",
    "Ecad.Coll.c02_models"
   ],
   "note": ""
  },
  {
   "property": "C03",
   "status": "proved",
   "theorems": [
    "Ecad.c03_net_ids",
    "Ecad.c03_net_effects"
   ],
   "note": ""
  },
  {
   "property": "C04",
   "status": "partial",
   "theorems": [
    "Ecad.c04_copy_partial",
    "Ecad.c04_copy_collides_refuted"
   ],
   "note": "False of the code in general (the copied id generator restarts at zero); the negation is proved with a witness and the part that holds is the partial theorem."
  },
  {
   "property": "C05",
   "status": "proved",
   "theorems": [
    "Ecad.Layer.c05_layer_ids",
    "Ecad.Layer.c05_append",
    "Ecad.Layer.c05_dielectric",
    "Ecad.Layer.c05_empty_stack_ub"
   ],
   "note": "The empty stack is undefined behaviour and stated as such."
  },
  {
   "property": "C06",
   "status": "partial",
   "theorems": [
    "Ecad.Layer.c06_objects_follow_partial",
    "Ecad.Layer.c06_unmapped_refuted"
   ],
   "note": "Primitive layers and padstack layer maps follow; bondwire end layers and component placement layers are not renumbered (refuted)."
  },
  {
   "property": "C07",
   "status": "proved",
   "theorems": [
    "Ecad.LayerMap.c07_reversible"
   ],
   "note": ""
  },
  {
   "property": "C08",
   "status": "proved",
   "theorems": [
    "Ecad.LayerMap.c08_composition"
   ],
   "note": ""
  },
  {
   "property": "C09",
   "status": "proved",
   "theorems": [
    "Ecad.c09_version",
    "Ecad.c09_version_onto"
   ],
   "note": ""
  },
  {
   "property": "C10",
   "status": "proved",
   "theorems": [
    "Ecad.Lookup.c10_lookup",
    "Ecad.Lookup.c10_monotone"
   ],
   "note": ""
  },
  {
   "property": "C11",
   "status": "partial",
   "theorems": [
    "Ecad.c11_set_partial",
    "Ecad.c11_set_ignored_refuted"
   ],
   "note": "False of the code for a second setting of the same property; the negation is proved for every history."
  },
  {
   "property": "C12",
   "status": "partial",
   "theorems": [
    "Ecad.c12_views_partial",
    "Ecad.c12_tensor_views_refuted"
   ],
   "note": "False of the code for nine components and for off-diagonal entries of simple values."
  },
  {
   "property": "C13",
   "status": "partial",
   "theorems": [
    "Ecad.c13_reads_partial",
    "Ecad.c13_copy_and_repeat",
    "Ecad.c13_matrix",
    "Ecad.c13_reads_matter_refuted"
   ],
   "note": "False of the code: compositions onto a read transform are lost when a component is set afterwards; negation proved for every matrix library."
  },
  {
   "property": "C14",
   "status": "proved",
   "theorems": [
    "Ecad.c14_units",
    "Ecad.c14_units_explicit"
   ],
   "note": "Exact arithmetic."
  },
  {
   "property": "C48",
   "status": "partial",
   "theorems": [
    "Ecad.c48_set_partial",
    "Ecad.c48_set_ignored_refuted"
   ],
   "note": "False of the code for a second setting."
  },
  {
   "property": "C49",
   "status": "partial",
   "theorems": [
    "Ecad.c49_reverse_partial",
    "Ecad.c49_reverse_refuted"
   ],
   "note": "False of the code when keys are reused."
  },
  {
   "property": "C56",
   "status": "proved",
   "theorems": [
    "Ecad.c56_polynomial"
   ],
   "note": ""
  },
  {
   "property": "C15",
   "status": "proved",
   "theorems": [
    "Ecad.Registry.c15_registry",
    "Ecad.Registry.c15_returns"
   ],
   "note": ""
  },
  {
   "property": "C16",
   "status": "partial",
   "theorems": [
    "Ecad.Extract.c16_extract_partial",
    "Ecad.Extract.c16_nets_ignored_refuted",
    "Ecad.Extract.c16_failed_generation_refuted",
    "Ecad.Extract.c16_stale_layout",
    "Ecad.Extract.c16_kinds"
   ],
   "note": "False of the code for grid models of other nets and for failing generations; both negations are proved in general. The generation of prism models also reads the layer cut model the layout keeps; C148 shows that the code is this cache with the layout and that model in place of the layout, and what this means for forced extractions."
  },
  {
   "property": "C17",
   "status": "partial",
   "theorems": [
    "Ecad.Iter.c17_iterators",
    "Ecad.Iter.c17_complex_visits",
    "Ecad.Iter.c17_complex_partial",
    "Ecad.Iter.c17_empty_stops_refuted"
   ],
   "note": "Proved for all iterators in use; false for the iterator over sub-collections behind an empty one."
  },
  {
   "property": "C57",
   "status": "partial",
   "theorems": [
    "Ecad.Iter.c57_current",
    "Ecad.Iter.c57_hierarchy_partial",
    "Ecad.Iter.c57_component_hidden_refuted"
   ],
   "note": "False of the code for components in the hierarchy iterator."
  },
  {
   "property": "C18",
   "status": "proved",
   "theorems": [
    "Ecad.Hier.c18_flatten",
    "Ecad.Hier.c18_order",
    "Ecad.Hier.c18_cycle"
   ],
   "note": "Stronger than stated: any list of tasks in any order gives the same result, nets and components of different paths stay apart; a cyclic design never returns. Assumes consistent layouts, layer maps that keep the component layer apart (proved of maps built by the API: reach_keeps) and fewer than 2^31 net ids."
  },
  {
   "property": "C19",
   "status": "proved",
   "theorems": [
    "Ecad.Hier.c19_merge"
   ],
   "note": "For net collections built by arbitrary calls with at most 2^31 ids in total."
  },
  {
   "property": "C20",
   "status": "partial",
   "theorems": [
    "Ecad.Conn.c20_connectivity",
    "Ecad.Conn.c20_names",
    "Ecad.Conn.c20_bystander_refuted",
    "Ecad.Conn.c20_no_layers"
   ],
   "note": "The grouping is proved for every layout with a layer and every partition; bondwires and other bystanders keep net ids which may then belong to a new, unrelated net, and a layout without stackup layers is undefined behaviour."
  },
  {
   "property": "C21",
   "status": "partial",
   "theorems": [
    "Ecad.Util.c21_fill_back_partial",
    "Ecad.Util.c21_descending_partial",
    "Ecad.Util.c21_enough_partial",
    "Ecad.Util.c21_order_refuted",
    "Ecad.Util.c21_exact",
    "Ecad.Util.c21_ascending_refuted"
   ],
   "note": "False of the code for some traversal orders: general families of counterexamples are given, one of them ascending. For which orders it holds is shown exactly (c21_exact). Partial because the claim for all orders is false."
  },
  {
   "property": "C22",
   "status": "proved",
   "theorems": [
    "Ecad.Util.c22_thickness"
   ],
   "note": ""
  },
  {
   "property": "C23",
   "status": "proved",
   "theorems": [
    "Ecad.Util.c23_component",
    "Ecad.Util.c23_layer",
    "Ecad.Util.c23_stack"
   ],
   "note": ""
  },
  {
   "property": "C24",
   "status": "proved",
   "theorems": [
    "Ecad.Util.c24_min_seg",
    "Ecad.Util.c24_single_point",
    "Ecad.Util.c24_one_segment_short"
   ],
   "note": "A wire of one point is refined for ever; the count is one of points, so there may be one segment fewer than asked for."
  },
  {
   "property": "C58",
   "status": "partial",
   "theorems": [
    "Ecad.Util.c58_max_len",
    "Ecad.Util.c58_unit_length_refuted"
   ],
   "note": "Proved for every length of at least two grid units; with one grid unit the loop may run for ever. The last segment always has length zero."
  },
  {
   "property": "C59",
   "status": "proved",
   "theorems": [
    "Ecad.Util.c59_solder_joint",
    "Ecad.Util.c59_no_component"
   ],
   "note": "Undefined behaviour for an end on the component layer without component."
  },
  {
   "property": "C25",
   "status": "partial",
   "theorems": [
    "Ecad.Geom.c25_index_partial",
    "Ecad.Geom.c25_tile_unique",
    "Ecad.Geom.c25_bound_refuted",
    "Ecad.Geom.c25_cover_refuted",
    "Ecad.Geom.c25_zero_stride_refuted",
    "Ecad.Geom.c25_region_close",
    "Ecad.Geom.c25_region_exact",
    "Ecad.Geom.c25_fraction_range"
   ],
   "note": "Proved for points of the stored region off its upper bounds. False on the upper bounds (index one past the end), for layouts whose rounded tiles stop short of the far edge, and for zero strides (division by zero)."
  },
  {
   "property": "C26",
   "status": "proved",
   "theorems": [
    "Ecad.Geom.c26_cover",
    "Ecad.Geom.c26_total",
    "Ecad.Geom.c26_queries",
    "Ecad.Geom.c26_no_material",
    "Ecad.Geom.c26_gap_refuted",
    "Ecad.Geom.c26_power"
   ],
   "note": "For every finished build. The build does not finish when slicing meets a gap or when a valid polygon without material has a height of its own; both proved."
  },
  {
   "property": "C27",
   "status": "partial",
   "theorems": [
    "Ecad.Geom.c27_slice_partial",
    "Ecad.Geom.c27_ends_partial",
    "Ecad.Geom.c27_two_refuted",
    "Ecad.Geom.c27_three_refuted",
    "Ecad.Geom.c27_zero_never_ends"
   ],
   "note": "Result proved right whenever slicing ends; it ends for ratios of at least three, and provably does not for some inputs with smaller ratios, the default two included."
  },
  {
   "property": "C53",
   "status": "proved",
   "theorems": [
    "Ecad.Geom.c53_search"
   ],
   "note": "The r-tree is assumed to return exactly the polygons whose box meets the point."
  },
  {
   "property": "C54",
   "status": "proved",
   "theorems": [
    "Ecad.Geom.c54_power_range",
    "Ecad.Geom.c54_collapse"
   ],
   "note": "The range may collapse to an empty one by rounding."
  },
  {
   "property": "C28",
   "status": "proved",
   "theorems": [
    "Ecad.Thermal.c28_parallel",
    "Ecad.Thermal.c28_order",
    "Ecad.Thermal.c28_ok",
    "Ecad.Thermal.c28_new"
   ],
   "note": ""
  },
  {
   "property": "C29",
   "status": "proved",
   "theorems": [
    "Ecad.Thermal.c29_energy"
   ],
   "note": "Exact arithmetic over any ordered field."
  },
  {
   "property": "C30",
   "status": "proved",
   "theorems": [
    "Ecad.Thermal.c30_maximum",
    "Ecad.Thermal.c30_exists",
    "Ecad.Thermal.c30_floating"
   ],
   "note": ""
  },
  {
   "property": "C31",
   "status": "proved",
   "theorems": [
    "Ecad.Thermal.c31_rhs",
    "Ecad.Thermal.c31_without_bonds"
   ],
   "note": "c31_without_bonds records the latent double counting of the option no caller uses."
  },
  {
   "property": "C50",
   "status": "proved",
   "theorems": [
    "Ecad.Thermal.c50_samples",
    "Ecad.Thermal.c50_complete"
   ],
   "note": ""
  },
  {
   "property": "C51",
   "status": "partial",
   "theorems": [
    "Ecad.Thermal.c51_reduce_partial",
    "Ecad.Thermal.c51_ok",
    "Ecad.Thermal.c51_dangling_refuted"
   ],
   "note": "The reduced network is right whenever the loop finishes without touching a dangling reference; that it may touch one is proved."
  },
  {
   "property": "C60",
   "status": "proved",
   "theorems": [
    "Ecad.Thermal.c60_transient"
   ],
   "note": "Nodes of zero capacity are frozen by the code; stated in the theorem."
  },
  {
   "property": "C33",
   "status": "proved",
   "theorems": [
    "Ecad.GridT.c33_numbering",
    "Ecad.GridT.c33_empty",
    "Ecad.GridT.c33_neighbour",
    "Ecad.GridT.c33_connections",
    "Ecad.GridT.c33_connections_inside"
   ],
   "note": "For grids whose sizes are below the invalid index."
  },
  {
   "property": "C55",
   "status": "partial",
   "theorems": [
    "Ecad.GridT.c55_table_partial",
    "Ecad.GridT.c55_few_refuted",
    "Ecad.GridT.c55_twice_refuted",
    "Ecad.GridT.c55_block"
   ],
   "note": "The interpolator of boost enters by its contract. False for tables of two or three samples (exception, then a null pointer) and for a sample given twice."
  },
  {
   "property": "C61",
   "status": "partial",
   "theorems": [
    "Ecad.GridT.c61_values_partial",
    "Ecad.GridT.c61_x_refuted",
    "Ecad.GridT.c61_capacity_refuted",
    "Ecad.GridT.c61_wire_refuted"
   ],
   "note": "Right in y and z direction and for pure metal cells; false in x direction, for mixed cells and for bond wires."
  },
  {
   "property": "C62",
   "status": "proved",
   "theorems": [
    "Ecad.GridT.c62_solvable"
   ],
   "note": ""
  },
  {
   "property": "C47",
   "status": "partial",
   "theorems": [
    "Ecad.GridT.c47_grid_partial",
    "Ecad.GridT.c47_grid_refuted",
    "Ecad.PrismT.c47_prism_partial",
    "Ecad.PrismT.c47_prism_refuted"
   ],
   "note": "Grid and prism builders: the heat of an element is the last value written, so that a flux replaces the power sources; right only for elements with at most one source."
  },
  {
   "property": "C34",
   "status": "proved",
   "theorems": [
    "Ecad.PrismT.c34_prisms",
    "Ecad.PrismT.c34_lines"
   ],
   "note": ""
  },
  {
   "property": "C36",
   "status": "proved",
   "theorems": [
    "Ecad.PrismT.c36_blocks",
    "Ecad.PrismT.c36_parallel"
   ],
   "note": "Also: every interleaving of the threads gives the network assembled on one thread. The counters of the summary, which the threads share without lock, are not modelled."
  },
  {
   "property": "C63",
   "status": "proved",
   "theorems": [
    "Ecad.PrismT.c63_connected",
    "Ecad.PrismT.c63_builds"
   ],
   "note": ""
  },
  {
   "property": "C64",
   "status": "proved",
   "theorems": [
    "Ecad.PrismT.c64_solvable"
   ],
   "note": ""
  },
  {
   "property": "C65",
   "status": "partial",
   "theorems": [
    "Ecad.PrismT.c65_layers",
    "Ecad.PrismT.c65_side_refuted",
    "Ecad.PrismT.c65_order_refuted"
   ],
   "note": "Right across layers; within a layer exactly when the line between the centres is perpendicular to the common side, otherwise the value is another one and depends on the numbering."
  },
  {
   "property": "C32",
   "status": "partial",
   "theorems": [
    "Ecad.Pad.c32_ids_partial",
    "Ecad.Pad.c32_negative_refuted",
    "Ecad.Pad.c32_names",
    "Ecad.Pad.c32_history_partial",
    "Ecad.Pad.c32_layers",
    "Ecad.Pad.c32_solder"
   ],
   "note": "Right for ids from -1 on and for names; every id below -1, the component layer for example, goes outside of the vector."
  },
  {
   "property": "C35",
   "status": "partial",
   "theorems": [
    "Ecad.Reduce.c35_power",
    "Ecad.Reduce.c35_average_partial",
    "Ecad.Reduce.c35_numbering_refuted",
    "Ecad.Reduce.c35_extremes_partial",
    "Ecad.Reduce.c35_extremes_refuted",
    "Ecad.Reduce.c35_table",
    "Ecad.Reduce.c35_chip",
    "Ecad.Reduce.c35_order",
    "Ecad.Reduce.c35_grid_refuted",
    "Ecad.Reduce.c35_block_refuted",
    "Ecad.Reduce.c35_grid_partial"
   ],
   "note": "Powers and chip models: proved for every size. Averages: proved for one of the two possible numberings of the external grid type. Maximum and minimum start from zero and are wrong for blocks of one sign; grid models with power sources are doubled or undefined."
  },
  {
   "property": "C37",
   "status": "partial",
   "theorems": [
    "Ecad.Query.c37_stackup",
    "Ecad.Query.c37_prism_partial",
    "Ecad.Query.c37_top_refuted",
    "Ecad.Query.c37_empty",
    "Ecad.Query.c37_layout"
   ],
   "note": "A height equal to the top of the stack is given to the bottom layer by the prism model."
  },
  {
   "property": "C38",
   "status": "proved",
   "theorems": [
    "Ecad.Query.c38_permutation",
    "Ecad.Query.c38_values",
    "Ecad.Query.c38_reduced"
   ],
   "note": ""
  },
  {
   "property": "C66",
   "status": "partial",
   "theorems": [
    "Ecad.Query.c66_monitors",
    "Ecad.Query.c66_empty_layer_refuted"
   ],
   "note": "Proved for layers with elements; a layer without elements is undefined behaviour."
  },
  {
   "property": "C67",
   "status": "partial",
   "theorems": [
    "Ecad.Static.c67_static_partial",
    "Ecad.Static.c67_zero_iterations_refuted",
    "Ecad.Static.c67_block_power_refuted",
    "Ecad.Static.c67_grid"
   ],
   "note": "Right for at least one iteration and results of the size of the initial temperatures; a limit of zero wraps around, and block powers of grid models make the comparison of two iterations read beyond the end."
  },
  {
   "property": "C40",
   "status": "partial",
   "theorems": [
    "Ecad.Ctm.c40_stackup_partial",
    "Ecad.Ctm.c40_merged",
    "Ecad.Ctm.c40_builds",
    "Ecad.Ctm.c40_metal",
    "Ecad.Ctm.c40_via",
    "Ecad.Ctm.c40_ends",
    "Ecad.Ctm.c40_last",
    "Ecad.Ctm.c40_cycle_refuted"
   ],
   "note": "Whenever the lookup of positions ends, the stackup has no gap and no overlap and holds every layer with a position. The lookup ends for vias that are not cyclic, and provably never ends for cyclic ones."
  },
  {
   "property": "C41",
   "status": "proved",
   "theorems": [
    "Ecad.Gds.c41_integers",
    "Ecad.Gds.c41_patterns",
    "Ecad.Gds.c41_reals"
   ],
   "note": "Reals in exact arithmetic."
  },
  {
   "property": "C42",
   "status": "proved",
   "theorems": [
    "Ecad.Gds.c42_buffer",
    "Ecad.Gds.c42_endless"
   ],
   "note": "For buffers below 2^63 bytes and requests that do not overflow; a request of 2^64-1 bytes never ends."
  },
  {
   "property": "C43",
   "status": "partial",
   "theorems": [
    "Ecad.Gds.c43_records",
    "Ecad.Gds.c43_text",
    "Ecad.Gds.c43_types",
    "Ecad.Gds.c43_truncated_refuted",
    "Ecad.Gds.c43_endless_refuted",
    "Ecad.Gds.c43_null_first_refuted",
    "Ecad.Gds.c43_padding_refuted"
   ],
   "note": "Proved for complete files; truncated files are reported as read, a length field of one never ends, null padding calls the reader for records that are not in the file."
  },
  {
   "property": "C44",
   "status": "partial",
   "theorems": [
    "Ecad.Gds.c44_cells_partial",
    "Ecad.Gds.c44_units",
    "Ecad.Gds.c44_repeated_refuted"
   ],
   "note": "Proved from the bytes of the file on for libraries without repeated structure names; the elements of a repeated structure end up in the cell before it."
  },
  {
   "property": "C45",
   "status": "partial",
   "theorems": [
    "Ecad.Gds.c45_array_partial",
    "Ecad.Gds.c45_array_refuted"
   ],
   "note": "Only the first instance is right; the columns and rows are ignored."
  },
  {
   "property": "C68",
   "status": "partial",
   "theorems": [
    "Ecad.Gds.c68_layers_partial",
    "Ecad.Gds.c68_reference_refuted"
   ],
   "note": "Proved up to a layer with number -1 that every reference makes for."
  },
  {
   "property": "C69",
   "status": "partial",
   "theorems": [
    "Ecad.Gds.c69_rows_partial",
    "Ecad.Gds.c69_datatype_refuted"
   ],
   "note": "Proved for the layer number; the data type is ignored."
  },
  {
   "property": "C70",
   "status": "partial",
   "theorems": [
    "Ecad.Gds.c70_reference_partial",
    "Ecad.Gds.c70_rotation_refuted",
    "Ecad.Gds.c70_mirror_refuted",
    "Ecad.Gds.c70_unknown_refuted"
   ],
   "note": "Position, magnification and cell are right; every rotated and every mirrored reference is placed wrongly."
  },
  {
   "property": "C71",
   "status": "proved",
   "theorems": [
    "Ecad.Thermal.c71_reduced",
    "Ecad.Thermal.c71_output"
   ],
   "note": "The reduction of the library enters as the projection onto a basis; the solution of the reduced system by its equation. Exact arithmetic."
  },
  {
   "property": "C46",
   "status": "partial",
   "theorems": [
    "Ecad.KiCad.c46_reads",
    "Ecad.KiCad.c46_write",
    "Ecad.KiCad.c46_ends",
    "Ecad.KiCad.c46_endless_refuted",
    "Ecad.KiCad.c46_escape_refuted"
   ],
   "note": "Reading is proved for every tree and layout; parsing never ends for files without parenthesis and for files cut off inside of a name or atom; quotes and backslashes in atoms are not read back."
  },
  {
   "property": "C72",
   "status": "partial",
   "theorems": [
    "Ecad.KiCad.c72_layers_partial",
    "Ecad.KiCad.c72_nets",
    "Ecad.KiCad.c72_order_refuted",
    "Ecad.KiCad.c72_dielectric_refuted",
    "Ecad.KiCad.c72_shared_refuted",
    "Ecad.KiCad.c72_bare_refuted",
    "Ecad.KiCad.Attr.c72_repeated"
   ],
   "note": "Nets, kinds, thicknesses and gapless stacking are proved for every order of the maps; the order of the layers is not that of the board, the dielectric layers of the stackup are lost, and of two nets of a name one is lost."
  },
  {
   "property": "C52",
   "status": "partial",
   "theorems": [
    "Ecad.Dmc.c52_shapes",
    "Ecad.Dmc.c52_reads",
    "Ecad.Dmc.c52_short_refuted",
    "Ecad.Dmc.c52_lead_refuted"
   ],
   "note": "For every import that goes through; too short point files do not go through (undefined behaviour), and holes before the first outline shift all points after them. The increment of the record iterator past the end is not modelled."
  },
  {
   "property": "C73",
   "status": "partial",
   "theorems": [
    "Ecad.Dmc.c73_import",
    "Ecad.Dmc.c73_names_refuted",
    "Ecad.Dmc.c73_via_refuted",
    "Ecad.Dmc.c73_empty_refuted"
   ],
   "note": "Proved for records that agree with each other; two net ids with one name, and files without outlines, are undefined behaviour; a via to an unused signal layer throws."
  },
  {
   "property": "C39",
   "status": "partial",
   "theorems": [
    "Ecad.Ctm.c39_decrypt",
    "Ecad.Ctm.c39_encrypt",
    "Ecad.Ctm.c39_number",
    "Ecad.Ctm.c39_recognised",
    "Ecad.Ctm.c39_negative_refuted",
    "Ecad.Ctm.c39_default_refuted",
    "Ecad.Ctm.c39_plain_refuted",
    "Ecad.Ctm.c39_linefeed_refuted"
   ],
   "note": "Texts are decrypted to themselves; a file is recognised if its first line starts with #Version, which the default text does not: such files throw when read. Negative numbers, names of 63 characters, and files written plain after being read encrypted fail."
  },
  {
   "property": "C74",
   "status": "partial",
   "theorems": [
    "Ecad.Ctm.c74_roundtrip_partial",
    "Ecad.Ctm.c74_origin_refuted",
    "Ecad.Ctm.c74_long_refuted",
    "Ecad.Ctm.c74_none_refuted"
   ],
   "note": "Everything but the origin and the first line is read back, for headers with short names; the origin is replaced by the size, metal names of 21 or more characters make the file unreadable, and empty via layers become None. Split, Trim and number printing of the library are modelled as documented in the model file."
  },
  {
   "property": "C75",
   "status": "partial",
   "theorems": [
    "Ecad.Ctm.c75_layers",
    "Ecad.Ctm.c75_thickness",
    "Ecad.Ctm.c75_one",
    "Ecad.Ctm.c75_many",
    "Ecad.Ctm.c75_power_partial",
    "Ecad.Ctm.c75_table",
    "Ecad.Ctm.c75_roundtrip_partial",
    "Ecad.Ctm.c75_power_refuted",
    "Ecad.Ctm.c75_again_refuted",
    "Ecad.Ctm.c75_adjacent_refuted",
    "Ecad.Ctm.c75_outer_refuted"
   ],
   "note": "Holds if the joined layer names differ and, for the way back, if every non-metal layer is between two metals. Refuted: equal joined names double the power; a grid model made from a chip model can never be written and read again since no layer is marked as metal; two neighbouring non-metal layers make the lookup recurse forever; an outer non-metal layer is lost."
  },
  {
   "property": "C76",
   "status": "proved",
   "theorems": [
    "Ecad.PrismT.stack_built",
    "Ecad.PrismT.c76_vertical",
    "Ecad.PrismT.c76_side",
    "Ecad.PrismT.c76_connected"
   ],
   "note": "The areas of triangles and of their intersections are given, symmetric and not negative, with bounding boxes that meet when the common area is positive."
  },
  {
   "property": "C77",
   "status": "partial",
   "theorems": [
    "Ecad.PrismT.c77_htc_partial",
    "Ecad.PrismT.c77_flux_partial",
    "Ecad.PrismT.c77_both_refuted",
    "Ecad.PrismT.c77_power_refuted",
    "Ecad.PrismT.c77_last_refuted",
    "Ecad.PrismT.c77_blocks_refuted",
    "Ecad.PrismT.c77_block_flux",
    "Ecad.PrismT.c77_block_htc"
   ],
   "note": "Holds where only one of power, top and bottom acts on an element. Refuted: the bottom replaces the top, a flux replaces the power, the flux on the bottom of the last layer is not multiplied by the area, and boundary conditions of blocks are ignored."
  },
  {
   "property": "C78",
   "status": "proved",
   "theorems": [
    "Ecad.PrismT.c78_builds",
    "Ecad.PrismT.c78_solvable"
   ],
   "note": "In exact arithmetic."
  },
  {
   "property": "C79",
   "status": "proved",
   "theorems": [
    "Ecad.PrismT.c79_contacts",
    "Ecad.PrismT.c79_assembly"
   ],
   "note": "Calls are atomic; the index of a layer is built under a lock and is not modelled as shared state; the counters of the summary are not modelled."
  },
  {
   "property": "C80",
   "status": "partial",
   "theorems": [
    "Ecad.Gds.c80_shapes_partial",
    "Ecad.Gds.c80_references",
    "Ecad.Gds.c80_text_refuted"
   ],
   "note": "Proved for polygons and paths; texts lose position, rotation and scale since CreateText does not use its transform."
  },
  {
   "property": "C81",
   "status": "proved",
   "theorems": [
    "Ecad.PrismT.c81_prism",
    "Ecad.PrismT.c81_prism_wire",
    "Ecad.PrismT.c81_stack",
    "Ecad.PrismT.c81_stack_wire",
    "Ecad.PrismT.c47_prism_partial"
   ],
   "note": "The Joule heat of wires of plain prism models is the second part of c47_prism_partial."
  },
  {
   "property": "C82",
   "status": "partial",
   "theorems": [
    "Ecad.Shp.c82_polygons_partial",
    "Ecad.Shp.c82_rect_partial",
    "Ecad.Shp.c82_rect_covers",
    "Ecad.Shp.c82_rect_refuted",
    "Ecad.Shp.c82_circle_partial",
    "Ecad.Shp.c82_circle_refuted",
    "Ecad.Shp.c82_path_partial",
    "Ecad.Shp.c82_holes"
   ],
   "note": "Proved for polygons, polygons with holes and template instances under all transforms, rectangles along the axes, circles and paths under isometries. Refuted: a rectangle turned by another angle becomes its bounding box; circles keep their radius and paths their width when scaled."
  },
  {
   "property": "C83",
   "status": "partial",
   "theorems": [
    "Ecad.Shp.c83_contains",
    "Ecad.Shp.c83_least_partial",
    "Ecad.Shp.c83_turned_refuted"
   ],
   "note": "The box always contains the outline. It is the least one except for circles and for template instances that are turned, for which it is refuted."
  },
  {
   "property": "C84",
   "status": "partial",
   "theorems": [
    "Ecad.Shp.c84_layers",
    "Ecad.Shp.c84_place_partial",
    "Ecad.Shp.c84_order_refuted",
    "Ecad.Shp.c84_place_act"
   ],
   "note": "The choice of the pad is proved. The rotation and offset of the pad are applied after the transform of the instance, so that pads with a rotation are drawn at the wrong place (refuted)."
  },
  {
   "property": "C85",
   "status": "proved",
   "theorems": [
    "Ecad.Xfl.c85_stack",
    "Ecad.Xfl.c85_touch",
    "Ecad.Xfl.c85_metal",
    "Ecad.Xfl.c85_materials"
   ],
   "note": "Over any field. The value the file calls loss tangent is stored as the magnetic loss tangent, as in the code."
  },
  {
   "property": "C86",
   "status": "partial",
   "theorems": [
    "Ecad.Xfl.c86_shapes",
    "Ecad.Xfl.c86_routes",
    "Ecad.Xfl.c86_voids_partial",
    "Ecad.Xfl.c86_voids_refuted",
    "Ecad.Xfl.c86_own_holes_refuted",
    "Ecad.Xfl.c86_void_flag",
    "Ecad.Xfl.c86_template",
    "Ecad.Xfl.c86_placed"
   ],
   "note": "What is drawn is proved for all routes: each shape with the voids that follow it directly. The full claim is proved when voids directly follow their shape or another void on its layer, and refuted when a void on another layer is in between; a template with holes loses them when a void follows."
  },
  {
   "property": "C87",
   "status": "partial",
   "theorems": [
    "Ecad.Xfl.c87_size_partial",
    "Ecad.Xfl.c87_composite_partial",
    "Ecad.Xfl.c87_rectangle_refuted",
    "Ecad.Xfl.c87_unscaled_refuted",
    "Ecad.Xfl.c87_arc3_refuted"
   ],
   "note": "Polygons, oblongs and composites are right. Rectangles get half of their size, squares, diamonds and circles are not scaled, and arcs through three points are undefined behaviour (all refuted)."
  },
  {
   "property": "C88",
   "status": "proved",
   "theorems": [
    "Ecad.Xfl.c88_instances",
    "Ecad.Xfl.c88_place",
    "Ecad.Xfl.nextInstName_spec"
   ],
   "note": "Instances, names and places over whole imports. The mirror 'X' of vias is read as no mirror, as in the code."
  },
  {
   "property": "C89",
   "status": "partial",
   "theorems": [
    "Ecad.Xfl.c89_import_partial",
    "Ecad.Xfl.metalOk_import",
    "Ecad.Xfl.c89_duplicate_refuted",
    "Ecad.Xfl.c89_pad_layer_partial",
    "Ecad.Xfl.c89_pad_layer_refuted"
   ],
   "note": "Definitions and layer maps are proved for vias with different names; equal names use a null pointer. The layer map is written from pads to layers but read from layers to pads, so that a pad is drawn on its layer only if its number is the id of the layer (refuted for all layers whose id is no pad number)."
  },
  {
   "property": "C90",
   "status": "partial",
   "theorems": [
    "Ecad.Xfl.c90_outline_partial",
    "Ecad.Xfl.c90_template_refuted"
   ],
   "note": "Polygons and composites are right; any outline by a template shape uses a null pointer (a local variable hides the shape)."
  },
  {
   "property": "C91",
   "status": "partial",
   "theorems": [
    "Ecad.Db.c91_dictionary_partial",
    "Ecad.Db.c91_create",
    "Ecad.Db.c91_next_name",
    "Ecad.Db.c91_self_assign_refuted"
   ],
   "note": "Proved for all histories without self-assignment. Assigning a database to itself loses everything, including the collections, and creating a material afterwards uses a null pointer."
  },
  {
   "property": "C92",
   "status": "partial",
   "theorems": [
    "Ecad.Db.c92_ids_partial",
    "Ecad.Db.c92_copy_refuted"
   ],
   "note": "Ids differ and what is found is right in all databases; complete only in databases that are not copies. The id table is not copied: a copy finds no material by id (refuted for every database)."
  },
  {
   "property": "C93",
   "status": "partial",
   "theorems": [
    "Ecad.Copy.c93_copy_partial",
    "Ecad.Copy.c93_far_refuted",
    "Ecad.Copy.c93_renamed_refuted",
    "Ecad.Copy.c93_dangling"
   ],
   "note": "Holds for the database of definitions, the cell of layouts and the components of bond wires (if they keep their names). All other pointers (component definitions, layouts of instances and components, padstack definitions, layer maps, solder joints) still lead into the original; proved for every database."
  },
  {
   "property": "C94",
   "status": "partial",
   "theorems": [
    "Ecad.Mount.c94_mount_partial",
    "Ecad.Mount.c94_follow",
    "Ecad.Mount.c94_side",
    "Ecad.Mount.c94_read_refuted",
    "Ecad.Mount.c94_same_name_refuted"
   ],
   "note": "False of the code: a component whose transform was read (for example printed) is no longer moved by AddTransform as far as pins and outline are concerned, in every state; a second pin of the same name is never found. Proved for all other histories, over any library of matrices. Rounding of points is not modelled."
  },
  {
   "property": "C95",
   "status": "partial",
   "theorems": [
    "Ecad.GridPower.c95_power_partial",
    "Ecad.GridPower.c95_constant",
    "Ecad.GridPower.c95_kelvin_refuted",
    "Ecad.GridPower.c95_edge_refuted",
    "Ecad.GridPower.c95_outside_refuted"
   ],
   "note": "False of the code: the loss power is looked up at the number of degrees Celsius although its table is in kelvin, so with samples above 125 K all five grids are equal; a component on the upper bound of the region is written outside of the grid (undefined behaviour); a component partly outside is left out. Proved: everything else, and the whole claim for powers that do not depend on the temperature."
  },
  {
   "property": "C96",
   "status": "partial",
   "theorems": [
    "Ecad.CutEx.c96_extract_partial",
    "Ecad.CutEx.c96_orientation",
    "Ecad.CutEx.c96_build",
    "Ecad.CutEx.c96_joint_twice_refuted",
    "Ecad.CutEx.c96_net_refuted",
    "Ecad.CutEx.c96_pad_refuted",
    "Ecad.CutEx.c96_stale_refuted",
    "Ecad.CutEx.c96_thin_refuted"
   ],
   "note": "False of the code: the joint at the end of a wire with a current is added twice; a heated joint loses its net and holes; a padstack instance without shape on a layer of its range dereferences null; a layer without height gets that of whatever was read before; a component thinner than the height unit leaves no trace and its power is lost. Proved for all complete layouts without these: exactly the polygons, heights, materials, nets, power blocks, wires and circle centres of the specification, in order, and that the tables of layers can be built."
  },
  {
   "property": "C97",
   "status": "partial",
   "theorems": [
    "Ecad.Trans.c97_fixed_partial",
    "Ecad.Trans.c97_adaptive_partial",
    "Ecad.Trans.c97_constant_partial",
    "Ecad.Trans.c97_constant_adaptive_partial",
    "Ecad.Trans.c97_reduced_partial",
    "Ecad.Trans.c97_lost_time_refuted",
    "Ecad.Trans.c97_default_refuted",
    "Ecad.Trans.c97_size_refuted",
    "Ecad.Trans.c97_no_sample_refuted",
    "Ecad.Trans.c97_no_probe_refuted",
    "Ecad.Trans.c97_step_refuted",
    "Ecad.Trans.c97_probe_refuted",
    "Ecad.Trans.c97_reduced_size_refuted",
    "Ecad.Trans.c97_reduced_refuted"
   ],
   "note": "False of the code: with fixed steps the time beyond the last whole interval of a step is lost; the default sampling interval of zero divides by zero; a network with more nodes than the model is silently not simulated; if nothing is sampled the analysis succeeds with infinite extremes; without probes a sample dereferences an empty range; a step that is not positive never ends; a reduced model with temperature dependence replaces the node temperatures by those of the probes and dereferences null in the second step. Proved for steps of whole intervals, for adaptive integration, and for constant materials."
  },
  {
   "property": "C98",
   "status": "partial",
   "theorems": [
    "Ecad.PMerge.c98_merge_partial",
    "Ecad.PMerge.c98_order_refuted",
    "Ecad.PMerge.c98_dielectric_refuted",
    "Ecad.PMerge.c98_definition_refuted"
   ],
   "note": "False of the code: the settings on dielectric layers come after the mergers were made and have no effect; an order of the hash set of positions can lose the merged polygon and keep a part; an instance without definition dereferences null. Proved for descending orders: what is kept, what is merged, and that each net covers the same points, plus those of its padstack instances where included."
  },
  {
   "property": "C99",
   "status": "partial",
   "theorems": [
    "Ecad.Wire.c99_polyline_partial",
    "Ecad.Wire.c99_end_refuted",
    "Ecad.Wire.c99_type_refuted",
    "Ecad.Wire.c99_unmounted_refuted",
    "Ecad.Wire.c99_no_start_refuted",
    "Ecad.Wire.c99_flat_refuted"
   ],
   "note": "False of the code: a JEDEC4 wire ignores the orientation of its end and arrives through the board when the end is higher than the loop or on a lower face; a wire without end or start layer is put into the model with heights zero; a wire of another type gets no points; a flat JEDEC4 wire has segments of length zero. Proved for mounted simple and JEDEC4 wires: thirteen points, ends, rectangle, heights, outer side at the start and at the end of simple wires."
  },
  {
   "property": "C100",
   "status": "partial",
   "theorems": [
    "Ecad.Sim.c100_static_partial",
    "Ecad.Sim.c100_simulator",
    "Ecad.Sim.c100_refused",
    "Ecad.Sim.c100_unsolved",
    "Ecad.Sim.c100_empty_refuted",
    "Ecad.Sim.c100_transient",
    "Ecad.Sim.c100_layout",
    "Ecad.Sim.c100_grid_refuted",
    "Ecad.Sim.c100_stale_refuted"
   ],
   "note": "False of the code for grid models, which do not implement the search of elements: monitors are ignored without notice; and a failed extraction simulates the last model of the type. Proved end to end for prism and stackup prism models on top of C16, C37, C38, C66, C67. The layout of c100_layout is, for prism models, the layout with the layer cut model it keeps (C148)."
  },
  {
   "property": "C101",
   "status": "partial",
   "theorems": [
    "Ecad.Netlist.c101_netlist_partial",
    "Ecad.Netlist.c101_balanced",
    "Ecad.Netlist.c101_names",
    "Ecad.Netlist.c101_sources_refuted",
    "Ecad.Netlist.c101_fixed_refuted"
   ],
   "note": "False of the code: heat sources hang at a node connected to nothing else, so a heated network's circuit has no operating point; given temperatures are counted from the reference node and so come out too high by the reference temperature. The operating points are characterised exactly, from Kirchhoff's and Ohm's law."
  },
  {
   "property": "C102",
   "status": "proved",
   "theorems": [
    "Ecad.Vtk.c102_prism",
    "Ecad.Vtk.c102_stackup",
    "Ecad.Vtk.c102_points",
    "Ecad.Vtk.c102_layers",
    "Ecad.Vtk.c102_templates"
   ],
   "note": "Numbers are printed exactly in the model; the code prints six digits. The layers of a layer cut model lie upon each other (c102_layers)."
  },
  {
   "property": "C103",
   "status": "partial",
   "theorems": [
    "Ecad.L2C.c103_layers",
    "Ecad.L2C.c103_tiles",
    "Ecad.L2C.c103_density_partial",
    "Ecad.L2C.c103_tiles_refuted",
    "Ecad.L2C.c103_thickness_refuted"
   ],
   "note": "Proved: layers, order and densities over the tiles of the mapping (c103_layers), exactly when those are the tiles of the chip model (c103_tiles), the claim on densities if the resolution divides the region (c103_density_partial). The full statement is false: tiles are displaced when the region is no multiple of the resolution (c103_tiles_refuted), and thicknesses are taken for coordinates (c103_thickness_refuted). That the library's number of tiles is the least that covers the region is a hypothesis."
  },
  {
   "property": "C104",
   "status": "partial",
   "theorems": [
    "Ecad.GridExt.c104_layers",
    "Ecad.GridExt.c104_extract",
    "Ecad.GridExt.c104_wires",
    "Ecad.GridExt.c104_boundary_partial",
    "Ecad.GridExt.c104_edge_refuted",
    "Ecad.GridExt.c104_above_refuted",
    "Ecad.GridExt.c104_wire_refuted"
   ],
   "note": "Proved: layers, thickness, metal and power of each layer (c104_layers), success of the extraction (c104_extract), bond wires with their ends in the region (c104_wires), boundary conditions with blocks inside the region (c104_boundary_partial). The full statement is false: a block that reaches the upper bound cools cells it does not meet (c104_edge_refuted), a block beyond the right bound or a wire that starts outside and no network is built (c104_above_refuted, c104_wire_refuted). Distances and pi are parameters."
  },
  {
   "property": "C105",
   "status": "partial",
   "theorems": [
    "Ecad.XflP.c105_route_partial",
    "Ecad.XflP.c105_exact_refuted",
    "Ecad.XflP.c105_arc3_refuted"
   ],
   "note": "Proved for all routes without diamonds, arcs of three points, shapes mirrored at the x axis and bond wires without names of dies before another object (c105_route_partial). The full statement is false, exactly for the other routes: every text of such a route (without the sign +) is not read at all (c105_exact_refuted), since instDiamond is not in the rule route, ARC is tried before ARC3 (c105_arc3_refuted), char_(\"NY\") lacks X, and the optional names of dies take the next keyword and its layer. Numbers are exact; the words inf and nan are not modelled."
  },
  {
   "property": "C106",
   "status": "partial",
   "theorems": [
    "Ecad.XflP.c106_section_partial",
    "Ecad.XflP.c106_diamond_refuted",
    "Ecad.XflP.c106_pin_refuted",
    "Ecad.XflP.c106_empty"
   ],
   "note": "Proved for all sections (c106_section_partial) but: template diamonds, which are read as squares (c106_diamond_refuted); arcs of three points and the routes of C105, which are not read; parts in which a pin without padstack is followed by a pin whose name begins with a digit or a sign: the name is taken for the padstack and the part is not read (c106_pin_refuted). The outline of a part (partTail) is only covered when absent. Numbers are exact; the words inf and nan are not modelled."
  },
  {
   "property": "C107",
   "status": "partial",
   "theorems": [
    "Ecad.XflP.c107_file_partial",
    "Ecad.XflP.c107_accepts_refuted",
    "Ecad.XflP.c107_lost_refuted",
    "Ecad.XflP.c107_comment_refuted",
    "Ecad.XflP.c107_broken_refuted"
   ],
   "note": "Proved for files of the sections of C106 (c107_file_partial). The rest is false: every text that ends with a line feed is accepted, whatever is in it (c107_accepts_refuted); one route that cannot be read (C105) loses itself and all later routes of its section while earlier ones stay and the file is accepted (c107_lost_refuted, for section texts without +, # and a further .end); a file whose last line is a comment without end of line is rejected after everything was handled (c107_comment_refuted), and so is a file that breaks off in a section of routes (c107_broken_refuted)."
  },
  {
   "property": "C108",
   "status": "partial",
   "theorems": [
    "Ecad.KiCad.c108_objects_partial",
    "Ecad.KiCad.c108_own_partial",
    "Ecad.KiCad.c108_footprints_refuted",
    "Ecad.KiCad.c108_one_partial",
    "Ecad.KiCad.c108_layer_refuted",
    "Ecad.KiCad.c108_blind_refuted",
    "Ecad.KiCad.c108_points_refuted",
    "Ecad.KiCad.c108_rect_partial",
    "Ecad.KiCad.c108_kind",
    "Ecad.KiCad.c108_oval_refuted",
    "Ecad.KiCad.c108_refines_c72"
   ],
   "note": "What is collected, for every well formed board and every meaning of the moved-from key of AddComponent: c108_objects_partial. With keys kept, every footprint of a distinct name is a component of its own (c108_own_partial). The code moves the name before it is used as key, so with the usual empty moved-from string all footprints fall into one component named after the first (c108_footprints_refuted; right only for a single footprint, c108_one_partial). False too: the layer of lines, circles and polygons (c108_layer_refuted), blind vias (c108_blind_refuted), outlines of one or no point (c108_points_refuted), outlines of oval pads (c108_oval_refuted; rectangles are right, c108_rect_partial). Layers and nets are extracted as in C72 (c108_refines_c72). Missing: nothing of these objects reaches the layout in the code; arcs are positional."
  },
  {
   "property": "C109",
   "status": "partial",
   "theorems": [
    "Ecad.Ctm.c109_power",
    "Ecad.Ctm.c109_records",
    "Ecad.Ctm.c109_write",
    "Ecad.Ctm.c109_density_partial",
    "Ecad.Ctm.c109_layout_partial",
    "Ecad.Ctm.c109_power_cut_refuted",
    "Ecad.Ctm.c109_cut_refuted",
    "Ecad.Ctm.c109_empty_refuted"
   ],
   "note": "Powers come back (c109_power); whole density files are read record by record (c109_records) and are written as the tiles with their corners (c109_write, c109_density_partial). The densities come back in their cells exactly if the grid of the library lies column by column in memory (c109_layout_partial); that library is not in the repository. Cut files are not rejected: c109_power_cut_refuted, c109_cut_refuted; an empty density file uses an unset value (c109_empty_refuted). A float is any encoding into four bytes with a decoder."
  },
  {
   "property": "C110",
   "status": "partial",
   "theorems": [
    "Ecad.Ctm.c110_package_partial",
    "Ecad.Ctm.c110_data_partial",
    "Ecad.Ctm.c110_temps_refuted",
    "Ecad.Ctm.c110_size_refuted",
    "Ecad.Ctm.c110_whole",
    "Ecad.Ctm.c110_files",
    "Ecad.Ctm.c110_few_refuted",
    "Ecad.Ctm.c110_left_refuted"
   ],
   "note": "What comes back, for every packable model: c110_package_partial; everything (header as in C74) if temperatures differ in six digits, sizes match and cells lie column by column (c110_data_partial). False otherwise: temperatures equal to six digits (c110_temps_refuted), powers of another size (c110_size_refuted), fewer than five temperatures (c110_few_refuted), files left after a failure (c110_left_refuted). The archive itself (tar) is the library's and is taken as the map of names to contents."
  },
  {
   "property": "C111",
   "status": "partial",
   "theorems": [
    "Ecad.Dmc.c111_line",
    "Ecad.Dmc.c111_dmc",
    "Ecad.Dmc.c111_dom",
    "Ecad.Dmc.c111_stop",
    "Ecad.Dmc.c111_short",
    "Ecad.Dmc.c111_number",
    "Ecad.Dmc.c111_set",
    "Ecad.Dmc.c111_load",
    "Ecad.Dmc.c111_layer_refuted",
    "Ecad.Dmc.c111_exn_refuted",
    "Ecad.Dmc.c111_accept_refuted",
    "Ecad.Dmc.c111_origin_refuted",
    "Ecad.Dmc.c111_cut_refuted",
    "Ecad.Dmc.c111_open_refuted"
   ],
   "note": "Files of well formed lines are read (c111_dmc, c111_dom, c111_line), DMC lines that end too early or have a word for a number are rejected with their number (c111_short, c111_number, c111_stop), no unset number is used (c111_set), and the database is made of what was read (c111_load). False: lines without layer name are taken (c111_layer_refuted), a tenth word that is no number throws (c111_exn_refuted), DOM files are never rejected (c111_accept_refuted), blank lines add the origin (c111_origin_refuted), coordinates are cut (c111_cut_refuted), a missing file gives no message (c111_open_refuted). Exponents in numbers are not modelled."
  },
  {
   "property": "C112",
   "status": "partial",
   "theorems": [
    "Ecad.Gds.c112_row",
    "Ecad.Gds.c112_refuse",
    "Ecad.Gds.c112_file",
    "Ecad.Gds.c112_reject",
    "Ecad.Gds.c112_accept",
    "Ecad.Gds.c112_lookup",
    "Ecad.Gds.c112_import",
    "Ecad.Gds.c112_unread",
    "Ecad.Gds.c112_exn_refuted",
    "Ecad.Gds.c112_junk_refuted",
    "Ecad.Gds.c112_kind_refuted",
    "Ecad.Gds.c112_blank_refuted",
    "Ecad.Gds.c112_name_refuted"
   ],
   "note": "Rows, comments and empty lines are read as they should be and lines without five items are refused, exactly; lookups give the first row. The rest fails: a layer number that is no number throws, what follows its digits is ignored, every word not beginning with m is a dielectric, a line of blanks or of a carriage return rejects the file, and the database stays registered after a failure, so that its name is taken."
  },
  {
   "property": "C113",
   "status": "partial",
   "theorems": [
    "Ecad.Dmc.c113_roundtrip_partial",
    "Ecad.Dmc.c113_net_refuted",
    "Ecad.Dmc.c113_empty_refuted",
    "Ecad.Dmc.c113_unit_refuted",
    "Ecad.Dmc.c113_blank_refuted",
    "Ecad.Dmc.c113_layer_refuted",
    "Ecad.Dmc.c113_open_refuted"
   ],
   "note": "Proved in full for units of K coordinates with K dividing a million, polygons that all have nets and names of one word. False otherwise: polygons whose net is not found are left out silently, with none at all the import of the written files is undefined, coordinates below half a millionth of a unit become zero (metre), a net name with a blank makes the import throw, a layer name keeps its first word, and files that cannot be opened still give true (bad instead of fail is asked)."
  },
  {
   "property": "C114",
   "status": "partial",
   "theorems": [
    "Ecad.PrismT.c114_prism",
    "Ecad.PrismT.c114_stack",
    "Ecad.PrismT.c114_whole",
    "Ecad.PrismT.c114_layer",
    "Ecad.PrismT.c114_network",
    "Ecad.PrismT.c114_material",
    "Ecad.PrismT.c114_below_refuted",
    "Ecad.PrismT.c114_fluid_refuted",
    "Ecad.PrismT.c114_hidden_refuted"
   ],
   "note": "Exact sum over blocks for prism and stackup prism models and any temperatures (c114_prism, c114_stack), heat flows of the network if there is no boundary flux (c114_network), the whole power, also by scenario, for blocks whose triangles tile the polygon and are found (c114_whole); the layer of a block exists and has the polygon (c114_layer). False of the code, with proof: blocks at the lower face of their polygon (c114_below_refuted), polygons of fluids or without material (c114_fluid_refuted), blocks with a smaller polygon inside, which takes the triangles (c114_hidden_refuted). Geometry library and net ids are outside the model."
  },
  {
   "property": "C115",
   "status": "partial",
   "theorems": [
    "Ecad.PrismT.c115_path",
    "Ecad.PrismT.c115_third",
    "Ecad.PrismT.c115_side",
    "Ecad.PrismT.c115_units",
    "Ecad.PrismT.c115_layers",
    "Ecad.PrismT.c115_network"
   ],
   "note": "All but the last part holds, with real numbers and exact square roots. The last fails, and c115_side says exactly when: the rest of the way between the centres is taken instead of the other way to the side, so the resistance is never less than the series, equal exactly if the line between the centres is at right angles to the side, and depends on the numbering unless that is so or the conductivities are the same (an example shows that it does). Center and PointLineDistanceSq of the geometry library are taken to be the centroid and the distance to the infinite line."
  },
  {
   "property": "C116",
   "status": "partial",
   "theorems": [
    "Ecad.StackMesh.c116_total",
    "Ecad.StackMesh.c116_plain",
    "Ecad.StackMesh.c116_share",
    "Ecad.StackMesh.c116_imprint",
    "Ecad.StackMesh.c116_slices",
    "Ecad.StackMesh.c116_content",
    "Ecad.StackMesh.build_ptr",
    "Ecad.StackMesh.c116_upper_refuted",
    "Ecad.StackMesh.c116_same_refuted"
   ],
   "note": "Without imprints meshes are made of exactly the polygons of the layer, two layers share a mesh exactly if they are slices of one layer, numbers are as claimed, and the code throws exactly if a layer has no polygons. Two parts fail: imprints pile up, the mesh of a layer has the polygons of all layers above (c116_imprint says which, with multiplicity); and since pointers are compared, layers with the same polygons have separate meshes unless they come from slicing."
  },
  {
   "property": "C117",
   "status": "partial",
   "theorems": [
    "Ecad.Profile.c117_result_partial",
    "Ecad.Profile.c117_result_none",
    "Ecad.Profile.c117_resolution_refuted",
    "Ecad.Profile.c117_name_refuted",
    "Ecad.Profile.c117_thick_refuted",
    "Ecad.Profile.c117_profile_partial",
    "Ecad.Profile.c117_profile_none",
    "Ecad.Profile.c117_flat_refuted",
    "Ecad.Profile.c117_names_refuted",
    "Ecad.Profile.c117_txt_partial",
    "Ecad.Profile.c117_txt_none",
    "Ecad.Profile.c117_missing_refuted",
    "Ecad.Profile.c117_die_refuted",
    "Ecad.Profile.c117_lines"
   ],
   "note": "Proved for names that are words (empty names allowed in the profiles) and, in the result file, resolutions below ten units. The code violates the rest, each proved as a general family: `RESOLUTION` is written without a blank, so the word and the number run together exactly when the resolution rounds to ten units or more; names that are empty or have blanks change the number of words of a line; elevations and thicknesses, which are already in user units, are multiplied by the unit of a coordinate a second time; a tile narrower than half of the sixth digit of its edge is printed with equal edges; layers without a name get the name of other layers; the profile of a grid model prints the die with six digits after the point but the tiles with six significant digits, so from one metre on the last tile does not end where the die ends; and with a missing fraction it reports failure but leaves a file of four lines."
  },
  {
   "property": "C118",
   "status": "partial",
   "theorems": [
    "Ecad.Bdy.c118_first_partial",
    "Ecad.Bdy.c118_fresh",
    "Ecad.Bdy.c118_set",
    "Ecad.Bdy.c118_stale",
    "Ecad.Bdy.c118_more",
    "Ecad.Bdy.c118_null_refuted",
    "Ecad.Bdy.c118_stale_refuted",
    "Ecad.Bdy.c118_others_refuted",
    "Ecad.Bdy.c118_empty_refuted",
    "Ecad.Bdy.c118_turned_refuted",
    "Ecad.Bdy.c118_cycle_refuted"
   ],
   "note": "Proved: read from layouts that remember nothing wrong, the boundary is a rectangle around all geometry to any depth, the least one when everything lies along the axes, and what is remembered stays right (c118_first_partial, c118_fresh, c118_set). False of the code as a whole, with proofs: the first reading is remembered, so nothing added later counts (c118_stale, c118_stale_refuted); components, padstack instances, bond wires, texts and geometry on layers the layout does not have never count (c118_others_refuted); an instance of a layout without geometry makes the boundary reach to the corners of the empty box (c118_empty_refuted); the box of a turned instance is that of its turned box (c118_turned_refuted); layouts that instantiate each other in a circle are read without end (c118_cycle_refuted). Exact coordinates; the empty box is neutral for the union of boxes (library)."
  },
  {
   "property": "C119",
   "status": "partial",
   "theorems": [
    "Ecad.Bdy.c119_exact",
    "Ecad.Bdy.c119_all_partial",
    "Ecad.Bdy.c119_nets_refuted",
    "Ecad.Bdy.c119_layers_refuted",
    "Ecad.Bdy.c119_null_refuted",
    "Ecad.Bdy.c119_insts_refuted"
   ],
   "note": "Proved: exactly what is drawn (c119_exact), which is what was asked for when nothing is selected (c119_all_partial). False of the code: selections of nets and of layers work the wrong way round, the selected objects are left out and the others drawn (c119_nets_refuted, c119_layers_refuted); a geometry without shape is read through a null pointer (c119_null_refuted); instances and padstack instances are not drawn (c119_insts_refuted). The image writer is not modelled."
  },
  {
   "property": "C120",
   "status": "partial",
   "theorems": [
    "Ecad.Arc.c120_members",
    "Ecad.Arc.c120_save",
    "Ecad.Arc.c120_roundtrip_partial",
    "Ecad.Arc.c120_same_iff",
    "Ecad.Arc.c120_database",
    "Ecad.Arc.c120_stable",
    "Ecad.Arc.c120_registered",
    "Ecad.Arc.c120_files",
    "Ecad.Arc.c120_transform",
    "Ecad.Arc.c120_layout_refuted",
    "Ecad.Arc.c120_grid_refuted",
    "Ecad.Arc.c120_transform_refuted"
   ],
   "note": "The claim is false as it stands: names and uuids of layouts and what was appended to a transformation that had been read are not archived, and a grid thermal model makes Save throw after the file was emptied (all three shown for every such database). Otherwise shown in full: a database without dangling pointers and grid models is saved, and what is loaded is an isomorphic copy of the reachable graph except for the members in an explicit table; it is the same exactly when those members were empty; a second round trip loses nothing more."
  },
  {
   "property": "C121",
   "status": "partial",
   "theorems": [
    "Ecad.PrismS.c121_factor",
    "Ecad.PrismS.c121_prisms",
    "Ecad.PrismS.c121_wires",
    "Ecad.PrismS.c121_wire_total",
    "Ecad.PrismS.c121_right_partial",
    "Ecad.PrismS.c121_refuted",
    "Ecad.PrismS.c121_monitor",
    "Ecad.PrismS.c121_box",
    "Ecad.PrismS.c121_block",
    "Ecad.PrismS.c121_joule"
   ],
   "note": "The claim is false as it stands: the number of metres of a user unit is computed from the number of coordinates of a user unit truncated to an integer, so every length is too small by one factor unless a user unit is a whole number of coordinates (25/25.4 for mils in micrometres), and zero if a user unit is less than a coordinate. Shown exactly for all units, with the square and cube of the factor for areas and volumes; the claim holds exactly for whole quotients. Numbers are exact."
  },
  {
   "property": "C122",
   "status": "partial",
   "theorems": [
    "Ecad.Dump.c122_static",
    "Ecad.Dump.c122_probe_refuted",
    "Ecad.Dump.c122_rounds",
    "Ecad.Dump.c122_matrices",
    "Ecad.Dump.c122_hot_partial",
    "Ecad.Dump.c122_hot_refuted",
    "Ecad.Dump.c122_many_refuted",
    "Ecad.Dump.c122_root_refuted",
    "Ecad.Dump.c122_trans",
    "Ecad.Dump.c122_time_refuted",
    "Ecad.Dump.c122_paths"
   ],
   "note": "The claim is false as it stands: in a layer of one temperature the colour of every cell is computed from the quotient of two zeros; a probe that is not a node ends the run with an exception and leaves a file without an end of line; times that agree in six digits have one text; without a working directory the matrices and the file for prisms go to the root of the file system. The rest is proved for all runs. Numbers are exact and printed with six digits; of pictures the numbers turned into colours are kept."
  },
  {
   "property": "C123",
   "status": "proved",
   "theorems": [
    "Ecad.Balance.c123_steady",
    "Ecad.Balance.c123_constant",
    "Ecad.Balance.c123_static"
   ],
   "note": "Composes the models of C95, C104, C55, C47, C62, C29, C30 and C67. The bounds hold although the extraction looks loss powers up at the wrong temperature (C95), since each value looked up lies between the samples. Components that reach the bounds of the grid, heat flux conditions and block powers are excluded: C95, C47 and C67 show what goes wrong there. The interpolator is assumed to stay between the samples, the linear solver to solve its system."
  },
  {
   "property": "C124",
   "status": "proved",
   "theorems": [
    "Ecad.PrismBal.c124_steady",
    "Ecad.PrismBal.c124_constant",
    "Ecad.PrismBal.c124_static"
   ],
   "note": "Composes extraction, bond wires, network builder, steady state and the iteration of the static solver. Exact arithmetic; the linear solver is assumed to solve the systems given to it."
  },
  {
   "property": "C125",
   "status": "proved",
   "theorems": [
    "Ecad.StackBal.c125_steady",
    "Ecad.StackBal.c125_constant",
    "Ecad.StackBal.c125_static"
   ],
   "note": "Composes extraction, contacts, bond wires, network builder, steady state and the iteration of the static solver. A prism exposed on both sides gives off heat on its bottom only, as the code has it (C77). Exact arithmetic; what the geometry library computes for triangles and the linear solver are assumed correct."
  },
  {
   "property": "C126",
   "status": "proved",
   "theorems": [
    "Ecad.Response.c126_superposition",
    "Ecad.Response.c126_monotone",
    "Ecad.Response.c126_reciprocity",
    "Ecad.Response.c126_hottest",
    "Ecad.Response.c126_cooling",
    "Ecad.Response.c126_conduction",
    "Ecad.Response.c126_probe"
   ],
   "note": "For the system assembled by makeMNA and makeRhs; the linear solver is the library's (Solves)."
  },
  {
   "property": "C127",
   "status": "proved",
   "theorems": [
    "Ecad.Decay.c127_approach",
    "Ecad.Decay.c127_steady",
    "Ecad.Decay.c127_comparison",
    "Ecad.Decay.c127_heating"
   ],
   "note": "For exact courses of the derivative (Solver::operator()); the steps of the integrator are the library's. Nodes without capacity are not covered: they keep their temperature (C60)."
  },
  {
   "property": "C128",
   "status": "partial",
   "theorems": [
    "Ecad.User.c128_shapes",
    "Ecad.User.c128_order",
    "Ecad.User.c128_shift_partial",
    "Ecad.User.c128_shift_refuted",
    "Ecad.User.c128_size",
    "Ecad.User.c128_size_refuted",
    "Ecad.User.c128_coords",
    "Ecad.User.c128_pins"
   ],
   "note": "Partial because the code is not invariant under moves: truncation is towards zero (exact condition proved, and that every coordinate off the grid has a move that is not followed). A last coordinate without partner is dropped. Rounding of corners and of transformed points is the library's (any rounding by less than one)."
  },
  {
   "property": "C129",
   "status": "proved",
   "theorems": [
    "Ecad.Converge.c129_round",
    "Ecad.Converge.c129_unique",
    "Ecad.Converge.c129_converges",
    "Ecad.Converge.c129_constant",
    "Ecad.Converge.c129_exists",
    "Ecad.Converge.c129_runaway_refuted",
    "Ecad.Converge.c129_grid",
    "Ecad.Converge.c129_grid_static",
    "Ecad.Converge.c129_prism",
    "Ecad.Converge.c129_prism_static",
    "Ecad.Converge.c129_stack",
    "Ecad.Converge.c129_stack_static"
   ],
   "note": "Exact arithmetic. The linear solver is assumed to solve networks with the resistances of the model exactly (C30 shows there is one solution). Models whose conductivities depend on the temperature are outside the claim. c129_runaway_refuted shows that convergence fails beyond the threshold."
  },
  {
   "property": "C130",
   "status": "partial",
   "theorems": [
    "Ecad.GridObj.c130_append",
    "Ecad.GridObj.c130_fractions",
    "Ecad.GridObj.c130_linked",
    "Ecad.GridObj.c130_index",
    "Ecad.GridObj.c130_region",
    "Ecad.GridObj.c130_thickness_partial",
    "Ecad.GridObj.c130_range",
    "Ecad.GridObj.c130_range_query",
    "Ecad.GridObj.c130_interpolation",
    "Ecad.GridObj.c130_constant",
    "Ecad.GridObj.c130_keys",
    "Ecad.GridObj.c130_fraction_refuted",
    "Ecad.GridObj.c130_scale_refuted",
    "Ecad.GridObj.c130_thickness_refuted",
    "Ecad.GridObj.c130_range_refuted"
   ],
   "note": "Partial because the code accepts negative thicknesses over references (c130_thickness_refuted), a zero scale (c130_scale_refuted), refuses metal fractions for layers without one (c130_fraction_refuted) and turns the range of an empty table around (c130_range_refuted). MaxOccupancy and operator!= of the library are taken to compare all cells; the interpolator of the library is taken to stay between its points."
  },
  {
   "property": "C131",
   "status": "partial",
   "theorems": [
    "Ecad.XflI.c131_ends_partial",
    "Ecad.XflI.c131_layers",
    "Ecad.XflI.c131_nets",
    "Ecad.XflI.c131_path",
    "Ecad.XflI.c131_polygon",
    "Ecad.XflI.c131_via",
    "Ecad.XflI.c131_only",
    "Ecad.XflI.c131_boundary",
    "Ecad.XflI.c131_order",
    "Ecad.XflI.c131_refused",
    "Ecad.XflI.c131_unset_refuted",
    "Ecad.XflI.c131_units_refuted"
   ],
   "note": "Proved from the text of the file to the database by composing the reader (C105-C107) with the import steps (C85-C90). Which files are imported is exact: all others of the format end in undefined behaviour (units or scale never set, two usable vias of one name, an outline that is a template shape), hence partial. Refuted: any text ending with a line is accepted and then units or scale are read uninitialised; every unit word other than inch is taken for millimetre."
  },
  {
   "property": "C132",
   "status": "partial",
   "theorems": [
    "Ecad.GdsD.c132_flat_partial",
    "Ecad.GdsD.c132_chains",
    "Ecad.GdsD.c132_names",
    "Ecad.GdsD.c132_null",
    "Ecad.GdsD.c132_cycle",
    "Ecad.GdsD.c132_width_refuted",
    "Ecad.GdsD.c132_turned_refuted"
   ],
   "note": "False of the code in general: arrays place three copies (C45), angles in degrees are taken as radians and mirroring is dropped (c132_turned_refuted), the width of a path on one layer is not magnified while on two layers it is (c132_width_refuted), circular files are taken and never flattened (c132_cycle). Proved from the bytes on for files without these (c132_flat_partial); c132_chains says that the recursive drawing of the statement consists of the elements at the ends of all chains."
  },
  {
   "property": "C133",
   "status": "partial",
   "theorems": [
    "Ecad.KiCad.c133_board_partial",
    "Ecad.KiCad.c133_objects_refuted",
    "Ecad.KiCad.c133_taken",
    "Ecad.KiCad.c133_failed_refuted"
   ],
   "note": "Composes the reader (C46), the extraction (C108) and the creation of layers and nets (C72). Proved: layers, nets, names and registry for every text of a board in order. False of the code: CreateEcadObjects puts nothing but layers and nets into the layout (c133_objects_refuted); a failed import keeps its name, so that it cannot be repeated (c133_failed_refuted); the order of the layers is that of a hash map (c72_order_refuted)."
  },
  {
   "property": "C134",
   "status": "partial",
   "theorems": [
    "Ecad.LayoutResponse.c134_steady",
    "Ecad.LayoutResponse.c134_static",
    "Ecad.LayoutResponse.c134_power",
    "Ecad.LayoutResponse.c134_unique",
    "Ecad.LayoutResponse.c134_together",
    "Ecad.LayoutResponse.c134_scaled",
    "Ecad.LayoutResponse.c134_reciprocity",
    "Ecad.LayoutResponse.c134_cooling",
    "Ecad.LayoutResponse.c134_metal",
    "Ecad.LayoutResponse.c134_wires_refuted"
   ],
   "note": "All laws but that of bond wires hold. The network takes conductivity times cross section over length as the resistance of a wire, so that the law of wires holds in the opposite direction (c134_wires_refuted). Arithmetic is exact; the linear solver is assumed to solve the systems given to it."
  },
  {
   "property": "C135",
   "status": "partial",
   "theorems": [
    "Ecad.Dmc.c135_design",
    "Ecad.Dmc.c135_level",
    "Ecad.Dmc.c135_reject",
    "Ecad.Dmc.c135_via_refuted",
    "Ecad.Dmc.c135_empty_refuted",
    "Ecad.Dmc.c135_boundary_refuted"
   ],
   "note": "c135_design is the whole statement but for the boundary, which is that of the boxes written in the records and not of the points (c135_boundary_refuted). Vias whose signal layer has no outline, as all vias written V, make the import throw and leave the database behind, so that the name cannot be imported again (c135_via_refuted); without outlines the import is undefined (c135_empty_refuted)."
  },
  {
   "property": "C136",
   "status": "proved",
   "theorems": [
    "Ecad.Course.c136_course",
    "Ecad.Course.c136_steady",
    "Ecad.Course.c136_rise",
    "Ecad.Course.c136_excitation",
    "Ecad.Course.c136_power",
    "Ecad.Course.c136_cooling",
    "Ecad.Course.c136_together",
    "Ecad.Course.c136_energy"
   ],
   "note": "From the extraction of the grid model (C104, C123) over the building of the network (C61, C62) to the derivative (C60) over the reals. The integrator of the library is replaced by the exact solution of the differential equation; the excitation is one function for all cells, as no cell of a grid model has a scenario (what the code makes of that is C137). The capacity is that of the code: the density of metal is used for both materials (C61)."
  },
  {
   "property": "C137",
   "status": "partial",
   "theorems": [
    "Ecad.Scen.c137_nearest",
    "Ecad.Scen.c137_kept",
    "Ecad.Scen.c137_scenario_partial",
    "Ecad.Scen.c137_exact",
    "Ecad.Scen.c137_none_refuted",
    "Ecad.Scen.c137_odd_refuted",
    "Ecad.Scen.c137_reduced",
    "Ecad.Scen.c137_grid_refuted",
    "Ecad.Scen.c137_layout_refuted",
    "Ecad.Scen.c137_prism_partial",
    "Ecad.Scen.c137_flux_refuted",
    "Ecad.Scen.c137_stack_partial",
    "Ecad.Scen.c137_stack_refuted"
   ],
   "note": "The full solver keeps the scenarios in a vector of Float32. c137_exact says for which networks the claim holds: exactly those whose heated nodes have scenarios a Float32 can hold. False of the code: a scenario above 2^24 that is odd is replaced by an even one (c137_odd_refuted), and the rates are undefined exactly if some heated node has one of the last 2^39 scenarios (c137_none_refuted), such as the default, which stands for none: so for every grid model with heat, as its builder sets no scenario (c137_grid_refuted, c137_layout_refuted), and for prism models with a heat flux into a prism without a power (c137_flux_refuted, c137_stack_refuted). Holds of the reduced solver and of prism models without heat fluxes and scenarios up to 2^24. Exact arithmetic except for the scenarios."
  },
  {
   "property": "C138",
   "status": "proved",
   "theorems": [
    "Ecad.PrismResp.c138_exists",
    "Ecad.PrismResp.c138_static",
    "Ecad.PrismResp.c138_unique",
    "Ecad.PrismResp.c138_power",
    "Ecad.PrismResp.c138_superposition",
    "Ecad.PrismResp.c138_reciprocity",
    "Ecad.PrismResp.c138_hottest",
    "Ecad.PrismResp.c138_cooling",
    "Ecad.PrismResp.c138_materials"
   ],
   "note": "Composes extraction, bond wires, network builder, steady state and static solver. Steady temperatures are solutions of the network built for any temperatures before; powers in c138_power may depend on the temperature as long as those of the second model are never below those of the first. Exact arithmetic; the linear solver is assumed to solve the systems given to it. The prisms are those of the extraction modelled for C124."
  },
  {
   "property": "C139",
   "status": "proved",
   "theorems": [
    "Ecad.StackResp.c139_exists",
    "Ecad.StackResp.c139_static",
    "Ecad.StackResp.c139_unique",
    "Ecad.StackResp.c139_power",
    "Ecad.StackResp.c139_superposition",
    "Ecad.StackResp.c139_reciprocity",
    "Ecad.StackResp.c139_hottest",
    "Ecad.StackResp.c139_cooling",
    "Ecad.StackResp.c139_materials"
   ],
   "note": "Composes extraction, contacts, bond wires, network builder, steady state and static solver. Cooling is compared between models with boundary conditions on the same sides: where a prism has exposed top and bottom the code takes the last coefficient only (C77), so that a new condition on the bottom can replace a better one on the top. Exact arithmetic; the linear solver is assumed to solve the systems given to it."
  },
  {
   "property": "C140",
   "status": "proved",
   "theorems": [
    "Ecad.PrismCourse.c140_course",
    "Ecad.PrismCourse.c140_steady",
    "Ecad.PrismCourse.c140_rise",
    "Ecad.PrismCourse.c140_power",
    "Ecad.PrismCourse.c140_cooling",
    "Ecad.PrismCourse.c140_superposition",
    "Ecad.PrismCourse.c140_energy"
   ],
   "note": "The network is built once, for the temperature of the surroundings, as the transient solver does when it does not update the network. Excitations are by element, so that those by scenario (C137) are a case. Exact arithmetic and exact integration; the integration itself is not modelled."
  },
  {
   "property": "C141",
   "status": "proved",
   "theorems": [
    "Ecad.StackCourse.c141_course",
    "Ecad.StackCourse.c141_steady",
    "Ecad.StackCourse.c141_rise",
    "Ecad.StackCourse.c141_power",
    "Ecad.StackCourse.c141_cooling",
    "Ecad.StackCourse.c141_superposition",
    "Ecad.StackCourse.c141_energy"
   ],
   "note": "As C140, with the contacts of C76 and the exposed faces of C77. Cooling is compared between models with boundary conditions on the same sides, as in C139."
  },
  {
   "property": "C142",
   "status": "partial",
   "theorems": [
    "Ecad.Mat.c142_prop",
    "Ecad.Mat.c142_conductivity_partial",
    "Ecad.Mat.c142_scalar_partial",
    "Ecad.Mat.c142_network_partial",
    "Ecad.Mat.c142_stack_partial",
    "Ecad.Mat.c142_fluid",
    "Ecad.Mat.c142_tensor_refuted",
    "Ecad.Mat.c142_table_refuted",
    "Ecad.Mat.c142_missing_refuted",
    "Ecad.Mat.c142_stack_missing_refuted",
    "Ecad.Mat.c142_copy_refuted",
    "Ecad.Mat.c142_copied_refuted"
   ],
   "note": "Proved for materials whose first conductivity has one or three values or polynomials and whose other first properties have one. False of the code: a second setting is ignored (C11); of a tensor the first column is used, so that a diagonal tensor does not conduct in two of the axes; tables are read uninitialised or as zero; a missing property is a null pointer; in the copy of a database every lookup is one, since the table of ids is not copied. The lookups are made before the network is changed instead of in between."
  },
  {
   "property": "C143",
   "status": "proved",
   "theorems": [
    "Ecad.LayoutPrism.c143_blocks",
    "Ecad.LayoutPrism.c143_material",
    "Ecad.LayoutPrism.c143_steady",
    "Ecad.LayoutPrism.c143_constant",
    "Ecad.LayoutPrism.c143_static",
    "Ecad.LayoutPrism.c143_stack",
    "Ecad.LayoutPrism.c143_stack_static"
   ],
   "note": "For layouts in which what heats is more than two height units thick, made of a rigid material and seen by the mesh (the triangles with centre in it have its area, polygons around it in its layer are greater), cooled on one face, without heat flux conditions. Outside of this the claim is false of the code: c96_joint_twice_refuted, c96_thin_refuted, c114_*_refuted."
  },
  {
   "property": "C144",
   "status": "proved",
   "theorems": [
    "Ecad.LayoutPrism.c144_geometry",
    "Ecad.LayoutPrism.c144_power",
    "Ecad.LayoutPrism.c144_stack_power",
    "Ecad.LayoutPrism.c144_course",
    "Ecad.LayoutPrism.c144_stack_course",
    "Ecad.LayoutPrism.c144_superposition",
    "Ecad.LayoutPrism.c144_stack_superposition"
   ],
   "note": "For the layouts and models of C143, conductivities and resistivities that do not depend on the temperature (loss powers may, for monotonicity every entry of the greater table is at least every entry of the other). Which components have a loss power and which wires a positive current is the same in all cases: this decides where layers are cut (an example shows it), so that models are else not comparable element by element."
  },
  {
   "property": "C145",
   "status": "proved",
   "theorems": [
    "Ecad.Named.c145_element",
    "Ecad.Named.c145_network",
    "Ecad.Named.c145_stack_network",
    "Ecad.Named.c145_power",
    "Ecad.Named.c145_stack_power",
    "Ecad.Named.c145_static",
    "Ecad.Named.c145_stack_static",
    "Ecad.Named.c145_joint_refuted"
   ],
   "note": "The layouts of the claim are spelled out in NReady (layers numbered by position, objects with outlines on stackup layers, every name used was made a material, what heats is more than two height units thick and not a fluid, solder joints with a current have a resistivity); Known says which properties were given. c145_joint_refuted: for a solder whose resistivity depends on the temperature the table of the joint gives, at 298.15 K, the heat of the resistivity at the number 25 (degrees Celsius), while the network evaluates the resistivity of the same material at kelvins, so the two disagree; this is why the last part is stated for resistivities that do not depend on the temperature."
  },
  {
   "property": "C146",
   "status": "proved",
   "theorems": [
    "Ecad.Summary.c146_grid_heat",
    "Ecad.Summary.c146_prism_heat",
    "Ecad.Summary.c146_stack_heat",
    "Ecad.Summary.c146_grid",
    "Ecad.Summary.c146_prism",
    "Ecad.Summary.c146_stack",
    "Ecad.Summary.c146_joule",
    "Ecad.Summary.c146_steady",
    "Ecad.Summary.c146_signs",
    "Ecad.Summary.c146_boundary",
    "Ecad.Summary.c146_boundary_refuted",
    "Ecad.Summary.c146_flux_refuted",
    "Ecad.Summary.c146_negative_refuted",
    "Ecad.Summary.c146_nodes",
    "Ecad.Summary.c146_threads",
    "Ecad.Summary.c146_threads_refuted"
   ],
   "note": "The summary is modelled by what each call on the network does to it, as every update stands next to such a call. c146_flux_refuted, c146_boundary_refuted, c146_negative_refuted, the grid part of c146_nodes and c146_threads_refuted are the cases where the summary does not say what the network has. In C++ the unsynchronised += of several threads is a data race and so undefined; the model takes the mildest reading (read, then write). All callers in the repository use one thread."
  },
  {
   "property": "C147",
   "status": "proved",
   "theorems": [
    "Ecad.Step.c147_course",
    "Ecad.Step.c147_rise",
    "Ecad.Step.c147_energy",
    "Ecad.Step.c147_constant",
    "Ecad.Step.c147_standstill",
    "Ecad.Step.c147_power",
    "Ecad.Step.c147_bound",
    "Ecad.Step.c147_heating",
    "Ecad.Step.c147_limit",
    "Ecad.Step.c147_runaway",
    "Ecad.Step.c147_prism_builds",
    "Ecad.Step.c147_prism",
    "Ecad.Step.c147_stack_builds",
    "Ecad.Step.c147_stack",
    "Ecad.Step.c147_grid",
    "Ecad.Step.c147_fate",
    "Ecad.Step.exOne_fate"
   ],
   "note": "As in C136 the time integration inside a step is the exact solution of the differential equation the code hands to the integrator, in place of the Runge-Kutta steps of boost. The rebuilding at multiples of the step is as in the code; times are exact. exOne_fate is an example: one prism cooled with 2 W/K whose power grows by q W/K stays bounded exactly for q < 2."
  },
  {
   "property": "C148",
   "status": "partial",
   "theorems": [
    "Ecad.Cache2.c148_grid",
    "Ecad.Cache2.c148_prism",
    "Ecad.Cache2.c148_unchanged_partial",
    "Ecad.Cache2.c148_other",
    "Ecad.Cache2.c148_forced_refuted",
    "Ecad.Cache2.c148_first_refuted",
    "Ecad.Cache2.c148_refines",
    "Ecad.Cache2.c148_cut_keeps",
    "Ecad.LayoutPrism.c148_power_refuted"
   ],
   "note": "False of the code for prism models after a change of the layout; the negation is proved for all layouts and histories, with an exact condition for when it shows. c148_power_refuted follows it to the power the model gives off."
  },
  {
   "property": "C149",
   "status": "partial",
   "theorems": [
    "Ecad.Sketch.c149_least",
    "Ecad.Sketch.c149_kept",
    "Ecad.Sketch.c149_series",
    "Ecad.Sketch.c149_mesh_refuted",
    "Ecad.Sketch.c149_mixed_refuted",
    "Ecad.Sketch.c149_calls",
    "Ecad.Sketch.c149_which",
    "Ecad.Sketch.c149_reused_refuted"
   ],
   "note": "False of the code for meshes and for calls answered from the cache; both negations are proved in general. Writing is assumed to succeed, and nobody else writes into the directory meanwhile."
  },
  {
   "property": "C150",
   "status": "partial",
   "theorems": [
    "Ecad.Mid.c150_steady",
    "Ecad.Mid.c150_order",
    "Ecad.Mid.c150_excitation",
    "Ecad.Mid.c150_heating",
    "Ecad.Mid.c150_approach",
    "Ecad.Mid.c150_limit",
    "Ecad.Mid.c150_mode",
    "Ecad.Mid.c150_energy",
    "Ecad.Mid.c150_stable",
    "Ecad.Mid.c150_fine",
    "Ecad.Mid.c150_run",
    "Ecad.Mid.c150_run_range",
    "Ecad.Mid.c150_models",
    "Ecad.Mid.c150_forget",
    "Ecad.Mid.c150_course",
    "Ecad.Mid.c150_pulses",
    "Ecad.Mid.c150_coarse_refuted",
    "Ecad.Mid.c150_node_refuted"
   ],
   "note": "False of the code for sampling intervals that are long against the time constant of a node; the negation is proved for all networks, and the exact condition. The stepper (modified midpoint, two substeps) belongs to boost and is modelled from its documentation."
  },
  {
   "property": "C151",
   "status": "partial",
   "theorems": [
    "Ecad.WireT.c151_prism",
    "Ecad.WireT.c151_stack",
    "Ecad.WireT.c151_series",
    "Ecad.WireT.c151_stack_series",
    "Ecad.WireT.c151_hot_refuted",
    "Ecad.WireT.c151_stack_hot_refuted"
   ],
   "note": "The last sentence is false of the code: the builder takes the conductivity of the second segment at the temperature of the first; proved to be right exactly if the material conducts equally at both temperatures. The rest is proved in full."
  },
  {
   "property": "C152",
   "status": "partial",
   "theorems": [
    "Ecad.Env.c152_unit",
    "Ecad.Env.c152_static",
    "Ecad.Env.c152_prism",
    "Ecad.Env.c152_stack",
    "Ecad.Env.c152_grid",
    "Ecad.Env.c152_course",
    "Ecad.Env.c152_prism_course",
    "Ecad.Env.c152_stack_course",
    "Ecad.Env.c152_steps",
    "Ecad.Env.c152_refuted",
    "Ecad.Env.c152_ignored",
    "Ecad.Env.c152_rebuilt"
   ],
   "note": "The last sentence is false of the code: the temperature in the settings of an extraction is read by their comparison only, so that another value leaves all results as they are and merely throws kept models away. Properties that depend on temperature are excluded; c152_refuted shows that they have to be. The adaptive integrator, a library, is not covered by c152_steps, and the extremes of the transient result are not stated (they start from the greatest number)."
  },
  {
   "property": "C153",
   "status": "partial",
   "theorems": [
    "Ecad.Session.c153_free",
    "Ecad.Session.c153_taken",
    "Ecad.Session.c153_others",
    "Ecad.Session.c153_registry",
    "Ecad.Session.c153_content",
    "Ecad.Session.c153_success",
    "Ecad.Session.c153_again",
    "Ecad.Session.c153_gds_same",
    "Ecad.Session.c153_xfl_same",
    "Ecad.Session.c153_failed_partial",
    "Ecad.Session.c153_stuck",
    "Ecad.Session.c153_gds_refuted",
    "Ecad.Session.c153_kicad_refuted"
   ],
   "note": "All of the statement is proved for sessions without undefined behaviour, except that failed imports leave the registry as it was: that holds for XFL and DMC files (`c153_failed_partial`), but a GDSII import whose layer map file cannot be read and a KiCad import whose file cannot be opened return null and leave an empty database under the name (`c153_gds_refuted`, `c153_kicad_refuted`), so that all later imports under the name return null until it is removed (`c153_stuck`)."
  },
  {
   "property": "C154",
   "status": "partial",
   "theorems": [
    "Ecad.LinSolve.c154_spd",
    "Ecad.LinSolve.c154_direct",
    "Ecad.LinSolve.c154_agree",
    "Ecad.LinSolve.c154_steady",
    "Ecad.LinSolve.c154_cg",
    "Ecad.LinSolve.c154_cg_exact",
    "Ecad.LinSolve.c154_cg_alone",
    "Ecad.LinSolve.c154_cg_balance",
    "Ecad.LinSolve.c154_default",
    "Ecad.LinSolve.c154_default_refuted",
    "Ecad.LinSolve.c154_uncooled_refuted"
   ],
   "note": "Exact arithmetic: rounding is not modelled. The factorisations and the iteration are modelled from general knowledge of Eigen, neither whose source nor documentation was at hand; SparseLU enters as a solver that solves systems with one solution, the elimination order and the threshold as parameters. The code does not ask any solver whether it succeeded: for networks with a part that is not cooled the matrix is not positive definite and LLT fails in every order (c154_uncooled_refuted), while the code uses what the library left behind. A solver type outside the enumeration gives the temperatures of the environment without any message (c154_default_refuted). That grid, prism and stackup models give networks with every node connected to a cooled one is C62, C64 and C78."
  },
  {
   "property": "C155",
   "status": "partial",
   "theorems": [
    "Ecad.L2C.c155_read",
    "Ecad.L2C.c155_close",
    "Ecad.L2C.c155_words_refuted",
    "Ecad.L2C.c155_twice"
   ],
   "note": "Of a layout in which two stackup layers have the same name nothing is written (c155_twice). Proved for layers whose name is one word of at most twenty bytes that does not begin with a closing brace, in stackups not thicker than a hundred kilometres (c155_read; numbers come back up to a millionth, c155_close). It fails whenever a name consists of several words, like `Top Layer`: the files are written without a complaint, and the reader rejects them because the line of the layers has more items than it says (c155_words_refuted). The outermost dielectric layers come back with the layer `None` as a neighbour. Thickness and place of the tiles have the faults of C103, which are in the model before it is written. Packing and unpacking the files is left to the tool `tar` and is not modelled."
  },
  {
   "property": "C156",
   "status": "proved",
   "theorems": [
    "Ecad.WireHeat.c156_prism",
    "Ecad.WireHeat.c156_stack",
    "Ecad.WireHeat.c156_fourier",
    "Ecad.WireHeat.c156_balance",
    "Ecad.WireHeat.kirchhoff"
   ],
   "note": "Over exact arithmetic. The segments have one temperature when the network is built, as at the start of an iteration; with different temperatures the resistances themselves have the fault of C151."
  },
  {
   "property": "C157",
   "status": "partial",
   "theorems": [
    "Ecad.Wall.c157_grid_partial",
    "Ecad.Wall.c157_surface_refuted",
    "Ecad.Wall.c157_prism_partial",
    "Ecad.Wall.c157_prism_surface_refuted",
    "Ecad.Wall.c157_stack_partial",
    "Ecad.Wall.c157_stack_surface_refuted",
    "Ecad.Wall.even_flux",
    "Ecad.Wall.evenP_flux",
    "Ecad.Wall.layered"
   ],
   "note": "The statement as a whole is refuted: the coefficient is put on the node in the middle of the first layer, so the resistance of its upper half is missing and all layers are too cold by the heat per area times that resistance, unless no heat flows (c157_surface_refuted, c157_prism_surface_refuted, c157_stack_surface_refuted). Proved: the temperatures are even in each layer, and the rises from layer to layer are those of the wall (c157_grid_partial, c157_prism_partial, c157_stack_partial). In stackup models the heat comes from powers only, since a flux at the bottom of the last layer is not multiplied by the area (C77). Over exact arithmetic; each cell or prism has at most one source of heat, since further ones replace it (C47)."
  },
  {
   "property": "C158",
   "status": "partial",
   "theorems": [
    "Ecad.PMerge.c158_names",
    "Ecad.PMerge.c158_vtk",
    "Ecad.PMerge.c158_vtk_fails",
    "Ecad.PMerge.c158_png_partial",
    "Ecad.PMerge.c158_png_refuted",
    "Ecad.PMerge.c158_merge"
   ],
   "note": "Proved in full for the VTK files (c158_vtk, c158_vtk_fails: after a failure the remaining layers are not written) and for the files and contents of the pictures (c158_png_partial, c158_merge). Refuted for the result of the pictures: success is reported even if none could be written (c158_png_refuted). The writers of the library are a function that says which files can be written; a file is the list of its polygons."
  },
  {
   "property": "C159",
   "status": "proved",
   "theorems": [
    "Ecad.Thermal.Range.c159_range",
    "Ecad.Thermal.Range.c159_none",
    "Ecad.Thermal.Range.c159_set"
   ],
   "note": "Exact arithmetic; temperatures are numbers from minus the largest number to below the largest number, which marks an unknown temperature. The functions are not called elsewhere in the repository."
  }
 ]
}