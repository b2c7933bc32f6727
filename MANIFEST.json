{"claims": [
 {"property": "C01", "status": "proved", "theorems": ["Verif.Props.C01_rotate_exact", "Verif.Props.C01_rotate_compose", "Verif.Props.C01_full_turn", "Verif.Props.C01_rotate_norm"], "note": ""},
 {"property": "C02", "status": "proved", "theorems": ["Verif.Props.C02_cardinals", "Verif.Props.C02_rotate_direction", "Verif.Props.C02_cardinal_compose"], "note": ""},
 {"property": "C03", "status": "proved", "theorems": ["Verif.Props.C03_offset_rotate_exact", "Verif.Props.C03_center_fixed", "Verif.Props.C03_offset_rotate_inverse", "Verif.Props.C03_offset_rotate_isometry", "Verif.Props.C03_tile_to_tile"], "note": ""},
 {"property": "C04", "status": "proved", "theorems": ["Verif.Props.C04_add_sub_exact", "Verif.Props.C04_add_laws"], "note": ""},
 {"property": "C05", "status": "partial", "theorems": ["Verif.Props.C05_eq_same_position", "Verif.Props.C05_eq_equivalence", "Verif.Props.C05_hash_respects_eq_partial", "Verif.Props.C05_hash_cross_class_differs", "Verif.Props.C05_hash_respects_eq_false"], "note": "Equality is position equality and an equivalence. Hash agreement holds inside one class; the general claim is refuted (C05_hash_respects_eq_false): equal coarse and fine vectors hash differently."},
 {"property": "C06", "status": "partial", "theorems": ["Verif.Props.C06_lt_strict", "Verif.Props.C06_trichotomy_partial", "Verif.Props.C06_trichotomy_false", "Verif.Props.C06_le_total_partial"], "note": "Strictness holds in general. Trichotomy and totality hold inside one class; the general claim is refuted (C06_trichotomy_false)."},
 {"property": "C07", "status": "proved", "theorems": ["Verif.Props.C07_coarse_unique_cell", "Verif.Props.C07_coarse_total", "Verif.Props.C07_coarse_fine"], "note": ""},
 {"property": "C08", "status": "proved", "theorems": ["Verif.Props.C08_rotate_yaw_exact", "Verif.Props.C08_rotate_yaw_compose", "Verif.Props.C08_rotate_yaw_rejects"], "note": ""},
 {"property": "C09", "status": "proved", "theorems": ["Verif.Props.C09_get_point", "Verif.Props.C09_entries"], "note": ""},
 {"property": "C10", "status": "proved", "theorems": ["Verif.Props.C10_bounds_exact", "Verif.Props.C10_bounds_enclose"], "note": ""},
 {"property": "C11", "status": "proved", "theorems": ["Verif.Props.C11_octree_exact"], "note": ""},
 {"property": "C12", "status": "proved", "theorems": ["Verif.Props.C12_canonical", "Verif.Props.C12_content_only"], "note": ""},
 {"property": "C13", "status": "partial", "theorems": ["Verif.Props.C13_terminates", "Verif.Props.C13_diverges", "Verif.Props.C13_size_one", "Verif.Props.C13_lossy", "Verif.Props.C13_any_size_false", "Verif.Props.C13_any_size_partial"], "note": "Conversion ends for every positive size. It is exact for powers of two from 2 on; for every other size at least one in-range block is lost (C13_lossy), so the full claim is refuted (C13_any_size_false)."},
 {"property": "C14", "status": "proved", "theorems": ["Verif.Props.C14_ivec5", "Verif.Props.C14_path"], "note": ""},
 {"property": "C15", "status": "proved", "theorems": ["Verif.Props.C15_int", "Verif.Props.C15_int_onto", "Verif.Props.C15_ushort", "Verif.Props.C15_byte", "Verif.Props.C15_chr", "Verif.Props.C15_str", "Verif.Props.C15_short"], "note": ""},
 {"property": "C16", "status": "partial", "theorems": ["Verif.Props.C16_value", "Verif.Props.C16_integers", "Verif.Props.C16_bits_partial", "Verif.Props.C16_stable", "Verif.Props.C16_bits_false"], "note": "Every representable value and every integer up to 2^24 survives; bit patterns survive except signalling NaNs (C16_bits_false), which become quiet."},
 {"property": "C17", "status": "proved", "theorems": ["Verif.Props.C17_cube", "Verif.Props.C17_world"], "note": ""},
 {"property": "C18", "status": "partial", "theorems": ["Verif.Props.C18_wf", "Verif.Props.C18_built_partial", "Verif.Props.C18_built_false"], "note": "Every well-formed entity survives. Entities from the library's constructors are well formed except some argument values, e.g. team 1 player starts (C18_built_false)."},
 {"property": "C19", "status": "proved", "theorems": ["Verif.Props.C19_round_trip"], "note": ""},
 {"property": "C20", "status": "partial", "theorems": ["Verif.Props.C20_stable_partial", "Verif.Props.C20_counted", "Verif.Props.C20_stable_false"], "note": "Holds when the header counts agree with the contents; with other entity counts the count is corrected (C20_counted); refuted for repeated variable names (C20_stable_false)."},
 {"property": "C21", "status": "proved", "theorems": ["Verif.Props.C21_truncated", "Verif.Props.C21_prefix"], "note": ""},
 {"property": "C22", "status": "proved", "theorems": ["Verif.Props.C22_numents"], "note": ""},
 {"property": "C23", "status": "partial", "theorems": ["Verif.Props.C23_numvars_partial", "Verif.Props.C23_numvars_false"], "note": "The field is the stored metadata value; adding a variable does not update it (C23_numvars_false)."},
 {"property": "C24", "status": "partial", "theorems": ["Verif.Props.C24_rejected_partial", "Verif.Props.C24_rejected_false"], "note": "Magic, variable types, entity types, attribute counts and weapon numbers are always checked; unknown cube tags are accepted (C24_rejected_false)."},
 {"property": "C25", "status": "proved", "theorems": ["Verif.Props.C25_terminates"], "note": ""},
 {"property": "C26", "status": "partial", "theorems": ["Verif.Props.C26_rewritable_partial", "Verif.Props.C26_rewritable_false"], "note": "Exact criterion for the maps that can be written back; the general claim is refuted (C26_rewritable_false)."},
 {"property": "C27", "status": "partial", "theorems": ["Verif.Props.C27_pipeline_partial", "Verif.Props.C27_corner_empty", "Verif.Props.C27_pipeline_false"], "note": "Holds for power-of-two sizes from 4 on, world sizes up to 8192, and a block in the corner octant. With an empty corner octant the written file can never be read (C27_corner_empty), so the full claim is refuted (C27_pipeline_false)."},
 {"property": "C28", "status": "partial", "theorems": ["Verif.Props.C28_slots_partial", "Verif.Props.C28_slots_false"], "note": "Holds for run lists; explicit slots are read but neither kept nor written (C28_slots_false)."},
 {"property": "C29", "status": "partial", "theorems": ["Verif.Props.C29_skybox_partial", "Verif.Props.C29_never_read", "Verif.Props.C29_unreadable", "Verif.Props.C29_skybox_false"], "note": "The map stays writable, but no file is read back with a skybox (C29_never_read), and with variables present the file cannot be read (C29_unreadable)."},
 {"property": "C30", "status": "proved", "theorems": ["Verif.Props.C30_exact", "Verif.Props.C30_loaded"], "note": ""},
 {"property": "C31", "status": "partial", "theorems": ["Verif.Props.C31_dict_partial", "Verif.Props.C31_files", "Verif.Props.C31_entities", "Verif.Props.C31_map_model", "Verif.Props.C31_same_file", "Verif.Props.C31_dict_false"], "note": "Exact condition for the dictionary form to give back the map (C31_dict_partial): no entities, no cubes, no byte strings in the header. Never true for a map read from a file (C31_files), so the full claim is refuted (C31_dict_false)."},
 {"property": "C32", "status": "proved", "theorems": ["Verif.Props.C32_no_overlap", "Verif.Props.C32_no_overlap_after_failures"], "note": ""},
 {"property": "C33", "status": "proved", "theorems": ["Verif.Props.C33_open_doors", "Verif.Props.C33_doors_of_rooms"], "note": ""},
 {"property": "C34", "status": "proved", "theorems": ["Verif.Props.C34_precheck", "Verif.Props.C34_precheck_complete"], "note": ""},
 {"property": "C35", "status": "partial", "theorems": ["Verif.Props.C35_atomic_partial", "Verif.Props.C35_left_behind", "Verif.Props.C35_atomic_false", "Verif.Props.C35_cells_left_behind"], "note": "With mirror 1 only the room list grows (C35_atomic_partial); C35_left_behind says exactly what stays for any mirror mode. The full claim is refuted (C35_atomic_false, C35_cells_left_behind; from a fresh manager also C39_broken_by_exception)."},
 {"property": "C36", "status": "proved", "theorems": ["Verif.Props.C36_terminates", "Verif.Props.C36_count", "Verif.Props.C36_no_exception"], "note": ""},
 {"property": "C37", "status": "proved", "theorems": ["Verif.Props.C37_stops"], "note": ""},
 {"property": "C38", "status": "partial", "theorems": ["Verif.Props.C38_joins_partial", "Verif.Props.C38_adjacent_partial", "Verif.Props.C38_kit_classes", "Verif.Props.C38_model_classes", "Verif.Props.C38_joins_false"], "note": "Holds for classes whose doors do not depend on flags (C38_kit_classes, C38_model_classes list them); refuted in general (C38_joins_false, SpawnRoom)."},
 {"property": "C39", "status": "proved", "theorems": ["Verif.Props.C39_symmetric", "Verif.Props.C39_broken_by_exception", "Verif.Props.C39_placement_symmetric", "Verif.Props.C39_placement_doors_false"], "note": "Proved for histories of calls that returned. C39_placement_symmetric extends cells and rooms to random placement, where doors do not stay symmetric (C39_placement_doors_false); a call that raises breaks symmetry (C39_broken_by_exception)."},
 {"property": "C40", "status": "partial", "theorems": ["Verif.Props.C40_mirror", "Verif.Props.C40_inside_partial", "Verif.Props.C40_inside_false", "Verif.Props.C40_mirror_leaves_world"], "note": "Legality is mirror invariant for all whole-cell positions. Legal positions are inside the world only up to coordinate 31 (world size 256); the inclusive upper bound refutes the full claim (C40_inside_false)."},
 {"property": "C41", "status": "partial", "theorems": ["Verif.Props.C41_endcap_partial", "Verif.Props.C41_safe", "Verif.Props.C41_debug_raises", "Verif.Props.C41_endcap_false", "Verif.Props.C41_kit_classes", "Verif.Props.C41_model_classes", "Verif.Props.C41_magica_rooms", "Verif.Props.C41_first_door_only", "Verif.Props.C41_debug_exact"], "note": "Proved for the normal mode with end caps that have one door per side (C41_kit_classes, C41_model_classes; the shipped command's caps: C41_magica_rooms). Safety holds for all classes (C41_safe). Debug mode returns exactly when no two doors share a cell (C41_debug_exact), which refutes the full claim; classes with several doors per side can be missed (C41_first_door_only)."},
 {"property": "C42", "status": "proved", "theorems": ["Verif.Props.C42_interval", "Verif.Props.C42_total", "Verif.Props.C42_zero_weight", "Verif.Props.C42_zero_draw"], "note": ""},
 {"property": "C43", "status": "proved", "theorems": ["Verif.Props.C43_stream"], "note": ""},
 {"property": "C44", "status": "partial", "theorems": ["Verif.Props.C44_random_position_partial", "Verif.Props.C44_random_position_false", "Verif.Props.C44_nonrandom_position"], "note": "nonrandom_position is as claimed. random_position checks the occupied cells instead of the doors; the full claim is refuted (C44_random_position_false)."},
 {"property": "C45", "status": "partial", "theorems": ["Verif.Props.C45_links_false", "Verif.Props.C45_links_partial", "Verif.Props.C45_count"], "note": "Holds for registrations that returned and placements, optionally followed by end caps; placing after end caps refutes the full claim (C45_links_false). The link count is C45_count."},
 {"property": "C46", "status": "proved", "theorems": ["Verif.Props.C46_cube_points"], "note": ""},
 {"property": "C47", "status": "proved", "theorems": ["Verif.Props.C47_prism_turns", "Verif.Props.C47_every_construction_turns", "Verif.Props.C47_east_is_plain"], "note": ""},
 {"property": "C48", "status": "proved", "theorems": ["Verif.Props.C48_floor", "Verif.Props.C48_ceiling", "Verif.Props.C48_wall", "Verif.Props.C48_wall_sizes", "Verif.Props.C48_inside", "Verif.Props.C48_cube"], "note": ""},
 {"property": "C49", "status": "partial", "theorems": ["Verif.Props.C49_wall_points_partial", "Verif.Props.C49_wall_points_false", "Verif.Props.C49_other_direction", "Verif.Props.C49_column_points"], "note": "Exact for every non-negative size, all limits and all six faces (and empty for other directions); columns exact for every length and direction. Refuted for negative sizes (C49_wall_points_false): the face is drawn one step outside the cube that cube_points draws."},
 {"property": "C50", "status": "partial", "theorems": ["Verif.Props.C50_draw", "Verif.Props.C50_subtract", "Verif.Props.C50_prob_partial", "Verif.Props.C50_prob_false", "Verif.Props.C50_prob_fresh"], "note": "Setting and subtracting proved exactly, for every world, point list and texture. The prob<1 clause is refuted (C50_prob_false): a skipped point is deleted rather than left alone; what does hold is C50_prob_partial, and the full claim on empty ground is C50_prob_fresh."},
 {"property": "C51", "status": "partial", "theorems": ["Verif.Props.C51_doorways_partial", "Verif.Props.C51_doorways_false", "Verif.Props.C51_exceptions"], "note": "Holds for every hand-built class and every model class except egypt_stair and egypt_stair_toplatform, which refute the full claim (C51_doorways_false, C51_exceptions)."},
 {"property": "C52", "status": "partial", "theorems": ["Verif.Props.C52_inside_partial", "Verif.Props.C52_inside_false", "Verif.Props.C52_ring_removes_above", "Verif.Props.C52_world_outside"], "note": "Holds for every class, flag setting, position, orientation and random outcome except TestRoom2 (C52_inside_false) and the removing calls of an ImposingRingRoom that is not tall (C52_ring_removes_above). C52_world_outside states it for the world."},
 {"property": "C53", "status": "partial", "theorems": ["Verif.Props.C53_one_flag_false", "Verif.Props.C53_one_flag_partial", "Verif.Props.C53_raises", "Verif.Props.C53_any_flags", "Verif.Props.C53_rooms", "Verif.Props.C53_exact", "Verif.Props.C53_chance"], "note": "False as stated: a new class gets wholly random flags (C53_one_flag_false, C53_any_flags). C53_one_flag_partial, C53_rooms: the same class again flips exactly one flag; C53_exact: which flag is set or flipped by which random number; C53_chance: every combination for a new class is about equally likely; C53_raises gives the only way to raise."},
 {"property": "C54", "status": "proved", "theorems": ["Verif.Props.C54_decay", "Verif.Props.C54_decay_only_removes", "Verif.Props.C54_growth", "Verif.Props.C54_growth_only_adds", "Verif.Props.C54_grid", "Verif.Props.C54_grid_only_adds"], "note": "For every world, position function and random outcomes: exact description of the contents after decay, growth and grid whenever they return, with the corollaries that decay only removes and growth and grid only add."},
 {"property": "C55", "status": "partial", "theorems": ["Verif.Props.C55_cover_partial", "Verif.Props.C55_top_layer", "Verif.Props.C55_raises_after_rendering", "Verif.Props.C55_no_effect_after_rendering", "Verif.Props.C55_cover_false"], "note": "False of the code: the loops stop below the highest layer, and once a room put a block above height 0 the bound is a float so range() raises TypeError. C55_cover states the claim, C55_cover_false refutes it, C55_cover_partial is what holds for integer bounds, C55_top_layer and C55_raises_after_rendering give the exact failures; in no rendered world does decay change anything (C55_no_effect_after_rendering)."},
 {"property": "C56", "status": "partial", "theorems": ["Verif.Props.C56_box", "Verif.Props.C56_outline_partial", "Verif.Props.C56_outline_full", "Verif.Props.C56_outline_false"], "note": "box is exact for all sizes and heights. box_outline is exact without a height (C56_outline_full); with a height below the top of the world the four top edges are missing (C56_outline_false); C56_outline_partial says exactly what is drawn, for every size and height."},
 {"property": "C57", "status": "partial", "theorems": ["Verif.Props.C57_gradient2_range", "Verif.Props.C57_gradient2_monotone", "Verif.Props.C57_inverse", "Verif.Props.C57_gradient_partial", "Verif.Props.C57_gradient3", "Verif.Props.C57_gradients_false", "Verif.Props.C57_gradient2_not_monotone", "Verif.Props.C57_float_gradient2", "Verif.Props.C57_float_gradient3", "Verif.Props.C57_float_gradient"], "note": "vertical_gradient2 and its inverse are always probabilities, monotone from height 0 on; gradient3 is a probability at and above height 0 and strictly decreasing; vertical_gradient is a probability exactly between 0 and the slope. False as stated for all heights: C57_gradients_false, C57_gradient2_not_monotone. With float arithmetic: C57_float_gradient2, C57_float_gradient3 (for any C library power that is monotone), C57_float_gradient."},
 {"property": "C58", "status": "proved", "theorems": ["Verif.Props.C58_indices", "Verif.Props.C58_failure_changes_nothing"], "note": "For every theme and every history of requests by name or colour to a new manager."},
 {"property": "C59", "status": "partial", "theorems": ["Verif.Props.C59_entries", "Verif.Props.C59_separate_lines_partial", "Verif.Props.C59_merged", "Verif.Props.C59_separate_lines_false"], "note": "Content and order of entries: C59_entries, for every theme without a texture named like a colour. The line structure is false for the default theme: an entry with a colour does not end its line (C59_merged, C59_separate_lines_false); C59_separate_lines_partial covers themes without such entries. Python's str of numbers is a parameter assumed injective and free of underscores (StrOk)."},
 {"property": "C60", "status": "partial", "theorems": ["Verif.Props.C60_colours_partial", "Verif.Props.C60_always_answered", "Verif.Props.C60_colours_false"], "note": "False as stated: 1 and 1.0 are equal but get different textures (C60_colours_false). C60_colours_partial: indices agree exactly when the components agree in value and type. Python's str of numbers is a parameter (StrOk)."},
 {"property": "C61", "status": "partial", "theorems": ["Verif.Props.C61_auto_colour", "Verif.Props.C61_categories_partial", "Verif.Props.C61_working", "Verif.Props.C61_default_theme_raises", "Verif.Props.C61_other_category", "Verif.Props.C61_categories_false", "Verif.Props.C61_automated"], "note": "False as stated (C61_categories_false): the default theme lists tex8 and tex115, which do not exist (C61_default_theme_raises), and an unknown category returns a name (C61_other_category). C61_categories_partial and C61_working give the categories that work; C61_automated covers the manager used by the generators, and C61_auto_colour says which colour each category gets there."},
 {"property": "C62", "status": "partial", "theorems": ["Verif.Props.C62_never", "Verif.Props.C62_well_formed_false", "Verif.Props.C62_partial", "Verif.Props.C62_count", "Verif.Props.C62_size_short", "Verif.Props.C62_image_textures_raise"], "note": "False for every world (C62_never): the main chunk's size is 12 bytes short. C62_partial: the rest of the layout is right when all blocks lie in 0..255 and there are at most 256 textures, up to a palette of 255 entries. C62_count and C62_size_short give the voxel count and model size; C62_image_textures_raise: themes with image textures can't be exported."},
 {"property": "C63", "status": "partial", "theorems": ["Verif.Props.C63_unreadable", "Verif.Props.C63_round_trip_false", "Verif.Props.C63_round_trip_partial", "Verif.Props.C63_next_colour", "Verif.Props.C63_colour_bytes"], "note": "False as stated: no export with fewer than 256 textures can be read (C63_unreadable), and a room shows each block in the colour of the following texture (C63_next_colour). C63_round_trip_partial: with at least 256 textures every block comes back in its place and colour numbers are off by one."},
 {"property": "C64", "status": "partial", "theorems": ["Verif.Props.C64_cells_once", "Verif.Props.C64_inside_partial", "Verif.Props.C64_inside_false", "Verif.Props.C64_claims_once", "Verif.Props.C64_renders", "Verif.Props.C64_world", "Verif.Props.C64_world_outside"], "note": "False as stated for classes with additions at the boundary that do not face east (C64_inside_false); no class in the repository has such additions. C64_inside_partial covers the rest. C64_cells_once, C64_claims_once, C64_renders, C64_world and C64_world_outside hold in full."},
 {"property": "C65", "status": "partial", "theorems": ["Verif.Props.C65_light_partial", "Verif.Props.C65_scaled", "Verif.Props.C65_light_false", "Verif.Props.C65_no_autocenter"], "note": "Exact for world size 256, which the rooms use; other sizes scale the position by 256/size (C65_scaled), so the full claim is refuted (C65_light_false). autocenter=False always raises."},
 {"property": "C66", "status": "proved", "theorems": ["Verif.Props.C66_faces", "Verif.Props.C66_shared_corner", "Verif.Props.C66_solid", "Verif.Props.C66_range", "Verif.Props.C66_opposite", "Verif.Props.C66_sides", "Verif.Props.C66_errors"], "note": "For all edge lists of length 12 and all faces. C66_errors covers shorter lists and other face numbers."},
 {"property": "C67", "status": "partial", "theorems": ["Verif.Props.C67_well_defined_false", "Verif.Props.C67_well_defined_partial", "Verif.Props.C67_for_class", "Verif.Props.C67_symmetric", "Verif.Props.C67_castle_symmetric", "Verif.Props.C67_default_instead", "Verif.Props.C67_stair_hallway", "Verif.Props.C67_weights_positive"], "note": "False as stated for the manager in use (C67_well_defined_false): the per-class table is not mirrored. C67_for_class says what that table holds, for any manager; everything else holds (C67_well_defined_partial, C67_symmetric, C67_weights_positive)."},
 {"property": "C68", "status": "partial", "theorems": ["Verif.Props.C68_default_raises", "Verif.Props.C68_default_false", "Verif.Props.C68_given_partial", "Verif.Props.C68_start_rooms"], "note": "False: --mirror has no default, so registering any first room raises AttributeError (C68_default_raises, C68_default_false). With --mirror 1, 2 or 4 a first room is accepted exactly when its mirror copies do not meet (C68_given_partial), which the generator's own starting rooms satisfy (C68_start_rooms)."},
 {"property": "C69", "status": "partial", "theorems": ["Verif.Props.C69_converted", "Verif.Props.C69_same_units_partial", "Verif.Props.C69_same_units_false"], "note": "Holds for fine vectors; refuted for coarse ones (C69_same_units_false)."},
 {"property": "C70", "status": "proved", "theorems": ["Verif.Props.C70_each_room_alone", "Verif.Props.C70_elsewhere", "Verif.Props.C70_order_irrelevant", "Verif.Props.C70_placed_rooms"], "note": "For every class for which C52 holds; linked to the placement manager by C70_placed_rooms."},
 {"property": "C71", "status": "partial", "theorems": ["Verif.Props.C71_entities_partial", "Verif.Props.C71_entities_false", "Verif.Props.C71_large_light", "Verif.Props.C71_ring_light", "Verif.Props.C71_pushers", "Verif.Props.C71_pole_light"], "note": "Holds for the rooms listed by goodEnts. Refuted for CrossingWalkways, the default large-room light, ring rooms, low pole rooms and jump rooms not facing east."},
 {"property": "C72", "status": "proved", "theorems": ["Verif.Props.C72_fills", "Verif.Props.C72_rooms_untouched"], "note": "C72_fills: exactly the whole points in cells of open doors are set. C72_rooms_untouched: for layouts built by calls that did not raise, no point of a room changes."},
 {"property": "C73", "status": "proved", "theorems": ["Verif.Props.C73_hue", "Verif.Props.C73_distinct", "Verif.Props.C73_pure", "Verif.Props.C73_textures", "Verif.Props.C73_reached", "Verif.Props.C73_rainbow_bounded"], "note": "For every history and random outcomes; floats are exact here since all hues are multiples of 1/64. C73_textures says that every texture besides sky and default is one of the 64 hues, C73_hue that these are the fully saturated colours of the circle of hues, C73_distinct that they differ, C73_reached that all of them can occur."},
 {"property": "C74", "status": "partial", "theorems": ["Verif.Props.C74_config_name", "Verif.Props.C74_two_files_partial", "Verif.Props.C74_config_lost", "Verif.Props.C74_two_files_false"], "note": "False for names without .mpz: the config is overwritten by the map (C74_two_files_false, C74_config_lost). C74_two_files_partial: holds exactly for names containing .mpz; C74_config_name: the usual names."},
 {"property": "C75", "status": "partial", "theorems": ["Verif.Props.C75_entry_names_images", "Verif.Props.C75_no_missing_image_partial", "Verif.Props.C75_no_missing_image_false", "Verif.Props.C75_files", "Verif.Props.C75_images_copied"], "note": "C75_entry_names_images and C75_images_copied hold for all themes, C75_files for every texture. C75_no_missing_image is false: textures of the default theme lack images and the config then names a file None; C75_no_missing_image_partial covers the other themes. Whether the image files exist in the repository is C96."},
 {"property": "C76", "status": "partial", "theorems": ["Verif.Props.C76_names", "Verif.Props.C76_nodes", "Verif.Props.C76_closed", "Verif.Props.C76_graph_partial", "Verif.Props.C76_models_claim", "Verif.Props.C76_graph_false", "Verif.Props.C76_lost_link"], "note": "False: five model classes, among them the generator's starting room, do not claim the cell they are positioned at, so links to them go to the node for no room (C76_graph_false, C76_lost_link). Nodes and closure hold for every history; C76_graph_partial for layouts whose rooms claim their position (C76_models_claim lists which do). Writing raises exactly when some room has no name (C76_names)."},
 {"property": "C77", "status": "proved", "theorems": ["Verif.Props.C77_flavours", "Verif.Props.C77_other", "Verif.Props.C77_lines"], "note": "Names are strings; every other name raises."},
 {"property": "C78", "status": "partial", "theorems": ["Verif.Props.C78_float_raises", "Verif.Props.C78_float_generates", "Verif.Props.C78_single", "Verif.Props.C78_terrain", "Verif.Props.C78_inside", "Verif.Props.C78_survives", "Verif.Props.C78_raises", "Verif.Props.C78_generates_partial", "Verif.Props.C78_generates_false", "Verif.Props.C78_float"], "note": "False: MapModel and PlayerSpawn have no parameters x, y, z, so the first tree, rock or player start raises TypeError and nothing is written (C78_raises, C78_generates_false). Terrain contents and survival hold for all noise; C78_generates_partial: the whole generator when nothing is planted. C78_float: the same with float arithmetic. C78_float_raises, C78_float_generates: where planting fails, in terms of the noise; C78_single: single precision noise."},
 {"property": "C79", "status": "proved", "theorems": ["Verif.Props.C79_float_trees", "Verif.Props.C79_float_buildings", "Verif.Props.C79_float_chance", "Verif.Props.C79_terrain", "Verif.Props.C79_no_gaps", "Verif.Props.C79_trees", "Verif.Props.C79_buildings", "Verif.Props.C79_reachable", "Verif.Props.C79_survives", "Verif.Props.C79_float_terrain", "Verif.Props.C79_float_no_gaps", "Verif.Props.C79_float_planted", "Verif.Props.C79_float_survives", "Verif.Props.C79_walls_exact", "Verif.Props.C79_walls_float", "Verif.Props.C79_walls_short"], "note": "Noise is an arbitrary function. With float arithmetic: C79_float_terrain, C79_float_no_gaps, C79_float_planted, C79_float_survives; walls are four blocks high (C79_walls_exact) but rounding can cost the topmost one (C79_walls_float, C79_walls_short). C79_float_trees, C79_float_buildings, C79_float_chance: exactly which columns are planted and built on."},
 {"property": "C80", "status": "partial", "theorems": ["Verif.Props.C80_inside_partial", "Verif.Props.C80_inside_false", "Verif.Props.C80_lit"], "note": "False as stated (C80_inside_false): lights of castle_gate_simple, castle_wall_section_endcap, castle_wall_section_x and station_tube3 and the pusher of station_tube_jumpx lie outside. C80_inside_partial covers every other class and turn, C80_lit the lights."},
 {"property": "C81", "status": "partial", "theorems": ["Verif.Props.C81_mirror_partial", "Verif.Props.C81_items_differ", "Verif.Props.C81_mirror_false", "Verif.Props.C81_pusher", "Verif.Props.C81_yaw", "Verif.Props.C81_facing_partial", "Verif.Props.C81_facing_false"], "note": "False as stated (C81_mirror_false, C81_facing_false, C81_items_differ): station_endcap draws its item per copy, the pusher of station_tube_jumpx and the player start of spawn_room do not turn. C81_mirror_partial and C81_facing_partial cover the rest; C81_yaw and C81_pusher say exactly what happens."},
 {"property": "C82", "status": "proved", "theorems": ["Verif.Props.C82_flags", "Verif.Props.C82_teams", "Verif.Props.C82_colour"], "note": ""},
 {"property": "C83", "status": "proved", "theorems": ["Verif.Props.C83_colours"], "note": "World values are texture numbers; the noise of lights does not matter here."},
 {"property": "C84", "status": "proved", "theorems": ["Verif.Props.C84_rooms"], "note": "The files are a parameter with voxels in exactly the cells of the class table (generated from the .vox files)."},
 {"property": "C85", "status": "proved", "theorems": ["Verif.Props.C85_whole_cells"], "note": ""},
 {"property": "C86", "status": "proved", "theorems": ["Verif.Props.C86_run"], "note": "Model files are a parameter; they must be readable and have voxels in exactly the claimed cells. --debug is off."},
 {"property": "C87", "status": "partial", "theorems": ["Verif.Props.C87_saved_partial", "Verif.Props.C87_saved_false"], "note": "False as stated: a room can be placed at cell 32, outside a map of size 256. Proved for all voxels inside the map, sizes at least 256 and at most 8192; for smaller powers of two see C113."},
 {"property": "C88", "status": "partial", "theorems": ["Verif.Props.C88_chances_false", "Verif.Props.C88_chances_partial", "Verif.Props.C88_placement", "Verif.Props.C88_stream"], "note": "The number of chances is refuted with the manager in use (C88_chances_false: int(0.7/0.1) is 6); it is the quotient rounded down or up, at least one, and monotone. Every option is offered once, and every float run is a run of the exact model with another table (C88_placement)."},
 {"property": "C89", "status": "partial", "theorems": ["Verif.Props.C89_peak", "Verif.Props.C89_hue_false", "Verif.Props.C89_hue_partial", "Verif.Props.C89_grey", "Verif.Props.C89_run", "Verif.Props.C89_hue_near"], "note": "Brightness, saturation and range hold for all noise with float rounding (C89_peak). The hue claim is refuted where the noise is grey: the light is red there (C89_hue_false, C89_grey); it holds for all other noise, and there C89_hue_near gives every channel up to the rounding to a whole number."},
 {"property": "C90", "status": "partial", "theorems": ["Verif.Props.C90_config_partial", "Verif.Props.C90_config_false", "Verif.Props.C90_run"], "note": "Refuted for the default theme: a coloured bump map gets a colour of four words because the next entry continues its line (C90_config_false). Holds for every theme without coloured bump maps, in particular for the three other themes and for every run of the room generator together with the saved map (C90_run). Numbers are printed by an arbitrary injective str without spaces, quotes, line breaks and underscores."},
 {"property": "C91", "status": "partial", "theorems": ["Verif.Props.C91_atomic_partial", "Verif.Props.C91_complete", "Verif.Props.C91_config_text", "Verif.Props.C91_run", "Verif.Props.C91_atomic_false"], "note": "Refuted: the old map is lost as soon as the arguments are parsed (C91_atomic_false). Proved for every crash point: other files keep their content; a readable map file is the old one with nothing changed, or the whole new one with its complete config (C91_atomic_partial), also for runs of the room generator, where the game then shows every room in its colours (C91_run). The content of the map file is what is handed to gzip; the packed files are C134."},
 {"property": "C92", "status": "partial", "theorems": ["Verif.Props.C92_picture", "Verif.Props.C92_files", "Verif.Props.C92_boundaries_partial", "Verif.Props.C92_boundaries_false", "Verif.Props.C92_export", "Verif.Props.C92_refused", "Verif.Props.C92_numbers"], "note": "The layers, colours and refusals are proved for all files and exports (C92_picture, C92_files, C92_export, C92_refused). Refuted: on an axis where every voxel is above 128 the lower boundary is printed as 128 (C92_boundaries_false); exact otherwise (C92_boundaries_partial)."},
 {"property": "C93", "status": "partial", "theorems": ["Verif.Props.C93_dump_partial", "Verif.Props.C93_shown", "Verif.Props.C93_same", "Verif.Props.C93_section", "Verif.Props.C93_dump_false", "Verif.Props.C93_gap", "Verif.Props.C93_merged"], "note": "Dumpable exactly when all texts are UTF-8, there is no player start and no cube with surface information lacks a surface (C93_dump_partial); what is dumped shows the map (C93_shown), determines it but for merge flags (C93_same), and sections are parts of it (C93_section). Refuted: a player start stops the dump with TypeError (C93_dump_false), a missing surface with AttributeError (C93_gap), and merge flags are not dumped (C93_merged). The text form of JSON and the _id of cubes are not modelled."},
 {"property": "C94", "status": "partial", "theorems": ["Verif.Props.C94_debug_partial", "Verif.Props.C94_debug_false"], "note": "False as stated: C94_debug_false gives random choices after which two open doors look into one cell, so the debug run raises. C94_debug_partial: the exact condition (open doors in different cells), and the full result when it holds, for all arguments and choices. The graph can be written only if no door is open, as the test room has no name."},
 {"property": "C95", "status": "proved", "theorems": ["Verif.Props.C95_room_tests"], "note": "For all lists of model classes, files, choices. That the copies and test rooms are apart is a kernel computation over the complete list of 45 classes, lifted by lemmas; the rest is by induction."},
 {"property": "C96", "status": "partial", "theorems": ["Verif.Props.C96_copy", "Verif.Props.C96_images", "Verif.Props.C96_shipped_partial", "Verif.Props.C96_run", "Verif.Props.C96_shipped_false"], "note": "C96_copy: what one call copies and where it stops, for any images. C96_images: every theme and history, content of each image named in the config. C96_shipped (never raises with the files of the repository) is false: data/hxr/empty.png and most paper images are not in the repository; C96_shipped_partial gives the exact condition for each theme. C96_run: every run of the room generator with a voxel fails in copy_data and leaves an empty map file at every moment from its start. The system calls of shutil.copy (permissions, full disk) are not modelled."},
 {"property": "C97", "status": "partial", "theorems": ["Verif.Props.C97_runs", "Verif.Props.C97_own_files", "Verif.Props.C97_identity_partial", "Verif.Props.C97_identity_false"], "note": "The full statement is false (C97_identity_false: the byte after a string is not kept). Proved: files the library writes come out byte for byte; for all files without repeated variable names the output is never shorter than what was read, differs, if as long, only in bytes that become 0 or in the quiet bit of a NaN, and is a fixed point of the tool; unreadable files leave the output untouched; the run ends without exception exactly for rewritable maps."},
 {"property": "C98", "status": "partial", "theorems": ["Verif.Props.C98_written_exact", "Verif.Props.C98_written", "Verif.Props.C98_shows", "Verif.Props.C98_export_partial", "Verif.Props.C98_export_false"], "note": "The full statement is refuted (C98_export_false): a room at the cell 32 is left out but counted. Proved for rooms inside the cube with at most 255 textures (C98_export_partial); C98_shows and C98_written_exact say exactly what is shown and when the file is written, for all runs and model files. For the shipped models see C110."},
 {"property": "C99", "status": "partial", "theorems": ["Verif.Props.C99_laws_partial", "Verif.Props.C99_laws_false", "Verif.Props.C99_truncates", "Verif.Props.C99_split", "Verif.Props.C99_add_exact", "Verif.Props.C99_children"], "note": "Laws hold for integer fields (C99_laws_partial) and fail for fractional ones (C99_laws_false), as add and dot do not truncate their argument; C99_add_exact is the exact condition. C99_truncates, C99_split and C99_children hold in full. Floating point rounding is not modelled."},
 {"property": "C100", "status": "partial", "theorems": ["Verif.Props.C100_installs_partial", "Verif.Props.C100_again", "Verif.Props.C100_taken", "Verif.Props.C100_base", "Verif.Props.C100_installs_false"], "note": "Holds for classes whose six images exist when the target is missing or a directory (C100_installs_partial, C100_again). Refuted for the base class (C100_base, C100_installs_false); a file at the target is overwritten silently (C100_taken). Permissions, links and case folding are not modelled."},
 {"property": "C101", "status": "partial", "theorems": ["Verif.Props.C101_entities", "Verif.Props.C101_restores_partial", "Verif.Props.C101_never", "Verif.Props.C101_restores_false"], "note": "Refuted (C101_restores_false): a dump with entities is refused with TypeError before anything is written (C101_entities), and without entities the cubes are lost and the file cannot be read (C101_never). What is kept: everything before the cubes, byte for byte (C101_restores_partial)."},
 {"property": "C102", "status": "partial", "theorems": ["Verif.Props.C102_text", "Verif.Props.C102_json_partial", "Verif.Props.C102_section", "Verif.Props.C102_same", "Verif.Props.C102_json_false"], "note": "False for maps with NaN or infinite floats, whose text is not JSON; proved as an exact criterion otherwise. The text of finite floats is a parameter."},
 {"property": "C103", "status": "partial", "theorems": ["Verif.Props.C103_outputs_partial", "Verif.Props.C103_stopped", "Verif.Props.C103_export_first", "Verif.Props.C103_graph_file", "Verif.Props.C103_outputs_false"], "note": "Full statement refuted (C103_outputs_false: with the images of the repository the map file of a run stays empty). C103_outputs_partial proves it when the image of the colours is there or no map is requested and the export does not raise; C103_stopped and C103_export_first say exactly what is left otherwise; C103_graph_file shows that the graph file determines the graph."},
 {"property": "C104", "status": "partial", "theorems": ["Verif.Props.C104_fair_partial", "Verif.Props.C104_saved", "Verif.Props.C104_fair_false"], "note": "Full claim false (C104_fair_false): the caps of mirrored doors are drawn independently. C104_fair_partial and C104_saved cover every room that is not an end cap, in the world and in the saved file."},
 {"property": "C105", "status": "partial", "theorems": ["Verif.Props.C105_connected_partial", "Verif.Props.C105_single", "Verif.Props.C105_connected_false"], "note": "Full claim false for mirrored runs (C105_connected_false): the sides can be apart. C105_single proves it for unmirrored runs; C105_connected_partial connects every room with a copy of the first room."},
 {"property": "C106", "status": "partial", "theorems": ["Verif.Props.C106_closed_partial", "Verif.Props.C106_closed_false"], "note": "C106_closed (every doorway opens onto a room) is false: C106_closed_false gives a run. C106_closed_partial: a doorway in the open is one where no offered end cap, or no offered room with its mirror copies, had space."},
 {"property": "C107", "status": "proved", "theorems": ["Verif.Props.C107_shipped", "Verif.Props.C107_unused", "Verif.Props.C107_run"], "note": "For the 45 files that classes use. water_square.vox, used by no class, has no palette and fails to read (C107_unused)."},
 {"property": "C108", "status": "partial", "theorems": ["Verif.Props.C108_doorways_partial", "Verif.Props.C108_doorways_false", "Verif.Props.C108_run", "Verif.Props.C108_saved"], "note": "C108_doorways (all classes) is false: C108_doorways_false. C108_doorways_partial covers all other classes and, at height five, all classes. C108_run and C108_saved are unconditional, as the generator places none of the exceptions."},
 {"property": "C109", "status": "partial", "theorems": ["Verif.Props.C109_room", "Verif.Props.C109_free_partial", "Verif.Props.C109_free_false", "Verif.Props.C109_start_false"], "note": "C109_free is false (C109_free_false: a light in a wall) and so is C109_start (C109_start_false). C109_free_partial proves it for all but the lights of castle_gate_simple and castle_wall_section_endcap, and all of it for player starts; C109_room is the claim for single rooms."},
 {"property": "C110", "status": "proved", "theorems": ["Verif.Props.C110_area", "Verif.Props.C110_textures", "Verif.Props.C110_first", "Verif.Props.C110_export", "Verif.Props.C110_unreadable", "Verif.Props.C110_outputs", "Verif.Props.C110_saved"], "note": "C110_area holds for all model files that fit; the other theorems are for the shipped models."},
 {"property": "C111", "status": "partial", "theorems": ["Verif.Props.C111_history_partial", "Verif.Props.C111_blocks", "Verif.Props.C111_continue", "Verif.Props.C111_same", "Verif.Props.C111_history_false"], "note": "C111_history_partial, C111_blocks, C111_continue and C111_same hold for all histories; the full claim that a generated map has one flag per team is refuted (C111_history_false), because entities of earlier runs stay. Assumes sizes of at least 256 (as C87) and that the number of entities cannot pass 2^30."},
 {"property": "C112", "status": "partial", "theorems": ["Verif.Props.C112_starts_partial", "Verif.Props.C112_free", "Verif.Props.C112_starts_false"], "note": "The full statement (maps of any width) is false: C112_starts_false. Proved for maps four times as wide as the voxel world, which all maps in the repository are for the default size."},
 {"property": "C113", "status": "partial", "theorems": ["Verif.Props.C113_loads_partial", "Verif.Props.C113_large", "Verif.Props.C113_chance", "Verif.Props.C113_loads_false"], "note": "The full statement (the file can always be read) is false for small worlds: C113_loads_false, C113_chance. C113_loads_partial is the exact condition for all powers of two from 4 on; C113_large: always met from 256 on."},
 {"property": "C114", "status": "partial", "theorems": ["Verif.Props.C114_rotate_partial", "Verif.Props.C114_direction", "Verif.Props.C114_many", "Verif.Props.C114_about", "Verif.Props.C114_off_grid", "Verif.Props.C114_rotate_false"], "note": "The full statement (all vectors) is false: C114_rotate_false, C114_off_grid. C114_rotate_partial: all whole and half coordinates up to 2^40; C114_direction: orientation vectors; C114_many: sequences of rotations; C114_about: rotation about a point. Accuracy 2^-50 of the C library's cos, sin, atan2 is assumed; overflow and negative zeros are not modelled."},
 {"property": "C115", "status": "partial", "theorems": ["Verif.Props.C115_walk_partial", "Verif.Props.C115_neighbours", "Verif.Props.C115_leap_false", "Verif.Props.C115_walk_false", "Verif.Props.C115_saved_partial"], "note": "C115_walk_partial (world) and C115_saved_partial (map read back from the file, rooms within the world): one can stand in all doorways and walk along every chain of opposite and facing doorways; C115_neighbours: the rooms next to a first room can be walked to. The full claim C115_walk, every doorway can be reached from the first room, is false (C115_walk_false; C115_leap_false even for leaps of any distance up to three blocks high): the storeys of castle_gate, castle_gate_simple and castle_large are not joined inside the room."},
 {"property": "C116", "status": "proved", "theorems": ["Verif.Props.C116_export", "Verif.Props.C116_run", "Verif.Props.C116_dump_false"], "note": "C116_export: for every exported world the exact condition for the dump of the whole map and of each section. C116_run: the exact condition for runs of the model-room generator. C116_dump_false: the condition on spawn rooms cannot be left out, as a spawn room adds a player start, which the dump cannot encode."},
 {"property": "C117", "status": "partial", "theorems": ["Verif.Props.C117_tests_partial", "Verif.Props.C117_shipped", "Verif.Props.C117_stopped", "Verif.Props.C117_tests_false"], "note": "C117_tests_partial: for all model files, if the image of plain colours is found (when maps are requested) and at most 255 texture names suffice (when voxel files are requested), the run ends and every file is complete. C117_shipped: with the models of the repository and without --redeclipse both conditions hold. The full claim C117_tests is false (C117_tests_false): the repository lacks data/hxr/empty.png, so --redeclipse stops at the first room, leaving its map empty (C117_stopped)."},
 {"property": "C118", "status": "partial", "theorems": ["Verif.Props.C118_rooms_partial", "Verif.Props.C118_vector_partial", "Verif.Props.C118_rooms_package", "Verif.Props.C118_tools_false", "Verif.Props.C118_call"], "note": "The first half is false (C118_tools_false). C118_rooms_partial: for every package, disk and argument rooms.py raises, its outputs are left empty and nothing else changes; C118_rooms_package: with the package as it is, AttributeError (DoricTemple does not exist); if it existed, the call of place_rooms would raise TypeError. C118_vector_partial: vector_test.py raises AttributeError before it reads its input."},
 {"property": "C119", "status": "partial", "theorems": ["Verif.Props.C119_angle_partial", "Verif.Props.C119_back", "Verif.Props.C119_near", "Verif.Props.C119_angle_false"], "note": "C119_angle (every accurate library) is false: an error of one unit in the last place gives 89 instead of 90 (C119_angle_false). C119_angle_partial and C119_back: for libraries that return the nearest floats on the axes, as the C standard recommends. C119_near: one degree, for all accurate libraries and all vectors. Signs of zeros are not modelled."},
 {"property": "C120", "status": "proved", "theorems": ["Verif.Props.C120_choice", "Verif.Props.C120_random_room", "Verif.Props.C120_layout", "Verif.Props.C120_run"], "note": "C120_choice, C120_random_room: the choice in floats. C120_layout, C120_run: runs in floats are exact runs with other draws. `random.uniform` is the rounded product of the total and a multiple of 2^-53 from 0 to 1; `sum` adds one after another (before Python 3.12)."},
 {"property": "C121", "status": "proved", "theorems": ["Verif.Props.C121_field", "Verif.Props.C121_overflow", "Verif.Props.C121_ties", "Verif.Props.C121_error", "Verif.Props.C121_order", "Verif.Props.C121_map"], "note": "C121_field, C121_overflow, C121_ties, C121_error, C121_order: one field. C121_map: whole maps."},
 {"property": "C122", "status": "partial", "theorems": ["Verif.Props.C122_size_partial", "Verif.Props.C122_slots", "Verif.Props.C122_size_false"], "note": "C122_size_partial bounds everything but the slots. The full claim is refuted by C122_size_false; C122_slots gives the files."},
 {"property": "C123", "status": "proved", "theorems": ["Verif.Props.C123_bytes", "Verif.Props.C123_bound", "Verif.Props.C123_run"], "note": "C123_bytes: the exact size. C123_bound: the bounds per block. C123_run: runs of the room generator."},
 {"property": "C124", "status": "proved", "theorems": ["Verif.Props.C124_entities", "Verif.Props.C124_iterations", "Verif.Props.C124_doors", "Verif.Props.C124_layout", "Verif.Props.C124_run", "Verif.Props.C124_iterations_float", "Verif.Props.C124_layout_float"], "note": "C124_iterations, C124_doors: place_rooms in general. C124_entities: bytes of entities. C124_layout, C124_run: the room generator. C124_iterations_float, C124_layout_float: the same bounds in float arithmetic."},
 {"property": "C125", "status": "partial", "theorems": ["Verif.Props.C125_joins_false", "Verif.Props.C125_joins_partial", "Verif.Props.C125_on_lines", "Verif.Props.C125_west", "Verif.Props.C125_bresenham", "Verif.Props.C125_turned", "Verif.Props.C125_place"], "note": "C125_joins is false (C125_joins_false): gaps and missed ends when both slopes are steep, KeyError to the west, nothing for equal x. Proved: C125_joins_partial, C125_on_lines, C125_west, C125_bresenham, C125_turned."},
 {"property": "C126", "status": "partial", "theorems": ["Verif.Props.C126_share", "Verif.Props.C126_doors", "Verif.Props.C126_plain", "Verif.Props.C126_vertical", "Verif.Props.C126_center_hole_false", "Verif.Props.C126_center_hole_partial"], "note": "C126_center_hole is false (C126_center_hole_false); C126_center_hole_partial says what the flavour does instead. Proved without restriction: C126_share, C126_doors, C126_plain, C126_vertical."},
 {"property": "C127", "status": "proved", "theorems": ["Verif.Props.C127_repeat", "Verif.Props.C127_after", "Verif.Props.C127_total"], "note": "C127_total: all calls finish. C127_after: a call after others against the same call in a new process. C127_repeat: a repeated call."},
 {"property": "C128", "status": "partial", "theorems": ["Verif.Props.C128_sequence", "Verif.Props.C128_recast", "Verif.Props.C128_floordiv", "Verif.Props.C128_grids", "Verif.Props.C128_float_false", "Verif.Props.C128_float_partial", "Verif.Props.C128_names", "Verif.Props.C128_named_yaw", "Verif.Props.C128_fine_steps"], "note": "C128_float (rounding of the quotient never matters) is false (C128_float_false); C128_float_partial is the range where it holds. Proved without restriction: C128_sequence, C128_recast, C128_floordiv, C128_grids, C128_names, C128_named_yaw, C128_fine_steps."},
 {"property": "C129", "status": "partial", "theorems": ["Verif.Props.C129_share_partial", "Verif.Props.C129_multiples", "Verif.Props.C129_shuffle", "Verif.Props.C129_shuffle_pool", "Verif.Props.C129_orientations", "Verif.Props.C129_share_false", "Verif.Props.C129_castle"], "note": "C129_share (exactly proportional) is false: 0.3 and 0.2 give equal chances (C129_share_false). C129_share_partial gives the exact share for every table (whole parts of the rounded quotients) and that it is within a factor of 2 (up to rounding) of the proportional one. Proved without restriction: C129_multiples (exact when all probabilities are multiples of the least), C129_castle (the program's table), C129_shuffle, C129_shuffle_pool (CPython's algorithm), C129_orientations."},
 {"property": "C130", "status": "partial", "theorems": ["Verif.Props.C130_left", "Verif.Props.C130_safe_partial", "Verif.Props.C130_untouched", "Verif.Props.C130_in_place", "Verif.Props.C130_safe_false"], "note": "C130_safe is false: with two variables of one name the tool ends normally and leaves a readable, different map (C130_safe_false), and in place a stop right after opening loses every map (C130_in_place). C130_safe_partial: for all maps without repeated names, at every byte and also when writing raises, what is left is unreadable or the same map, other files are untouched, the input stays readable if it is another file, and a run without exception leaves the map. C130_left is the file-level statement, C130_untouched the unreadable input."},
 {"property": "C131", "status": "partial", "theorems": ["Verif.Props.C131_twins_partial", "Verif.Props.C131_twins_false"], "note": "C131_twins is false: the caps of the doors are drawn one by one, so a light may have no twin (C131_twins_false). C131_twins_partial: everything but the lights has its twin, with the turned team for flags."},
 {"property": "C132", "status": "proved", "theorems": ["Verif.Props.C132_same", "Verif.Props.C132_crop"], "note": "C132_same for all sizes and maps; C132_crop for the saved files (both readable; the larger one is readable if the smaller one is)."},
 {"property": "C133", "status": "proved", "theorems": ["Verif.Props.C133_same", "Verif.Props.C133_flags", "Verif.Props.C133_shares"], "note": "C133_same: the collection of items (type, place, team) is invariant under every turn; C133_flags: equal numbers of flags; C133_shares: the number of every kind but lights is a multiple of the mirroring. Lights are excluded by the statement (C131_twins_false)."},
 {"property": "C134", "status": "proved", "theorems": ["Verif.Props.C134_iso", "Verif.Props.C134_terrain", "Verif.Props.C134_snow", "Verif.Props.C134_run"], "note": "C134_iso, C134_terrain, C134_snow, C134_run. gzip is a parameter: packing and unpacking are inverse, and unpacking a cut file raises or gives a beginning of the content (Gzip.Ok, met by markZip and by a packing that gives what is there)."},
 {"property": "C135", "status": "proved", "theorems": ["Verif.Props.C135_read", "Verif.Props.C135_only", "Verif.Props.C135_write", "Verif.Props.C135_again"], "note": "C135_read, C135_only, C135_write, C135_again. The limit counts levels of cubes (two Python calls each); Python's default of 1000 calls leaves more than 400 levels."},
 {"property": "C136", "status": "partial", "theorems": ["Verif.Props.C136_alone", "Verif.Props.C136_rest", "Verif.Props.C136_ends", "Verif.Props.C136_iso", "Verif.Props.C136_terrain", "Verif.Props.C136_run", "Verif.Props.C136_chain_partial", "Verif.Props.C136_chain_false"], "note": "C136_alone, C136_rest, C136_ends, C136_iso, C136_terrain, C136_run hold in full. Reading a file that is being written: C136_chain is false (C136_chain_false: a mixture of both headers), C136_chain_partial covers readers that start after the output was opened. gzip is a parameter; a real gzip reader would notice most mixtures by its checksum."},
 {"property": "C137", "status": "partial", "theorems": ["Verif.Props.C137_done_partial", "Verif.Props.C137_done_false", "Verif.Props.C137_noFail_false", "Verif.Props.C137_noFail_partial", "Verif.Props.C137_maker", "Verif.Props.C137_alone", "Verif.Props.C137_right"], "note": "C137_done and C137_noFail are false (C137_done_false, C137_noFail_false); C137_done_partial, C137_noFail_partial, C137_maker, C137_alone, C137_right hold for all schedules."},
 {"property": "C138", "status": "partial", "theorems": ["Verif.Props.C138_exact", "Verif.Props.C138_room", "Verif.Props.C138_cut", "Verif.Props.C138_more", "Verif.Props.C138_info", "Verif.Props.C138_prefix", "Verif.Props.C138_export", "Verif.Props.C138_export_cut", "Verif.Props.C138_memory_false", "Verif.Props.C138_memory_partial"], "note": "C138_exact, C138_room, C138_cut, C138_more, C138_info, C138_prefix, C138_export, C138_export_cut hold in full. The memory claim C138_memory is false (C138_memory_false); C138_memory_partial says exactly which lists are backed by the file."},
 {"property": "C139", "status": "partial", "theorems": ["Verif.Props.C139_loop", "Verif.Props.C139_rooms_partial", "Verif.Props.C139_round", "Verif.Props.C139_most", "Verif.Props.C139_same", "Verif.Props.C139_items", "Verif.Props.C139_blocks", "Verif.Props.C139_rooms_false", "Verif.Props.C139_rooms_float", "Verif.Props.C139_same_float"], "note": "C139_rooms (no room is lost) is false (C139_rooms_false: a cap gives way to a room). C139_rooms_partial (and C139_rooms_float in float arithmetic) says so for all rooms but caps, C139_loop for rooms and links of the loop. C139_items and C139_blocks compare the saved files, C139_round, C139_most, C139_same and C139_same_float say when nothing changes; these hold in full."},
 {"property": "C140", "status": "proved", "theorems": ["Verif.Props.C140_run"], "note": "C140_run. Uses rooms_fit and layout_cut."},
 {"property": "C141", "status": "proved", "theorems": ["Verif.Props.C141_saved", "Verif.Props.C141_all_plates"], "note": "C141_saved is the whole claim, C141_all_plates the part on sizes from 512 on. That a debug run may raise (two open doors onto one cell) is C94."},
 {"property": "C142", "status": "proved", "theorems": ["Verif.Props.C142_exact", "Verif.Props.C142_source_inside", "Verif.Props.C142_kept", "Verif.Props.C142_count", "Verif.Props.C142_saved", "Verif.Props.C142_lost", "Verif.Props.C142_lossless"], "note": "C142_exact, C142_source_inside, C142_kept and C142_lossless at tree level for sizes from 2 on; C142_saved and C142_lost for the file for sizes from 4 on. One cube object that fills several units is not modelled as shared; from size 4 on the command line only changes a node or a new cube, so this does not matter."},
 {"property": "C143", "status": "proved", "theorems": ["Verif.Props.C143_run"], "note": "C143_run is the whole claim; which points are lost is C142_kept and C142_lossless. The example shows a run with size 335 that loses a voxel of its first room."},
 {"property": "C144", "status": "proved", "theorems": ["Verif.Props.C144_calls", "Verif.Props.C144_depth"], "note": "Exact number of calls for every size and content; exact nesting needed; only failure is the nesting limit."},
 {"property": "C145", "status": "proved", "theorems": ["Verif.Props.C145_dirs", "Verif.Props.C145_fail", "Verif.Props.C145_done", "Verif.Props.C145_own", "Verif.Props.C145_ends", "Verif.Props.C145_game", "Verif.Props.C145_sky", "Verif.Props.C145_others", "Verif.Props.C145_alone"], "note": "C145_dirs, C145_fail, C145_done, C145_own, C145_ends, C145_game, C145_sky, C145_others, C145_alone. Files in the place of directories and removal of files by others are not modelled."},
 {"property": "C146", "status": "partial", "theorems": ["Verif.Props.C146_near", "Verif.Props.C146_dist", "Verif.Props.C146_apart", "Verif.Props.C146_whole", "Verif.Props.C146_many", "Verif.Props.C146_undo_partial", "Verif.Props.C146_merge", "Verif.Props.C146_undo_false"], "note": "C146_near, C146_dist, C146_apart, C146_whole, C146_many, C146_merge in full. Turning back: C146_undo_false refutes exactness, C146_undo_partial gives 3/4. Overflow, the sign of zero and angles that are neither ints nor vectors are not modelled."},
 {"property": "C147", "status": "proved", "theorems": ["Verif.Props.C147_distance", "Verif.Props.C147_near", "Verif.Props.C147_foot"], "note": "C147_distance, C147_near (any readable models), C147_foot (shipped models). Rooms that are end caps are left out, as the statement says."},
 {"property": "C148", "status": "proved", "theorems": ["Verif.Props.C148_own", "Verif.Props.C148_decay", "Verif.Props.C148_growth", "Verif.Props.C148_raises", "Verif.Props.C148_prob", "Verif.Props.C148_none"], "note": "C148_decay and C148_growth give the exact result of every point in terms of its own number and the state of the generator afterwards; C148_own says that the numbers are distinct; C148_prob and C148_none are for constructions, C148_raises for the exceptions. The construction's points must be distinct in C148_prob, as for boxes (C46)."},
 {"property": "C149", "status": "proved", "theorems": ["Verif.Props.C149_share", "Verif.Props.C149_decay", "Verif.Props.C149_growth", "Verif.Props.C149_one", "Verif.Props.C149_prob"], "note": "C149_decay, C149_growth and C149_prob count the outcomes for every group of points; C149_one is the case of a single block; C149_share compares the count with the position function. random() is taken as k/2^53 with k below 2^53."},
 {"property": "C150", "status": "partial", "theorems": ["Verif.Props.C150_middle", "Verif.Props.C150_pole", "Verif.Props.C150_block_place", "Verif.Props.C150_lights_partial", "Verif.Props.C150_lights_false"], "note": "False for block rooms with a roof that are not tall: their light is in the ceiling (C150_lights_false). C150_lights_partial: pole rooms always, block rooms exactly in the other cases; C150_middle: the four columns in the middle of a pole room stay free."},
 {"property": "C151", "status": "partial", "theorems": ["Verif.Props.C151_homely", "Verif.Props.C151_stair", "Verif.Props.C151_free_partial", "Verif.Props.C151_exact", "Verif.Props.C151_free_false"], "note": "False exactly for stairs turned by 0 or 90 degrees and low block rooms with a roof (C151_free_false, C151_stair, C151_exact). C151_free_partial: all other rooms."},
 {"property": "C152", "status": "partial", "theorems": ["Verif.Props.C152_exact", "Verif.Props.C152_stands_partial", "Verif.Props.C152_starts", "Verif.Props.C152_stands_false"], "note": "False exactly for vertical jump corridors, and for turned horizontal jump corridors, towers and altar rooms with their model (C152_stands_false, C152_exact). C152_stands_partial: all other rooms; C152_starts: player starts and weapons always."}
]}
