{
 "C05": {
  "status": "partial",
  "note": "Equality is position equality and an equivalence. Hash agreement holds inside one class; the general claim is refuted (C05_hash_respects_eq_false): equal coarse and fine vectors hash differently."
 },
 "C06": {
  "status": "partial",
  "note": "Strictness holds in general. Trichotomy and totality hold inside one class; the general claim is refuted (C06_trichotomy_false)."
 },
 "C100": {
  "status": "partial",
  "note": "Holds for classes whose six images exist when the target is missing or a directory (C100_installs_partial, C100_again). Refuted for the base class (C100_base, C100_installs_false); a file at the target is overwritten silently (C100_taken). Permissions, links and case folding are not modelled."
 },
 "C101": {
  "status": "partial",
  "note": "Refuted (C101_restores_false): a dump with entities is refused with TypeError before anything is written (C101_entities), and without entities the cubes are lost and the file cannot be read (C101_never). What is kept: everything before the cubes, byte for byte (C101_restores_partial)."
 },
 "C102": {
  "status": "partial",
  "note": "False for maps with NaN or infinite floats, whose text is not JSON; proved as an exact criterion otherwise. The text of finite floats is a parameter."
 },
 "C103": {
  "status": "partial",
  "note": "Full statement refuted (C103_outputs_false: with the images of the repository the map file of a run stays empty). C103_outputs_partial proves it when the image of the colours is there or no map is requested and the export does not raise; C103_stopped and C103_export_first say exactly what is left otherwise; C103_graph_file shows that the graph file determines the graph."
 },
 "C104": {
  "status": "partial",
  "note": "Full claim false (C104_fair_false): the caps of mirrored doors are drawn independently. C104_fair_partial and C104_saved cover every room that is not an end cap, in the world and in the saved file."
 },
 "C105": {
  "status": "partial",
  "note": "Full claim false for mirrored runs (C105_connected_false): the sides can be apart. C105_single proves it for unmirrored runs; C105_connected_partial connects every room with a copy of the first room."
 },
 "C106": {
  "status": "partial",
  "note": "C106_closed (every doorway opens onto a room) is false: C106_closed_false gives a run. C106_closed_partial: a doorway in the open is one where no offered end cap, or no offered room with its mirror copies, had space."
 },
 "C107": {
  "status": "proved",
  "note": "For the 45 files that classes use. water_square.vox, used by no class, has no palette and fails to read (C107_unused)."
 },
 "C108": {
  "status": "partial",
  "note": "C108_doorways (all classes) is false: C108_doorways_false. C108_doorways_partial covers all other classes and, at height five, all classes. C108_run and C108_saved are unconditional, as the generator places none of the exceptions."
 },
 "C109": {
  "status": "partial",
  "note": "C109_free is false (C109_free_false: a light in a wall) and so is C109_start (C109_start_false). C109_free_partial proves it for all but the lights of castle_gate_simple and castle_wall_section_endcap, and all of it for player starts; C109_room is the claim for single rooms."
 },
 "C110": {
  "status": "proved",
  "note": "C110_area holds for all model files that fit; the other theorems are for the shipped models."
 },
 "C111": {
  "status": "partial",
  "note": "C111_history_partial, C111_blocks, C111_continue and C111_same hold for all histories; the full claim that a generated map has one flag per team is refuted (C111_history_false), because entities of earlier runs stay. Assumes sizes of at least 256 (as C87) and that the number of entities cannot pass 2^30."
 },
 "C112": {
  "status": "partial",
  "note": "The full statement (maps of any width) is false: C112_starts_false. Proved for maps four times as wide as the voxel world, which all maps in the repository are for the default size."
 },
 "C113": {
  "status": "partial",
  "note": "The full statement (the file can always be read) is false for small worlds: C113_loads_false, C113_chance. C113_loads_partial is the exact condition for all powers of two from 4 on; C113_large: always met from 256 on."
 },
 "C114": {
  "status": "partial",
  "note": "The full statement (all vectors) is false: C114_rotate_false, C114_off_grid. C114_rotate_partial: all whole and half coordinates up to 2^40; C114_direction: orientation vectors; C114_many: sequences of rotations; C114_about: rotation about a point. Accuracy 2^-50 of the C library's cos, sin, atan2 is assumed; overflow and negative zeros are not modelled."
 },
 "C115": {
  "status": "partial",
  "note": "C115_walk_partial (world) and C115_saved_partial (map read back from the file, rooms within the world): one can stand in all doorways and walk along every chain of opposite and facing doorways; C115_neighbours: the rooms next to a first room can be walked to. The full claim C115_walk, every doorway can be reached from the first room, is false (C115_walk_false; C115_leap_false even for leaps of any distance up to three blocks high): the storeys of castle_gate, castle_gate_simple and castle_large are not joined inside the room."
 },
 "C116": {
  "status": "proved",
  "note": "C116_export: for every exported world the exact condition for the dump of the whole map and of each section. C116_run: the exact condition for runs of the model-room generator. C116_dump_false: the condition on spawn rooms cannot be left out, as a spawn room adds a player start, which the dump cannot encode."
 },
 "C117": {
  "status": "partial",
  "note": "C117_tests_partial: for all model files, if the image of plain colours is found (when maps are requested) and at most 255 texture names suffice (when voxel files are requested), the run ends and every file is complete. C117_shipped: with the models of the repository and without --redeclipse both conditions hold. The full claim C117_tests is false (C117_tests_false): the repository lacks data/hxr/empty.png, so --redeclipse stops at the first room, leaving its map empty (C117_stopped)."
 },
 "C118": {
  "status": "partial",
  "note": "The first half is false (C118_tools_false). C118_rooms_partial: for every package, disk and argument rooms.py raises, its outputs are left empty and nothing else changes; C118_rooms_package: with the package as it is, AttributeError (DoricTemple does not exist); if it existed, the call of place_rooms would raise TypeError. C118_vector_partial: vector_test.py raises AttributeError before it reads its input."
 },
 "C119": {
  "status": "partial",
  "note": "C119_angle (every accurate library) is false: an error of one unit in the last place gives 89 instead of 90 (C119_angle_false). C119_angle_partial and C119_back: for libraries that return the nearest floats on the axes, as the C standard recommends. C119_near: one degree, for all accurate libraries and all vectors. Signs of zeros are not modelled."
 },
 "C120": {
  "status": "proved",
  "note": "C120_choice, C120_random_room: the choice in floats. C120_layout, C120_run: runs in floats are exact runs with other draws. `random.uniform` is the rounded product of the total and a multiple of 2^-53 from 0 to 1; `sum` adds one after another (before Python 3.12)."
 },
 "C121": {
  "status": "proved",
  "note": "C121_field, C121_overflow, C121_ties, C121_error, C121_order: one field. C121_map: whole maps."
 },
 "C122": {
  "status": "partial",
  "note": "C122_size_partial bounds everything but the slots. The full claim is refuted by C122_size_false; C122_slots gives the files."
 },
 "C123": {
  "status": "proved",
  "note": "C123_bytes: the exact size. C123_bound: the bounds per block. C123_run: runs of the room generator."
 },
 "C124": {
  "status": "proved",
  "note": "C124_iterations, C124_doors: place_rooms in general. C124_entities: bytes of entities. C124_layout, C124_run: the room generator. C124_iterations_float, C124_layout_float: the same bounds in float arithmetic."
 },
 "C125": {
  "status": "partial",
  "note": "C125_joins is false (C125_joins_false): gaps and missed ends when both slopes are steep, KeyError to the west, nothing for equal x. Proved: C125_joins_partial, C125_on_lines, C125_west, C125_bresenham, C125_turned."
 },
 "C126": {
  "status": "partial",
  "note": "C126_center_hole is false (C126_center_hole_false); C126_center_hole_partial says what the flavour does instead. Proved without restriction: C126_share, C126_doors, C126_plain, C126_vertical."
 },
 "C127": {
  "status": "proved",
  "note": "C127_total: all calls finish. C127_after: a call after others against the same call in a new process. C127_repeat: a repeated call."
 },
 "C128": {
  "status": "partial",
  "note": "C128_float (rounding of the quotient never matters) is false (C128_float_false); C128_float_partial is the range where it holds. Proved without restriction: C128_sequence, C128_recast, C128_floordiv, C128_grids, C128_names, C128_named_yaw, C128_fine_steps."
 },
 "C129": {
  "status": "partial",
  "note": "C129_share (exactly proportional) is false: 0.3 and 0.2 give equal chances (C129_share_false). C129_share_partial gives the exact share for every table (whole parts of the rounded quotients) and that it is within a factor of 2 (up to rounding) of the proportional one. Proved without restriction: C129_multiples (exact when all probabilities are multiples of the least), C129_castle (the program's table), C129_shuffle, C129_shuffle_pool (CPython's algorithm), C129_orientations."
 },
 "C13": {
  "status": "partial",
  "note": "Conversion ends for every positive size. It is exact for powers of two from 2 on; for every other size at least one in-range block is lost (C13_lossy), so the full claim is refuted (C13_any_size_false)."
 },
 "C130": {
  "status": "partial",
  "note": "C130_safe is false: with two variables of one name the tool ends normally and leaves a readable, different map (C130_safe_false), and in place a stop right after opening loses every map (C130_in_place). C130_safe_partial: for all maps without repeated names, at every byte and also when writing raises, what is left is unreadable or the same map, other files are untouched, the input stays readable if it is another file, and a run without exception leaves the map. C130_left is the file-level statement, C130_untouched the unreadable input."
 },
 "C131": {
  "status": "partial",
  "note": "C131_twins is false: the caps of the doors are drawn one by one, so a light may have no twin (C131_twins_false). C131_twins_partial: everything but the lights has its twin, with the turned team for flags."
 },
 "C132": {
  "status": "proved",
  "note": "C132_same for all sizes and maps; C132_crop for the saved files (both readable; the larger one is readable if the smaller one is)."
 },
 "C133": {
  "status": "proved",
  "note": "C133_same: the collection of items (type, place, team) is invariant under every turn; C133_flags: equal numbers of flags; C133_shares: the number of every kind but lights is a multiple of the mirroring. Lights are excluded by the statement (C131_twins_false)."
 },
 "C134": {
  "status": "proved",
  "note": "C134_iso, C134_terrain, C134_snow, C134_run. gzip is a parameter: packing and unpacking are inverse, and unpacking a cut file raises or gives a beginning of the content (Gzip.Ok, met by markZip and by a packing that gives what is there)."
 },
 "C135": {
  "status": "proved",
  "note": "C135_read, C135_only, C135_write, C135_again. The limit counts levels of cubes (two Python calls each); Python's default of 1000 calls leaves more than 400 levels."
 },
 "C136": {
  "status": "partial",
  "note": "C136_alone, C136_rest, C136_ends, C136_iso, C136_terrain, C136_run hold in full. Reading a file that is being written: C136_chain is false (C136_chain_false: a mixture of both headers), C136_chain_partial covers readers that start after the output was opened. gzip is a parameter; a real gzip reader would notice most mixtures by its checksum."
 },
 "C137": {
  "status": "partial",
  "note": "C137_done and C137_noFail are false (C137_done_false, C137_noFail_false); C137_done_partial, C137_noFail_partial, C137_maker, C137_alone, C137_right hold for all schedules."
 },
 "C138": {
  "status": "partial",
  "note": "C138_exact, C138_room, C138_cut, C138_more, C138_info, C138_prefix, C138_export, C138_export_cut hold in full. The memory claim C138_memory is false (C138_memory_false); C138_memory_partial says exactly which lists are backed by the file."
 },
 "C139": {
  "status": "partial",
  "note": "C139_rooms (no room is lost) is false (C139_rooms_false: a cap gives way to a room). C139_rooms_partial (and C139_rooms_float in float arithmetic) says so for all rooms but caps, C139_loop for rooms and links of the loop. C139_items and C139_blocks compare the saved files, C139_round, C139_most, C139_same and C139_same_float say when nothing changes; these hold in full."
 },
 "C140": {
  "status": "proved",
  "note": "C140_run. Uses rooms_fit and layout_cut."
 },
 "C141": {
  "status": "proved",
  "note": "C141_saved is the whole claim, C141_all_plates the part on sizes from 512 on. That a debug run may raise (two open doors onto one cell) is C94."
 },
 "C142": {
  "status": "proved",
  "note": "C142_exact, C142_source_inside, C142_kept and C142_lossless at tree level for sizes from 2 on; C142_saved and C142_lost for the file for sizes from 4 on. One cube object that fills several units is not modelled as shared; from size 4 on the command line only changes a node or a new cube, so this does not matter."
 },
 "C143": {
  "status": "proved",
  "note": "C143_run is the whole claim; which points are lost is C142_kept and C142_lossless. The example shows a run with size 335 that loses a voxel of its first room."
 },
 "C144": {
  "status": "proved",
  "note": "Exact number of calls for every size and content; exact nesting needed; only failure is the nesting limit."
 },
 "C145": {
  "status": "proved",
  "note": "C145_dirs, C145_fail, C145_done, C145_own, C145_ends, C145_game, C145_sky, C145_others, C145_alone. Files in the place of directories and removal of files by others are not modelled."
 },
 "C146": {
  "status": "partial",
  "note": "C146_near, C146_dist, C146_apart, C146_whole, C146_many, C146_merge in full. Turning back: C146_undo_false refutes exactness, C146_undo_partial gives 3/4. Overflow, the sign of zero and angles that are neither ints nor vectors are not modelled."
 },
 "C147": {
  "status": "proved",
  "note": "C147_distance, C147_near (any readable models), C147_foot (shipped models). Rooms that are end caps are left out, as the statement says."
 },
 "C148": {
  "status": "proved",
  "note": "C148_decay and C148_growth give the exact result of every point in terms of its own number and the state of the generator afterwards; C148_own says that the numbers are distinct; C148_prob and C148_none are for constructions, C148_raises for the exceptions. The construction's points must be distinct in C148_prob, as for boxes (C46)."
 },
 "C149": {
  "status": "proved",
  "note": "C149_decay, C149_growth and C149_prob count the outcomes for every group of points; C149_one is the case of a single block; C149_share compares the count with the position function. random() is taken as k/2^53 with k below 2^53."
 },
 "C150": {
  "status": "partial",
  "note": "False for block rooms with a roof that are not tall: their light is in the ceiling (C150_lights_false). C150_lights_partial: pole rooms always, block rooms exactly in the other cases; C150_middle: the four columns in the middle of a pole room stay free."
 },
 "C151": {
  "status": "partial",
  "note": "False exactly for stairs turned by 0 or 90 degrees and low block rooms with a roof (C151_free_false, C151_stair, C151_exact). C151_free_partial: all other rooms."
 },
 "C152": {
  "status": "partial",
  "note": "False exactly for vertical jump corridors, and for turned horizontal jump corridors, towers and altar rooms with their model (C152_stands_false, C152_exact). C152_stands_partial: all other rooms; C152_starts: player starts and weapons always."
 },
 "C16": {
  "status": "partial",
  "note": "Every representable value and every integer up to 2^24 survives; bit patterns survive except signalling NaNs (C16_bits_false), which become quiet."
 },
 "C18": {
  "status": "partial",
  "note": "Every well-formed entity survives. Entities from the library's constructors are well formed except some argument values, e.g. team 1 player starts (C18_built_false)."
 },
 "C20": {
  "status": "partial",
  "note": "Holds when the header counts agree with the contents; with other entity counts the count is corrected (C20_counted); refuted for repeated variable names (C20_stable_false)."
 },
 "C23": {
  "status": "partial",
  "note": "The field is the stored metadata value; adding a variable does not update it (C23_numvars_false)."
 },
 "C24": {
  "status": "partial",
  "note": "Magic, variable types, entity types, attribute counts and weapon numbers are always checked; unknown cube tags are accepted (C24_rejected_false)."
 },
 "C26": {
  "status": "partial",
  "note": "Exact criterion for the maps that can be written back; the general claim is refuted (C26_rewritable_false)."
 },
 "C27": {
  "status": "partial",
  "note": "Holds for power-of-two sizes from 4 on, world sizes up to 8192, and a block in the corner octant. With an empty corner octant the written file can never be read (C27_corner_empty), so the full claim is refuted (C27_pipeline_false)."
 },
 "C28": {
  "status": "partial",
  "note": "Holds for run lists; explicit slots are read but neither kept nor written (C28_slots_false)."
 },
 "C29": {
  "status": "partial",
  "note": "The map stays writable, but no file is read back with a skybox (C29_never_read), and with variables present the file cannot be read (C29_unreadable)."
 },
 "C31": {
  "status": "partial",
  "note": "Exact condition for the dictionary form to give back the map (C31_dict_partial): no entities, no cubes, no byte strings in the header. Never true for a map read from a file (C31_files), so the full claim is refuted (C31_dict_false)."
 },
 "C35": {
  "status": "partial",
  "note": "With mirror 1 only the room list grows (C35_atomic_partial); C35_left_behind says exactly what stays for any mirror mode. The full claim is refuted (C35_atomic_false, C35_cells_left_behind; from a fresh manager also C39_broken_by_exception)."
 },
 "C38": {
  "status": "partial",
  "note": "Holds for classes whose doors do not depend on flags (C38_kit_classes, C38_model_classes list them); refuted in general (C38_joins_false, SpawnRoom)."
 },
 "C39": {
  "status": "proved",
  "note": "Proved for histories of calls that returned. C39_placement_symmetric extends cells and rooms to random placement, where doors do not stay symmetric (C39_placement_doors_false); a call that raises breaks symmetry (C39_broken_by_exception)."
 },
 "C40": {
  "status": "partial",
  "note": "Legality is mirror invariant for all whole-cell positions. Legal positions are inside the world only up to coordinate 31 (world size 256); the inclusive upper bound refutes the full claim (C40_inside_false)."
 },
 "C41": {
  "status": "partial",
  "note": "Proved for the normal mode with end caps that have one door per side (C41_kit_classes, C41_model_classes; the shipped command's caps: C41_magica_rooms). Safety holds for all classes (C41_safe). Debug mode returns exactly when no two doors share a cell (C41_debug_exact), which refutes the full claim; classes with several doors per side can be missed (C41_first_door_only)."
 },
 "C44": {
  "status": "partial",
  "note": "nonrandom_position is as claimed. random_position checks the occupied cells instead of the doors; the full claim is refuted (C44_random_position_false)."
 },
 "C45": {
  "status": "partial",
  "note": "Holds for registrations that returned and placements, optionally followed by end caps; placing after end caps refutes the full claim (C45_links_false). The link count is C45_count."
 },
 "C49": {
  "status": "partial",
  "note": "Exact for every non-negative size, all limits and all six faces (and empty for other directions); columns exact for every length and direction. Refuted for negative sizes (C49_wall_points_false): the face is drawn one step outside the cube that cube_points draws."
 },
 "C50": {
  "status": "partial",
  "note": "Setting and subtracting proved exactly, for every world, point list and texture. The prob<1 clause is refuted (C50_prob_false): a skipped point is deleted rather than left alone; what does hold is C50_prob_partial, and the full claim on empty ground is C50_prob_fresh."
 },
 "C51": {
  "status": "partial",
  "note": "Holds for every hand-built class and every model class except egypt_stair and egypt_stair_toplatform, which refute the full claim (C51_doorways_false, C51_exceptions)."
 },
 "C52": {
  "status": "partial",
  "note": "Holds for every class, flag setting, position, orientation and random outcome except TestRoom2 (C52_inside_false) and the removing calls of an ImposingRingRoom that is not tall (C52_ring_removes_above). C52_world_outside states it for the world."
 },
 "C53": {
  "status": "partial",
  "note": "False as stated: a new class gets wholly random flags (C53_one_flag_false, C53_any_flags). C53_one_flag_partial, C53_rooms: the same class again flips exactly one flag; C53_exact: which flag is set or flipped by which random number; C53_chance: every combination for a new class is about equally likely; C53_raises gives the only way to raise."
 },
 "C54": {
  "status": "proved",
  "note": "For every world, position function and random outcomes: exact description of the contents after decay, growth and grid whenever they return, with the corollaries that decay only removes and growth and grid only add."
 },
 "C55": {
  "status": "partial",
  "note": "False of the code: the loops stop below the highest layer, and once a room put a block above height 0 the bound is a float so range() raises TypeError. C55_cover states the claim, C55_cover_false refutes it, C55_cover_partial is what holds for integer bounds, C55_top_layer and C55_raises_after_rendering give the exact failures; in no rendered world does decay change anything (C55_no_effect_after_rendering)."
 },
 "C56": {
  "status": "partial",
  "note": "box is exact for all sizes and heights. box_outline is exact without a height (C56_outline_full); with a height below the top of the world the four top edges are missing (C56_outline_false); C56_outline_partial says exactly what is drawn, for every size and height."
 },
 "C57": {
  "status": "partial",
  "note": "vertical_gradient2 and its inverse are always probabilities, monotone from height 0 on; gradient3 is a probability at and above height 0 and strictly decreasing; vertical_gradient is a probability exactly between 0 and the slope. False as stated for all heights: C57_gradients_false, C57_gradient2_not_monotone. With float arithmetic: C57_float_gradient2, C57_float_gradient3 (for any C library power that is monotone), C57_float_gradient."
 },
 "C58": {
  "status": "proved",
  "note": "For every theme and every history of requests by name or colour to a new manager."
 },
 "C59": {
  "status": "partial",
  "note": "Content and order of entries: C59_entries, for every theme without a texture named like a colour. The line structure is false for the default theme: an entry with a colour does not end its line (C59_merged, C59_separate_lines_false); C59_separate_lines_partial covers themes without such entries. Python's str of numbers is a parameter assumed injective and free of underscores (StrOk)."
 },
 "C60": {
  "status": "partial",
  "note": "False as stated: 1 and 1.0 are equal but get different textures (C60_colours_false). C60_colours_partial: indices agree exactly when the components agree in value and type. Python's str of numbers is a parameter (StrOk)."
 },
 "C61": {
  "status": "partial",
  "note": "False as stated (C61_categories_false): the default theme lists tex8 and tex115, which do not exist (C61_default_theme_raises), and an unknown category returns a name (C61_other_category). C61_categories_partial and C61_working give the categories that work; C61_automated covers the manager used by the generators, and C61_auto_colour says which colour each category gets there."
 },
 "C62": {
  "status": "partial",
  "note": "False for every world (C62_never): the main chunk's size is 12 bytes short. C62_partial: the rest of the layout is right when all blocks lie in 0..255 and there are at most 256 textures, up to a palette of 255 entries. C62_count and C62_size_short give the voxel count and model size; C62_image_textures_raise: themes with image textures can't be exported."
 },
 "C63": {
  "status": "partial",
  "note": "False as stated: no export with fewer than 256 textures can be read (C63_unreadable), and a room shows each block in the colour of the following texture (C63_next_colour). C63_round_trip_partial: with at least 256 textures every block comes back in its place and colour numbers are off by one."
 },
 "C64": {
  "status": "partial",
  "note": "False as stated for classes with additions at the boundary that do not face east (C64_inside_false); no class in the repository has such additions. C64_inside_partial covers the rest. C64_cells_once, C64_claims_once, C64_renders, C64_world and C64_world_outside hold in full."
 },
 "C65": {
  "status": "partial",
  "note": "Exact for world size 256, which the rooms use; other sizes scale the position by 256/size (C65_scaled), so the full claim is refuted (C65_light_false). autocenter=False always raises."
 },
 "C66": {
  "status": "proved",
  "note": "For all edge lists of length 12 and all faces. C66_errors covers shorter lists and other face numbers."
 },
 "C67": {
  "status": "partial",
  "note": "False as stated for the manager in use (C67_well_defined_false): the per-class table is not mirrored. C67_for_class says what that table holds, for any manager; everything else holds (C67_well_defined_partial, C67_symmetric, C67_weights_positive)."
 },
 "C68": {
  "status": "partial",
  "note": "False: --mirror has no default, so registering any first room raises AttributeError (C68_default_raises, C68_default_false). With --mirror 1, 2 or 4 a first room is accepted exactly when its mirror copies do not meet (C68_given_partial), which the generator's own starting rooms satisfy (C68_start_rooms)."
 },
 "C69": {
  "status": "partial",
  "note": "Holds for fine vectors; refuted for coarse ones (C69_same_units_false)."
 },
 "C70": {
  "status": "proved",
  "note": "For every class for which C52 holds; linked to the placement manager by C70_placed_rooms."
 },
 "C71": {
  "status": "partial",
  "note": "Holds for the rooms listed by goodEnts. Refuted for CrossingWalkways, the default large-room light, ring rooms, low pole rooms and jump rooms not facing east."
 },
 "C72": {
  "status": "proved",
  "note": "C72_fills: exactly the whole points in cells of open doors are set. C72_rooms_untouched: for layouts built by calls that did not raise, no point of a room changes."
 },
 "C73": {
  "status": "proved",
  "note": "For every history and random outcomes; floats are exact here since all hues are multiples of 1/64. C73_textures says that every texture besides sky and default is one of the 64 hues, C73_hue that these are the fully saturated colours of the circle of hues, C73_distinct that they differ, C73_reached that all of them can occur."
 },
 "C74": {
  "status": "partial",
  "note": "False for names without .mpz: the config is overwritten by the map (C74_two_files_false, C74_config_lost). C74_two_files_partial: holds exactly for names containing .mpz; C74_config_name: the usual names."
 },
 "C75": {
  "status": "partial",
  "note": "C75_entry_names_images and C75_images_copied hold for all themes, C75_files for every texture. C75_no_missing_image is false: textures of the default theme lack images and the config then names a file None; C75_no_missing_image_partial covers the other themes. Whether the image files exist in the repository is C96."
 },
 "C76": {
  "status": "partial",
  "note": "False: five model classes, among them the generator's starting room, do not claim the cell they are positioned at, so links to them go to the node for no room (C76_graph_false, C76_lost_link). Nodes and closure hold for every history; C76_graph_partial for layouts whose rooms claim their position (C76_models_claim lists which do). Writing raises exactly when some room has no name (C76_names)."
 },
 "C77": {
  "status": "proved",
  "note": "Names are strings; every other name raises."
 },
 "C78": {
  "status": "partial",
  "note": "False: MapModel and PlayerSpawn have no parameters x, y, z, so the first tree, rock or player start raises TypeError and nothing is written (C78_raises, C78_generates_false). Terrain contents and survival hold for all noise; C78_generates_partial: the whole generator when nothing is planted. C78_float: the same with float arithmetic. C78_float_raises, C78_float_generates: where planting fails, in terms of the noise; C78_single: single precision noise."
 },
 "C79": {
  "status": "proved",
  "note": "Noise is an arbitrary function. With float arithmetic: C79_float_terrain, C79_float_no_gaps, C79_float_planted, C79_float_survives; walls are four blocks high (C79_walls_exact) but rounding can cost the topmost one (C79_walls_float, C79_walls_short). C79_float_trees, C79_float_buildings, C79_float_chance: exactly which columns are planted and built on."
 },
 "C80": {
  "status": "partial",
  "note": "False as stated (C80_inside_false): lights of castle_gate_simple, castle_wall_section_endcap, castle_wall_section_x and station_tube3 and the pusher of station_tube_jumpx lie outside. C80_inside_partial covers every other class and turn, C80_lit the lights."
 },
 "C81": {
  "status": "partial",
  "note": "False as stated (C81_mirror_false, C81_facing_false, C81_items_differ): station_endcap draws its item per copy, the pusher of station_tube_jumpx and the player start of spawn_room do not turn. C81_mirror_partial and C81_facing_partial cover the rest; C81_yaw and C81_pusher say exactly what happens."
 },
 "C82": {
  "status": "proved",
  "note": ""
 },
 "C83": {
  "status": "proved",
  "note": "World values are texture numbers; the noise of lights does not matter here."
 },
 "C84": {
  "status": "proved",
  "note": "The files are a parameter with voxels in exactly the cells of the class table (generated from the .vox files)."
 },
 "C85": {
  "status": "proved",
  "note": ""
 },
 "C86": {
  "status": "proved",
  "note": "Model files are a parameter; they must be readable and have voxels in exactly the claimed cells. --debug is off."
 },
 "C87": {
  "status": "partial",
  "note": "False as stated: a room can be placed at cell 32, outside a map of size 256. Proved for all voxels inside the map, sizes at least 256 and at most 8192; for smaller powers of two see C113."
 },
 "C88": {
  "status": "partial",
  "note": "The number of chances is refuted with the manager in use (C88_chances_false: int(0.7/0.1) is 6); it is the quotient rounded down or up, at least one, and monotone. Every option is offered once, and every float run is a run of the exact model with another table (C88_placement)."
 },
 "C89": {
  "status": "partial",
  "note": "Brightness, saturation and range hold for all noise with float rounding (C89_peak). The hue claim is refuted where the noise is grey: the light is red there (C89_hue_false, C89_grey); it holds for all other noise, and there C89_hue_near gives every channel up to the rounding to a whole number."
 },
 "C90": {
  "status": "partial",
  "note": "Refuted for the default theme: a coloured bump map gets a colour of four words because the next entry continues its line (C90_config_false). Holds for every theme without coloured bump maps, in particular for the three other themes and for every run of the room generator together with the saved map (C90_run). Numbers are printed by an arbitrary injective str without spaces, quotes, line breaks and underscores."
 },
 "C91": {
  "status": "partial",
  "note": "Refuted: the old map is lost as soon as the arguments are parsed (C91_atomic_false). Proved for every crash point: other files keep their content; a readable map file is the old one with nothing changed, or the whole new one with its complete config (C91_atomic_partial), also for runs of the room generator, where the game then shows every room in its colours (C91_run). The content of the map file is what is handed to gzip; the packed files are C134."
 },
 "C92": {
  "status": "partial",
  "note": "The layers, colours and refusals are proved for all files and exports (C92_picture, C92_files, C92_export, C92_refused). Refuted: on an axis where every voxel is above 128 the lower boundary is printed as 128 (C92_boundaries_false); exact otherwise (C92_boundaries_partial)."
 },
 "C93": {
  "status": "partial",
  "note": "Dumpable exactly when all texts are UTF-8, there is no player start and no cube with surface information lacks a surface (C93_dump_partial); what is dumped shows the map (C93_shown), determines it but for merge flags (C93_same), and sections are parts of it (C93_section). Refuted: a player start stops the dump with TypeError (C93_dump_false), a missing surface with AttributeError (C93_gap), and merge flags are not dumped (C93_merged). The text form of JSON and the _id of cubes are not modelled."
 },
 "C94": {
  "status": "partial",
  "note": "False as stated: C94_debug_false gives random choices after which two open doors look into one cell, so the debug run raises. C94_debug_partial: the exact condition (open doors in different cells), and the full result when it holds, for all arguments and choices. The graph can be written only if no door is open, as the test room has no name."
 },
 "C95": {
  "status": "proved",
  "note": "For all lists of model classes, files, choices. That the copies and test rooms are apart is a kernel computation over the complete list of 45 classes, lifted by lemmas; the rest is by induction."
 },
 "C96": {
  "status": "partial",
  "note": "C96_copy: what one call copies and where it stops, for any images. C96_images: every theme and history, content of each image named in the config. C96_shipped (never raises with the files of the repository) is false: data/hxr/empty.png and most paper images are not in the repository; C96_shipped_partial gives the exact condition for each theme. C96_run: every run of the room generator with a voxel fails in copy_data and leaves an empty map file at every moment from its start. The system calls of shutil.copy (permissions, full disk) are not modelled."
 },
 "C97": {
  "status": "partial",
  "note": "The full statement is false (C97_identity_false: the byte after a string is not kept). Proved: files the library writes come out byte for byte; for all files without repeated variable names the output is never shorter than what was read, differs, if as long, only in bytes that become 0 or in the quiet bit of a NaN, and is a fixed point of the tool; unreadable files leave the output untouched; the run ends without exception exactly for rewritable maps."
 },
 "C98": {
  "status": "partial",
  "note": "The full statement is refuted (C98_export_false): a room at the cell 32 is left out but counted. Proved for rooms inside the cube with at most 255 textures (C98_export_partial); C98_shows and C98_written_exact say exactly what is shown and when the file is written, for all runs and model files. For the shipped models see C110."
 },
 "C99": {
  "status": "partial",
  "note": "Laws hold for integer fields (C99_laws_partial) and fail for fractional ones (C99_laws_false), as add and dot do not truncate their argument; C99_add_exact is the exact condition. C99_truncates, C99_split and C99_children hold in full. Floating point rounding is not modelled."
 }
}