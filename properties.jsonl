{"id": "C01", "title": "Quarter-turn rotation is an exact group action", "statement": "For every vector whose x and y are multiples of one half, v.rotate(90*a).rotate(90*b) equals v.rotate(90*(a+b)), v.rotate(360*k) equals v, z and the vector class never change, and x*x+y*y is preserved.", "quantifier": "all half-integer vectors of both classes, all integers a, b, k (including negative)", "why_tests_cant": "A test samples a few vectors and angles; the law must hold for every coordinate, since a one-voxel drift would tear rooms apart.", "anchors": ["redeclipse/vector/__init__.py:BaseVector.rotate"]}
{"id": "C02", "title": "Rotating by a direction equals rotating by its angle", "statement": "v.rotate(EAST/NORTH/WEST/SOUTH) equals v.rotate(0/90/180/270); the four named cardinals are the unit vectors (1,0,0),(0,1,0),(-1,0,0),(0,-1,0) and rotating a cardinal by a cardinal gives the cardinal at the summed angle.", "quantifier": "all half-integer vectors, all positive multiples of the four cardinals used as a direction", "why_tests_cant": "The direction form goes through atan2 and any positive length; tests only touch unit vectors.", "anchors": ["redeclipse/vector/__init__.py:BaseVector.rotate", "redeclipse/vector/orientations.py:NORTH,WEST,SOUTH,EAST,CARDINALS"]}
{"id": "C03", "title": "offset_rotate is a rotation about a fixed point and keeps voxels on the grid", "statement": "v.offset_rotate(d, offset) leaves the x,y of the point -offset fixed, is undone by the opposite turn, preserves x,y distances between any two points, and with TILE_VOX_OFF maps integer vectors to integer vectors and the 8x8 tile [0,8)^2 onto itself.", "quantifier": "all half-integer vectors and offsets; for the tile claim all integer vectors; all quarter turns", "why_tests_cant": "A finite sample cannot show that no voxel ever lands between cells or leaves its tile.", "anchors": ["redeclipse/vector/__init__.py:BaseVector.offset_rotate", "redeclipse/vector/orientations.py:TILE_VOX_OFF"]}
{"id": "C04", "title": "Mixed fine/coarse arithmetic is exact", "statement": "For any mix of FineVector and CoarseVector, (a+b) has the fine position fine(a)+fine(b), a+b == b+a, addition is associative up to ==, (a+b)-b == a, and the result is coarse exactly when both operands are coarse.", "quantifier": "all pairs and triples of vectors of either class with arbitrary rational coordinates", "why_tests_cant": "Dispatch has four class combinations over unbounded coordinates.", "anchors": ["redeclipse/vector/__init__.py:FineVector.__add__", "redeclipse/vector/__init__.py:CoarseVector.__add__", "redeclipse/vector/__init__.py:FineVector.__sub__", "redeclipse/vector/__init__.py:CoarseVector.__sub__"]}
{"id": "C05", "title": "Equality of positions is an equivalence relation and hashing respects it", "statement": "a == b holds exactly when a and b denote the same fine position; it is reflexive, symmetric and transitive across both classes, and a == b implies hash(a) == hash(b).", "quantifier": "all vectors of either class", "why_tests_cant": "Python dict and set semantics need the implication for every pair; a test can only try some.", "anchors": ["redeclipse/vector/__init__.py:BaseVector.__hash__", "redeclipse/vector/__init__.py:FineVector.__eq__", "redeclipse/vector/__init__.py:CoarseVector.__eq__"]}
{"id": "C06", "title": "Vector ordering is a strict total order consistent with equality", "statement": "a < b is irreflexive and transitive, exactly one of a < b, a == b, b < a holds, and a <= b is their reflexive closure.", "quantifier": "all pairs and triples of vectors of either class", "why_tests_cant": "sorted() gives a well defined answer only if the law holds for every triple.", "anchors": ["redeclipse/vector/__init__.py:BaseVector.__lt__", "redeclipse/vector/__init__.py:BaseVector.__le__"]}
{"id": "C07", "title": "Coarse cells tile fine space", "statement": "coarse(fine(c)) == c for integer c; for every fine vector f the cell coarse(f) is the unique integer cell with fine(cell) <= f < fine(cell)+8 in each coordinate.", "quantifier": "all integer coarse vectors, all rational fine vectors", "why_tests_cant": "Negative and fractional coordinates make the floor/truncate distinction matter everywhere.", "anchors": ["redeclipse/vector/__init__.py:FineVector.coarse", "redeclipse/vector/__init__.py:CoarseVector.fine"]}
{"id": "C08", "title": "rotate_yaw composes like vector rotation", "statement": "rotate_yaw(a, o) lies in [0,360), is congruent to a plus the angle of o, rotate_yaw(rotate_yaw(a,o1),o2) equals rotate_yaw(a, o1 rotated by o2), and any non-cardinal orientation raises.", "quantifier": "all integer angles, all vectors as orientation", "why_tests_cant": "Entities keep facing the same way relative to their room only if the law holds for every angle.", "anchors": ["redeclipse/vector/orientations.py:rotate_yaw"]}
{"id": "C09", "title": "VoxelWorld behaves as a map from points to blocks", "statement": "After any sequence of set_point, set_pointv, del_point, del_pointv, get_point returns the data of the last set not followed by a delete, and the number of stored points equals the number of such points.", "quantifier": "every finite history of operations on arbitrary points", "why_tests_cant": "Histories are unbounded and interleave freely.", "anchors": ["redeclipse/voxel/__init__.py:VoxelWorld.set_point,set_pointv,del_point,del_pointv,get_point"]}
{"id": "C10", "title": "Recorded bounds enclose every block", "statement": "After any history, every stored point satisfies xmin<=x<=xmax and likewise for y and z, and the bounds are exactly the running max (from 0) and running min (from size) over all points ever set.", "quantifier": "every finite history of operations", "why_tests_cant": "Aftereffects and exporters trust the bounds for every world.", "anchors": ["redeclipse/voxel/__init__.py:VoxelWorld._update_boundaries"]}
{"id": "C11", "title": "Octree conversion is exact for power-of-two worlds", "statement": "For size 2**k, k>=1, to_octree() returns 8 subtrees in which following the octant bits of (x,y,z) reaches the block stored at (x,y,z), or an empty leaf if none is stored, for every integer point in [0,size)^3.", "quantifier": "all k>=1, all world contents, all points of the cube", "why_tests_cant": "2**(3k) points and every content cannot be enumerated.", "anchors": ["redeclipse/voxel/__init__.py:VoxelWorld.to_octree"]}
{"id": "C12", "title": "Octree shape is canonical", "statement": "For size 2**k every inner node has exactly 8 children and at least one stored block below it; regions with no block are a single empty leaf; the tree depends only on the in-range contents, not on the order of insertion or on out-of-range points.", "quantifier": "all k>=1, all pairs of worlds with the same in-range contents", "why_tests_cant": "Order independence quantifies over all histories.", "anchors": ["redeclipse/voxel/__init__.py:VoxelWorld.to_octree"]}
{"id": "C13", "title": "Octree conversion works for any world size", "statement": "to_octree() terminates and represents every in-range point for every positive size.", "quantifier": "all positive integer sizes, all contents", "why_tests_cant": "A test would need to know which sizes to try; recursion depth is unbounded.", "anchors": ["redeclipse/voxel/__init__.py:VoxelWorld.to_octree"]}
{"id": "C14", "title": "Octree order agrees with octant numbering", "statement": "Child i of a node at origin (x,y,z) with half-size s covers exactly the points of the cube with origin ivec5(i,x,y,z,s), so the generator and the map reader number octants the same way.", "quantifier": "all nodes, all i in 0..7, all origins and sizes", "why_tests_cant": "Quantifies over every node of every tree.", "anchors": ["redeclipse/voxel/__init__.py:VoxelWorld.to_octree", "redeclipse/vector/re.py:ivec3.ivec5", "redeclipse/__init__.py:MapParser._loadchildren"]}
{"id": "C15", "title": "Primitive map fields round-trip or raise", "statement": "Packing an int, ushort, byte, char or null-terminated string and unpacking it gives the value back and consumes exactly the packed bytes; values outside the field's range raise instead of being truncated.", "quantifier": "all values, all trailing data", "why_tests_cant": "Boundary values of 32-bit fields cannot be enumerated.", "anchors": ["redeclipse/__init__.py:Map._write_int,_write_ushort,_write_char,_write_str,_write_int_as_chr", "redeclipse/__init__.py:MapParser._read_int,_read_ushort,_read_char,_read_str"]}
{"id": "C16", "title": "32-bit float fields round-trip", "statement": "Every float read from a map is written back bit for bit, and every value representable in binary32 (in particular every integer up to 2**24 in magnitude) is read back as the same number.", "quantifier": "all 32-bit patterns that are not NaN, all representable rationals", "why_tests_cant": "2**32 patterns.", "anchors": ["redeclipse/__init__.py:Map._write_float", "redeclipse/__init__.py:MapParser._read_float", "redeclipse/entities/__init__.py:Entity.serialize"]}
{"id": "C17", "title": "Cube trees round-trip through the file format", "statement": "Saving any well-formed cube tree and loading the bytes gives a tree with the same structure, tags, edges, textures, materials, merge flags and surfaces, and consumes exactly the saved bytes.", "quantifier": "all well-formed cube trees of any depth, all trailing bytes", "why_tests_cant": "Trees are unbounded.", "anchors": ["redeclipse/__init__.py:Map._savec,_savechildren", "redeclipse/__init__.py:MapParser._loadc,_loadchildren"]}
{"id": "C18", "title": "Entities round-trip through the file format", "statement": "Writing any list of entities built by the library's entity classes and reading it back gives the same positions, types, attributes, links and reserved bytes.", "quantifier": "all entity lists of all supported types with in-range fields", "why_tests_cant": "Attribute values and list lengths are unbounded.", "anchors": ["redeclipse/__init__.py:Map._write_ents", "redeclipse/__init__.py:MapParser._loadents", "redeclipse/entities/__init__.py:Entity"]}
{"id": "C19", "title": "A written map reads back as the same map", "statement": "For every well-formed map, if write succeeds then reading the file succeeds and gives the same header, metadata, variables, texture list, entities, vslots and world.", "quantifier": "all well-formed maps", "why_tests_cant": "Round trip over an unbounded structured domain.", "anchors": ["redeclipse/__init__.py:Map.write", "redeclipse/__init__.py:MapParser.read"]}
{"id": "C20", "title": "Read-write-read is stable", "statement": "For any file that reads successfully, if writing the result succeeds then the new file reads back to the same map.", "quantifier": "all byte strings", "why_tests_cant": "Quantifies over every input file.", "anchors": ["redeclipse/__init__.py:Map.write", "redeclipse/__init__.py:MapParser.read", "redeclipse/cli/iso.py:main"]}
{"id": "C21", "title": "A truncated map file is never accepted", "statement": "If writing a well-formed map stops at any point before the end (crash, full disk), reading the partial contents raises; it never yields a map.", "quantifier": "all well-formed maps, all proper prefixes (crash points)", "why_tests_cant": "Every crash point of every file.", "anchors": ["redeclipse/__init__.py:Map.write", "redeclipse/__init__.py:MapParser.read"]}
{"id": "C22", "title": "The entity count in the header matches the entities written", "statement": "Whatever the previous metadata said, the written file's numents equals the number of entities that follow.", "quantifier": "all maps", "why_tests_cant": "Quantifies over all earlier metadata and entity lists.", "anchors": ["redeclipse/__init__.py:Map.write"]}
{"id": "C23", "title": "The variable count in the header matches the variables written", "statement": "The written file's numvars equals the number of variables that follow, also after variables were added or read with duplicate names.", "quantifier": "all maps obtained by reading a file and editing map_vars", "why_tests_cant": "Depends on the history of the map object.", "anchors": ["redeclipse/__init__.py:Map.write", "redeclipse/__init__.py:MapParser.read"]}
{"id": "C24", "title": "Malformed files are rejected", "statement": "A file with wrong magic, unknown variable type, unsupported entity type, wrong attribute count or an invalid cube tag makes the reader raise.", "quantifier": "all byte strings", "why_tests_cant": "All malformed inputs.", "anchors": ["redeclipse/__init__.py:MapParser.read,_loadents,_loadc,_loadchildren", "redeclipse/entities/__init__.py:Entity.__init__"]}
{"id": "C25", "title": "The reader always terminates", "statement": "Reading any byte string finishes, with recursion and loops bounded by the input length and the declared counts.", "quantifier": "all byte strings", "why_tests_cant": "Non-termination cannot be observed by a test.", "anchors": ["redeclipse/__init__.py:MapParser.read,_loadc,_loadvslots"]}
{"id": "C26", "title": "Anything the reader accepts can be written back", "statement": "If a file reads successfully then writing the resulting map does not raise.", "quantifier": "all byte strings", "why_tests_cant": "All inputs.", "anchors": ["redeclipse/__init__.py:Map.write,_savec,_write_int_as_chr,__write_vslots"]}
{"id": "C27", "title": "Generated worlds survive the export pipeline", "statement": "For every voxel world of size 2**k placed in a map whose worldsize is at least 2**k, exporting through to_octree, the command-line output step, write and read gives back, at every voxel, the block that was set (or empty).", "quantifier": "all k, all contents, all maps", "why_tests_cant": "End-to-end composition over unbounded contents.", "anchors": ["redeclipse/cli/__init__.py:output", "redeclipse/voxel/__init__.py:VoxelWorld.to_octree", "redeclipse/__init__.py:Map.write", "redeclipse/__init__.py:MapParser.read"]}
{"id": "C28", "title": "Virtual slot runs are counted and preserved", "statement": "Loading numvslots virtual slots from runs yields as many slots as the runs announce, stops at the first run that covers the total, and writing the run list back reproduces the bytes.", "quantifier": "all run lists and counts", "why_tests_cant": "Unbounded run lists.", "anchors": ["redeclipse/__init__.py:MapParser._loadvslots", "redeclipse/__init__.py:Map.__write_vslots"]}
{"id": "C29", "title": "Setting a skybox keeps the map writable and readable", "statement": "After skybox(...) the written file still reads back with the same metadata.", "quantifier": "all maps and skybox names", "why_tests_cant": "All maps.", "anchors": ["redeclipse/__init__.py:Map.skybox", "redeclipse/__init__.py:Map.write", "redeclipse/__init__.py:MapParser.read"]}
{"id": "C30", "title": "Load-time validation does not change geometry", "statement": "Validation after loading leaves every cube as loaded, and raises exactly when some node has children at size 1 or less or some leaf is larger than 4096.", "quantifier": "all cube trees and sizes", "why_tests_cant": "Unbounded trees.", "anchors": ["redeclipse/objects.py:cube.validatec,setfaces,emptyfaces"]}
{"id": "C31", "title": "Map to dict and back preserves the map", "statement": "Map.from_dict(Map.to_dict(m)) equals m.", "quantifier": "all maps with to_dict defined", "why_tests_cant": "All maps.", "anchors": ["redeclipse/__init__.py:Map.to_dict,from_dict", "redeclipse/entities/__init__.py:Entity.to_dict,from_dict", "redeclipse/objects.py:cube.to_dict"]}
{"id": "C32", "title": "Rooms never overlap", "statement": "After any sequence of room registrations without noclip, no coarse cell belongs to two registered rooms, and each cell of each registered room is recorded as occupied by it.", "quantifier": "all sequences of registrations, all rooms, mirror in {1,2,4}", "why_tests_cant": "All histories of placement.", "anchors": ["redeclipse/upm.py:UnusedPositionManager.register_room,_register_room"]}
{"id": "C33", "title": "Open doors are never inside rooms and always legal", "statement": "After any sequence of registrations and placements, every entry of the open-door list is an unoccupied legal position.", "quantifier": "all histories", "why_tests_cant": "Invariant over histories.", "anchors": ["redeclipse/upm.py:UnusedPositionManager._register_room,register_room"]}
{"id": "C34", "title": "A successful pre-check guarantees registration", "statement": "If preregister_room(r) is true then register_room(r) does not raise, and preregister_room changes nothing.", "quantifier": "all states and rooms, all mirror modes", "why_tests_cant": "All states.", "anchors": ["redeclipse/upm.py:UnusedPositionManager.preregister_room,_preregister_room,register_room"]}
{"id": "C35", "title": "A rejected registration leaves the manager unchanged", "statement": "If register_room raises, rooms, occupied and open doors are as before the call.", "quantifier": "all states and rooms", "why_tests_cant": "All states.", "anchors": ["redeclipse/upm.py:UnusedPositionManager._register_room"]}
{"id": "C36", "title": "Placement always terminates", "statement": "place_rooms finishes for every random outcome, room set and target, placing fewer than target+mirror rooms.", "quantifier": "all random streams, all states", "why_tests_cant": "Termination over infinite random streams.", "anchors": ["redeclipse/upm.py:UnusedPositionManager.place_rooms"]}
{"id": "C37", "title": "Placement stops early only when out of doors", "statement": "When place_rooms returns having placed fewer rooms than asked, no open door is left, and otherwise the placed count is the least multiple of the mirror count reaching the target.", "quantifier": "all random streams, all states", "why_tests_cant": "All executions.", "anchors": ["redeclipse/upm.py:UnusedPositionManager.place_rooms"]}
{"id": "C38", "title": "New rooms connect to the door they were placed for", "statement": "Every room offered for an open door has a doorway that faces that door: its opening cell lies in the previous room's side of the door and points the opposite way, so the two rooms join.", "quantifier": "all room classes, orientations, doors and random outcomes", "why_tests_cant": "All combinations of classes, flags and orientations.", "anchors": ["redeclipse/upm.py:UnusedPositionManager.room_localization", "redeclipse/prefabs/__init__.py:Room.randOpts"]}
{"id": "C39", "title": "Mirrored placement is symmetric", "statement": "With mirror=2 or 4, after any sequence of register_room calls that returned, for rooms at whole-cell positions, the occupied cells are invariant under rotation by 180 or 90 degrees about cell (16,16), and so are the open doors; random placement keeps the occupied cells invariant too.", "quantifier": "all histories", "why_tests_cant": "All histories.", "anchors": ["redeclipse/upm.py:UnusedPositionManager._yield_mirrored,register_room"]}
{"id": "C40", "title": "Legality is mirror invariant and inside the world", "statement": "A position is legal exactly when its mirror images are, and a legal position lies inside the voxel world of the given size.", "quantifier": "all positions, world sizes and mirror modes", "why_tests_cant": "All positions.", "anchors": ["redeclipse/upm.py:UnusedPositionManager.is_legal,_yield_mirrored"]}
{"id": "C41", "title": "End caps fill doors without collisions", "statement": "endcap() never raises, never overlaps an existing room, only uses legal cells, and afterwards each door that was open is either occupied or has no end-cap room that fits.", "quantifier": "all states and random outcomes", "why_tests_cant": "All states.", "anchors": ["redeclipse/upm.py:UnusedPositionManager.endcap,_room_cap_real,_room_cap_debug"]}
{"id": "C42", "title": "Weighted choice is total and correct", "statement": "weighted_choice over a non-empty list with non-negative weights always returns a member, and returns item i exactly when the drawn number falls in its cumulative interval, so a zero-weight item is never chosen for a positive draw.", "quantifier": "all weight lists, all draws in [0,total]", "why_tests_cant": "Continuous draws.", "anchors": ["redeclipse/upm.py:UnusedPositionManager.weighted_choice,nonrandom_position"]}
{"id": "C43", "title": "The room stream offers every option exactly once", "statement": "random_room_stream yields each distinct room class exactly once, in some order, whatever the transition probabilities and random outcomes.", "quantifier": "all option lists, positive weights and random streams", "why_tests_cant": "All shuffles.", "anchors": ["redeclipse/upm.py:UnusedPositionManager.random_room_stream", "redeclipse/prefabs/distributions.py:DistributionManager.for_class"]}
{"id": "C44", "title": "Picking a random position fails only when there is no door", "statement": "random_position raises only if no open door remains, with the documented error, and otherwise returns an open door.", "quantifier": "all states and draws", "why_tests_cant": "All states.", "anchors": ["redeclipse/upm.py:UnusedPositionManager.random_position,nonrandom_position"]}
{"id": "C45", "title": "Links join registered rooms", "statement": "Every pair recorded by placement joins the positions of two registered rooms, one link per registered copy.", "quantifier": "all histories", "why_tests_cant": "All histories.", "anchors": ["redeclipse/upm.py:UnusedPositionManager.register_link,place_rooms"]}
{"id": "C46", "title": "cube_points is exactly the box", "statement": "cube_points(x,y,z) yields |x|*|y|*|z| distinct points: i in [0,x) for positive x and (x,0] for non-positive x, and likewise for the other axes.", "quantifier": "all integers x, y, z", "why_tests_cant": "All sizes and signs.", "anchors": ["redeclipse/prefabs/construction_kit.py:cube_points"]}
{"id": "C47", "title": "Prisms rotate as solid bodies", "statement": "x_rectangular_prism in a room of any orientation yields exactly the rotation, about the tile centre of the room, of the points it yields in the EAST orientation, for positive dimensions.", "quantifier": "all positions, offsets, dimensions and orientations", "why_tests_cant": "All parameters.", "anchors": ["redeclipse/prefabs/construction_kit.py:ConstructionKitMixin.x_rectangular_prism"]}
{"id": "C48", "title": "Tile constructions stay in their tile", "statement": "x_floor, x_ceiling, x_wall, x_low_wall and x_cube of the standard size at offset SELF yield only points of the room's own 8x8x8 tile, in the right layer, each point once, and a full wall has exactly 64 points and a low wall exactly 24.", "quantifier": "all positions and orientations and wall faces", "why_tests_cant": "All positions and orientations.", "anchors": ["redeclipse/prefabs/construction_kit.py:ConstructionKitMixin.x_floor,x_ceiling,x_wall,x_low_wall,x_cube"]}
{"id": "C49", "title": "wall_points and column_points are exactly the described sets", "statement": "wall_points(size, face) is the set of points of the chosen face of a size-cube, with the rows and columns above limit_i and limit_j left out; column_points yields length points spaced one step apart along the direction.", "quantifier": "all sizes, limits, faces and lengths", "why_tests_cant": "All sizes.", "anchors": ["redeclipse/prefabs/construction_kit.py:wall_points,column_points"]}
{"id": "C50", "title": "Drawing writes exactly the construction's points", "statement": "x(construction, world, tex) sets exactly the construction's points to the texture and leaves every other point unchanged; with subtract=True it removes exactly those points; with prob<1 each point is either set or left as it was.", "quantifier": "all worlds, constructions, textures and random outcomes", "why_tests_cant": "All worlds.", "anchors": ["redeclipse/prefabs/construction_kit.py:ConstructionKitMixin.x,subtract_or_skip"]}
{"id": "C51", "title": "Every doorway opens out of its room", "statement": "For every shipped room class and flag setting, each door's cell lies outside the room and the cell behind it (offset minus direction) is part of the room, in every position and orientation.", "quantifier": "all room classes, flags, positions and orientations", "why_tests_cant": "Lifted from tables to all placements.", "anchors": ["redeclipse/prefabs/__init__.py:Room.get_doorways,get_positions", "redeclipse/prefabs/magica.py:MagicaRoom"]}
{"id": "C52", "title": "Rooms render only inside the cells they claim", "statement": "For every hand-built room class, every voxel written or removed by render lies in a cell listed by get_positions, for every position, orientation, flag setting and random outcome.", "quantifier": "all positions, orientations, flags, random outcomes", "why_tests_cant": "All placements.", "anchors": ["redeclipse/prefabs/__init__.py:Room.render"]}
{"id": "C53", "title": "randOpts changes exactly one flag", "statement": "Continuing with the same room class flips exactly one of the previous room's flags; a new class starts from its defaults with one flag flipped; classes without flags get no options.", "quantifier": "all classes, previous rooms and random outcomes", "why_tests_cant": "All random outcomes.", "anchors": ["redeclipse/prefabs/__init__.py:Room.randOpts"]}
{"id": "C54", "title": "Decay only removes and growth only adds", "statement": "decay removes blocks and never adds or alters any; growth and grid add blocks only at empty points and never alter or remove any.", "quantifier": "all worlds and random outcomes", "why_tests_cant": "All worlds.", "anchors": ["redeclipse/aftereffects.py:decay,growth,grid"]}
{"id": "C55", "title": "Aftereffects cover the whole world", "statement": "decay, growth and grid visit every stored block, and can be run after rooms have been rendered.", "quantifier": "all worlds produced by rendering", "why_tests_cant": "All worlds.", "anchors": ["redeclipse/aftereffects.py:decay,growth,grid", "redeclipse/voxel/__init__.py:VoxelWorld._update_boundaries"]}
{"id": "C56", "title": "box and box_outline draw exactly the shell and the edges", "statement": "box sets exactly the points on the surface of the world's cube that lie below the height (floor, four walls, and the ceiling when the height reaches it); box_outline sets exactly the twelve edges of the box of that height; all other points keep their contents.", "quantifier": "all worlds, sizes and heights", "why_tests_cant": "All sizes.", "anchors": ["redeclipse/aftereffects.py:box,box_outline"]}
{"id": "C57", "title": "Gradients are probabilities", "statement": "The gradient functions return a value in [0,1] for every position, are monotone in z, and inv reverses them.", "quantifier": "all positions and worlds", "why_tests_cant": "All inputs.", "anchors": ["redeclipse/aftereffects.py:vertical_gradient,vertical_gradient2,gradient3,inv"]}
{"id": "C58", "title": "Texture indices are dense, stable and unique", "statement": "After any sequence of texture requests, the atlas indices are 0..n-1, the same name always gives the same index, different names give different indices, sky and default keep indices 0 and 1, and a failed request changes nothing.", "quantifier": "every history of requests", "why_tests_cant": "All histories.", "anchors": ["redeclipse/textures/__init__.py:TextureManager.get,AutomatedMagicaTextureManager.get_colour"]}
{"id": "C59", "title": "The emitted texture config lists textures in index order", "statement": "The config text contains one entry per allocated index, the i-th entry being the texture with index i.", "quantifier": "every history of requests", "why_tests_cant": "All histories.", "anchors": ["redeclipse/textures/__init__.py:TextureManager.emit_conf"]}
{"id": "C60", "title": "Equal colours share a texture", "statement": "Requesting the same red, green, blue values always gives the same index, and different colours give different indices.", "quantifier": "all colour requests", "why_tests_cant": "All colours.", "anchors": ["redeclipse/textures/__init__.py:AutomatedMagicaTextureManager.get_colour"]}
{"id": "C61", "title": "Every themed texture category yields a valid index", "statement": "For every theme and category, get_c returns an index of the atlas, for every random outcome.", "quantifier": "all themes, categories and random outcomes", "why_tests_cant": "All random outcomes.", "anchors": ["redeclipse/textures/__init__.py:ThemedTextureManager.get_c"]}
{"id": "C62", "title": "Exported .vox files are well formed", "statement": "The written voxel count, chunk sizes and model size agree with the bytes that follow, for every world.", "quantifier": "all worlds and atlases", "why_tests_cant": "All worlds.", "anchors": ["redeclipse/magicavoxel/writer.py:to_magicavoxel"]}
{"id": "C63", "title": "Exported .vox files read back as the same model", "statement": "Parsing an exported file gives the stored voxels with the colour of their texture.", "quantifier": "all worlds and atlases", "why_tests_cant": "All worlds.", "anchors": ["redeclipse/magicavoxel/writer.py:to_magicavoxel", "redeclipse/magicavoxel/reader.py:Magicavoxel", "redeclipse/prefabs/magica.py:MagicaRoom.load_model,render_individual_voxel"]}
{"id": "C64", "title": "Model rooms claim exactly the cells their voxels touch", "statement": "get_positions of a model room lists each coarse cell touched by a voxel once, and every rendered voxel lies in a claimed cell, in every position and orientation.", "quantifier": "all models, positions and orientations", "why_tests_cant": "All models.", "anchors": ["redeclipse/prefabs/magica.py:MagicaRoom.load_model,_get_positions,render_extra"]}
{"id": "C65", "title": "Lights and entities land at the centre of their tile", "statement": "A light requested at a room's position is created at four times the fine position of the centre of its tile for the world size in use, matching the scale of other entities.", "quantifier": "all positions and world sizes", "why_tests_cant": "All positions.", "anchors": ["redeclipse/lighting/__init__.py:LightManager.light,get_light", "redeclipse/entities/__init__.py:Light"]}
{"id": "C66", "title": "Face vertices share corners", "statement": "For any cube edges the six faces produced by genfaceverts use the 8 corners consistently: every face consists of the four corners on its side, and adjacent faces agree on shared corners.", "quantifier": "all edge values, all six faces", "why_tests_cant": "All edge bytes.", "anchors": ["redeclipse/objects.py:genfaceverts,dimension,dimcoord,opposite"]}
{"id": "C67", "title": "Transition probabilities are well defined", "statement": "tp is symmetric when mirrored, always positive, and agrees with the per-class table used to build the room stream.", "quantifier": "all managers and class pairs", "why_tests_cant": "All pairs.", "anchors": ["redeclipse/prefabs/distributions.py:tp,for_class"]}
{"id": "C68", "title": "The command line default works", "statement": "The room generator can be run without optional arguments: the placement manager it builds accepts a first room.", "quantifier": "all first rooms", "why_tests_cant": "Depends on argument defaults rather than on the manager alone.", "anchors": ["redeclipse/cli/magica_rooms.py:main", "redeclipse/upm.py:UnusedPositionManager.__init__"]}
{"id": "C69", "title": "Entity constructors agree on units", "statement": "Entities of different classes created from the same position vector get the same stored coordinates, whatever class of vector is passed.", "quantifier": "all positions of either vector class and all entity classes", "why_tests_cant": "Ranges over all positions and every pair of entity classes; a test uses one class of vector.", "anchors": ["redeclipse/entities/__init__.py:Entity.__init__", "redeclipse/entities/__init__.py:PlayerSpawn", "redeclipse/entities/weapon.py"]}
{"id": "C70", "title": "Rooms render independently of each other", "statement": "Rooms that claim different cells can be rendered in any order: with each room's random outcomes fixed, every point of the finished world holds what its own room alone would have put there, and points of no room keep their contents.", "quantifier": "all lists of hand-built rooms with disjoint cells, all orders, positions, orientations, flags, random outcomes and initial worlds", "why_tests_cant": "All orders of all room combinations.", "anchors": ["redeclipse/prefabs/__init__.py:render", "redeclipse/prefabs/construction_kit.py:ConstructionKitMixin.x", "redeclipse/upm.py:UnusedPositionManager"]}
{"id": "C71", "title": "Entities of a room stand inside it", "statement": "Every light, jump pad, pickup, spawn point and map model that rendering a room adds to the map stands inside a cell claimed by that room.", "quantifier": "all hand-built room classes, positions, orientations, flags and random outcomes", "why_tests_cant": "All positions and orientations; the code rotates entity positions by hand in each class.", "anchors": ["redeclipse/prefabs/__init__.py:render,light", "redeclipse/lighting/__init__.py:LightManager.light", "redeclipse/entities/__init__.py"]}
{"id": "C72", "title": "Filling open doors fills exactly the open doors", "statement": "Filling the open doors of a layout with solid blocks sets every point of the cells of the open doors and no other point; in particular it never changes a point of a room.", "quantifier": "all histories of registrations, placements and end caps that did not raise, all worlds and all points", "why_tests_cant": "All layouts and histories.", "anchors": ["redeclipse/aftereffects.py:endcap", "redeclipse/upm.py:UnusedPositionManager"]}
{"id": "C73", "title": "A rainbow map has a bounded number of textures", "statement": "However many textures are requested by category or colour, the rainbow texture manager never allocates more than 66 textures (sky, default and 64 hues).", "quantifier": "every history of requests and all random outcomes", "why_tests_cant": "All histories and random outcomes.", "anchors": ["redeclipse/textures/__init__.py:RainbowPukeTextureManager.get_c,get_colour"]}
{"id": "C74", "title": "Writing the outputs leaves the map and its config", "statement": "For every map file name, after the outputs are written the map file holds the map and another file holds the texture config with the extra lines appended; no other file is changed.", "quantifier": "all file names, configs, extra lines and previous contents of the file system", "why_tests_cant": "All file names.", "anchors": ["redeclipse/textures/__init__.py:TextureManager.emit_conf", "redeclipse/cli/__init__.py:output"]}
{"id": "C75", "title": "Images named in the config exist", "statement": "The textures of a theme name all their images, the config entry names each image, and every image named below the generated texture directory is copied there.", "quantifier": "all themes and every history of requests", "why_tests_cant": "All histories over every texture of every theme.", "anchors": ["redeclipse/textures/basetex.py:conf,files", "redeclipse/textures/__init__.py:TextureManager.copy_data"]}
{"id": "C76", "title": "The exported room graph shows the layout", "statement": "In the exported graph every room is a node exactly once (beside one node for no room), every link leads from a node to a node, and each link joins the two rooms that were linked when they were placed.", "quantifier": "every history of registrations and placements, all room classes, positions, orientations and random outcomes", "why_tests_cant": "All histories; links are stored by position and looked up in the occupied cells only at the end.", "anchors": ["redeclipse/cli/__init__.py:output", "redeclipse/upm.py:UnusedPositionManager.place_rooms"]}
{"id": "C77", "title": "World flavours add exactly their settings", "statement": "Every list of the offered flavours is accepted and appends exactly the settings of each, in the order given; an unknown flavour raises and keeps the settings of those before it.", "quantifier": "all lists of names and previous settings", "why_tests_cant": "All lists of choices, with repetitions, in any order.", "anchors": ["redeclipse/worldflavors.py:update"]}
{"id": "C78", "title": "The snow forest generator writes its terrain", "statement": "For every noise and every base map of size 256 to 8192, the snow forest generator writes a map that is read back with exactly two layers of ground under the height of each column, a wall along the border, and nothing else in the way; every column has a floor.", "quantifier": "all noise functions with values in [-1, 1] and all base maps", "why_tests_cant": "All noise functions (seeds) and base maps.", "anchors": ["redeclipse/cli/snow_forest.py:main,point_height,point_snow,_light_distribution"]}
{"id": "C79", "title": "The terrain generator leaves no gaps", "statement": "For every noise and all random outcomes the terrain generator writes a map that is read back with trees only in forests, buildings on whole 4 by 4 plots on top of the ground, and no block floating above an empty position; a column of the forest gets a tree exactly if its own random number, drawn row by row, is below a quarter of the noise, and a plot is built on exactly if its random number, drawn after those of the trees, is below a third of its noise.", "quantifier": "all noise functions with values in [-1, 1], all random outcomes and all base maps of size 128 to 8192", "why_tests_cant": "All noise functions and random outcomes.", "anchors": ["redeclipse/cli/perlin.py:main"]}
{"id": "C80", "title": "What model rooms add stays inside them", "statement": "Every light, flag, player start, pusher and weapon that a model room adds to the map lies inside a cell the room claims, wherever and however turned it is placed; every room adds a light.", "quantifier": "all model classes, positions, orientations and random outcomes", "why_tests_cant": "All placements of 45 classes; an item outside its room can land in a neighbour's wall.", "anchors": ["redeclipse/prefabs/castle/__init__.py:render_extra", "redeclipse/prefabs/spacestation/__init__.py:render_extra", "redeclipse/prefabs/dungeon/__init__.py:render_extra", "redeclipse/prefabs/original/__init__.py:render_extra"]}
{"id": "C81", "title": "Mirror copies of a model room get mirrored items", "statement": "The items of a mirror copy of a model room are the mirror images of the items of the room, at the mirrored places and turned with it.", "quantifier": "all model classes, positions, orientations, mirror images and random outcomes", "why_tests_cant": "All placements and random outcomes; fairness between teams depends on it.", "anchors": ["redeclipse/prefabs/spacestation/__init__.py:station_endcap,station_tube_jumpx", "redeclipse/prefabs/original/__init__.py:spawn_room", "redeclipse/upm.py:_yield_mirrored"]}
{"id": "C82", "title": "Flag rooms give each mirror copy its own team", "statement": "A flag room adds exactly one flag and no other class adds any; with any of the mirror modes the copies have pairwise different teams; and the red parts of the model are shown in the colour of the team of the flag.", "quantifier": "all positions, orientations, mirror modes and random outcomes", "why_tests_cant": "All placements; two bases of one team make the game unplayable.", "anchors": ["redeclipse/prefabs/castle/__init__.py:castle_flag_room", "redeclipse/prefabs/spacestation/__init__.py:station_flagroom"]}
{"id": "C83", "title": "Model rooms show the colours of their model", "statement": "A model room, rendered at any cell into any world and with any colours already in use, shows each voxel of its model in the palette colour of that voxel (team colours in flag rooms, three fixed colours in the spawn room), changes no other block, and keeps all textures handed out before.", "quantifier": "all readable .vox files, classes, cells, orientations, worlds and histories of colour requests", "why_tests_cant": "All files and all histories of colour requests.", "anchors": ["redeclipse/prefabs/magica.py:MagicaRoom.render,colour_to_texture,render_individual_voxel", "redeclipse/textures/__init__.py:AutomatedMagicaTextureManager"]}
{"id": "C84", "title": "A map of model rooms contains the rooms and nothing else", "statement": "After any registrations at whole cells, random placements and caps that did not raise, rendering all rooms does not raise; every voxel of every room is there in the colour its room shows, and every block is a voxel of a room.", "quantifier": "all call histories, random outcomes and model files that have voxels in the claimed cells", "why_tests_cant": "All histories and random outcomes; a later room could overwrite an earlier one.", "anchors": ["redeclipse/cli/magica_rooms.py:main", "redeclipse/prefabs/magica.py:MagicaRoom.render", "redeclipse/upm.py:UnusedPositionManager"]}
{"id": "C85", "title": "Rooms and doors stay on whole cells", "statement": "If the caller registers rooms at whole cells only, every room placed or capped later, each cell and doorway of it and every open door is at a whole cell, also after calls that raised.", "quantifier": "all call histories and random outcomes, all classes of the kit and all model classes", "why_tests_cant": "All histories: positions are computed from earlier positions by vector arithmetic with rounding.", "anchors": ["redeclipse/upm.py:register_room,place_rooms,endcap,room_localization,_room_cap_real"]}
{"id": "C86", "title": "Every run of the room generator ends, with a map of the rooms it reports", "statement": "With --mirror 1, 2 or 4, every run of the generator ends without exception. The rooms are the copies of the first room, the placed rooms and the endcaps; no two claim a common cell. Every voxel of every room is in the world in the colour its room shows, and nothing else is. The map gets the sunlight and the entities of the rooms; in ctf mode one flag for each copy of the first room, of different teams, otherwise none.", "quantifier": "all sizes, numbers of rooms, modes, input maps, model files that fit their classes, and random outcomes", "why_tests_cant": "All random outcomes: the layout is a random process with retries.", "anchors": ["redeclipse/cli/magica_rooms.py:main", "redeclipse/upm.py:register_room,place_rooms,endcap", "redeclipse/prefabs/magica.py:MagicaRoom.render"]}
{"id": "C87", "title": "The saved file of a run contains all rooms", "statement": "The map file that a run saves can be read back; in it every voxel of every room is a block of the colour its room shows there, nothing else is a block, and the rest is the input map with the sunlight and the entities of the rooms added.", "quantifier": "all runs with world sizes that are powers of two, all random outcomes and input maps", "why_tests_cant": "All random outcomes; only some layouts leave the part of the world that is saved.", "anchors": ["redeclipse/cli/magica_rooms.py:main", "redeclipse/cli/__init__.py:output", "redeclipse/upm.py:is_legal", "redeclipse/__init__.py:Map.write,MapParser.read"]}
{"id": "C88", "title": "Float rounding keeps the room stream fair", "statement": "random_room_stream with float probabilities offers every option exactly once; an option k times as probable as the least probable one has k chances in the shuffle; and placement with float probabilities does nothing that placement with exact ones could not do.", "quantifier": "all tables of positive probabilities, lists of options, placement states and random outcomes", "why_tests_cant": "All tables and random outcomes; the effect of rounding on a probability is not visible in a single run.", "anchors": ["redeclipse/upm.py:random_room_stream,room_localization,place_rooms", "redeclipse/prefabs/distributions.py:CastleDistributionManager"]}
{"id": "C89", "title": "Light colours have the configured brightness and saturation and the hue of the noise", "statement": "The colour of a light at any position has greatest channel 255 times the brightness (capped at 1), least channel the greatest times one minus the saturation, all channels in 0..255, and its channels are ordered like the noise channels at that position.", "quantifier": "all noise values, positions, brightnesses and saturations", "why_tests_cant": "All noise values in combination with float rounding at sector boundaries of the colour wheel.", "anchors": ["redeclipse/lighting/__init__.py:PositionBasedLightManager.hue", "redeclipse/prefabs/__init__.py:LIGHTMAN"]}
{"id": "C90", "title": "The game finds the right texture under every number", "statement": "A game that reads the emitted config line by line (texture c starts the next slot, texture with another letter and texcolor change the slot started last) finds, under the number a texture request returned, the images and the colour of the requested texture, and no other slots; so in the two files saved by a run every block has the colour its room shows there.", "quantifier": "all texture themes, all request histories, all flavour lines, all runs of the room generator", "why_tests_cant": "The number of a texture depends on the whole history of requests, and whether entries stay apart depends on which texture follows which.", "anchors": ["redeclipse/textures/__init__.py:TextureManager.emit_conf", "redeclipse/textures/basetex.py", "redeclipse/cli/__init__.py:output", "redeclipse/worldflavors.py:update"]}
{"id": "C91", "title": "An interrupted run never leaves a wrong map", "statement": "Whenever the program is stopped or raises while it generates or saves a map, the map file holds what it held before or the whole new map; and if it holds a readable new map, the config beside it is complete and belongs to it. No other file changes.", "quantifier": "all crash points, byte by byte, all disk contents, paths, maps and runs of the room generator", "why_tests_cant": "A test observes a few crash points; the claim is about every byte at which writing can stop.", "anchors": ["redeclipse/cli/__init__.py:output_args,output", "redeclipse/textures/__init__.py:TextureManager.emit_conf", "redeclipse/__init__.py:Map.write"]}
{"id": "C92", "title": "magicavoxel_info shows the model as it is", "statement": "For every .vox file with 255 or 256 colours the tool prints the name, the least and greatest coordinates of the voxels, every colour that is not black with its number, and one layer per height in which a # stands exactly at the voxels. Anything else is refused without printing. A world that was exported is shown with a # exactly where it has a block.", "quantifier": "all byte strings given as a file, all voxel lists and palettes, all exported worlds", "why_tests_cant": "The layers must be right for every set of voxels, and the fallback to 255 colours must pick the right reading for every file.", "anchors": ["redeclipse/cli/magicavoxel_info.py:main", "redeclipse/magicavoxel/reader.py:Magicavoxel", "redeclipse/voxel/__init__.py:VoxelWorld.set_point"]}
{"id": "C93", "title": "The JSON dump of a map is complete and faithful", "statement": "For every map file that can be read, to_json prints a dump of it that shows every header field, variable, texture, entity and slot under its name and every cube at its place in the tree; two different maps have different dumps; and --section prints that part of the whole dump, or fails if there is no such part.", "quantifier": "all byte strings given as a file that the reader accepts, all pairs of such files, all section names", "why_tests_cant": "Maps from the game have entity kinds, surface masks and texts that no test map has; whether a dump exists and determines the map has to be known for all of them.", "anchors": ["redeclipse/cli/to_json.py:main", "redeclipse/__init__.py:Map.to_dict", "redeclipse/objects.py:cube.to_dict", "redeclipse/objects.py:cubext.to_dict", "redeclipse/objects.py:VSlot.to_dict", "redeclipse/entities/__init__.py:Entity.to_dict"]}
{"id": "C94", "title": "A debug run shows the same rooms as the real run, with a red plate at every open door", "statement": "For mirror 1, 2 or 4, every size, number of rooms, theme switch, set of model files and random choices: running the room generator with --debug ends without exception, lays out exactly the rooms that the run without --debug lays out before closing doors with the same random choices, and puts one test room at each door left open, in order. The map then shows every voxel of the rooms in its colour, a red 4x4 plate at each open door, nothing else, and contains the sunlight, the entities of the rooms and one grenade per test room. The graph file can be written.", "quantifier": "all arguments with mirror 1, 2 or 4, all model files, all sequences of random choices, all starting maps", "why_tests_cant": "whether two open doors look into the same cell depends on the whole history of random choices; a run is one of unboundedly many", "anchors": ["redeclipse/cli/magica_rooms.py:main", "redeclipse/upm.py:endcap", "redeclipse/prefabs/__init__.py:TestRoom", "redeclipse/cli/__init__.py:output"]}
{"id": "C95", "title": "The room test shows every room class faithfully", "statement": "For every list of model room classes, all readable model files that fit their class and all random choices, the room test ends without exception; for each class it lays out the room turned by 0, 90, 180 and 270 degrees about the middle of the map and one test room in front of every door inside the map that does not lead into a copy; no two of these share a cell; the world shows every voxel of the copies in the colour of its palette, a red plate for each test room, and nothing else; the entities are those of the copies, then one grenade for each test room; the textures shared between classes do not mix.", "quantifier": "all lists of model classes in any order and with repetitions, all files that fit, all random choices", "why_tests_cant": "the test tool only covers the classes listed in it and the files at hand, with its checks for collisions switched off; the texture table is shared by all classes of a run", "anchors": ["redeclipse/cli/magicavoxel_room_test.py:main", "redeclipse/upm.py:register_room", "redeclipse/upm.py:endcap", "redeclipse/prefabs/magica.py:MagicaRoom.render"]}
{"id": "C96", "title": "The texture images of the config are copied, each from its own texture", "statement": "For every theme and every history of textures and colours asked for, copy_data ends without exception with the images that come with the program, and afterwards every image that the config names below hxr/textures is in the texture directory of the game with the content of that texture's own image, other files being untouched. If an image is missing, it raises for the first missing one and has copied exactly those before it; a run of the room generator then leaves the map file empty.", "quantifier": "all themes, all sequences of texture and colour requests, all sets of available images, all states of the texture directory, all runs of the room generator and all moments of saving", "why_tests_cant": "which files are copied depends on the whole history of requests, and textures may share file names; the map file's state has to be known at every moment", "anchors": ["redeclipse/textures/__init__.py:TextureManager.copy_data", "redeclipse/textures/basetex.py:BaseTex.srcpath", "redeclipse/textures/basetex.py:SimpleColourTex.files", "redeclipse/cli/__init__.py:output"]}
{"id": "C97", "title": "Reading a map and writing it again reproduces the file", "statement": "For every map file the `iso` tool can read to its end, the file it writes is the same, byte for byte, inside the gzip stream; a file it cannot read leaves the output untouched; and a second pass over its output changes nothing.", "quantifier": "all byte strings as input file", "why_tests_cant": "the tool exists to compare binary outputs on the maps at hand; that nothing is lost has to hold for every file, including ones written by other programs", "anchors": ["redeclipse/cli/iso.py:main", "redeclipse/__init__.py:MapParser.read", "redeclipse/__init__.py:Map.write"]}
{"id": "C98", "title": "The voxel export of a run shows its rooms", "statement": "When the room generator is run with --magica, the .vox file it writes shows every voxel of every placed room at its place and in the colour the room shows there (the palette entry before the record's colour number, as viewers of the format count), each position once and nothing else; the file announces as many records as it holds.", "quantifier": "all model files that can be read and claim the cells the class declares, all layouts (mirror 1, 2 or 4, any number of rooms), all random choices, all base maps", "why_tests_cant": "Whether a room crosses the border of the cube, and how many colours are in use, depends on the random layout; a test sees a few layouts, while records must be right for all of them.", "anchors": ["redeclipse/cli/__init__.py: output", "redeclipse/magicavoxel/writer.py: to_magicavoxel", "redeclipse/cli/magica_rooms.py: main", "redeclipse/prefabs/magica.py: MagicaRoom.render"]}
{"id": "C99", "title": "Integer vectors obey vector arithmetic", "statement": "For all ivec3 vectors, add, sub and dot are the sum, difference and inner product of the coordinates that to_dict() shows; adding and subtracting a vector gives back the first; dot and add are symmetric; cross() is perpendicular to both arguments, changes sign when they are swapped and has the right length; shl(n) multiplies by 2**n, mask(2**n - 1) gives the remainder and the two split a vector; ivec5 names the corners of eight cubes that tile their parent exactly.", "quantifier": "all pairs of vectors (integer or not), all shifts and masks, all cube corners and sides", "why_tests_cant": "The laws quantify over unbounded integers and over fractional fields, where truncation only shows on particular sign combinations.", "anchors": ["redeclipse/vector/re.py: ivec3, cross"]}
{"id": "C100", "title": "Installing a sky box", "statement": "Creating a sky box object for a game directory succeeds and puts its six images exactly where a map with that sky box names them, changes nothing else, changes nothing when repeated, and leaves other installed sky boxes complete.", "quantifier": "all file systems, all game directories, all sky box classes, any sequence of two installations", "why_tests_cant": "It must hold for every prior state of the disk: directories present, missing or taken by files, images already installed.", "anchors": ["redeclipse/skybox/__init__.py: Skybox, DesertSky, MinecraftSky", "redeclipse/__init__.py: Map.skybox"]}
{"id": "C101", "title": "A JSON dump can be turned back into the map", "statement": "For every map file that to_json can dump, from_json applied to the dump ends without an error and writes a file that is read as the same map.", "quantifier": "all map files that can be read and dumped, all prior states of the disk", "why_tests_cant": "The round trip ranges over all maps: any headers, variables, entities, slots and trees of cubes.", "anchors": ["redeclipse/cli/from_json.py: main", "redeclipse/cli/to_json.py: main", "redeclipse/__init__.py: Map.from_dict, Map.to_dict, Map.write"]}
{"id": "C102", "title": "The printed dump is JSON and determines the map", "statement": "For every map that was read and can be dumped, what to_json prints is one line of printable ASCII that is a JSON text by RFC 8259, and its value is the dump; two maps that print the same text are the same map but for the merge flags of cubes. The same holds for a single section.", "quantifier": "all map files, all strings (any Unicode characters), numbers and nestings in them, all section names", "why_tests_cant": "escaping, surrogate pairs, nesting and number texts have infinitely many cases, and injectivity is about pairs of maps", "anchors": ["redeclipse/cli/to_json.py:main", "redeclipse/__init__.py:Map.to_dict", "redeclipse/objects.py:cube.to_dict"]}
{"id": "C103", "title": "All outputs of a run", "statement": "However a run of the room generator is asked for a voxel export, a map and a graph, and in any combination, every requested file is complete when the program ends: the export, the map with its config, and the graph as a JSON text from which nodes and links can be read; no other file changes. With the images that come with the program this is false for every run with a visible room and a requested map: the program ends while copying images, the map and the graph stay empty and the config lacks its last lines. If the image is there, or no map is requested, and the export does not raise, it holds. An export that raises leaves the map and the graph empty and the config untouched.", "quantifier": "all runs, requested combinations of distinct files, earlier disk contents, texture directories, available images, extra config lines and object identities", "why_tests_cant": "The three outputs share one program run, so an exception in one decides what the others leave; this depends on the layout, the colours and the images at hand, and all combinations over all runs cannot be enumerated.", "anchors": ["redeclipse/cli/__init__.py: parse, output", "redeclipse/textures/__init__.py: TextureManager.emit_conf, TextureManager.copy_data", "redeclipse/voxel/__init__.py: VoxelWorld.to_magicavoxel", "redeclipse/prefabs/castle/__init__.py: name"]}
{"id": "C104", "title": "Mirrored maps look the same from every side", "statement": "In a mirrored run of the room generator every team finds the same surroundings: what stands at a point of the map stands, in the same colour, at the points obtained by turning about the middle of the map. For rooms other than end caps this holds for all runs, in the world and in the saved file wherever both points are inside the map, up to the team colours of flag rooms. End caps are drawn for each door anew, so for the whole map it is false.", "quantifier": "all model files that fit, arguments, mirror settings, random draws and runs, all points and turns", "why_tests_cant": "It is a symmetry of every generated map; runs are random and the points of a map number in the millions.", "anchors": ["redeclipse/upm.py: UnusedPositionManager._yield_mirrored, register_room, place_rooms, endcap", "redeclipse/cli/magica_rooms.py: main", "redeclipse/prefabs/magica.py: MagicaRoom.render"]}
{"id": "C105", "title": "No room is cut off", "statement": "In every map of the room generator one can walk from any room to any other through doorways that face each other, opening onto cells of each other's rooms; rooms other than end caps are also reached along the recorded links. Without mirroring this holds for every run. With mirroring every room, end caps included, is connected with a copy of the first room, but the copies need not be connected with each other, so the sides of a mirrored map can be apart.", "quantifier": "all arguments, mirror settings, random draws and resulting layouts, all pairs of rooms", "why_tests_cant": "Connectedness is a reachability property of every random layout of any size.", "anchors": ["redeclipse/upm.py: UnusedPositionManager.place_rooms, room_localization, endcap, register_room, register_link", "redeclipse/cli/magica_rooms.py: main", "redeclipse/prefabs/__init__.py: Room.get_doorways, Room.get_positions"]}
{"id": "C106", "title": "A doorway is left open only where nothing fitted", "statement": "In every layout made by the room generator, each doorway of each room either opens onto a cell of a room, or is one where no end cap of the offered kinds could stand facing it inside the grid without touching a room, or is one where no room of the offered kinds could stand facing it together with its mirror copies. The stronger claim that every doorway opens onto a room is false.", "quantifier": "every command line with mirror mode 1, 2 or 4, every sequence of random choices, every number of rooms", "why_tests_cant": "Which doorways are left depends on the order in which random doors were tried and on every earlier placement; a test sees one layout.", "anchors": ["redeclipse/upm.py:UnusedPositionManager.endcap", "redeclipse/upm.py:UnusedPositionManager.place_rooms", "redeclipse/upm.py:UnusedPositionManager.room_localization", "redeclipse/cli/magica_rooms.py:main"]}
{"id": "C107", "title": "The models that come with the room classes are sound", "statement": "The .vox file of every room class can be read to its end, has a full palette, has all voxels inside the box it states and no two at one place, and its class claims exactly the cells in which it has a voxel. So every run of the room generator with these files ends, saves a map that can be read, and in the saved part of the world each voxel of each room shows the colour its palette gives, with no block anywhere else. (Of the files that no class uses, water_square.vox cannot be read.)", "quantifier": "every room class with a file; every command line with mirror mode 1, 2 or 4, every size that is a power of two from 256, every input map at least as large, every sequence of random choices", "why_tests_cant": "Reading the files settles each file, but that every layout made from them is saved without loss ranges over all random choices and all arguments.", "anchors": ["redeclipse/magicavoxel/reader.py", "redeclipse/prefabs/magica.py:MagicaRoom", "redeclipse/prefabs/castle/__init__.py", "redeclipse/cli/magica_rooms.py:main"]}
{"id": "C108", "title": "Doorways are openings with a floor", "statement": "Wherever a room of a shipped class stands and however it is turned, each of its doorways is an opening in its wall, four blocks wide and six high, with a floor under it. After every run of the room generator this holds in the finished world and in the saved map, so every room can be walked to from a copy of the start room through open doorways. (False for five stair classes, which the generator does not place: there a doorway lacks its floor or is five high.)", "quantifier": "every class, cell and direction; every command line with mirror mode 1, 2 or 4, every sequence of random choices, every input map", "why_tests_cant": "A doorway could be walled up by a neighbour in some layout; only an argument about all layouts excludes this.", "anchors": ["redeclipse/prefabs/magica.py:MagicaRoom.render", "redeclipse/prefabs/__init__.py:Room.get_doorways", "redeclipse/upm.py:UnusedPositionManager.place_rooms", "redeclipse/cli/magica_rooms.py:main"]}
{"id": "C109", "title": "Nothing a room adds is inside a wall, and players start on a floor", "statement": "After every run of the room generator with the shipped models, each player start has two by two blocks of floor under it and six blocks of free height above it, flags and lights are not inside blocks, and there are as many player starts as rooms of the kind that has one. For lights this is false: two classes hang lights outside of their own cells, and another room can have a wall there. It is also false that every run makes a player start.", "quantifier": "every command line with mirror mode 1, 2 or 4, every sequence of random choices, every input map; every class, cell and direction for single rooms", "why_tests_cant": "Whether a neighbour walls in a light or a start depends on the layout drawn; only an argument over all layouts shows that starts are always free.", "anchors": ["redeclipse/prefabs/original/__init__.py:spawn_room.render_extra", "redeclipse/prefabs/castle/__init__.py:castle_wall_section_endcap.render_extra", "redeclipse/prefabs/magica.py:MagicaRoom.render_extra", "redeclipse/cli/magica_rooms.py:main"]}
{"id": "C110", "title": "Blocks of a run stay near the build area and its export is always complete", "statement": "In every run of the room generator all blocks are at whole coordinates, from 0 to 263 in both horizontal directions and from -8 to 271 in height, so in maps of size 512 or more only voxels below height 0 are missing from the saved file. With the models of the repository a run uses at most 17 textures, so the .vox export is always written to its end; it has one record for each voxel inside the 256 cube, in the colour the room shows, and the number it states equals the number of records just when no room is outside the cube. The program's own reader rejects the export of every such run. If only the export or the graph is requested, all requested files are complete; if a map is requested too, the export is complete and the program then stops with the map and graph files empty.", "quantifier": "all arguments, input maps, random draws and runs", "why_tests_cant": "The bounds must hold for every random layout; tests see a few of them, and layouts near the border are rare.", "anchors": ["redeclipse/cli/magica_rooms.py: main", "redeclipse/cli/__init__.py: output", "redeclipse/magicavoxel/writer.py: to_magicavoxel", "redeclipse/upm.py: place_rooms, endcap, is_legal", "redeclipse/prefabs/magica.py: MagicaRoom.render"]}
{"id": "C111", "title": "Generating again on top of a generated map", "statement": "The room generator takes an existing map file as its input. If it is run any number of times, each time on the file that the run before saved, with any arguments and random choices, then every run ends and saves a file that can be read, and reading and writing that file gives the same bytes. The blocks of the file are those of the last run only, and the same run on two input maps saves the same blocks. The entities are not replaced: the file has the entities of the first input, and the sunlight, lights, player starts and flags of every run so far. So the claim that a generated map has exactly one flag for each team is false when the input map was itself generated: after two capture-the-flag runs every team has two flags.", "quantifier": "every length of the history, every list of arguments, all random choices of every run, every well-formed first input, all model files that fit their classes; as long as the number of entities stays below 2^30", "why_tests_cant": "The number of runs is unbounded and each run depends on the file left by all earlier ones; a test can follow a few histories only.", "anchors": ["redeclipse/cli/magica_rooms.py: main", "redeclipse/cli/__init__.py: parse, output", "redeclipse/__init__.py: Map.write, MapParser.read"]}
{"id": "C112", "title": "Player starts are usable in the saved map, in the units of the game", "statement": "If the map given to the generator is four times as wide as the voxel world (as the maps in the repository are for the default size), then in every file a run saves, every player start that was added stands on a floor four units thick, with the box eight units wide and 24 units high above it free, looked up in the octree of the file in the units of the game; and everything else it adds except lights is put where the box four units high is free. For maps of any other width this fails.", "quantifier": "every run (arguments, random choices, base map of any content, powers of two as sizes) and every position, not only whole ones, around every added entity of the saved file", "why_tests_cant": "Ranges over all layouts, all base maps and a continuum of positions, through the generator, the export to an octree and the binary format.", "anchors": ["redeclipse/entities/__init__.py: PlayerSpawn, TeamFlag", "redeclipse/voxel/__init__.py: VoxelWorld.to_octree", "redeclipse/cli/magica_rooms.py: main", "redeclipse/__init__.py: Map.write, MapParser.read"]}
{"id": "C113", "title": "For which world sizes the generated map can be loaded", "statement": "Whatever power of two from 4 on is given as the world size, a run of the room generator writes a map file. The file can be read exactly if some room of the run has a voxel in the corner eighth of the world; then its blocks are exactly those of the rooms inside the world, and it is a fixed point of reading and writing; otherwise reading it fails. For the default size 256 and above the corner is always used, so the file can always be read. For size 128 it depends on the random choices: with the same arguments some seeds give maps that can be loaded and some give maps that cannot.", "quantifier": "every world size 2^n with n from 2 up to the width of the map (at most 8192), every base map, argument list, model files that fit their classes, all random choices", "why_tests_cant": "Ranges over all layouts and random choices; a test sees one seed at a time and the failure depends on the seed.", "anchors": ["redeclipse/cli/magica_rooms.py: main", "redeclipse/cli/__init__.py: output", "redeclipse/voxel/__init__.py: VoxelWorld.to_octree", "redeclipse/__init__.py: Map.write, MapParser.read"]}
{"id": "C114", "title": "Rotations computed in floating point are exact", "statement": "Rotating a vector whose x and y are whole or half numbers by a multiple of 90 degrees, or by an orientation vector along an axis, gives exactly the rotated vector, although the code works with rounded floats, a rounded pi and inexact cosines and sines; errors do not build up over any number of rotations; rotating about a point with an offset is exact as well. For vectors with other coordinates this fails: the result is moved to the half grid, and the direction of that move depends on the last bit of the cosine.", "quantifier": "every vector with whole or half coordinates up to 2^40, every multiple of 90 degrees up to 3600, every axis direction of any length, every sequence of rotations, every C library whose cos, sin and atan2 are accurate to 2^-50", "why_tests_cant": "Ranges over all vectors, all sequences of rotations and all C libraries of the stated accuracy; a test checks one library on some vectors.", "anchors": ["redeclipse/vector/__init__.py: BaseVector.rotate, BaseVector.offset_rotate"]}
{"id": "C115", "title": "Which rooms can be reached on foot", "statement": "In every map of the room generator a player (two blocks wide and deep, four high) can stand in every doorway of every room, walk from each doorway to the opposite one of its room, in copies of the first room between all doorways, and through doorways that lead into each other, with steps of at most one block in height; so every chain of such doorways can be walked, in the world and in the saved map that is read back. Not every room can be reached in this way: there are maps in which the doorways of an upper storey cannot be reached from the first room, even by jumps of any distance up to three blocks high.", "quantifier": "every run of the room generator: arguments, mirror modes 1, 2 and 4, draws, base maps; every chain of doorways; every pair of places in the doorways at its ends", "why_tests_cant": "Ranges over all layouts, all chains of rooms and all places in the doorways; walking through a map tests one layout.", "anchors": ["redeclipse/cli/magica_rooms.py: main", "redeclipse/prefabs/magica.py: MagicaRoom.render", "redeclipse/prefabs", "redeclipse/upm.py: UnusedPositionManager"]}
{"id": "C116", "title": "Generated maps can be dumped as JSON exactly when they have no player start", "statement": "The file that is saved for a generated world can be read back and dumped as JSON, and the dump shows the map in the file, if the texts of the input map are UTF-8 and no player start is among the entities; each single section other than the entities can be dumped whenever the texts are UTF-8. For the model-room generator this means that the dump of the whole map or of its entities raises exactly when the input map has a player start or a spawn room was placed.", "quantifier": "every input map, every world of blocks whose size is a power of two from 4 up to the size of the map, with a block in the corner octant; every run of the model-room generator: arguments with mirror modes 1, 2 and 4 and a power of two from 256 as size, model files, draws", "why_tests_cant": "Ranges over all worlds and all runs; whether the dump works depends on which rooms were drawn, so a test of one run shows one side only.", "anchors": ["redeclipse/cli/to_json.py: main", "redeclipse/__init__.py: Map.to_dict", "redeclipse/objects.py: cube.to_dict", "redeclipse/cli/magica_rooms.py: main", "redeclipse/voxel/__init__.py: VoxelWorld.to_octree"]}
{"id": "C117", "title": "The room-test tool writes complete files for every tested room", "statement": "For every list of model rooms, the room-test tool ends without an exception, and afterwards each tested room has its own files, numbered in order: with --magica a voxel file that reads back as exactly the rendered blocks in their colours, with --redeclipse a map that reads back with the input map's entities, the rooms' entities and the sunlight, and with exactly the rendered blocks, beside a config that belongs to its textures. No two rooms share a file and no other file changes.", "quantifier": "every list of model rooms, options, model files, input map of size 256 to 8192, draws, previous contents of the disk and of the texture directory", "why_tests_cant": "Ranges over all lists of rooms, model files, draws and disks; textures accumulate from one tested room to the next, so each file depends on the rooms before it.", "anchors": ["redeclipse/cli/magicavoxel_room_test.py: main", "redeclipse/upm.py: UnusedPositionManager.endcap", "redeclipse/magicavoxel/writer.py: to_magicavoxel", "redeclipse/textures/__init__.py: TextureManager.copy_data", "redeclipse/__init__.py: Map.write"]}
{"id": "C118", "title": "The tools rooms.py and vector_test.py do their work or leave the outputs alone", "statement": "Given a readable map, each of the two tools ends without an exception and its output files are not empty; whatever happens, files that are not among its outputs keep their content.", "quantifier": "every disk, every choice of input and output files, every outcome of making the first room, every set of classes in the package", "why_tests_cant": "Ranges over all disks and arguments; that no argument makes the tools work cannot be seen from examples.", "anchors": ["redeclipse/cli/rooms.py: main", "redeclipse/cli/vector_test.py: main", "redeclipse/upm.py: UnusedPositionManager.place_rooms", "redeclipse/prefabs/__init__.py"]}
{"id": "C119", "title": "The angle of a direction is exact", "statement": "get_vector_rotation returns, for every vector along one of the four directions, exactly its angle in degrees, between -180 (excluded) and 180; rotating east by that angle gives the direction back. For every other vector the result differs from the exact angle by at most one degree.", "quantifier": "every direction and length, every vector, every C library that is accurate to 2^-50", "why_tests_cant": "Ranges over all vectors and over C libraries; the result is truncated, so an error in the last bit of a float shows as a whole degree.", "anchors": ["redeclipse/vector/orientations.py: get_vector_rotation", "redeclipse/vector/__init__.py: BaseVector.rotate"]}
{"id": "C120", "title": "Rounding of floats never leads the generator to a map that exact arithmetic could not give", "statement": "weighted_choice and random_room return an element of the list for every non-empty list of weights that are not negative, although every sum, product and quotient is rounded. Every run of the room generator computed in binary64 floats (rounded probabilities, rounded quotients of probabilities, rounded sums of door weights, rounded draws) ends without exception, and its layout, voxel world and map are those of a run in exact arithmetic for some outcome of the random draws; so all that holds of every exact run holds of every run in floats.", "quantifier": "every list of weights and elements; every size, number of rooms, mode and mirror mode 1, 2 or 4; every set of model files that fit; every input map; every outcome of the random draws", "why_tests_cant": "Rounding matters only for rare draws next to the limit between two doors, and the weights grow with every room; a test with a fixed seed sees none of these.", "anchors": ["redeclipse/upm.py: UnusedPositionManager.weighted_choice, nonrandom_position, random_room, random_room_stream, place_rooms", "redeclipse/cli/magica_rooms.py: main"]}
{"id": "C121", "title": "Numbers that a float field cannot hold are stored as the nearest that it can", "statement": "Every number of magnitude below 2^128 - 2^103 is written to a float field in 4 bytes, which are read back as a binary32 number such that no binary32 number is nearer (negative numbers that vanish give the negative zero); of two equally near ones the one with last bit 0 is written; any larger number raises OverflowError. Numbers of magnitude at least 2^-126 change by at most 2^-24 of their magnitude, and the order of two numbers is never reversed. A map that is well formed except that its entity coordinates and float variables are arbitrary numbers in range is written without error and read back with each of them rounded to nearest and nothing else changed.", "quantifier": "every rational number; every map whose other fields are well formed", "why_tests_cant": "There are infinitely many numbers, and the interesting ones (ties, carries into the next power of two, subnormal numbers, the edge of overflow) are rare.", "anchors": ["redeclipse/__init__.py: Map._write_float, Map._write_ents, Map.write, MapParser._read_float, MapParser.read"]}
{"id": "C122", "title": "A short file gives a small map", "statement": "Whatever the counts in a file say, a map read from a file of n bytes has at most 8 n cubes, entities, attributes, links, variables, bytes of variable names and values, textures, runs of slots and slots together.", "quantifier": "every file of any length that is read without error", "why_tests_cant": "The counts in the file are arbitrary 32-bit numbers and the trees have arbitrary shape, so the file that makes the reader build too much may be any of them.", "anchors": ["redeclipse/__init__.py: MapParser.read, MapParser._loadchildren, MapParser._loadc, MapParser._loadvslots, MapParser._loadents"]}
{"id": "C123", "title": "The size of a map file grows in proportion to its blocks", "statement": "The file of a map with an exported world of width 2^(n+2) has exactly 92 bytes for every cell that contains a block in the grids of width 2, 4, ..., 2^(n+1), and 38 bytes for every block, more than the file of the same map with an empty world (12 bytes less if the corner octant has no block). So each block takes at least 38 and at most 92 (n+1) + 38 bytes, and the file of a run of the room generator is longer than that of its entities alone by at most that number for each voxel in the models of the placed rooms, never in proportion to the volume of the world.", "quantifier": "every well-formed map, every world of textured blocks whose width is a power of two from 4 on; every run of the room generator, arguments, models and random choices", "why_tests_cant": "The number of worlds is astronomically large, and a tree that keeps useless levels or fills empty space shows only for some arrangements of blocks.", "anchors": ["redeclipse/__init__.py: Map.write, Map._savechildren, Map._savec", "redeclipse/voxel/__init__.py: VoxelWorld.to_octree", "redeclipse/objects.py: texturize, newcube", "redeclipse/cli/__init__.py: output", "redeclipse/cli/magica_rooms.py: main"]}
{"id": "C124", "title": "The work and the output of a run are bounded by its arguments", "statement": "A run of the room generator asked for N rooms with m mirrored copies (m = 1, 2 or 4) ends within 1 + 4m + (1 + 4m) ceil(N/m) iterations of the placement loop, whatever is drawn at random: 909 for the default arguments. It places at least m and fewer than 5 (N + 2m) rooms, end caps included, adds the sunlight and at most eleven entities for each room, and writes a file that is longer than the base map with an empty world by at most 56 bytes and, for each room, 528 bytes for its entities and 92 (n+1) + 38 bytes for each voxel of its model, for a world of width 2^(n+2). In general place_rooms with room classes of at most D doors ends within 1 + d + (1 + D m) ceil(N/m) iterations from a state with d open doors, leaves at most d + D k open doors after placing k rooms, and adding entities to a map makes its file longer by exactly 24 bytes and 4 for each attribute and link of each entity.", "quantifier": "every argument list with a supported mirroring, every base map, every set of readable models, every random outcome; for the general part every room kit, transition table, state of the placement manager and target", "why_tests_cant": "The number of iterations depends on the random choices: a run that hangs or grows without bound may need one particular history among all of them.", "anchors": ["redeclipse/upm.py: UnusedPositionManager.place_rooms, UnusedPositionManager._register_room, UnusedPositionManager.room_localization, UnusedPositionManager.endcap", "redeclipse/cli/magica_rooms.py: main", "redeclipse/__init__.py: Map.write, Map._write_ents"]}
{"id": "C125", "title": "Lines drawn between two points join them", "statement": "Drawing a line between two points yields blocks that begin at the start, end at the end and touch one after the other. This holds when the start is west of the end and at least one of the slopes (y over x, z over x) is at most one; the blocks are then exactly those of the steeper plane line, each once. In general, for a start west of the end, drawing never raises, every x has a block and every block lies over both plane lines, but there can be gaps and the end can be missed. With equal x nothing is drawn, and a start east of the end raises KeyError before any block. A room turned by a quarter or half turn therefore raises for lines that the room draws when not turned: a line that is safe in all four orientations draws nothing in any.", "quantifier": "every pair of points with integer coordinates, every orientation, position and offset of the room, every plane line function that gives connected lines (the published algorithm of the package is shown to)", "why_tests_cant": "The cases depend on the ratio of the numbers of blocks for each x, which differs for every pair of ends; a few lines that look right say nothing about the others.", "anchors": ["redeclipse/prefabs/construction_kit.py: line_points, ConstructionKitMixin.x_interpolate", "redeclipse/vector/__init__.py: BaseVector.vox"]}
{"id": "C126", "title": "A door is chosen with the chance its flavour gives it", "statement": "nonrandom_position returns each open door for a share of the 2^53 values of random.random() that is proportional to what the flavour function gives for its position, up to two values; every value picks exactly one door. With the plain flavour all doors have the same share. With the vertical flavour, which place_rooms uses, a door on the ground is picked by at most one value as long as some door is above the ground, a higher door never has a smaller share, and doubling the height multiplies the share by 32. The center hole flavour is documented to avoid the centre: it does not, its weight falls with x and with y over all allowed positions, so the corner at the origin is the most likely position, the far corner the least likely, and the centre is in between.", "quantifier": "every state of the placement manager, every list of open doors, every flavour function that is not negative on them, every value drawn", "why_tests_cant": "A share of the draws is a count over 2^53 values and must hold for every list of doors; sampling shows frequencies only roughly.", "anchors": ["redeclipse/upm.py: UnusedPositionManager.nonrandom_position, UnusedPositionManager.weighted_choice, UnusedPositionManager.nrp_flavour_plain, UnusedPositionManager.nrp_flavour_vertical, UnusedPositionManager.nrp_flavour_center_hole, UnusedPositionManager.is_legal"]}
{"id": "C127", "title": "Runs in one process do not disturb each other", "statement": "main can be called any number of times in one process, and the texture manager keeps the textures of the earlier calls. All the calls finish without an exception. Each gives the rooms, the map with its entities and the occupied points that the same call gives in a new process, and each block has the same texture there, when its number is looked up in the list of textures that the run ends with; only texture numbers can differ. Repeating a call later in the process, after any other calls, gives exactly the same blocks with the same texture numbers and so the same saved file.", "quantifier": "every list of calls with mirror 1, 2 or 4, every base map, all random draws, every set of model files that can be read and fills the cells that the classes claim", "why_tests_cant": "A hidden dependence on earlier calls can need a certain order of calls and certain colours; there are unboundedly many histories of a process.", "anchors": ["redeclipse/cli/magica_rooms.py: main", "redeclipse/prefabs/__init__.py: TEXMAN", "redeclipse/textures/__init__.py: AutomatedMagicaTextureManager", "redeclipse/prefabs/magica.py: MagicaRoom.render"]}
{"id": "C128", "title": "Vectors are sequences of three numbers with a floor division, and directions have names", "statement": "A vector unpacks to its three numbers and its class called with them makes it again; indexing with 0, 1, 2 gives the same numbers, every other index raises, negative ones as well. CoarseVector(*v), as in the room constructors, keeps a coarse position and takes the numbers of a fine one as cells. v // m counts the whole steps of length m, rounding down below zero too; dividing twice is dividing by the product; v // 8 is the cell of a fine vector; vox() is v // 1 and does not change the cell; m = 0 raises. Computed in floats the quotient is rounded first: for whole and half coordinates below 2^50 and divisors below 2^49 this changes nothing, for larger numbers it does. n(v) names exactly the vectors one cell away in the four directions, exactly those that rotate_yaw accepts, and the name fits the angle. The fine constants go one eighth of the way of the coarse ones and are not mistaken for them.", "quantifier": "every vector of both classes, every index, every divisor", "why_tests_cant": "The laws hold for infinitely many coordinates and divisors, and rounding of quotients goes wrong only for particular pairs.", "anchors": ["redeclipse/vector/__init__.py: BaseVector.__getitem__, BaseVector.__iter__, BaseVector.__len__, BaseVector.__floordiv__, BaseVector.vox, FineVector.coarse", "redeclipse/vector/orientations.py: n, rotate_yaw, NORTH_FINE, WEST_FINE, SOUTH_FINE, EAST_FINE, ABOVE_FINE, BELOW_FINE"]}
{"id": "C129", "title": "Rooms are offered first with chances proportional to their transition probabilities", "statement": "Among any set of the options (for instance those that fit), random_room_stream offers a class before the others of the set for a share of the equally likely shuffles that is proportional to its transition probability from the connecting room.", "quantifier": "every transition table, every list of distinct room classes, every subset of them, every class in it, all outcomes of the shuffle", "why_tests_cant": "A chance is a statement about all outcomes of the shuffle (5040 already for the four rooms of the program), and it has to hold for every table and every subset of rooms that fit.", "anchors": ["redeclipse/upm.py: UnusedPositionManager.random_room_stream, UnusedPositionManager.room_localization", "redeclipse/prefabs/distributions.py: DistributionManager.for_class, CastleDistributionManager", "redeclipse/cli/magica_rooms.py: main"]}
{"id": "C130", "title": "The iso tool never leaves a different map, wherever it stops", "statement": "At every moment of a run of iso on a readable map, and also when writing the map raises: no file but the output has changed; the output is as before, or cannot be read, or is read as the map of the input; and the map can be read from the input or from the output.", "quantifier": "every disk, every input and output path (also the same one), every byte at which the run can stop, every readable file, also those whose maps cannot be written completely", "why_tests_cant": "Ranges over all files and all points at which the program can stop or raise; a partly written file that happens to be readable is not found by examples.", "anchors": ["redeclipse/cli/iso.py: main", "redeclipse/cli/__init__.py: parse", "redeclipse/__init__.py: Map.write, MapParser.read"]}
{"id": "C131", "title": "Every team of a mirrored run finds the same items in the saved file", "statement": "In the file saved by a run with mirroring 1, 2 or 4, everything the rooms brought has, under every turn of the mirroring, a twin in the same file: an entity of the same type at the position turned about the middle of the map, and for a flag the turned team.", "quantifier": "all arguments with a mirroring of 1, 2 or 4, all voxel files, maps and draws for which the run saves, every turn of the mirroring and every entity in the file", "why_tests_cant": "Ranges over all random layouts; a run whose teams have different items or whose flags belong to wrong teams is not found by looking at some maps.", "anchors": ["redeclipse/cli/magica_rooms.py: main", "redeclipse/upm.py: UnusedPositionManager.register_room", "redeclipse/prefabs/magica.py: MagicaRoom.render_extra", "redeclipse/prefabs/spacestation/__init__.py: station_flagroom"]}
{"id": "C132", "title": "The world size only crops the map", "statement": "Two runs of the room generator with the same random choices and the same arguments except for the world size and the given map place the same rooms with the same links, draw the same blocks with the same textures and add the same entities. In the files, the run with the smaller size shows exactly the part of the larger map that fits, counted in blocks; and if the smaller file can be read, so can the larger one.", "quantifier": "all arguments, all pairs of sizes, all pairs of given maps, all model files and all random choices; for the files all powers of two from 4 on that fit the given maps", "why_tests_cant": "Relates two runs for all random choices and all sizes; a dependence of the layout on the size that shows for rare choices only is not found by comparing some runs.", "anchors": ["redeclipse/cli/magica_rooms.py: main", "redeclipse/upm.py: UnusedPositionManager", "redeclipse/voxel/__init__.py: VoxelWorld", "redeclipse/cli/__init__.py: output"]}
{"id": "C133", "title": "Teams of a mirrored run get equal shares", "statement": "In the file saved by a run with mirroring m (1, 2 or 4), what the rooms brought apart from lights is, as a collection with repetitions, unchanged when everything is turned about the middle of the map by a turn of the mirroring, with the teams of flags turned along. Hence every team has as many flags as the team a turn puts in its place, and the number of items of every kind but lights is a multiple of m.", "quantifier": "all arguments with a mirroring of 1, 2 or 4, all voxel files, maps and draws for which the run saves, every turn of the mirroring, every team and every kind of item", "why_tests_cant": "Ranges over all random layouts; counting the items of some generated maps says nothing about the next seed.", "anchors": ["redeclipse/cli/magica_rooms.py: main", "redeclipse/upm.py: UnusedPositionManager.register_room", "redeclipse/prefabs/magica.py: MagicaRoom.render_extra", "redeclipse/prefabs/spacestation/__init__.py: station_flagroom"]}
{"id": "C134", "title": "Interrupted tools on the packed files", "statement": "Map files are packed by gzip. Whenever iso, the terrain generator perlin or the room generator is stopped, at any byte of the packed file, no other file (but the config of the room generator) has changed, and if a map can be read from the output then either nothing has changed yet or it is the complete new map; for perlin it has the whole terrain, for the room generator the config is complete as well. After the last step the new map can be read. snow_forest raises before it opens its output as soon as anything is to be planted, so it changes nothing.", "quantifier": "all gzip implementations that give back what was packed and that, for a file cut off, raise or give a beginning of the content; all disks, file names, input maps (without repeated variable names for iso; well-formed and 128 to 8192 wide for perlin), noise, draws and crash points", "why_tests_cant": "The crash point is arbitrary and what a cut file looks like depends on the compressor.", "anchors": ["redeclipse/__init__.py: Map.write, MapParser.read", "redeclipse/cli/iso.py: main", "redeclipse/cli/perlin.py: main", "redeclipse/cli/snow_forest.py: main", "redeclipse/cli/__init__.py: output"]}
{"id": "C135", "title": "The limit on nested calls", "statement": "Python's limit on nested calls never decides which map files are accepted: if at least thirty levels of cubes can be nested, exactly the same files are read, as the same maps, as without any limit, and every map that was read from a file or that is well-formed is written to the same bytes. A limit, however low, can do nothing to a file but make the reader raise RecursionError.", "quantifier": "all files (any bytes), all maps that were read or are well-formed, all limits of at least thirty levels (all limits for the last sentence)", "why_tests_cant": "How deep a file nests is up to the file; no test can show that a file that nests deeper than the limit would have been refused anyway.", "anchors": ["redeclipse/__init__.py: MapParser.read, MapParser._loadc, MapParser._loadchildren, Map.write, Map._savec", "redeclipse/objects.py: cube.validatec"]}
{"id": "C136", "title": "Programs that run at the same time", "statement": "When several of the programs run at the same time on one disk, a program whose files no other program changes does, in every schedule and at every moment, exactly what it does alone in as many steps, and it ends. So a map in the output of iso, perlin or the room generator is at every moment the old one, the file being untouched, or the complete new one (for the room generator with its complete config), and it is the new one once the program has ended without an exception. A tool that reads what another tool is writing makes the new map or none. (The last sentence is false if the reader was started before the output was opened: it can read the beginning of the old file and the rest of the new one. It holds if the reader is started later.)", "quantifier": "all numbers of programs, all schedules of their single steps (reading a byte, opening a file, writing a byte), all moments, disks, file names and maps, all gzip implementations as in C134", "why_tests_cant": "Schedules cannot be enumerated or controlled by tests.", "anchors": ["redeclipse/__init__.py: MapParser.read, Map.write", "redeclipse/cli/__init__.py: parse, output_args, output", "redeclipse/cli/iso.py: main", "redeclipse/cli/perlin.py: main", "redeclipse/cli/magica_rooms.py: main"]}
{"id": "C137", "title": "Runs at the same time share the texture directory", "statement": "All runs copy their texture images into the one texture directory of the game. However the steps of several runs are mixed: as soon as a run has copied its images they are all there and complete; and no run fails because of another one. (Both are false: another run that copies the same image empties it first, and two runs that both find the directory missing both make it, the second one with FileExistsError before its map is written. What holds: an image copied by a finished run is complete whenever no run is writing it; no run fails because of another if the directory is there, and never all of them; a run alone does what C96 says; and under one name all runs copy the same image.)", "quantifier": "all numbers of runs, all schedules of their single steps, all sets of textures, all states of the directory", "why_tests_cant": "Races show up in few of the schedules, and tests cannot choose the schedule.", "anchors": ["redeclipse/textures/__init__.py: TextureManager.copy_data", "redeclipse/cli/__init__.py: output"]}
{"id": "C138", "title": "Damaged model files", "statement": "A model file is accepted exactly if it begins with the layout of a model (VOX, MAIN, SIZE, XYZI, RGBA with the announced numbers of voxels and all 256 colours), and then the model has the size, voxels and colours that stand there, whatever follows. A file cut anywhere before the end of its palette is refused, so no part of a model is taken for a room. The info tool shows a file that lacks at most four bytes with the same voxels and without the last colour, and refuses shorter ones; of an interrupted export it shows all blocks or nothing. The lists made while reading have no more entries than the file has bytes. (The last is false: 60 bytes can announce 2^32 - 1 voxels, and the list for them is made before any is read. It holds for accepted files, and for all lists but the last one.)", "quantifier": "all byte sequences, all places where a file is cut, all worlds and textures that are exported", "why_tests_cant": "There are infinitely many damaged files, and every byte of a file is a place where it can be cut.", "anchors": ["redeclipse/magicavoxel/reader.py: Magicavoxel", "redeclipse/cli/magicavoxel_info.py: main", "redeclipse/magicavoxel/writer.py: to_magicavoxel"]}
{"id": "C139", "title": "The number of rooms only says how far a run goes", "statement": "Two runs of the room generator that differ only in the number of rooms asked for, with the same random choices: the run with the higher number keeps every room of the other one, in the same place and order, and adds others after them. (False for the caps that close open doors: a cap gives way to a new room. It holds for all other rooms.) In the cells of those rooms both saved files show the same blocks in the same colours, and what those rooms bring for players (weapons, flags, starts, ...) comes first in both files. Numbers that need the same number of groups of mirrored copies give the same result, and so do all numbers from 38115 on.", "quantifier": "all numbers of rooms, sizes, modes with 1, 2 or 4 copies, random choices, readable model files that fit and base maps with room", "why_tests_cant": "The relation is between two runs, for every pair of numbers and every sequence of random choices.", "anchors": ["redeclipse/upm.py: place_rooms, endcap", "redeclipse/cli/magica_rooms.py: main"]}
{"id": "C140", "title": "However many rooms are asked for, a run stays bounded", "statement": "Whatever number of rooms is asked for, a run of the room generator ends after at most 1 + 4m + (1 + 4m)*ceil(38115/m) rounds of placement (m copies), with at most 38115 rooms, at most eleven entities for each of them, and a file that is longer than that of the base map by at most a fixed number of bytes for each of 38115 rooms.", "quantifier": "all numbers of rooms, sizes that are powers of two from 4 on, modes with 1, 2 or 4 copies, random choices, readable model files that fit and base maps with room", "why_tests_cant": "The number of rooms has no upper limit, and the bound must hold for every sequence of random choices.", "anchors": ["redeclipse/upm.py: place_rooms, is_legal", "redeclipse/cli/magica_rooms.py: main"]}
{"id": "C141", "title": "The saved file of a debug run", "statement": "Whenever a run with --debug ends (size a power of two from 256 on, --mirror 1, 2 or 4, and a base map of at least that size), its map can be made, written and read back. In the file every voxel of a placed room that lies inside the map is a block of the colour the room shows there. Every door left open opens onto a cell from 0 to 32 in each direction; if that cell lies inside the map, the file has a red plate of four by four blocks in the middle of its floor, and from size 512 on this is so for all open doors. No other block is in the file. The rest is the base map, the sunlight, the entities of the rooms and one grenade for each open door. Writing what was read gives the same bytes, and no proper beginning of the file can be read.", "quantifier": "all run options with a power-of-two size from 256 on, all random choices, all readable model files that fit their classes, all well-formed base maps with room", "why_tests_cant": "the layouts and the doors left open depend on unboundedly many random choices and on the model files; a test looks at a few seeds", "anchors": ["redeclipse/cli/magica_rooms.py: main", "redeclipse/cli/__init__.py: output", "redeclipse/upm.py: endcap", "redeclipse/prefabs/__init__.py: TestRoom"]}
{"id": "C142", "title": "Worlds of any size as map files", "statement": "A voxel world whose size is no power of two is still turned into a tree and saved. Each coordinate range is halved, with the middle rounded down, until the x range holds one coordinate. Every unit cube of the tree then shows the block of one point of the world, fixed by the size alone; ranges that hold one coordinate early are shown twice as wide. A point of the world is shown somewhere exactly if its x range still had two coordinates at the last halving, or neither its y nor its z coordinate is the second one of a range of two. So every point is shown exactly if the size is a power of two. For sizes from 4 on, the saved file is read back with exactly these blocks if the lower corner octant of the tree shows a block; if it shows none the file is written but cannot be read. Of the s*s*s points of a world of size s with 2^n <= s <= 2^(n+1) exactly (2^(n+1) - s)*(s*s - 4^n) are shown nowhere.", "quantifier": "all worlds of size at least 2 (at least 4 for the file) with any blocks, all units of the tree, all well-formed maps whose world size is at most 8192 and holds the tree", "why_tests_cant": "The property covers every size and every set of blocks; a test sees only chosen sizes, and the ones in use are powers of two where nothing is lost.", "anchors": ["redeclipse/voxel/__init__.py: to_octree", "redeclipse/cli/__init__.py: output"]}
{"id": "C143", "title": "Runs with any world size", "statement": "The size option of the room generator takes any number, and the help text only says it is dangerous. For every size from 4 on, power of two or not, a run that ends without an exception also writes its file. The file can be read back exactly if the lower corner octant of the tree shows a voxel of a room. Each unit of the map it is read as shows the voxel of a room, with the colour of the room, at the point of the world that the size assigns to the unit, and is empty if no room has a voxel there. Entities are those of the rooms, at their own positions. Voxels at points that the size assigns to no unit are lost, which happens exactly for sizes that are no power of two.", "quantifier": "all sizes from 4 on, all readable and fitting model files, mirror modes, numbers of rooms, random draws and well-formed base maps with room for the tree", "why_tests_cant": "It ranges over every size, every set of model files and every random layout.", "anchors": ["redeclipse/cli/magica_rooms.py: main", "redeclipse/cli/__init__.py: output", "redeclipse/voxel/__init__.py: to_octree"]}
{"id": "C144", "title": "What it costs to turn a world into a tree", "statement": "Converting a world of size s with 2^n <= s <= 2^(n+1) into a tree makes exactly (8^(n+1) - 1)/7 + 8*4^n*(s - 2^n) calls, whatever blocks the world holds: 19173961 for size 256, also for an empty world. With a limit on the nesting of calls, a world with 2^n < s <= 2^(n+1) is converted exactly if the limit is at least n + 2, and the limit never changes the resulting tree; the only possible failure is that the limit is exceeded.", "quantifier": "every world content, every positive world size, every limit on nested calls", "why_tests_cant": "A test converts worlds of a few sizes; it cannot show that the cost never depends on the content or that the interpreter's limit on nested calls is never reached for any usable size.", "anchors": ["redeclipse/voxel/__init__.py: to_octree", "redeclipse/cli/__init__.py: output"]}
{"id": "C145", "title": "Programs that make directories and install sky boxes and textures at the same time", "statement": "Several programs install sky boxes and copy texture images for one game at the same time; every test, every mkdir on the way and every byte written is a step of its own. However the steps are mixed: no mkdir fails because a directory above is missing; a program that copies finds all directories on the way to its own; existing directories and files that nobody copies stay; only directories on the way are made. A program fails because of another only if its own directory was missing at the start and another program with the same directory has made it and goes on; programs that only share directories on the way never do harm. A file copied by a finished program is complete whenever no program is writing it, so a program that has its directory for itself (one sky box beside any number of texture copies) always ends with all its files complete. Every program ends after a number of its own steps fixed in advance, and alone it leaves exactly what it leaves when run in one piece.", "quantifier": "all numbers of programs, all schedules of their single steps, all depths of the directories, all initial directories, all sky boxes and sets of textures", "why_tests_cant": "A test cannot choose the schedule; the races between the tests and the mkdir calls at the different levels show up in few of the schedules.", "anchors": ["redeclipse/skybox/__init__.py: Skybox", "redeclipse/textures/__init__.py: TextureManager.copy_data"]}
{"id": "C146", "title": "Rotation by any angle", "statement": "Rotating a vector by any whole number of degrees up to ten turns, or by the direction of any vector, gives a vector whose first two coordinates are multiples of 1/2, each within 1/4 (plus a thousandth) of the true rotation, with height and class unchanged; so the result is within 3/8 of the true place, and the distance of two places changes by at most 3/4. Different places with whole coordinates are rotated to different places at every angle; with half steps two places can become one (1 and 1/2 along an axis at 45 degrees). After any list of rotations the place is within 3/8 for each rotation of the single rotation by the sum of the angles. Turning back by the same angle gives the vector back: this is false off the quarter turns, what holds is that it comes back to within 3/4.", "quantifier": "all vectors up to 2^30, all angles in degrees up to ten turns and all direction vectors, all lists of rotations, all C libraries whose cosine, sine and atan2 are accurate to 2^-50", "why_tests_cant": "A test looks at a few angles and vectors; how far rounding can move the result, and whether two places can merge, depends on all of them.", "anchors": ["redeclipse/vector/__init__.py: BaseVector.rotate"]}
{"id": "C147", "title": "The ways through a mirrored map are the same for every team", "statement": "In the map of every run with mirroring 1, 2 or 4, for every turn of the mirroring, two rooms other than end caps are at most n doorways apart exactly if their turned copies are; so a room and its copy (the flag rooms of two teams, for instance) have, for every n, the same number of rooms of every class within n doorways. Whatever can be walked from doorway to doorway through rooms other than end caps can be walked between the turned doorways, in as many steps from doorway to doorway.", "quantifier": "all mirrored runs (arguments, base maps, random outcomes), all turns of the mirroring, all rooms, all distances n, all chains of doorways", "why_tests_cant": "A test can compare distances in a few maps; a difference for one team could need a rare order of rooms.", "anchors": ["redeclipse/upm.py: UnusedPositionManager._yield_mirrored", "redeclipse/prefabs/__init__.py: Room.get_doorways", "redeclipse/cli/magica_rooms.py: main"]}
{"id": "C148", "title": "Every point has a random number of its own", "statement": "In decay and growth the fate of a point is decided by one random number that no other point uses: the point (x, y, z) by the one numbered z*n*n + x*n + y, where n is the size of the world, and nothing else is taken from the generator. A construction drawn with prob below 1 decides its k-th point by the k-th random number; drawn with prob 1, or with subtract, it takes none. decay and growth stop with a TypeError exactly if the world's top is a float; grid also stops, with a ZeroDivisionError, exactly if its mesh is 0 and there is a point to look at.", "quantifier": "all worlds, all probability functions, all constructions with distinct points, all random outcomes", "why_tests_cant": "Independence of the points is a statement about which of the random numbers every outcome depends on; a test sees single outcomes.", "anchors": ["redeclipse/aftereffects.py: decay", "redeclipse/aftereffects.py: growth", "redeclipse/aftereffects.py: grid", "redeclipse/prefabs/construction_kit.py: subtract_or_skip"]}
{"id": "C149", "title": "Points survive a decay independently and with the given chance", "statement": "Take any of the blocks of a world and any part of them. Among all outcomes of the random numbers of a decay, the share of those where just this part is kept and the rest of the chosen blocks is gone is the product of the chances of the blocks: for each kept one the share of values of random() that are at most the position function at its point, for each removed one the remaining share. That share is 0 for a negative value of the position function, 1 for a value of at least 1, and otherwise equals the value up to 2^-53. The same holds for the empty points in a growth, and for the points of a construction drawn with prob below 1.", "quantifier": "all worlds with an integer top, all position functions, all sets of points, all probabilities below 1", "why_tests_cant": "The distribution of the result is a statement about all outcomes of the generator at once, far too many to run; samples cannot show independence of every group of points.", "anchors": ["redeclipse/aftereffects.py: decay", "redeclipse/aftereffects.py: growth", "redeclipse/prefabs/construction_kit.py: subtract_or_skip"]}
{"id": "C150", "title": "Lights of pole rooms and block rooms hang free", "statement": "The light that a pole room or a block room adds to the map is not inside a block that the room puts there, at any position, in any orientation, with any flags and random outcomes. (The places that a pole room leaves free for its light are turned with the room, the light is not.) For a pole room the four columns in the middle of the centre tile stay free of poles over the whole height.", "quantifier": "all positions, orientations, flags, random outcomes and contents of the world before", "why_tests_cant": "Poles are placed at random, at most of the 576 places with heights of their own, and the light is not turned with the room; a pole in the light appears only for some outcomes and orientations.", "anchors": ["redeclipse/prefabs/__init__.py: PoleRoom", "redeclipse/prefabs/__init__.py: ImposingBlockRoom"]}
{"id": "C151", "title": "What a hand-built room adds is not buried in its own blocks", "statement": "Lights, jump pads, weapons, spawn points and models that a room adds to the map stand in voxels that the room itself leaves as they were, at any position, in any orientation and with any flags.", "quantifier": "all classes of the kit, positions, orientations, flags, random outcomes and contents of the world before", "why_tests_cant": "Things are placed partly turned with the room and partly not, the blocks are always turned; whether they meet depends on class, orientation and flags together, and on what was there before.", "anchors": ["redeclipse/prefabs/__init__.py: render of all rooms", "redeclipse/lighting/__init__.py: LightManager.light"]}
{"id": "C152", "title": "What a hand-built room adds stands on a block", "statement": "Player starts, weapons, jump pads and models that a room adds to the map have a block directly below them, at any position, in any orientation and with any flags, whatever was there before.", "quantifier": "all classes of the kit, positions, orientations, flags, random outcomes and contents of the world before", "why_tests_cant": "Some things are turned about the corner of the room and others not at all, while the blocks are turned about the middle of a tile; whether there is a block below depends on class, orientation and flags together.", "anchors": ["redeclipse/prefabs/__init__.py: render of all rooms", "redeclipse/vector/__init__.py: rotate, offset_rotate"]}
