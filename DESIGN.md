# Formal model of hexylena/remapper: design

The code in `/repo/redeclipse` was read as text only; nothing was run.
Theorems are about the Lean model in `lean/Verif`. Each model definition cites
the file and lines it models, and says where it simplifies.

## Layout

| area of `/repo/redeclipse` | model | helper lemmas | specification and theorems |
|---|---|---|---|
| Python values, exceptions, dicts, random tape | `Py` | | |
| `vector/` | `Vec` | `VecLemmas` | `Props/Vec` (C01-C08) |
| `voxel/` | `Voxel` | `VoxelLemmas`, `OctreeLemmas` | `Spec/Octree`, `Props/Voxel` (C09, C10), `Props/Octree` (C11-C14) |
| byte and float fields of `__init__.py` | `Bytes` | `BytesLemmas`, `F32Lemmas` | `Props/Bytes` (C15, C16) |
| map reader and writer: `__init__.py`, `objects.py` | `MapFile` | `CubeLemmas`, `EntLemmas`, `MapLemmas`, `MapReadLemmas`, `ReaderLemmas` | `Spec/Cube`, `Spec/MapFile`, `Props/Cube` (C17, C30), `Props/Ent` (C18, C69), `Props/MapFile` (C19-C23), `Props/MapReader` (C24, C25), `Props/MapRewrite` (C26, C28, C29) |
| entity classes: `entities/` | `Entities` | | `Props/Ent` |
| dictionary form of maps | `Dict` | | `Props/Dict` (C31) |
| export of worlds: `cli/__init__.py` | `Pipeline` | `PipelineLemmas` | `Spec/Pipeline`, `Props/Pipeline` (C27) |
| room placement: `upm.py` | `Upm` | `UpmLemmas`, `PlaceLemmas`, `RoomLemmas` | `Props/Upm` (C32-C35), `Props/Place` (C36, C37), `Props/Mirror` (C39, C45), `Props/Endcap` (C41), `Props/Choice` (C42-C44) |
| room classes: `prefabs/__init__.py`, model classes | `Rooms`, `ModelRooms` (generated) | `RoomLemmas` | `Props/Rooms` (C38, C40, C51) |
| `prefabs/construction_kit.py` | `Kit` | `KitLemmas` | `Props/Kit` (C46-C50) |
| rendering of hand-built rooms | `Render` | `RenderLemmas` | `Props/Render` (C52, C70) |
| `aftereffects.py` | `After`, `After64` | the gradients also in float arithmetic | `Props/After`, `Props/After64` (C54-C57, C72) |
| `textures/` | `Textures`, `TextureData` (generated), `Themes` | | `Props/Textures` (C58-C60), `Props/Themes` (C61, C73-C75), `Props/Hues` (C61, C73) |
| `magicavoxel/`, `prefabs/magica.py` | `Vox` | `VoxLemmas` | `Props/Vox` (C62-C64) |
| `lighting/` | `Lights` | | `Props/Lights` (C65, C71) |
| face geometry of `objects.py` | `Faces` | | `Props/Faces` (C66) |
| `prefabs/distributions.py`, `Room.randOpts` | `Dist`, `DistData` (generated) | | `Props/Dist`, `Props/FlagChance` (C53, C67) |
| arguments, room graph, `worldflavors.py` | `Cli` | | `Props/Cli` (C68, C76, C77) |
| `cli/snow_forest.py`, `cli/perlin.py` | `Terrain`, `Terrain64` | exact and float arithmetic | `Props/Terrain`, `Props/Terrain64`, `Props/Snow64`, `Props/Planting64` (C78, C79) |
| `prefabs/{castle,dungeon,egypt,original,spacestation}`: `render_extra`, `colour_to_texture`, `initialize_textures` | `ModelExtra` | | `Props/ModelExtra` (C80-C82), `Props/ModelColours` (C83, C84) |
| `upm.py` on whole cells | `Upm` | | `Props/Cells` (C85) |
| `cli/magica_rooms.py`: `main`, with `cli/__init__.py`: `output` | `MagicaRun` | | `Props/MagicaRun` (C86), `Props/MagicaSaved` (C87) |
| room stream of `upm.py` in floats | `Stream64` | `Round64` | `Props/Stream64` (C88) |
| colours of lights: `lighting/` with `colorsys` | `Hue` | `Round64` | `Props/Hue`, `Props/HueNear` (C89) |
| the emitted config as the game reads it | `Textures`, `Cli`, `MagicaRun` | `Spec/Conf` | `Props/Conf` (C90) |
| the disk while a map is saved | `Save` | `Disk` as a dict of byte lists | `Props/Save` (C91) |
| `cli/magicavoxel_info.py`: `main` | `Info` | how a person reads the layers (in `Props/Info`) | `Props/Info` (C92) |
| `cli/to_json.py`: `main`; `cube.to_dict`, `cubext.to_dict`, `VSlot.to_dict` | `Json` (with `Dict`) | `Spec/Json`: looking values up in the dump | `Props/Json` (C93) |
| `cli/magica_rooms.py` with `--debug`; `cli/magicavoxel_room_test.py` | `DebugRun` (with `MagicaRun`, `Render`) | `Plate`, `GrenadeAt`, `ShowsAt` (in `Props/Debug`) | `Props/Debug` (C94), `Props/RoomTest` (C95); lemmas `EmbedLemmas` |
| `textures/__init__.py` `copy_data`, its place in `cli/__init__.py` `output` | `CopyData` | `lastCopy`, `Found`, `Shipped` (in `Props/Copy`) | `Props/Copy` (C96) |
| `cli/iso.py`: `main` | `Iso` (with `MapFile`) | bytewise comparison (in `Props/Iso`) | `Props/Iso` (C97); lemmas `IsoLemmas` |
| `cli/__init__.py`: `output` with `--magica`, for a run of `cli/magica_rooms.py` | `Vox`, `MagicaRun` | what a viewer of the format shows (in `Props/RunVox`) | `Props/RunVox` (C98) |
| `vector/re.py`: `ivec3`, `cross` | `IVec` | triples of integers, `Shows`, `Laws`, `Tri.In` (in `Props/IVec`) | `Props/IVec` (C99) |
| `skybox/__init__.py`: `Skybox.__init__`, `get_files`; `os.makedirs`, `shutil.copy` | `Skybox` | `SkyComplete`, `gamePath`, `SkyWF` (in `Props/Skybox`) | `Props/Skybox` (C100) |
| `cli/from_json.py`: `main` | `FromJson` | `readMap`, the dump of C93 (in `Props/FromJson`) | `Props/FromJson` (C101) |
| `cli/to_json.py`: printed text; `simplejson.dumps` / `json.dump` with default settings | `JsonText` | a reader for RFC 8259 (in `Props/JsonText`) | `Props/JsonText` (C102) |
| `cli/__init__.py`: `output` (all options together), graph as JSON | `Outputs` | `written`, `Complete` (in `Props/Outputs`) | `Props/Outputs` (C103) |
| `cli/magica_rooms.py`: `main` with `--mirror`, `upm.py`: `_yield_mirrored` | `MagicaRun`, `Upm` | `turnPt` (in `Props/Fair`) | `Props/Fair` (C104) |
| `upm.py`: `place_rooms`, `endcap` in `cli/magica_rooms.py`: `main` | `MagicaRun`, `Upm` | `Passage`, `Walk`, `Linked` (in `Props/Connect`) | `Props/Connect` (C105) |
| `upm.py`: `place_rooms`, `endcap`, as called in `magica_rooms.py` | `MagicaRun`, `Upm` | `InGrid`, `Vacant`, `Meets`, `SpaceForCap`, `SpaceForRoom` (in `Props/Holes`) | `Props/Holes` (C106) |
| `prefabs/*/*.vox`, read by `magicavoxel/reader.py` | `VoxData` (generated), `Shipped` | `RunInput` and the spec of C87 (in `Props/Shipped`) | `Props/Shipped` (C107) |
| `prefabs/*/*.vox` with `prefabs/__init__.py`: `get_doorways`, `prefabs/magica.py`: `render` | `Shipped`, `MagicaRun` | `AtDoor`, `InWay`, `OnSill`, `Open`, `OpenInFile`, `OpenWalk` (in `Props/Openings`) | `Props/Openings` (C108) |
| `prefabs/*/__init__.py`: `render_extra` with `prefabs/*/*.vox`, as called in `magica_rooms.py` | `ModelExtra`, `Shipped`, `MagicaRun` | `Touch`, `Over`, `Under`, `added` (in `Props/Starts`) | `Props/Starts` (C109) |
| `cli/magica_rooms.py`: `main`, `cli/__init__.py`: `output`, with the shipped models | `MagicaRun`, `Outputs`, `Shipped` | `NearArea` (in `Props/Export`) | `Props/Export` (C110) |
| `cli/magica_rooms.py`: `main` run repeatedly on its own output | `MagicaRun`, `MapFile` | `History`, `AddedBy`, `flagsIn` (in `Props/Again`) | `Props/Again` (C111) |
| `entities/__init__.py`, `voxel/__init__.py` `to_octree` and the map file together: positions in game units | `MagicaRun`, `Voxel`, `Pipeline`, `MapFile` | `gameLeaf`, `InMap`, `StandsAt` (in `Props/Game`) | `Props/Game` (C112) |
| `cli/magica_rooms.py`: `main` with `--size` below 256 | `MagicaRun`, `Voxel`, `Pipeline`, `MapFile` | `CornerUsed`, `FileOf` (in `Props/Small`, `Props/MagicaSaved`) | `Props/Small` (C113) |
| `vector/__init__.py`: `rotate`, `offset_rotate` in floats | `FloatRot`, `Round64` | `Accurate`, `turn`, `turnAbout` (in `Props/FloatRot`, `Props/Vec`) | `Props/FloatRot` (C114) |
| `cli/magica_rooms.py`, `prefabs/vox/*.vox`: ways between doorways | `FootData` (found ways), `FootTables` (checked ways) | `Spot`, `BodyStands`, `Pace`, `OnFoot`, `Leap`, `InDoorway` (in `Props/Foot`) | `Props/Foot` (C115) |
| `cli/to_json.py` on files of `cli/magica_rooms.py` and of the other exporters | `Json`, `RunMagica`, `Outputs` | `MapShown`, `Texts`, `NoStart`, `AllSurfaces` (in `Spec/Json`) | `Props/DumpRun` (C116) |
| `cli/magicavoxel_room_test.py`: the files written | `RoomTestFiles` | `TestFiles`, `testNames`, `SavedAs`, `VoxOf` (in `Props/TestFiles`, `Props/SavedWorld`) | `Props/TestFiles` (C117) |
| `cli/rooms.py`: `main` up to `place_rooms`; `cli/vector_test.py`: `main` up to the class | `OldTools` | `Worked` (in `Props/OldTools`) | `Props/OldTools` (C118) |
| `vector/orientations.py`: `get_vector_rotation` in floats | `FloatRot` | `AngleOf`, `OnAxes` (in `Props/VectorAngle`) | `Props/VectorAngle` (C119) |
| `upm.py`: `weighted_choice`, `random_room`, `nonrandom_position`, `place_rooms` in floats; `cli/magica_rooms.py`: `main` with them | `Choice64`, `TapeLemmas` | the exact runs (`MagicaRun`) | `Props/Choice64` (C120) |
| `__init__.py`: `_write_float`, `_read_float` for numbers that are not representable; `write`, `read` of maps with such numbers | `Bytes`, `MapFile` | `Nearest32`, `RoundsTo`, `MapRounds` in `Props/Nearest32` | `Props/Nearest32` (C121) |
| `__init__.py`: `read`, `_loadchildren`, `_loadc`, `_loadvslots`, `_loadents`: size of what is built | `Bytes`, `MapFile` | `mapSize`, `cubeCount` in `Props/ReadSize` | `Props/ReadSize` (C122) |
| `__init__.py`: `write`, `_savec`; `voxel/__init__.py`: `to_octree`: number of bytes | `MapFile`, `Voxel`, `Pipeline` | `cellAt`, `used`, `usedTo`, `blocksOf` in `Props/FileSize` | `Props/FileSize`, `Props/FileSizeRun` (C123) |
| `upm.py`: `place_rooms`, `endcap`; `cli/magica_rooms.py`: bounds on work and output | `Upm`, `MagicaRun`, `MapFile` | `stepBound`, `FewDoors`, `entBytes` | `Props/EntBytes`, `Props/RunBounds` (C124) |
| `prefabs/construction_kit.py`: `line_points`, `x_interpolate` | `Line` | `IsLine`, `Touching`, `JoinsEnds` | `Props/Line` (C125) |
| `upm.py`: `nonrandom_position` with the flavours | `Upm` | number of draws for each door | `Props/Flavours` (C126) |
| `cli/magica_rooms.py`: several calls of `main` in one process | `Session` | each call starts with the texture manager of the one before | `Props/Session` (C127) |
| `vector/__init__.py`: sequence methods, `__floordiv__` in floats; `orientations.py`: `n`, fine constants | `Vec`, `VecSeq` | iteration, indexing, rounding of quotients | `Props/VecSeq` (C128) |
| `upm.py`: `random_room_stream`, `random.sample` as a function of the draws | `Sample`, `Stream64` | counting of draws; CPython's pool | `Props/StreamShare` (C129) |
| `cli/iso.py`: `main` on a disk, step by step | `IsoFile`, `ResumeLemmas` | what the writer leaves can be completed to a file of the same map | `Props/IsoFile` (C130) |
| the entities of mirrored runs in the saved file | `MagicaRun`, `ModelExtra`, `MapFile` | rooms have their copies, a copy brings turned entities, the file keeps position, type and team | `Props/FairEnts` (C131) |
| runs with another world size or another given map | `MagicaRun`, `ResizeLemmas` | placing never looks at the size, rendering never at size or bounds of the voxel world | `Props/Resize` (C132) |
| the numbers of items in mirrored runs | `MagicaRun`, `ModelExtra`, `MapFile` | turning permutes the rooms of a layout | `Props/Balance` (C133) |
| map files as packed by gzip | `Zipped` | pack and unpack are parameters with `Gzip.Ok` | `Props/Zipped` (C134) |
| Python's limit on nested calls in reader and writer | `Limit` | levels of cubes are counted; two calls make a level | `Props/Limit` (C135) |
| several programs on one disk | `Jobs` | single steps in any order; files are read byte by byte, what needs no disk is done at once | `Props/Jobs` (C136) |
| copying images by several runs at once | `CopyRace` | every run writes at its own position of a file | `Props/CopyRace` (C137) |
| damaged model files | `VoxAsk` (the lists made while reading) | memory is not limited | `Props/VoxCut` (C138) |
| the number of rooms | `Upm`, `MagicaRun`, `Choice64` | as there | `Props/MoreRooms`, `Props/MoreRoomsFloat` (C139) |
| runs with very many rooms | `Upm`, `MagicaRun` | as there | `Props/RunCap` (C140) |
| `cli/magica_rooms.py`: the file of a run with `--debug` | `DebugRun`, `MagicaRun` | `DebugFile` (in `Props/DebugSaved`) | `Props/DebugSaved` (C141) |
| `voxel/__init__.py`: `to_octree` for sizes that are no power of two | `Octree`, `Pipeline` | `Spec/AnySize`: `part`, `source`, `octFill` | `Props/AnySize`, `Props/AnySizeFile`, `Props/AnySizeCount` (C142) |
| `cli/magica_rooms.py`: `--size` with any number | `MagicaRun`, `Pipeline` | `Spec/AnySize`, `FileOfAny` (in `Props/AnySizeRun`) | `Props/AnySizeRun` (C143) |
| `voxel/__init__.py`: number and nesting of the calls of `to_octree` | `OctCost` | in the statements | `Props/OctCost` (C144) |
| `skybox/__init__.py`, `textures/__init__.py`: `os.makedirs` and copying by several programs, step by step | `DirRace` | in `Props/DirRace` | `Props/DirRace` (C145) |
| `vector/__init__.py`: `rotate` in floats by any angle | `FloatRot` | in `Props/AnyAngle` | `Props/AnyAngle` (C146) |
| `upm.py`, `prefabs/__init__.py`: the rooms of a mirrored run as a graph | `Upm`, `MagicaRun` | in `Props/EqualWays` | `Props/EqualWays` (C147) |
| `aftereffects.py`, `construction_kit.py`: which random number decides a point | `After`, `Kit` | in `Props/OwnDraw` | `Props/OwnDraw` (C148) |
| `aftereffects.py`, `construction_kit.py`: chances of the points | `After`, `Kit` | in `Props/Chances` | `Props/Chances` (C149) |
| `prefabs/__init__.py`: lights of `PoleRoom` and `ImposingBlockRoom` | `Render`, `Lights` | `blockAt` in `Props/PoleLight` | `Props/PoleLight` (C150) |
| `prefabs/__init__.py`: entities of the hand-built rooms | `Render`, `Lights` | `blockAt` in `Props/PoleLight` | `Props/FreeEnts` (C151) |
| `prefabs/__init__.py`: things other than lights in the hand-built rooms | `Render`, `Lights` | `below`, `blockAt` in `Props/StandEnts` | `Props/StandEnts` (C152) |

All modules are under `lean/Verif`. Property theorems live in `Props/*` and are named after the property they belong to.
`Cnn_name : Prop` is a full statement that is false of the code, `Cnn_name_false` its refutation with a witness, and
`Cnn_name_partial` what holds instead, its comment saying what is missing.

## General modelling decisions

* Numbers. Python ints and floats that carry geometry are exact rationals (`Rat`).
  All values the library computes with are small dyadic rationals, on which IEEE
  double arithmetic is exact; rounding of larger values is not modelled. Where the
  int/float type matters (the bounds of `VoxelWorld`, used in `range`), a type tag is kept.
* Rotation. `rotate` goes through `cos`/`sin`. The model covers angles that are
  multiples of 90 degrees, and direction vectors along an axis or zero, with exact
  cosine and sine followed by Python's `round` (half to even). C114 proves that the computation in floats gives the same result.
  Other angles are modelled in floats only (`V.rotF`, C146), not in the programs that build on rotation.
* Exceptions are values (`Except Err`). Error constructors stand for exception classes.
* Randomness is an infinite tape of natural numbers from which every `random.*` call
  is computed; theorems quantify over all tapes.
* Dicts are insertion-ordered association lists.
* `struct` 'f' fields are modelled through an explicit binary32 codec.

## Trusted base

* Lean's kernel and the axioms `propext`, `Classical.choice`, `Quot.sound`; no theorem depends on any other axiom.
* My reading of the Python source, as recorded in the comment on each definition.
* Four scripts that copy tables out of the source text: `tools/gen_models.py` (types and doors of the model classes, cells of their
  .vox files), `tools/gen_textures.py` (texture classes and theme lists), `tools/gen_dist.py` (transition probabilities),
  `tools/gen_vox.py` (bytes of the .vox files of the classes).
  Their output is committed; nothing is generated during the build.
* Assumptions that appear as hypotheses or parameters: Python's `str` of numbers gives different strings for different numbers of
  one type (`StrOk` in `Props/Textures`); noise functions are arbitrary; `noise` and `colorsys` are read as documented; the kaitai runtime reads
  little-endian fields in order and raises at the end of the input; `cos`, `sin` and `atan2` of the C library are accurate to 2^-50 (`Accurate` in
  `Props/FloatRot`, C114, C119 and C146 only).

Not modelled: gzip (a parameter in C134, left out elsewhere), file handles and file permissions, logging, progress bars, argparse itself, Perlin noise,
the external package `bresenham` (any function with `IsLine` in `Props/Line`; the published algorithm is shown to be one), rooms and doors rotated by angles that are not multiples of 90 degrees (the vectors are, in C146), Python's recursion
limit (except where it stops an endless recursion, and for reading and writing maps in C135), rounding of floats that are not exactly representable (where it matters for a
claim, a rounding function is modelled: `round64` in `Vox`, `Stream64`, `Choice64`, `FloatRot` and `Hue`, binary32 fields in `Bytes`), NaN payload changes.

## Plan per property

* C01-C03 model `rotate`/`offset_rotate` over rationals with Python rounding; case split on
  the quarter, algebra over half-integers.
* C04-C07 tagged vectors with fine/coarse dispatch; C05 and C06 are false across classes
  (equal vectors hash differently; `<` compares raw coordinates): negation with witness plus `_partial`.
* C08 modular arithmetic over all integers.
* C09, C10 operation histories, refinement to a function `point -> Option block`, induction over the history.
* C11, C12, C14 recursion on k with an invariant on bounds; lookup by octant bits as separate spec.
* C13 false (sizes that are not powers of two lose points, size 0 never stops): negation.
* C15-C16 little-endian codec lemmas; binary32 encoder/decoder over rationals.
* C17-C19 writer/reader pairs with a "consumes exactly" lemma per field, mutual induction over cube trees.
* C20 image of the reader is well formed whenever it can be written; then C19.
* C21 reader monotone in its input, plus exact consumption from C19.
* C22 direct; C23 false (numvars is never updated): negation and `_partial`.
* C24 per-field rejection lemmas; the invalid cube tag part is false: negation and `_partial`.
* C25 the model's reader is fuelled by the input length; show fuel is never exhausted.
* C26 false (bytes >= 128 written through `chr`, vslots): negation; `_partial` lists sufficient conditions.
* C27 composition of C11 and C19; false when the first octant is empty: negation and `_partial`.
* C28-C30 direct induction; C29 false.
* C31 false (`Entity.from_dict` passes unknown keywords): negation; `_partial` on entity-free parts.
* C32-C35 invariants over registration histories; C35 false (room appended before the check).
* C36, C37 lexicographic measure over an explicit step function and random tape.
* C38 algebra of door alignment; false for classes whose doors depend on flags: negation, `_partial` otherwise.
* C39, C40 rotation about (16,16); second half of C40 false.
* C41 invariant over the fold; debug caps can raise: negation.
* C42-C45 direct.
* C46-C50 exact point sets; C50's prob part is false (skipped points are deleted).
* C51, C64 tables (generated from the .vox data for model rooms) lifted to all placements by equivariance.
* C52 local frame containment by evaluation, lifted by equivariance.
* C53 direct. `C53_exact` gives the flags as a function of the random numbers, and `C53_chance` counts the outcomes for every combination of flags (as in C149).
* C54-C57 folds over worlds; C55 false (float bounds make `range` raise; top layer skipped).
* C58-C60 invariant over request histories; C60 false for values printed differently (1 and 1.0).
* C61 tables; false where a theme names a missing texture.
* C62, C63 byte layout of the writer; false (255 colours, counts): negations and `_partial`.
* C65, C66, C67 algebra / finite tables.
* C68 false (`mirror=None`).
* C69 false for coarse vectors: most classes convert with `fine()`, player starts, weapons and models do not.
* C70 disjoint cells give commuting renders (from C52 and C32).
* C71 local coordinates of each entity, evaluated per class, lifted by equivariance.
* C72 exact contents after the fold over open doors.
* C73 counting argument over request histories.
* C74, C75 file system as a dict; false for names without `.mpz`, false for textures without images.
* C76 registration numbers as node ids; invariants of C32; false for classes that do not claim their own position.
* C77 induction over the list of flavours.
* C78, C79 terrain as a list of writes; exact contents for all noise; composition with C27. C78 is false as soon as a tree is due. In float arithmetic: simulation by the exact program with another noise (C78), the same induction again (C79). `C78_float_raises` and `C78_float_generates` say in terms of the noise where something is planted; `C78_single`: for noise in single precision the decimals of the source are meant exactly. `C79_float_trees` and `C79_float_buildings` give the planted columns as a function of the noise and the random numbers.
* C80 entity coordinates relative to the room, evaluated for all classes and quarter turns, lifted by translation; false for five classes.
* C81 the same tables compared between turns; false (one pusher, one player start, random items per copy).
* C82 tables for the teams, algebra for the mirror modes.
* C83 invariant of the texture manager through the fold over voxels; byte colours recovered from floats (C63).
* C84 C83 over the list of rooms with C32 (disjoint cells) and C64 (voxels stay in claimed cells). The model files are a parameter that
  has voxels in the cells of the generated class table.
* C85 invariant over registration histories, including failing calls.
* C86 termination and safety of placement (C36, C41), the rendering of C84 and the entities of C80-C82 composed over the whole run.
* C87 C86 with C27; rooms are near the map, so entities and texture numbers fit the file. False: rooms can have cells beyond the last one
  (`is_legal` admits 32), shown by a run whose random choices were found by search and are checked by the kernel.
* C88 `round64` is monotone and keeps whole numbers; a table of whole numbers of chances gives the exact model the same runs. The exact
  number of chances is false (`int(0.7 / 0.1)` is 6).
* C89 each float operation of `colorsys` rounded; the six sectors of the colour wheel by monotonicity of rounding and six constants
  checked by evaluation. False where the noise is grey. `C89_hue_near` bounds the error of every channel against the exact formula: the channels are trapezia over the circle of hues, which are Lipschitz, so the rounding errors of the place on the circle add up.
* C90 a line reader for configs (`Spec/Conf`) that knows nothing of how they are written; each entry is shown to be a list of whole lines
  that starts one slot, so the slots are those of the atlas. False for the default theme (C59); for a run it is composed with C87.
* C91 saving as a sequence of single byte writes, the crash point a number of steps; the first half is false because the map file is
  emptied when the arguments are parsed (negation), the second follows from the order of the writes and C21.
* C92 the printed text as a list of lines; the specification finds a layer by its title and counts rows and columns. By induction over
  the layers and voxels; the lower boundary is wrong (128) for models that lie wholly above 128 on an axis (negation).
* C93 the dump as a JSON tree, every `to_dict` with the exceptions it or `json.dumps` raises; the specification looks keys up. Induction over
  the cube tree, for the reader's surfaces over the loading loop. Left out: the text of the JSON and the `_id` of cubes.
* C94 the debug run over classes that are either a model or the test room; renaming classes commutes with placing (`EmbedLemmas`), so both
  runs place the same rooms. It raises if two open doors share a cell (negation, with the exact condition). Rendering by induction over
  rooms of both kinds that draw in different cells.
* C95 the loop over the classes with the shared texture manager. That copies and test rooms are apart is computed by the kernel for the
  complete list of classes; the rest by induction over the classes. Left out: the files written for each class.
* C96 `copy_data` on a directory of images, with the images at hand as a parameter; the files of the repository are listed in `CopyData`. By
  induction over the files; per theme by the kernel over the complete list of textures. With the files of the repository it raises for every
  colour (negation, with the exact condition for each theme); for a run of the room generator combined with C86 and C91.
* C97 the tool as reader followed by writer. For every reader a lemma compares the bytes it consumed with the bytes the writer puts out for the
  value read, composed by induction over lists, entities and cubes. False as a whole (negation): terminators, unused vertex bytes, negative
  counts and signalling NaNs are not kept; files of the library itself come out byte for byte, and one pass suffices.
* C98 `toVox` on the world and the textures of `RunArgs.main`. Invariants of rendering (keys once, colours are bytes, far sides
  are those of a block) give `C98_written` (written exactly when no voxel in the cube has a texture number above 254) and `C98_shows` (records
  are exactly the voxels in the cube, with their colours; the announced number is that of all voxels). `C98_export_partial` for rooms inside the
  cube and at most 255 textures; `C98_export_false` by the run of C87 with a room at the cell 32.
* C99 vectors keep their fields as given and truncate them on use. `C99_laws` states the laws against arithmetic on triples of integers; proved for integer fields (`C99_laws_partial`), refuted for others (`C99_laws_false`). `C99_truncates` (operations that only depend on the shown coordinates, shift and mask as power-of-two product and remainder, by induction on the number of bits), `C99_split`, `C99_add_exact` (exact condition for `add`), `C99_children` (the eight child cubes tile the parent).
* C100 file systems are functions from paths to directories and files; `makedirs` and `copy` are modelled with their errors. Induction on the path (`makedirs_eq`, `makedirs_blocked`) and on the list of files (`copyAll_eq`). Full claim `C100_installs` refuted (`C100_installs_false`: the base class has no images); `C100_installs_partial` for classes with images and free targets, `C100_again` (idempotent, sky boxes keep each other), `C100_taken` (a file in the place of the directory is overwritten without an error), `C100_base`.
* C101 the dump is parsed back part by part (`whole_back`: it gives the dictionary it was made from), so the results on `from_dict` apply. `C101_entities`: any entity makes from_json fail with TypeError before it writes. `C101_restores_partial`: without entities the file is the map's file without its cubes. `C101_never`: such a file cannot be read (a proper prefix, by C21). The full claim is refuted (`C101_restores_false`). The JSON text and values that do not have the shape of a dump are not modelled.
* C102 the printed dump: the text of a JSON value is modelled character by character (escapes, surrogate pairs, digits), with Python's `repr` of finite floats as a parameter assumed to be a JSON number that reads back. Proved by mutual induction over values against an independent RFC 8259 reader. False for maps with NaN or infinite coordinates (`C102_json_false`): the text is then no JSON text (`C102_json_partial` is an equivalence).
* C103 models `output` as three parts with changes to the disk, run one after the other until one raises. The disk at the end is given path by path for each way of ending; the graph file is read back with the JSON reader of C102. Buffering is simplified: only the disk at the end of the program is described, when all handles are closed.
* C104 No new model code: the runs are those of C86 and C87. `layout_split` separates the rooms from registering and placing (which come with all mirror copies, C39) from the caps; a voxel of a mirrored
  room is the turned voxel; the full claim is refuted with a two-sided run whose caps differ.
* C105 Invariant of the placement loop: every room is reached from a copy of the first one by passages that are also links; a placed room joins an open door (C38), its copies join the copies of that door's room;
  caps join by the cap search. The full claim is refuted by a run with two sides and no further rooms.
* C106 An invariant over placing: every doorway whose cell is vacant is open or was given up after every class, orientation and door was refused; space only shrinks as rooms are added. Then the end cap loop: a door it leaves had no cap that fits. The full claim is refuted by a run with six rooms.
* C107 The bytes of each file are kept as one number; the reader applied to them is rewritten to offsets in that number by lemmas on tails, so only tags, counts and bit masks are left to the kernel, over the complete list of classes. The assumptions of C86 and C87 about model files then hold, which gives the claim about runs.
* C108 A table over all classes and doors, evaluated by the kernel on bit masks of the voxels, is lifted to every cell and direction by algebra on the turned points. In a run other rooms have no voxel in the cell behind a doorway, as cells are claimed once. With C105 this gives walks through open doorways. The full claim over all classes is refuted by castle_wall_entry.
* C109 Tables over all classes, directions and draws give the blocks around each entity of a room at the origin; they are lifted to every cell, and to runs because the blocks around are in the room's own cells. Two refutations by runs with four rooms: a light inside the wall of another end cap, and a map without a player start.
* C110 No new model code. A table over the doors and cells of the placed classes bounds each cell by a legal door (`layout_area`); a table over the voxels and palettes lists the colours that rooms of a run show (`colours_all`), so names in the texture manager stay in a list of 17. `C110_export` removes the assumptions of C98 for the shipped models, `C110_outputs` those of C103.
* C111 (a history of runs) is by induction on the list of runs. The invariant says that the map is well-formed, has the world size of the first input and is the first input with the entities of all runs. Each step uses C87 (now also: the file read and written again is the same file; the cubes are those of the saved map), C86 and C82. That there is one flag per team is refuted with two runs.
* C112 joins C87 (the file), C109 (starts are free and floored in the voxel world) and a depth argument (looking up in finer units than a leaf finds that leaf). The full statement over all widths is refuted with a map of 512: entity constructors multiply by four whatever the width of the map. Positions outside the world of the file do not count.
* C113 splits the proof of C87 in what a run hands to the export (`run_handed`, any power of two) and the two outcomes of the export: C27 with a used corner, C27_corner_empty without. Worlds of size 128 are refuted with one run and shown possible with another. Sizes 1 and 2 and sizes that are no powers of two (C13) are not covered.
* C114 bounds the error of each rounded step (angle, cosine, product, sum) against the real functions: the value that is rounded to a whole number is within 1/2 of the exact one. It justifies the exact cosine and sine of `rotQ` used everywhere else. The accuracy 2^-50 of cos, sin and atan2 is a hypothesis of the theorems (`Accurate`), shown to be satisfiable; the refutation for other coordinates builds a library of that accuracy.
* C115 checks, for the eight classes a run can use, a way of paces between the doorways in the model (`FootData` is written by `tools/gen_foot.py`; the kernel checks each way against the voxels, so the tool is not trusted), carries it over to each drawn room by the rotation of its points, and joins the ways of rooms through facing doorways. That a room is built as its model follows from C86. The refutation is an invariant: in a layout of four classes on one level no body can stand at a height between the storeys.
* C116 follows the cubes of the octree by induction over its depth: empty cubes lose their surfaces when written and have no surface information when read, blocks have all six surfaces. With C93 this leaves the texts and the player starts, which are counted as in C109.
* C117 goes by induction over the tested classes: the textures stay among the names that the models can ask for, each test renders in cells 8..24 (kernel table over all classes and directions), the file names differ in their number, and later files leave earlier ones alone. The models of the repository show 24 colours (kernel table).
* C118 models how far the two tools get: argument files, binding of call arguments, attribute lookups. Neither gets past its first missing name; a lemma on call binding shows that `rooms.py` would fail at `place_rooms` in any case. `C118_call` says exactly when a call binds.
* C119 evaluates the two rounded operations for the four exact values of `atan2` in the kernel; for other vectors the errors of the library, of the two roundings and of pi are added up.
* C120: rounding is idempotent and monotone, so the largest draw does not pass the last sum. For whole weights below 2^53 the sums are exact, and a rounded draw selects the same element as some exact draw between the same two whole numbers. Every order of the classes is a possible shuffle for every table of positive probabilities, and each part of an iteration uses finitely many words of the random source; so an iteration in floats is an exact iteration with other words. The open doors are at whole heights from 0 to 32 and number less than 2^28, because rooms are disjoint. `sum` is modelled as additions one after another; from Python 3.12 on it is compensated, which makes no difference for whole weights.
* C121: the bits are those of a multiple of the grid at the magnitude of the number, found by rounding to the nearest integer; binary32 numbers finer than the grid are below the power of two at its start, which is on the grid. A carry gives the first number of the next grid. A map is written as the same bytes as the map with rounded floats, to which C19 applies.
* C122: false for the slots: a run of slots is one negative number in the file, so a file of 162 bytes (`slotMap`) gives any number of slots below 2^31 (`C122_slots`). For all else each reader takes at least as many bytes as the size of what it returns (one byte for eight cubes), by induction on the fuel of the trees and on the counts. The list `prev` made by `_loadvslots` is not part of the map and not counted.
* C123: an empty cube takes 13 bytes, a block 51, an inner cube 1 and its eight children. By induction on the level a part of the tree takes 13 + 92 u + 38 b bytes for u used cells and b blocks in it: the used cells of all grids up to the level below split over the octants, and the part itself is one more if it is used. For a run the blocks are among the voxels of the placed models.
* C124: an iteration either closes an open door or places m rooms, which open at most D m doors, so the number of open doors plus (1 + D m) times the rounds left decreases. The rooms of the generator have at most four doors (whole table). The end caps are at most one per open door. Entities: every part of an entity has a fixed width when it is written without an exception, and the header does not change its length with the number of entities.
* C125: the lists of y and z of each x are the columns of the two plane lines; a chain that never goes west is the concatenation of its columns, and a flat one has one point in each. The package `bresenham` is external: the theorems hold for any function with `IsLine`, and the algorithm as published is shown to have it (closed form of the loop). `C125_place` says where the points are in a turned room with an offset.
* C126: the draws for door i are the integers in the interval of its cumulative weight, scaled to 2^53, so their number differs from the length of the interval by less than two. Sums of weights are exact here; C120 treats their rounding.
* C127: the texture manager only grows, and a manager that knows all names asked for in a run answers the same numbers and does not change; the blocks and their textures of a run from any reachable manager are given by the models alone. The model ends a session at an exception; by C127_total there is none.
* C128: floor division against a specification by inequalities; in floats a quotient a/b that is not whole is at least 1/b away from every whole number, which is more than the rounding error. Overflow of floats is not modelled.
* C129: the draws of a shuffle of n elements are the n! lists with i-th entry below n - i; the number of draws that give a class first is counted by induction on n, for every way to take an element out of the rest. That `randbelow` is uniform is not modelled: the theorem counts outcomes.
* C130: for every part of the reader and its writer, what the writer has written when it stops or raises can be completed so that the reader returns the value that was being written (`Res`, compositional); a reader that accepts a prefix accepts it with the same result in front of any continuation, so an accepted prefix shows the same map.
* C131: the entities in the file come from the rooms of the layout in order (C87); rooms that are no caps have all their copies (`copies_there`), a copy brings the turned entities (C81) and the flag of the turned team (C82), and caps only bring lights.
* C132: every function of the placement manager commutes with changing the recorded size (`resize_*`), rendering with changing everything but the dictionary of blocks (`blocks_*`); the files are compared through the blocks of the world each shows (`run_leaf`).
* C133: rooms do not overlap (C32), so they are all different and turning, which maps the rooms that are no caps into themselves, permutes them; the items of a turned room are the turned items of the room, in the same order; a turned room faces another direction, so the counts by direction are equal.
* C134: a packed file that was cut off is refused or read like a beginning of its content (`Gzip.Ok`), and a beginning of a map file is never read as another map (C21, C130_left); the states of the disk are those of C91 and C130.
* C135: the check of the cubes (`validatec`) raises at size 1, and the world size is a 32-bit number, so an accepted file nests at most 30 levels (`validateList_nest`); the reader with a limit is a copy of the reader whose cubes have their own fuel (`readMapTwo`), compared by `Sub` and `P.Le`.
* C136: a simulation between the shared run and the run alone (`step_local`, `step_frame`), by induction on the schedule; the invariant `Stage` then gives the disks of C134. For the reader of a growing file the invariant is `Following`; the witness mixes two headers.
* C137: invariant `CopyInv`: a byte of an image that was opened is right or will still be written by a run that is at an earlier position; it survives emptying, gaps and every order of steps (`opened_step`).
* C138: each reader is inverted (`kbytes_inv` ... `quads_inv`), which gives the bytes of an accepted file part by part (`C138_exact`); cut files, prefixes and exports follow from that.
* C139: the loop with the higher target goes on from the state in which the other one stopped (`placeRooms_goes_on`), because an iteration looks at the target only to stop. Rooms are only added. That counts are multiples of the number of copies gives the rounding, and that rooms do not overlap inside the area of C110 gives the limit 38115. The same is proved for the loop in float arithmetic.
* C140: rooms do not overlap and lie in the area of C110, so there are at most 38115; a loop that ends before its target ends the same way for every higher target (`placeRooms_same_end`), so C124 for 38115 rooms applies to every larger number.
* C141 joins C94 (what a debug run renders) with the export theorem for any world of blocks (`saved_world`): the atlas stays within the names models can ask for, the start room has a voxel in the corner octant, and the open doors are in different cells of a box, so there are few grenades.
* C142 follows the conversion of a world of any size by induction over the depth: each part of the world becomes a tree of known shape whose units show the blocks at `source`. The file theorems reuse the round trip of C19. A block that fills several units is one cube object in the program; from size 4 on the only assignment made to a cube afterwards hits a node or a new cube, so the sharing has no effect. `C142_count`: the lengths of the ranges (one or two) add up to the size, which fixes how many of each there are.
* C143 moves a run to the next power of two with C132 (the size changes neither rooms nor voxels) to learn what the run hands to the export, and applies C142 to its world. `C142_lossless` shows that only powers of two lose no point.
* C144 counts the calls of `to_octree`. A counting copy of the recursion is shown to give the same tree (`octCount_fst`); the count is found by induction on the number of halvings, with both halves of a range again between two neighbouring powers of two. The nesting bound follows the upper half down. Time per call and memory are not modelled.
* C145: `os.makedirs` is modelled test by test and `mkdir` by `mkdir` on a set of directories closed upwards. Invariant `DirInv`: a program before the `mkdir` of a level knows that the level above is there. Seen from one directory (`view`) the programs behave as in C137, with some steps left out (`view_step`), so the results of C137 carry over. `dirCost` falls with every step of a program and is not changed by others. `C145_alone` compares with `skyInit` of C100. No file is in the place of a directory and nothing is removed.
* C146: `V.rotF` of C114 at all angles. The specification is multiplication by `exp(i t)` in the complex plane. The rounding errors of the angle, of cosine and sine, of the products and of the sum are added up (below 2^-10), then `round` moves each coordinate by at most 1/4. The true rotation keeps distances, so errors of several rotations add up and do not grow. `C146_undo_false` refutes that turning back restores a vector, with 45 degrees.
* C147: turning about the middle maps the rooms that are not end caps to themselves (C133) and doorways to doorways, so it is an automorphism of the graph of joined rooms; distances and the numbers of rooms within a distance are kept. `C147_foot` combines it with C115. End caps are left out: they are drawn for each door anew (C104).
* C148: a loop over distinct points that takes one number in each turn is described by induction, with the number of the turn as index; the place of a point in the triple loop is computed from the lengths of the inner loops.
* C149: by C148 an outcome is good if every number is in a set that belongs to its point, so the good outcomes are a product of finite sets and are counted by multiplication, after renumbering the turns of the loop by the points. That the generator gives all outcomes equally often is not modelled: the theorems count outcomes. Only the first numbers matter, one for each turn.
* C150: invariant of the loop over the poles (each is outside of the nine places left free), turned by the room's orientation as in C47; the four places in the middle are in the turned area for all four orientations. Block rooms: the boxes never reach the middle, the ceiling does if the room has a roof and is not tall, so the claim is false there (`C150_lights_false`), and `C150_lights_partial` says so exactly.
* C151: the entities of fourteen classes move with the room (`ents_indep`), as do the blocks (`points_loc`, C47); a complete table over classes, orientations and flags for a room at the origin (`free_table`), lifted to all positions, worlds and tapes. The lights of the other classes are not placed relative to the room; they are free because the room draws nothing at their height (`untouched_z`). The claim is false for stairs turned by 0 or 90 degrees, whose light is inside the fifth step (`C151_stair`, for every position and world), and for the low block rooms of C150. `C151_exact`: these are all cases.
* C152: which voxels a room touches (`touched_iff`), seen from its corner; calls that neither remove nor use chance leave a block at each of them (`effect_sure`, induction over the calls); a complete table over classes, orientations and flags for a room at the origin (`stand_table`), lifted to all positions, worlds and tapes. False for vertical jump corridors, and for horizontal ones, towers and altar rooms that are turned: their things are turned about the corner, the blocks about the middle. `C152_exact`: these are all cases.
