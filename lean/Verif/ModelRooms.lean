import Verif.Upm

/-!
The model room classes of /repo/redeclipse/prefabs/{castle,dungeon,egypt,original,spacestation}: types, doors
and occupied cells. Generated by tools/gen_models.py from the class texts and the .vox files; the cells are
the list that `MagicaRoom.load_model` (prefabs/magica.py 30-57) computes from the voxels of the file.
-/

namespace Verif
open V

/-- The shipped model room classes (name of the package, then of the class). -/
inductive Model where
  | castle_castle_flag_room
  | castle_castle_gate
  | castle_castle_gate_simple
  | castle_castle_large
  | castle_castle_small_deis
  | castle_castle_wall_corner
  | castle_castle_wall_end_cliff
  | castle_castle_wall_entry
  | castle_castle_wall_section
  | castle_castle_wall_section_endcap
  | castle_castle_wall_section_long
  | castle_castle_wall_section_long_damaged
  | castle_castle_wall_section_tjoint
  | castle_castle_wall_section_x
  | castle_castle_wall_tower
  | castle_wooden_bridge
  | dungeon_dungeon_2x2
  | dungeon_dungeon_junction
  | dungeon_dungeon_stair2
  | dungeon_dungeon_walkway
  | dungeon_dungeon_walkway3
  | egypt_stair
  | egypt_stair_toplatform
  | egypt_statue
  | egypt_statue_cat
  | egypt_house_2x2
  | egypt_house_2x2x3
  | egypt_gate
  | original_spawn_room
  | spacestation_station_endcap
  | spacestation_station_flagroom
  | spacestation_station_right
  | spacestation_station_ring
  | spacestation_station_ring_vertical
  | spacestation_station_sbend
  | spacestation_station_sphere
  | spacestation_station_sphere_slice
  | spacestation_station_stair2
  | spacestation_station_tube1
  | spacestation_station_tube3
  | spacestation_station_tube3layered
  | spacestation_station_tube_jumpx
  | spacestation_station_tubeX
  | spacestation_station_tubeX_variant
  | spacestation_station_uturn
  deriving DecidableEq, Repr

/-- A model room: no flags, not shifted, doors and cells independent of flags (prefabs/magica.py 8-67). -/
def modelCls (ty : String) (ds : List Door) (ps : List V) : RoomCls := ⟨ty, none, true, false, fun _ => ds, fun _ => ps⟩

/-- prefabs/castle/__init__.py 10-61, cells from prefabs/castle/castle_flag_room.vox. -/
def model_castle_castle_flag_room : RoomCls := modelCls "flagroom"
  [⟨WEST, ((WEST.add NORTH).add ABOVE)⟩,
   ⟨EAST, (((EAST.mul 3).add NORTH).add ABOVE)⟩,
   ⟨NORTH, (((NORTH.mul 3).add ABOVE).add EAST)⟩,
   ⟨SOUTH, ((SOUTH.add ABOVE).add EAST)⟩]
  [C 0 0 0, C 1 0 0, C 2 0 0, C 0 1 0, C 1 1 0, C 2 1 0, C 0 2 0, C 1 2 0, C 2 2 0, C 0 0 1, C 1 0 1,
   C 2 0 1, C 0 1 1, C 1 1 1, C 2 1 1, C 0 2 1, C 1 2 1, C 2 2 1, C 1 0 2, C 0 1 2, C 2 1 2, C 1 2 2]

/-- prefabs/castle/__init__.py 64-78, cells from prefabs/castle/castle_gate.vox. -/
def model_castle_castle_gate : RoomCls := modelCls "setpiece_medium"
  [⟨WEST, ((WEST.add NORTH).add ABOVE)⟩,
   ⟨EAST, ((((EAST.add EAST).add EAST).add NORTH).add ABOVE)⟩,
   ⟨NORTH, (((EAST.add NORTH).add NORTH).add NORTH)⟩,
   ⟨SOUTH, (EAST.add SOUTH)⟩]
  [C 1 0 0, C 0 1 0, C 1 1 0, C 2 1 0, C 1 2 0, C 1 0 1, C 0 1 1, C 1 1 1, C 2 1 1, C 1 2 1]

/-- prefabs/castle/__init__.py 81-95, cells from prefabs/castle/castle_gate_simple.vox. -/
def model_castle_castle_gate_simple : RoomCls := modelCls "setpiece_medium"
  [⟨WEST, (WEST.add ABOVE)⟩,
   ⟨EAST, (((EAST.add EAST).add EAST).add ABOVE)⟩,
   ⟨NORTH, (EAST.add NORTH)⟩,
   ⟨SOUTH, (EAST.add SOUTH)⟩]
  [C 0 0 0, C 1 0 0, C 2 0 0, C 0 0 1, C 1 0 1, C 2 0 1]

/-- prefabs/castle/__init__.py 98-124, cells from prefabs/castle/castle_large.vox. -/
def model_castle_castle_large : RoomCls := modelCls "setpiece_large"
  [⟨WEST, ((WEST.add (NORTH.mul 2)).add ABOVE)⟩,
   ⟨EAST, (((EAST.mul 5).add (NORTH.mul 2)).add ABOVE)⟩,
   ⟨NORTH, (((NORTH.mul 5).add ABOVE).add (EAST.mul 2))⟩,
   ⟨SOUTH, ((SOUTH.add ABOVE).add (EAST.mul 2))⟩]
  [C 2 0 0, C 2 1 0, C 1 1 0, C 3 1 0, C 0 2 0, C 1 2 0, C 2 2 0, C 3 2 0, C 4 2 0, C 1 3 0, C 2 3 0,
   C 3 3 0, C 2 4 0, C 2 0 1, C 2 1 1, C 1 1 1, C 3 1 1, C 0 2 1, C 1 2 1, C 3 2 1, C 4 2 1, C 1 3 1,
   C 3 3 1, C 2 3 1, C 2 4 1, C 2 2 1, C 1 1 2, C 2 1 2, C 3 1 2, C 1 2 2, C 2 2 2, C 3 2 2, C 1 3 2,
   C 2 3 2, C 3 3 2]

/-- prefabs/castle/__init__.py 127-140, cells from prefabs/castle/castle_small_deis.vox. -/
def model_castle_castle_small_deis : RoomCls := modelCls "setpiece_small"
  [⟨WEST, WEST⟩,
   ⟨EAST, EAST⟩,
   ⟨NORTH, NORTH⟩,
   ⟨SOUTH, SOUTH⟩]
  [C 0 0 0]

/-- prefabs/castle/__init__.py 143-154, cells from prefabs/castle/castle_wall_corner.vox. -/
def model_castle_castle_wall_corner : RoomCls := modelCls "hallway"
  [⟨WEST, WEST⟩,
   ⟨SOUTH, SOUTH⟩]
  [C 0 0 0]

/-- prefabs/castle/__init__.py 157-167, cells from prefabs/castle/castle_wall_end_cliff.vox. -/
def model_castle_castle_wall_end_cliff : RoomCls := modelCls "endcap"
  [⟨WEST, (WEST.add ABOVE)⟩]
  [C 0 0 0, C 1 0 0, C 0 0 1, C 1 0 1]

/-- prefabs/castle/__init__.py 170-181, cells from prefabs/castle/castle_wall_entry.vox. -/
def model_castle_castle_wall_entry : RoomCls := modelCls "stair"
  [⟨WEST, (WEST.add ABOVE)⟩,
   ⟨EAST, ((EAST.add ABOVE).add ABOVE)⟩]
  [C 0 0 0, C 0 0 1, C 0 0 2]

/-- prefabs/castle/__init__.py 184-195, cells from prefabs/castle/castle_wall_section.vox. -/
def model_castle_castle_wall_section : RoomCls := modelCls "hallway"
  [⟨WEST, (WEST.add ABOVE)⟩,
   ⟨EAST, (EAST.add ABOVE)⟩]
  [C 0 0 0, C 0 0 1]

/-- prefabs/castle/__init__.py 198-209, cells from prefabs/castle/castle_wall_section_endcap.vox. -/
def model_castle_castle_wall_section_endcap : RoomCls := modelCls "endcap"
  [⟨WEST, (WEST.add ABOVE)⟩]
  [C 0 0 0, C 0 0 1]

/-- prefabs/castle/__init__.py 212-224, cells from prefabs/castle/castle_wall_section_long.vox. -/
def model_castle_castle_wall_section_long : RoomCls := modelCls "hallway"
  [⟨WEST, (WEST.add ABOVE)⟩,
   ⟨EAST, ((EAST.mul 3).add ABOVE)⟩]
  [C 0 0 0, C 1 0 0, C 2 0 0, C 0 0 1, C 1 0 1, C 2 0 1]

/-- prefabs/castle/__init__.py 227-239, cells from prefabs/castle/castle_wall_section_long_damaged.vox. -/
def model_castle_castle_wall_section_long_damaged : RoomCls := modelCls "hallway_setpiece"
  [⟨WEST, (WEST.add ABOVE)⟩,
   ⟨EAST, ((EAST.mul 3).add ABOVE)⟩]
  [C 0 0 0, C 1 0 0, C 2 0 0, C 0 0 1, C 1 0 1, C 2 0 1]

/-- prefabs/castle/__init__.py 242-255, cells from prefabs/castle/castle_wall_section_tjoint.vox. -/
def model_castle_castle_wall_section_tjoint : RoomCls := modelCls "hallway"
  [⟨WEST, (WEST.add ABOVE)⟩,
   ⟨EAST, ((EAST.mul 3).add ABOVE)⟩,
   ⟨NORTH, (((EAST.add NORTH).add NORTH).add ABOVE)⟩]
  [C 0 0 0, C 1 0 0, C 2 0 0, C 1 1 0, C 0 0 1, C 1 0 1, C 2 0 1, C 1 1 1]

/-- prefabs/castle/__init__.py 258-272, cells from prefabs/castle/castle_wall_section_x.vox. -/
def model_castle_castle_wall_section_x : RoomCls := modelCls "hallway"
  [⟨WEST, ((WEST.add NORTH).add ABOVE)⟩,
   ⟨EAST, (((EAST.mul 3).add NORTH).add ABOVE)⟩,
   ⟨NORTH, ((((EAST.add NORTH).add NORTH).add NORTH).add ABOVE)⟩,
   ⟨SOUTH, ((EAST.add SOUTH).add ABOVE)⟩]
  [C 1 0 0, C 0 1 0, C 1 1 0, C 2 1 0, C 1 2 0, C 1 0 1, C 0 1 1, C 1 1 1, C 2 1 1, C 1 2 1]

/-- prefabs/castle/__init__.py 275-288, cells from prefabs/castle/castle_wall_tower.vox. -/
def model_castle_castle_wall_tower : RoomCls := modelCls "hallway_setpiece"
  [⟨WEST, (WEST.add ABOVE)⟩,
   ⟨EAST, (EAST.add ABOVE)⟩,
   ⟨NORTH, (NORTH.add ABOVE)⟩,
   ⟨SOUTH, (SOUTH.add ABOVE)⟩]
  [C 0 0 0, C 0 0 1, C 0 0 2]

/-- prefabs/castle/__init__.py 291-303, cells from prefabs/castle/wooden_bridge.vox. -/
def model_castle_wooden_bridge : RoomCls := modelCls "hallway_setpiece"
  [⟨WEST, (WEST.add ABOVE)⟩,
   ⟨EAST, ((EAST.mul 3).add ABOVE)⟩]
  [C 0 0 0, C 2 0 0, C 1 0 0, C 0 0 1, C 1 0 1, C 2 0 1]

/-- prefabs/dungeon/__init__.py 7-14, cells from prefabs/dungeon/dungeon_2x2.vox. -/
def model_dungeon_dungeon_2x2 : RoomCls := modelCls "hallway_setpiece"
  [⟨WEST, (WEST.add NORTH)⟩]
  [C 0 0 0, C 1 0 0, C 0 1 0, C 1 1 0]

/-- prefabs/dungeon/__init__.py 17-37, cells from prefabs/dungeon/dungeon_junction.vox. -/
def model_dungeon_dungeon_junction : RoomCls := modelCls "hallway_setpiece"
  [⟨WEST, ((WEST.add NORTH).add NORTH)⟩,
   ⟨WEST, WEST⟩,
   ⟨EAST, ((((EAST.add EAST).add EAST).add NORTH).add NORTH)⟩,
   ⟨EAST, ((EAST.add EAST).add EAST)⟩,
   ⟨NORTH, (((EAST.add NORTH).add NORTH).add NORTH)⟩,
   ⟨SOUTH, (EAST.add SOUTH)⟩]
  [C 0 0 0, C 1 0 0, C 2 0 0, C 0 1 0, C 1 1 0, C 2 1 0, C 0 2 0, C 1 2 0, C 2 2 0]

/-- prefabs/dungeon/__init__.py 40-48, cells from prefabs/dungeon/dungeon_stair2.vox. -/
def model_dungeon_dungeon_stair2 : RoomCls := modelCls "stair"
  [⟨WEST, WEST⟩,
   ⟨EAST, ((EAST.add EAST).add ABOVE)⟩]
  [C 0 0 0, C 1 0 0, C 0 0 1, C 1 0 1]

/-- prefabs/dungeon/__init__.py 51-59, cells from prefabs/dungeon/dungeon_walkway.vox. -/
def model_dungeon_dungeon_walkway : RoomCls := modelCls "hallway_setpiece"
  [⟨WEST, WEST⟩,
   ⟨EAST, EAST⟩]
  [C 0 0 0]

/-- prefabs/dungeon/__init__.py 62-73, cells from prefabs/dungeon/dungeon_walkway3.vox. -/
def model_dungeon_dungeon_walkway3 : RoomCls := modelCls "hallway_setpiece"
  [⟨WEST, WEST⟩,
   ⟨EAST, ((EAST.add EAST).add EAST)⟩]
  [C 0 0 0, C 1 0 0, C 2 0 0]

/-- prefabs/egypt/__init__.py 17-25, cells from prefabs/egypt/stair.vox. -/
def model_egypt_stair : RoomCls := modelCls "stair"
  [⟨WEST, WEST⟩,
   ⟨EAST, (EAST.add ABOVE)⟩]
  [C 0 0 0]

/-- prefabs/egypt/__init__.py 28-38, cells from prefabs/egypt/stair_toplatform.vox. -/
def model_egypt_stair_toplatform : RoomCls := modelCls "stair"
  [⟨WEST, WEST⟩,
   ⟨EAST, ((EAST.add EAST).add ABOVE)⟩,
   ⟨NORTH, ((EAST.add NORTH).add ABOVE)⟩,
   ⟨SOUTH, ((EAST.add SOUTH).add ABOVE)⟩]
  [C 0 0 0, C 1 0 0]

/-- prefabs/egypt/__init__.py 41-50, cells from prefabs/egypt/statue.vox. -/
def model_egypt_statue : RoomCls := modelCls "platform_setpiece"
  [⟨WEST, WEST⟩,
   ⟨EAST, EAST⟩,
   ⟨SOUTH, SOUTH⟩]
  [C 0 0 0, C 0 1 0, C 0 1 1]

/-- prefabs/egypt/__init__.py 53-76, cells from prefabs/egypt/statue_cat.vox. -/
def model_egypt_statue_cat : RoomCls := modelCls "platform_setpiece"
  [⟨WEST, WEST⟩,
   ⟨WEST, (WEST.add NORTH)⟩,
   ⟨WEST, ((WEST.add NORTH).add NORTH)⟩,
   ⟨SOUTH, SOUTH⟩,
   ⟨SOUTH, (SOUTH.add EAST)⟩,
   ⟨SOUTH, ((SOUTH.add EAST).add EAST)⟩,
   ⟨SOUTH, (((SOUTH.add EAST).add EAST).add EAST)⟩,
   ⟨NORTH, ((NORTH.add NORTH).add NORTH)⟩,
   ⟨NORTH, (((NORTH.add NORTH).add NORTH).add EAST)⟩,
   ⟨NORTH, ((((NORTH.add NORTH).add NORTH).add EAST).add EAST)⟩,
   ⟨NORTH, (((((NORTH.add NORTH).add NORTH).add EAST).add EAST).add EAST)⟩,
   ⟨EAST, (((EAST.add EAST).add EAST).add EAST)⟩,
   ⟨EAST, ((((EAST.add EAST).add EAST).add EAST).add NORTH)⟩,
   ⟨EAST, (((((EAST.add EAST).add EAST).add EAST).add NORTH).add NORTH)⟩]
  [C 0 0 0, C 1 0 0, C 2 0 0, C 3 0 0, C 0 1 0, C 1 1 0, C 2 1 0, C 3 1 0, C 0 2 0, C 1 2 0, C 2 2 0,
   C 3 2 0, C 2 1 1]

/-- prefabs/egypt/__init__.py 79-86, cells from prefabs/egypt/house_2x2.vox. -/
def model_egypt_house_2x2 : RoomCls := modelCls "platform"
  [⟨NORTH, ((EAST.add NORTH).add NORTH)⟩]
  [C 0 0 0, C 1 0 0, C 0 1 0, C 1 1 0]

/-- prefabs/egypt/__init__.py 89-96, cells from prefabs/egypt/house_2x2x3.vox. -/
def model_egypt_house_2x2x3 : RoomCls := modelCls "platform"
  [⟨NORTH, ((EAST.add NORTH).add NORTH)⟩]
  [C 0 0 0, C 1 0 0, C 0 1 0, C 1 1 0, C 0 0 1, C 1 0 1, C 0 1 1, C 1 1 1]

/-- prefabs/egypt/__init__.py 99-107, cells from prefabs/egypt/gate.vox. -/
def model_egypt_gate : RoomCls := modelCls "platform"
  [⟨NORTH, (EAST.add NORTH)⟩,
   ⟨SOUTH, (EAST.add SOUTH)⟩]
  [C 0 0 0, C 1 0 0, C 2 0 0, C 0 0 1, C 2 0 1, C 0 0 2, C 1 0 2, C 2 0 2]

/-- prefabs/original/__init__.py 35-60, cells from prefabs/original/spawn_room.vox. -/
def model_original_spawn_room : RoomCls := modelCls "platform_setpiece"
  [⟨EAST, EAST⟩]
  [C 0 0 0]

/-- prefabs/spacestation/__init__.py 17-45, cells from prefabs/spacestation/station_endcap.vox. -/
def model_spacestation_station_endcap : RoomCls := modelCls "endcap"
  [⟨WEST, WEST⟩]
  [C 0 0 0]

/-- prefabs/spacestation/__init__.py 48-99, cells from prefabs/spacestation/station_flagroom.vox. -/
def model_spacestation_station_flagroom : RoomCls := modelCls "setpiece_large"
  [⟨WEST, ((WEST.add NORTH).add NORTH)⟩,
   ⟨EAST, (((EAST.mul 5).add NORTH).add NORTH)⟩,
   ⟨SOUTH, ((EAST.mul 2).add SOUTH)⟩,
   ⟨NORTH, ((EAST.mul 2).add (NORTH.mul 5))⟩]
  [C 2 0 0, C 1 0 0, C 3 0 0, C 0 0 0, C 4 0 0, C 0 1 0, C 1 1 0, C 2 1 0, C 3 1 0, C 4 1 0, C 0 2 0,
   C 1 2 0, C 2 2 0, C 3 2 0, C 4 2 0, C 0 3 0, C 1 3 0, C 2 3 0, C 3 3 0, C 4 3 0, C 0 4 0, C 1 4 0,
   C 2 4 0, C 3 4 0, C 4 4 0]

/-- prefabs/spacestation/__init__.py 102-110, cells from prefabs/spacestation/station_right.vox. -/
def model_spacestation_station_right : RoomCls := modelCls "hallway"
  [⟨WEST, WEST⟩,
   ⟨SOUTH, SOUTH⟩]
  [C 0 0 0]

/-- prefabs/spacestation/__init__.py 113-129, cells from prefabs/spacestation/station_ring.vox. -/
def model_spacestation_station_ring : RoomCls := modelCls "setpiece_large"
  [⟨WEST, ((WEST.add NORTH).add NORTH)⟩,
   ⟨EAST, (((EAST.mul 5).add NORTH).add NORTH)⟩,
   ⟨SOUTH, ((EAST.mul 2).add SOUTH)⟩,
   ⟨NORTH, ((EAST.mul 2).add (NORTH.mul 5))⟩]
  [C 2 0 0, C 1 0 0, C 3 0 0, C 0 0 0, C 4 0 0, C 0 1 0, C 1 1 0, C 2 1 0, C 3 1 0, C 4 1 0, C 0 2 0,
   C 1 2 0, C 3 2 0, C 4 2 0, C 0 3 0, C 1 3 0, C 3 3 0, C 4 3 0, C 2 3 0, C 0 4 0, C 1 4 0, C 2 4 0,
   C 3 4 0, C 4 4 0]

/-- prefabs/spacestation/__init__.py 132-145, cells from prefabs/spacestation/station_ring_vertical.vox. -/
def model_spacestation_station_ring_vertical : RoomCls := modelCls "setpiece_large"
  [⟨WEST, ((WEST.add ABOVE).add ABOVE)⟩,
   ⟨EAST, (((EAST.mul 5).add ABOVE).add ABOVE)⟩]
  [C 2 0 0, C 1 0 0, C 3 0 0, C 0 0 0, C 4 0 0, C 0 0 1, C 1 0 1, C 3 0 1, C 4 0 1, C 2 0 1, C 0 0 2,
   C 4 0 2, C 1 0 2, C 3 0 2, C 0 0 3, C 4 0 3, C 1 0 3, C 3 0 3, C 2 0 3, C 0 0 4, C 1 0 4, C 2 0 4,
   C 3 0 4, C 4 0 4]

/-- prefabs/spacestation/__init__.py 148-159, cells from prefabs/spacestation/station_sbend.vox. -/
def model_spacestation_station_sbend : RoomCls := modelCls "hallway"
  [⟨WEST, (WEST.add NORTH)⟩,
   ⟨EAST, ((EAST.add EAST).add NORTH)⟩]
  [C 0 0 0, C 1 0 0, C 0 1 0, C 1 1 0]

/-- prefabs/spacestation/__init__.py 162-175, cells from prefabs/spacestation/station_sphere.vox. -/
def model_spacestation_station_sphere : RoomCls := modelCls "setpiece_medium"
  [⟨WEST, ((WEST.add NORTH).add ABOVE)⟩,
   ⟨EAST, (((EAST.mul 3).add NORTH).add ABOVE)⟩,
   ⟨NORTH, ((((EAST.add NORTH).add NORTH).add NORTH).add ABOVE)⟩,
   ⟨SOUTH, ((EAST.add SOUTH).add ABOVE)⟩]
  [C 1 1 0, C 1 0 0, C 0 1 0, C 2 1 0, C 1 2 0, C 0 0 0, C 2 0 0, C 0 2 0, C 2 2 0, C 1 0 1, C 0 0 1,
   C 2 0 1, C 0 1 1, C 1 1 1, C 2 1 1, C 0 2 1, C 1 2 1, C 2 2 1, C 1 0 2, C 0 0 2, C 2 0 2, C 0 1 2,
   C 2 1 2, C 0 2 2, C 2 2 2, C 1 2 2, C 1 1 2]

/-- prefabs/spacestation/__init__.py 178-191, cells from prefabs/spacestation/station_sphere_slice.vox. -/
def model_spacestation_station_sphere_slice : RoomCls := modelCls "setpiece_medium"
  [⟨WEST, (WEST.add NORTH)⟩,
   ⟨EAST, ((EAST.mul 3).add NORTH)⟩,
   ⟨NORTH, (((EAST.add NORTH).add NORTH).add NORTH)⟩,
   ⟨SOUTH, (EAST.add SOUTH)⟩]
  [C 1 0 0, C 0 0 0, C 2 0 0, C 0 1 0, C 1 1 0, C 2 1 0, C 0 2 0, C 1 2 0, C 2 2 0]

/-- prefabs/spacestation/__init__.py 194-202, cells from prefabs/spacestation/station_stair2.vox. -/
def model_spacestation_station_stair2 : RoomCls := modelCls "stair"
  [⟨WEST, WEST⟩,
   ⟨EAST, ((EAST.mul 2).add ABOVE)⟩]
  [C 0 0 0, C 1 0 0, C 0 0 1, C 1 0 1]

/-- prefabs/spacestation/__init__.py 205-213, cells from prefabs/spacestation/station_tube1.vox. -/
def model_spacestation_station_tube1 : RoomCls := modelCls "hallway_setpiece"
  [⟨WEST, WEST⟩,
   ⟨EAST, EAST⟩]
  [C 0 0 0]

/-- prefabs/spacestation/__init__.py 216-227, cells from prefabs/spacestation/station_tube3.vox. -/
def model_spacestation_station_tube3 : RoomCls := modelCls "hallway"
  [⟨WEST, WEST⟩,
   ⟨EAST, ((EAST.add EAST).add EAST)⟩]
  [C 0 0 0, C 1 0 0, C 2 0 0]

/-- prefabs/spacestation/__init__.py 230-243, cells from prefabs/spacestation/station_tube3layered.vox. -/
def model_spacestation_station_tube3layered : RoomCls := modelCls "hallway_setpiece"
  [⟨WEST, WEST⟩,
   ⟨EAST, ((EAST.add EAST).add EAST)⟩,
   ⟨WEST, ((WEST.add ABOVE).add ABOVE)⟩,
   ⟨EAST, ((((EAST.add EAST).add EAST).add ABOVE).add ABOVE)⟩]
  [C 0 0 0, C 1 0 0, C 2 0 0, C 1 0 1, C 1 0 2, C 0 0 2, C 2 0 2]

/-- prefabs/spacestation/__init__.py 246-273, cells from prefabs/spacestation/station_tube_jumpx.vox. -/
def model_spacestation_station_tube_jumpx : RoomCls := modelCls "hallway_setpiece"
  [⟨WEST, (WEST.add NORTH)⟩,
   ⟨EAST, (((EAST.add EAST).add EAST).add NORTH)⟩,
   ⟨NORTH, (((EAST.add NORTH).add NORTH).add NORTH)⟩,
   ⟨SOUTH, (EAST.add SOUTH)⟩,
   ⟨WEST, (((WEST.add ABOVE).add ABOVE).add NORTH)⟩,
   ⟨EAST, (((((EAST.add EAST).add EAST).add ABOVE).add ABOVE).add NORTH)⟩,
   ⟨NORTH, (((((EAST.add NORTH).add NORTH).add ABOVE).add ABOVE).add NORTH)⟩,
   ⟨SOUTH, (((EAST.add SOUTH).add ABOVE).add ABOVE)⟩]
  [C 1 0 0, C 1 1 0, C 0 1 0, C 2 1 0, C 1 2 0, C 1 1 1, C 1 0 2, C 1 1 2, C 0 1 2, C 2 1 2, C 1 2 2]

/-- prefabs/spacestation/__init__.py 276-289, cells from prefabs/spacestation/station_tubeX.vox. -/
def model_spacestation_station_tubeX : RoomCls := modelCls "hallway_setpiece"
  [⟨WEST, (WEST.add NORTH)⟩,
   ⟨EAST, (((EAST.add EAST).add EAST).add NORTH)⟩,
   ⟨NORTH, (((EAST.add NORTH).add NORTH).add NORTH)⟩,
   ⟨SOUTH, (EAST.add SOUTH)⟩]
  [C 1 0 0, C 1 1 0, C 0 1 0, C 2 1 0, C 1 2 0]

/-- prefabs/spacestation/__init__.py 292-305, cells from prefabs/spacestation/station_tubeX_variant.vox. -/
def model_spacestation_station_tubeX_variant : RoomCls := modelCls "hallway_setpiece"
  [⟨WEST, (WEST.add NORTH)⟩,
   ⟨EAST, (((EAST.add EAST).add EAST).add NORTH)⟩,
   ⟨NORTH, (((EAST.add NORTH).add NORTH).add NORTH)⟩,
   ⟨SOUTH, (EAST.add SOUTH)⟩]
  [C 1 0 0, C 0 0 0, C 2 0 0, C 0 1 0, C 1 1 0, C 2 1 0, C 0 2 0, C 1 2 0, C 2 2 0]

/-- prefabs/spacestation/__init__.py 308-316, cells from prefabs/spacestation/station_uturn.vox. -/
def model_spacestation_station_uturn : RoomCls := modelCls "hallway"
  [⟨WEST, WEST⟩,
   ⟨WEST, (WEST.add NORTH)⟩]
  [C 0 0 0, C 0 1 0]

/-- The table of model room classes. -/
def models : Model → RoomCls
  | .castle_castle_flag_room => model_castle_castle_flag_room
  | .castle_castle_gate => model_castle_castle_gate
  | .castle_castle_gate_simple => model_castle_castle_gate_simple
  | .castle_castle_large => model_castle_castle_large
  | .castle_castle_small_deis => model_castle_castle_small_deis
  | .castle_castle_wall_corner => model_castle_castle_wall_corner
  | .castle_castle_wall_end_cliff => model_castle_castle_wall_end_cliff
  | .castle_castle_wall_entry => model_castle_castle_wall_entry
  | .castle_castle_wall_section => model_castle_castle_wall_section
  | .castle_castle_wall_section_endcap => model_castle_castle_wall_section_endcap
  | .castle_castle_wall_section_long => model_castle_castle_wall_section_long
  | .castle_castle_wall_section_long_damaged => model_castle_castle_wall_section_long_damaged
  | .castle_castle_wall_section_tjoint => model_castle_castle_wall_section_tjoint
  | .castle_castle_wall_section_x => model_castle_castle_wall_section_x
  | .castle_castle_wall_tower => model_castle_castle_wall_tower
  | .castle_wooden_bridge => model_castle_wooden_bridge
  | .dungeon_dungeon_2x2 => model_dungeon_dungeon_2x2
  | .dungeon_dungeon_junction => model_dungeon_dungeon_junction
  | .dungeon_dungeon_stair2 => model_dungeon_dungeon_stair2
  | .dungeon_dungeon_walkway => model_dungeon_dungeon_walkway
  | .dungeon_dungeon_walkway3 => model_dungeon_dungeon_walkway3
  | .egypt_stair => model_egypt_stair
  | .egypt_stair_toplatform => model_egypt_stair_toplatform
  | .egypt_statue => model_egypt_statue
  | .egypt_statue_cat => model_egypt_statue_cat
  | .egypt_house_2x2 => model_egypt_house_2x2
  | .egypt_house_2x2x3 => model_egypt_house_2x2x3
  | .egypt_gate => model_egypt_gate
  | .original_spawn_room => model_original_spawn_room
  | .spacestation_station_endcap => model_spacestation_station_endcap
  | .spacestation_station_flagroom => model_spacestation_station_flagroom
  | .spacestation_station_right => model_spacestation_station_right
  | .spacestation_station_ring => model_spacestation_station_ring
  | .spacestation_station_ring_vertical => model_spacestation_station_ring_vertical
  | .spacestation_station_sbend => model_spacestation_station_sbend
  | .spacestation_station_sphere => model_spacestation_station_sphere
  | .spacestation_station_sphere_slice => model_spacestation_station_sphere_slice
  | .spacestation_station_stair2 => model_spacestation_station_stair2
  | .spacestation_station_tube1 => model_spacestation_station_tube1
  | .spacestation_station_tube3 => model_spacestation_station_tube3
  | .spacestation_station_tube3layered => model_spacestation_station_tube3layered
  | .spacestation_station_tube_jumpx => model_spacestation_station_tube_jumpx
  | .spacestation_station_tubeX => model_spacestation_station_tubeX
  | .spacestation_station_tubeX_variant => model_spacestation_station_tubeX_variant
  | .spacestation_station_uturn => model_spacestation_station_uturn

/-- All model room classes. -/
def allModels : List Model :=
  [.castle_castle_flag_room,
   .castle_castle_gate,
   .castle_castle_gate_simple,
   .castle_castle_large,
   .castle_castle_small_deis,
   .castle_castle_wall_corner,
   .castle_castle_wall_end_cliff,
   .castle_castle_wall_entry,
   .castle_castle_wall_section,
   .castle_castle_wall_section_endcap,
   .castle_castle_wall_section_long,
   .castle_castle_wall_section_long_damaged,
   .castle_castle_wall_section_tjoint,
   .castle_castle_wall_section_x,
   .castle_castle_wall_tower,
   .castle_wooden_bridge,
   .dungeon_dungeon_2x2,
   .dungeon_dungeon_junction,
   .dungeon_dungeon_stair2,
   .dungeon_dungeon_walkway,
   .dungeon_dungeon_walkway3,
   .egypt_stair,
   .egypt_stair_toplatform,
   .egypt_statue,
   .egypt_statue_cat,
   .egypt_house_2x2,
   .egypt_house_2x2x3,
   .egypt_gate,
   .original_spawn_room,
   .spacestation_station_endcap,
   .spacestation_station_flagroom,
   .spacestation_station_right,
   .spacestation_station_ring,
   .spacestation_station_ring_vertical,
   .spacestation_station_sbend,
   .spacestation_station_sphere,
   .spacestation_station_sphere_slice,
   .spacestation_station_stair2,
   .spacestation_station_tube1,
   .spacestation_station_tube3,
   .spacestation_station_tube3layered,
   .spacestation_station_tube_jumpx,
   .spacestation_station_tubeX,
   .spacestation_station_tubeX_variant,
   .spacestation_station_uturn]

end Verif
