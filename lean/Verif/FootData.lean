import Verif.ModelRooms

/-!
Ways on foot between the doorways of the room classes that the room generator uses, through the voxels of their files. Generated by
tools/gen_foot.py. Each way is a list of places of a body, in blocks of the model. That they are ways is checked in `FootTables`.
-/

namespace Verif

/-- The ways within each class. -/
def footWays : Model → List (List (ℤ × ℤ × ℤ))
  | .spacestation_station_flagroom => [
    [(0, 19, 1)],
    [(0, 19, 1), (1, 19, 1), (2, 19, 1), (3, 19, 1), (4, 19, 1), (5, 19, 1), (5, 20, 1), (5, 21, 1), (5, 22, 1), (5, 23, 1), (5, 24, 1),
    (6, 24, 1), (6, 25, 1), (6, 26, 1), (7, 26, 1), (7, 27, 1), (8, 27, 1), (9, 27, 1), (10, 27, 1), (11, 27, 1), (12, 27, 1), (13, 27, 1),
    (14, 27, 1), (15, 27, 1), (16, 27, 1), (17, 27, 1), (18, 27, 1), (19, 27, 1), (20, 27, 1), (21, 27, 1), (22, 27, 1), (23, 27, 1),
    (24, 27, 1), (25, 27, 1), (26, 27, 1), (27, 27, 1), (28, 27, 1), (29, 27, 1), (30, 27, 1), (31, 27, 1), (32, 27, 1), (33, 27, 1),
    (34, 27, 1), (35, 27, 1), (35, 26, 1), (36, 26, 1), (36, 25, 1), (36, 24, 1), (36, 23, 1), (36, 22, 1), (37, 22, 2), (37, 21, 1),
    (38, 21, 2), (38, 20, 1)],
    [(0, 19, 1), (1, 19, 1), (2, 19, 1), (3, 19, 1), (4, 19, 1), (5, 19, 1), (5, 18, 1), (5, 17, 1), (5, 16, 1), (5, 15, 1), (5, 14, 1),
    (6, 14, 1), (6, 13, 1), (6, 12, 1), (7, 12, 1), (7, 11, 1), (8, 11, 1), (9, 11, 1), (10, 11, 1), (11, 11, 1), (11, 10, 1), (11, 9, 1),
    (11, 8, 1), (11, 7, 1), (12, 7, 1), (12, 6, 1), (13, 6, 1), (14, 6, 1), (14, 5, 1), (15, 5, 1), (16, 5, 1), (17, 5, 1), (18, 5, 1),
    (18, 4, 1), (18, 3, 1), (18, 2, 1), (18, 1, 1), (18, 0, 1)],
    [(0, 19, 1), (1, 19, 1), (2, 19, 1), (3, 19, 1), (4, 19, 1), (5, 19, 1), (5, 20, 1), (5, 21, 1), (5, 22, 1), (5, 23, 1), (5, 24, 1),
    (6, 24, 1), (6, 25, 1), (6, 26, 1), (7, 26, 1), (7, 27, 1), (8, 27, 1), (9, 27, 1), (10, 27, 1), (11, 27, 1), (11, 28, 1), (11, 29, 1),
    (11, 30, 1), (11, 31, 1), (12, 31, 1), (12, 32, 1), (13, 32, 1), (14, 32, 1), (14, 33, 1), (15, 33, 1), (16, 33, 1), (17, 33, 1),
    (18, 33, 1), (18, 34, 1), (18, 35, 1), (18, 36, 1), (18, 37, 1), (18, 38, 1)],
    [(38, 19, 1)],
    [(38, 19, 1), (37, 19, 1), (36, 19, 1), (35, 19, 1), (34, 19, 1), (33, 19, 1), (33, 18, 1), (33, 17, 1), (33, 16, 1), (33, 15, 1),
    (33, 14, 1), (32, 14, 1), (32, 13, 1), (32, 12, 1), (31, 12, 1), (31, 11, 1), (30, 11, 1), (29, 11, 1), (28, 11, 1), (27, 11, 1),
    (27, 10, 1), (27, 9, 1), (27, 8, 1), (27, 7, 1), (26, 7, 1), (26, 6, 1), (25, 6, 1), (24, 6, 1), (24, 5, 1), (23, 5, 1), (22, 5, 1),
    (21, 5, 1), (20, 5, 1), (20, 4, 1), (20, 3, 1), (20, 2, 1), (20, 1, 1), (20, 0, 1)],
    [(38, 19, 1), (37, 19, 1), (36, 19, 1), (35, 19, 1), (34, 19, 1), (33, 19, 1), (33, 20, 1), (33, 21, 1), (33, 22, 1), (33, 23, 1),
    (33, 24, 1), (32, 24, 1), (32, 25, 1), (32, 26, 1), (31, 26, 1), (31, 27, 1), (30, 27, 1), (29, 27, 1), (28, 27, 1), (27, 27, 1),
    (27, 28, 1), (27, 29, 1), (27, 30, 1), (27, 31, 1), (26, 31, 1), (26, 32, 1), (25, 32, 1), (24, 32, 1), (24, 33, 1), (23, 33, 1),
    (22, 33, 1), (21, 33, 1), (20, 33, 1), (20, 34, 1), (20, 35, 1), (20, 36, 1), (20, 37, 1), (20, 38, 1)],
    [(19, 0, 1)],
    [(19, 0, 1), (20, 0, 1), (21, 0, 2), (21, 1, 1), (22, 1, 2), (22, 2, 1), (23, 2, 1), (24, 2, 1), (25, 2, 1), (26, 2, 1), (26, 3, 1),
    (27, 3, 1), (27, 4, 1), (27, 5, 1), (27, 6, 1), (27, 7, 1), (27, 8, 1), (27, 9, 1), (27, 10, 1), (27, 11, 1), (27, 12, 1), (27, 13, 1),
    (27, 14, 1), (27, 15, 1), (27, 16, 1), (27, 17, 1), (27, 18, 1), (27, 19, 1), (27, 20, 1), (27, 21, 1), (27, 22, 1), (27, 23, 1),
    (27, 24, 1), (27, 25, 1), (27, 26, 1), (27, 27, 1), (27, 28, 1), (27, 29, 1), (27, 30, 1), (27, 31, 1), (26, 31, 1), (26, 32, 1),
    (25, 32, 1), (24, 32, 1), (24, 33, 1), (23, 33, 1), (22, 33, 1), (21, 33, 1), (20, 33, 1), (20, 34, 1), (20, 35, 1), (20, 36, 1),
    (20, 37, 1), (20, 38, 1)],
    [(19, 38, 1)]]
  | .spacestation_station_tubeX => [
    [(0, 11, 1)],
    [(0, 11, 1), (1, 11, 1), (2, 11, 1), (3, 11, 1), (4, 11, 1), (5, 11, 1), (6, 11, 1), (7, 11, 1), (8, 11, 1), (9, 11, 1), (10, 11, 1),
    (11, 11, 1), (12, 11, 1), (13, 11, 1), (14, 11, 1), (15, 11, 1), (16, 11, 1), (17, 11, 1), (18, 11, 1), (19, 11, 1), (20, 11, 1),
    (21, 11, 1), (22, 11, 1)],
    [(0, 11, 1), (1, 11, 1), (2, 11, 1), (3, 11, 1), (4, 11, 1), (5, 11, 1), (6, 11, 1), (7, 11, 1), (8, 11, 1), (9, 11, 1), (10, 11, 1),
    (10, 12, 1), (10, 13, 1), (10, 14, 1), (10, 15, 1), (10, 16, 1), (10, 17, 1), (10, 18, 1), (10, 19, 1), (10, 20, 1), (10, 21, 1),
    (10, 22, 1)],
    [(0, 11, 1), (1, 11, 1), (2, 11, 1), (3, 11, 1), (4, 11, 1), (5, 11, 1), (6, 11, 1), (7, 11, 1), (8, 11, 1), (9, 11, 1), (10, 11, 1),
    (10, 10, 1), (10, 9, 1), (10, 8, 1), (10, 7, 1), (10, 6, 1), (10, 5, 1), (10, 4, 1), (10, 3, 1), (10, 2, 1), (10, 1, 1), (10, 0, 1)],
    [(22, 11, 1)],
    [(22, 11, 1), (21, 11, 1), (20, 11, 1), (19, 11, 1), (18, 11, 1), (17, 11, 1), (16, 11, 1), (15, 11, 1), (14, 11, 1), (13, 11, 1),
    (12, 11, 1), (12, 12, 1), (12, 13, 1), (12, 14, 1), (12, 15, 1), (12, 16, 1), (12, 17, 1), (12, 18, 1), (12, 19, 1), (12, 20, 1),
    (12, 21, 1), (12, 22, 1)],
    [(22, 11, 1), (21, 11, 1), (20, 11, 1), (19, 11, 1), (18, 11, 1), (17, 11, 1), (16, 11, 1), (15, 11, 1), (14, 11, 1), (13, 11, 1),
    (12, 11, 1), (12, 10, 1), (12, 9, 1), (12, 8, 1), (12, 7, 1), (12, 6, 1), (12, 5, 1), (12, 4, 1), (12, 3, 1), (12, 2, 1), (12, 1, 1),
    (12, 0, 1)],
    [(11, 22, 1)],
    [(11, 22, 1), (11, 21, 1), (11, 20, 1), (11, 19, 1), (11, 18, 1), (11, 17, 1), (11, 16, 1), (11, 15, 1), (11, 14, 1), (11, 13, 1),
    (11, 12, 1), (11, 11, 1), (11, 10, 1), (11, 9, 1), (11, 8, 1), (11, 7, 1), (11, 6, 1), (11, 5, 1), (11, 4, 1), (11, 3, 1), (11, 2, 1),
    (11, 1, 1), (11, 0, 1)],
    [(11, 0, 1)]]
  | .original_spawn_room => [
    [(6, 3, 1)]]
  | .castle_castle_gate => [
    [(0, 11, 9)],
    [(0, 11, 9), (1, 11, 9), (2, 11, 9), (3, 11, 9), (4, 11, 9), (5, 11, 9), (6, 11, 9), (7, 11, 9), (8, 11, 9), (9, 11, 9), (10, 11, 9),
    (11, 11, 9), (12, 11, 9), (13, 11, 9), (14, 11, 9), (15, 11, 9), (16, 11, 9), (17, 11, 9), (18, 11, 9), (19, 11, 9), (20, 11, 9),
    (21, 11, 9), (22, 11, 9)],
    [(22, 11, 9)],
    [(11, 22, 1)],
    [(11, 22, 1), (10, 22, 1), (10, 21, 1), (10, 20, 1), (10, 19, 1), (10, 18, 1), (10, 17, 1), (10, 16, 1), (10, 15, 1), (10, 14, 1),
    (10, 13, 1), (10, 12, 1), (11, 12, 1), (12, 12, 1), (12, 11, 1), (12, 10, 1), (12, 9, 1), (12, 8, 1), (12, 7, 1), (12, 6, 1), (12, 5, 1),
    (12, 4, 1), (12, 3, 1), (12, 2, 1), (12, 1, 1), (12, 0, 1)],
    [(11, 0, 1)]]
  | .castle_castle_gate_simple => [
    [(0, 3, 9)],
    [(0, 3, 9), (1, 3, 9), (2, 3, 9), (3, 3, 9), (4, 3, 9), (5, 3, 9), (6, 3, 9), (7, 3, 9), (8, 3, 9), (9, 3, 9), (10, 3, 9), (11, 3, 9),
    (12, 3, 9), (13, 3, 9), (14, 3, 9), (15, 3, 9), (16, 3, 9), (17, 3, 9), (18, 3, 9), (19, 3, 9), (20, 3, 9), (21, 3, 9), (22, 3, 9)],
    [(22, 3, 9)],
    [(10, 6, 1)],
    [(10, 6, 1), (10, 5, 1), (10, 4, 1), (11, 4, 1), (12, 4, 1), (12, 3, 1), (12, 2, 1), (12, 1, 1), (12, 0, 1)],
    [(12, 0, 1)]]
  | .castle_castle_large => [
    [(0, 19, 9)],
    [(0, 19, 9), (1, 19, 9), (2, 19, 9), (3, 19, 9), (4, 19, 9), (5, 19, 9), (6, 19, 9), (7, 19, 9), (8, 19, 9), (9, 19, 10), (10, 19, 11),
    (11, 19, 12), (12, 19, 13), (13, 19, 14), (14, 19, 15), (15, 19, 16), (16, 19, 17), (17, 19, 17), (18, 19, 17), (19, 19, 17), (20, 19, 17),
    (21, 19, 17), (22, 19, 17), (23, 19, 16), (24, 19, 15), (25, 19, 14), (26, 19, 13), (27, 19, 12), (28, 19, 11), (29, 19, 10), (30, 19, 9),
    (31, 19, 9), (32, 19, 9), (33, 19, 9), (34, 19, 9), (35, 19, 9), (36, 19, 9), (37, 19, 9), (38, 19, 9)],
    [(38, 19, 9)],
    [(19, 38, 9)],
    [(19, 38, 9), (19, 37, 9), (19, 36, 9), (19, 35, 9), (19, 34, 9), (19, 33, 9), (19, 32, 9), (19, 31, 9), (19, 30, 9), (19, 29, 8),
    (19, 28, 7), (19, 27, 6), (19, 26, 5), (19, 25, 4), (19, 24, 3), (19, 23, 2), (19, 22, 1), (19, 21, 1), (19, 20, 1), (19, 19, 1),
    (19, 18, 1), (19, 17, 1), (19, 16, 1), (19, 15, 1), (19, 14, 2), (19, 13, 3), (19, 12, 4), (19, 11, 5), (19, 10, 6), (19, 9, 7),
    (19, 8, 8), (19, 7, 9), (19, 6, 9), (19, 5, 9), (19, 4, 9), (19, 3, 9), (19, 2, 9), (19, 1, 9), (19, 0, 9)],
    [(19, 0, 9)]]
  | .castle_castle_wall_end_cliff => [
    [(0, 3, 9)]]
  | .castle_castle_wall_section_endcap => [
    [(0, 3, 9)]]
  | _ => []

end Verif
