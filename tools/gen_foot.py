#!/usr/bin/env python3
"""Generate lean/Verif/FootData.lean: ways on foot between the doorways of the room classes that the room generator uses. The ways are
found by breadth first search over the voxels of the .vox files; that they are ways is checked in Lean, not here. Nothing of the project is
run: class and file names are read with `ast`, the files as bytes, doors and cells from lean/Verif/ModelRooms.lean."""
import ast
import re
import struct

ROOT = '/repo/redeclipse/prefabs'
USED = ['spacestation_station_flagroom', 'spacestation_station_tubeX', 'original_spawn_room', 'castle_castle_gate', 'castle_castle_gate_simple',
        'castle_castle_large', 'castle_castle_wall_end_cliff', 'castle_castle_wall_section_endcap']
STARTS = USED[:2]
files = {}
for pack in ['castle', 'original', 'spacestation']:
    for c in ast.parse(open('%s/%s/__init__.py' % (ROOT, pack)).read()).body:
        if isinstance(c, ast.ClassDef):
            for s in c.body:
                if isinstance(s, ast.Assign) and s.targets[0].id == 'vox_file':
                    files['%s_%s' % (pack, c.name)] = '%s/%s/%s' % (ROOT, pack, s.value.args[1].value)
text = open('/verif/lean/Verif/ModelRooms.lean').read()


class X(tuple):
    def __add__(self, o):
        return X(a + b for a, b in zip(self, o))

    def __mul__(self, n):
        return X(a * n for a in self)


DIRS = {'EAST': X((1, 0, 0)), 'WEST': X((-1, 0, 0)), 'NORTH': X((0, 1, 0)), 'SOUTH': X((0, -1, 0)), 'ABOVE': X((0, 0, 1)), 'BELOW': X((0, 0, -1))}


def load(n):
    t = text[text.index('def model_%s :' % n):]
    t = t[:t.index('\n\n')]
    doors = [tuple(tuple(eval(e.replace('.add', '+').replace('.mul', '*'), dict(DIRS))) for e in d) for d in re.findall(r'⟨([A-Z]+), ([^⟩]*)⟩', t)]
    cells = {tuple(map(int, c)) for c in re.findall(r'C (-?\d+) (-?\d+) (-?\d+)', t)}
    b = open(files[n], 'rb').read()
    k = struct.unpack('<I', b[56:60])[0]
    return {tuple(b[60 + 4 * i:63 + 4 * i]) for i in range(k)}, doors, cells


def ways(n):
    vox, doors, cells = load(n)
    memo = {}

    def fits(p):
        if p not in memo:
            memo[p] = all((p[0] + i, p[1] + j, p[2] + k) not in vox and ((p[0] + i) // 8, (p[1] + j) // 8, (p[2] + k) // 8) in cells
                          for i in (0, 1) for j in (0, 1) for k in range(4))
        return memo[p]

    def stands(p):
        return fits(p) and any((p[0] + i, p[1] + j, p[2] - 1) in vox for i in (0, 1) for j in (0, 1))

    def footholds(d):
        o, off = d
        c = [8 * (a - b) for a, b in zip(off, o)]
        res = []
        for s in (3, 2, 4):
            p = (c[0] + (6 if o[0] > 0 else 0 if o[0] < 0 else s), c[1] + (6 if o[1] > 0 else 0 if o[1] < 0 else s), c[2] + 1)
            if stands(p):
                res.append(p)
        return res

    def bfs(p, goal):
        prev = {p: None}
        todo = [p]
        for x in todo:
            if x in goal:
                r = []
                while x is not None:
                    r.append(x)
                    x = prev[x]
                return r[::-1]
            for dx, dy in ((1, 0), (-1, 0), (0, 1), (0, -1)):
                for dz in (0, 1, -1):
                    y = (x[0] + dx, x[1] + dy, x[2] + dz)
                    if y not in prev and stands(y) and (dz <= 0 or fits((x[0], x[1], x[2] + 1))) and (dz >= 0 or fits((y[0], y[1], y[2] + 1))):
                        prev[y] = x
                        todo.append(y)

    res = []
    for i, d in enumerate(doors):
        for e in doors[i:]:
            if e == d or e[0] == tuple(-a for a in d[0]) or n in STARTS:
                r = bfs(footholds(d)[0], footholds(e))
                assert r, (n, d, e)
                res.append(r)
    return res


out = ['import Verif.ModelRooms', '', '/-!', 'Ways on foot between the doorways of the room classes that the room generator uses, through the voxels of their files. Generated by',
       'tools/gen_foot.py. Each way is a list of places of a body, in blocks of the model. That they are ways is checked in `FootTables`.', '-/', '',
       'namespace Verif', '', '/-- The ways within each class. -/', 'def footWays : Model → List (List (ℤ × ℤ × ℤ))']
total = 0
for n in USED:
    ws = ways(n)
    total += sum(map(len, ws))
    out.append('  | .%s => [' % n)
    for k, r in enumerate(ws):
        line = '[' + ', '.join('(%d, %d, %d)' % p for p in r) + ']' + (',' if k + 1 < len(ws) else ']')
        while len(line) > 140:
            c = line.rindex('), ', 0, 140) + 2
            out.append('    ' + line[:c])
            line = line[c + 1:]
        out.append('    ' + line)
out += ['  | _ => []', '', 'end Verif']
open('/verif/lean/Verif/FootData.lean', 'w').write('\n'.join(out) + '\n')
print(total)
