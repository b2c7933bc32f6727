#!/usr/bin/env python3
"""Generate lean/Verif/ModelRooms.lean from the text of /repo/redeclipse/prefabs/*/__init__.py (class
names, room_type, doors) and the bytes of the .vox files (occupied cells). Nothing of the project is run:
classes are read with `ast` and the .vox files with the small parser below."""
import ast
import os
import struct

ROOT = '/repo/redeclipse/prefabs'
PACKS = ['castle', 'dungeon', 'egypt', 'original', 'spacestation']


def vox(fn):
    b = open(fn, 'rb').read()
    assert b[:4] == b'VOX ' and b[8:12] == b'MAIN'
    o = 20 + struct.unpack_from('<I', b, 12)[0]
    assert b[o:o + 4] == b'SIZE'
    o += 24
    assert b[o:o + 4] == b'XYZI'
    n = struct.unpack_from('<I', b, o + 12)[0]
    o += 16
    return [tuple(b[o + 4 * i:o + 4 * i + 4]) for i in range(n)]


def cells(fn):
    out = []
    for (x, y, z, _) in vox(fn):
        q = (x // 8, y // 8, z // 8)
        if q not in out:
            out.append(q)
    return out


def expr(e):
    if isinstance(e, ast.Name):
        return e.id
    if isinstance(e, ast.BinOp) and isinstance(e.op, ast.Add):
        return '(%s.add %s)' % (expr(e.left), expr(e.right))
    if isinstance(e, ast.BinOp) and isinstance(e.op, ast.Mult):
        return '(%s.mul %d)' % (expr(e.left), e.right.value)
    raise Exception(ast.dump(e))


rooms = []
for pack in PACKS:
    src = open('%s/%s/__init__.py' % (ROOT, pack)).read()
    for c in ast.parse(src).body:
        if not isinstance(c, ast.ClassDef):
            continue
        attr = {}
        for s in c.body:
            if isinstance(s, ast.Assign):
                attr[s.targets[0].id] = s.value
        if 'vox_file' not in attr:
            continue
        f = attr['vox_file'].args[1].value
        doors = []
        for d in attr['doors'].elts:
            kv = {k.value: v for k, v in zip(d.keys, d.values)}
            doors.append((expr(kv['orientation']), expr(kv['offset'])))
        assert '_randflags' not in attr and 'boundary_additions' not in attr
        rooms.append((pack, c.name, c.lineno, c.end_lineno, attr['room_type'].value, doors,
                      cells('%s/%s/%s' % (ROOT, pack, f)), f))

out = []
w = out.append
w('import Verif.Upm')
w('')
w('/-!')
w('The model room classes of /repo/redeclipse/prefabs/{castle,dungeon,egypt,original,spacestation}: types, doors')
w('and occupied cells. Generated by tools/gen_models.py from the class texts and the .vox files; the cells are')
w('the list that `MagicaRoom.load_model` (prefabs/magica.py 30-57) computes from the voxels of the file.')
w('-/')
w('')
w('namespace Verif')
w('open V')
w('')
w('/-- The shipped model room classes (name of the package, then of the class). -/')
w('inductive Model where')
for r in rooms:
    w('  | %s_%s' % (r[0], r[1]))
w('  deriving DecidableEq, Repr')
w('')
w('/-- A model room: no flags, not shifted, doors and cells independent of flags (prefabs/magica.py 8-67). -/')
w('def modelCls (ty : String) (ds : List Door) (ps : List V) : RoomCls := ⟨ty, none, true, false, fun _ => ds, fun _ => ps⟩')
w('')
for (pack, name, a, b, ty, doors, cs, f) in rooms:
    w('/-- prefabs/%s/__init__.py %d-%d, cells from prefabs/%s/%s. -/' % (pack, a, b, pack, f))
    w('def model_%s_%s : RoomCls := modelCls "%s"' % (pack, name, ty))
    w('  [' + ',\n   '.join('⟨%s, %s⟩' % d for d in doors) + ']')
    line = '  ['
    for i, q in enumerate(cs):
        s = 'C %d %d %d' % q + (', ' if i + 1 < len(cs) else '')
        if len(line) + len(s) > 108:
            w(line.rstrip())
            line = '   '
        line += s
    w(line + ']')
    w('')
w('/-- The table of model room classes. -/')
w('def models : Model → RoomCls')
for r in rooms:
    w('  | .%s_%s => model_%s_%s' % (r[0], r[1], r[0], r[1]))
w('')
w('/-- All model room classes. -/')
w('def allModels : List Model :=')
w('  [' + ',\n   '.join('.%s_%s' % (r[0], r[1]) for r in rooms) + ']')
w('')
w('end Verif')
path = os.path.join(os.path.dirname(os.path.abspath(__file__)), '..', 'lean', 'Verif', 'ModelRooms.lean')
open(path, 'w').write('\n'.join(out) + '\n')
print(len(rooms), 'rooms')
