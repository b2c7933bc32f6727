#!/usr/bin/env python3
"""Generate lean/Verif/VoxData.lean: the bytes of the .vox files of the model room classes. Nothing of the project is run: the
class names and file names are read with `ast`, the files as bytes."""
import ast

ROOT = '/repo/redeclipse/prefabs'
PACKS = ['castle', 'dungeon', 'egypt', 'original', 'spacestation']

rooms = []
for pack in PACKS:
    for c in ast.parse(open('%s/%s/__init__.py' % (ROOT, pack)).read()).body:
        if not isinstance(c, ast.ClassDef):
            continue
        for s in c.body:
            if isinstance(s, ast.Assign) and s.targets[0].id == 'vox_file':
                rooms.append(('%s_%s' % (pack, c.name), 'prefabs/%s/%s' % (pack, s.value.args[1].value)))

out = []
w = out.append
w('import Verif.ModelRooms')
w('')
w('/-!')
w('The .vox files of the model room classes in /repo/redeclipse/prefabs. Generated by tools/gen_vox.py from the files. Each file is a')
w('number whose digits in base 256 are its bytes, the first byte being the lowest digit, together with its length.')
w('-/')
w('')
w('namespace Verif')
w('')


def emit(name, fn):
    b = open('/repo/redeclipse/' + fn, 'rb').read()
    w('/-- %s, %d bytes. -/' % (fn, len(b)))
    w('def %s : ℕ × ℕ := (%d, 0x%x)' % (name, len(b), int.from_bytes(b, 'little')))
    w('')


for n, f in rooms:
    emit('vox_' + n, f)
emit('vox_water_square', 'prefabs/egypt/water_square.vox')
w('/-- The file of each class (`vox_file` in prefabs/*/__init__.py): length and content. -/')
w('def voxNum : Model → ℕ × ℕ')
for n, f in rooms:
    w('  | .%s => vox_%s' % (n, n))
w('')
w('end Verif')
open('/verif/lean/Verif/VoxData.lean', 'w').write('\n'.join(out) + '\n')
