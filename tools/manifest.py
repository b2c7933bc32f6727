"""Regenerate MANIFEST.json from the theorem names in lean/Verif/Props and tools/notes.json.

A property is "proved" unless notes.json marks it otherwise. Run from anywhere: python3 tools/manifest.py
"""
import glob
import json
import os
import re

ROOT = os.path.dirname(os.path.dirname(os.path.abspath(__file__)))
notes = json.load(open(os.path.join(ROOT, 'tools', 'notes.json')))
thms = {}
for f in sorted(glob.glob(os.path.join(ROOT, 'lean/Verif/Props/*.lean'))):
    for m in re.finditer(r'^theorem (C(\d+)_\w+)', open(f).read(), re.M):
        thms.setdefault('C' + m.group(2), []).append('Verif.Props.' + m.group(1))
claims = []
for line in open(os.path.join(ROOT, 'properties.jsonl')):
    pid = json.loads(line)['id']
    n = notes.get(pid, {})
    if pid in thms:
        default = 'partial' if any(t.endswith('_partial') for t in thms[pid]) else 'proved'
        claims.append({'property': pid, 'status': n.get('status', default), 'theorems': thms[pid],
                       'note': n.get('note', '')})
    elif 'status' in n:
        claims.append({'property': pid, 'status': n['status'], 'theorems': [], 'note': n['note']})
with open(os.path.join(ROOT, 'MANIFEST.json'), 'w') as h:
    h.write('{"claims": [\n' + ',\n'.join(' ' + json.dumps(c) for c in claims) + '\n]}\n')
print(len(claims), 'claims')
