"""Generate lean/Verif/DistData.lean: the transition tables of /repo/redeclipse/prefabs/distributions.py, read as text.

Run from anywhere: python3 tools/gen_dist.py
"""
import ast
import os
from fractions import Fraction

ROOT = os.path.dirname(os.path.dirname(os.path.abspath(__file__)))
SRC = '/repo/redeclipse/prefabs/distributions.py'
text = open(SRC).read()
tree = ast.parse(text)
out = ['import Verif.Dist', '',
       '/-! Transition tables of /repo/redeclipse/prefabs/distributions.py. Generated by tools/gen_dist.py; do not edit.',
       'The probabilities are the decimals in the source, not the nearest binary floats. -/', '', 'namespace Verif', '']
for c in tree.body:
    if not isinstance(c, ast.ClassDef) or c.name == 'DistributionManager':
        continue
    for st in c.body:
        if isinstance(st, ast.Assign) and st.targets[0].id == 'mirror':
            mirror = ast.literal_eval(st.value)
        if isinstance(st, ast.Assign) and st.targets[0].id == 'transition_probabilities':
            rows = [(tuple(ast.literal_eval(k)), Fraction(ast.get_source_segment(text, v))) for k, v in zip(st.value.keys, st.value.values)]
    name = c.name[0].lower() + c.name[1:]
    out.append('/-- `%s` (prefabs/distributions.py %d-%d). -/' % (c.name, c.lineno, c.end_lineno))
    out.append('def %s : DistMan where' % name)
    out.append('  mirror := %s' % str(mirror).lower())
    out.append('  table := [')
    out.append(',\n'.join('    (("%s", "%s"), %s)' % (k[0], k[1], p if p.denominator == 1 else '%d / %d' % (p.numerator, p.denominator)) for k, p in rows) + ']')
    out.append('')
out.append('end Verif')
open(os.path.join(ROOT, 'lean/Verif/DistData.lean'), 'w').write('\n'.join(out) + '\n')
