#!/usr/bin/env python3
"""Generate lean/Verif/TextureData.lean from the text of /repo/redeclipse/textures/*.py: the texture
classes of each theme with their attributes. Nothing of the project is run: classes are read with
`ast`."""
import ast

ROOT = '/repo/redeclipse/textures/'
KINDS = {'Sky': 'sky', 'Default': 'dflt', 'SimpleColourTex': 'colour', 'SimpleTex': 'simple',
         'DefaultBumpSpecMapWorld': 'bump', 'DefaultBumpSpecMapParallaxWorld': 'parallax',
         'DefaultBumpSpecMapParallaxGlowWorld': 'glow'}


def classes(fn):
    out = {}
    for n in ast.parse(open(ROOT + fn).read()).body:
        if isinstance(n, ast.ClassDef):
            attrs = {}
            methods = [m.name for m in n.body if isinstance(m, ast.FunctionDef)]
            for s in n.body:
                if isinstance(s, ast.Assign):
                    attrs[s.targets[0].id] = ast.literal_eval(s.value)
            out[n.name] = (n.bases[0].id, attrs, methods, n.lineno)
    return out


BASE = classes('basetex.py')


def chain(name, cs):
    while True:
        d = cs.get(name) or BASE.get(name)
        if d is None:
            return
        yield name, d
        name = d[0]


def num(v):
    if isinstance(v, float):
        n, d = repr(v).split('.')
        k = 10 ** len(d)
        return '.flt (%d / %d)' % (int(n + d), k)
    return '.int %d' % v


def opt(v):
    return 'none' if v is None else 'some "%s"' % v


def tup(v):
    return 'none' if not v else 'some "%s"' % ' '.join(str(x) for x in v)


def tex(mod, name, cs):
    attrs = {}
    kind = None
    copies = False
    for n, (_, a, m, _) in chain(name, cs):
        for k, v in a.items():
            attrs.setdefault(k, v)
        if kind is None and n in KINDS:
            kind = KINDS[n]
        if 'files' in m and n != 'BaseTex':
            copies = True
    f = ['kind := .%s' % kind, 'cls := "<class \'redeclipse.textures.%s.%s\'>"' % (mod, name),
         'basepath := "%s"' % attrs['basepath'], 'copied := %s' % ('true' if copies else 'false')]
    if attrs['srcpath'] != 'data/minecraft':
        f.append('srcpath := "%s"' % attrs['srcpath'])
    if kind == 'colour':
        f.append('rgb := (%s, %s, %s)' % (num(attrs['r']), num(attrs['g']), num(attrs['b'])))
    else:
        for k in 'cnszg':
            if attrs.get(k) is not None:
                f.append('%s := %s' % (k + "'", opt(attrs[k])))
        if 'scale' in attrs:
            f.append('scale := "%s"' % attrs['scale'])
        for k in ['texcolor', 'specscale', 'parallaxscale', 'glowcolor']:
            if attrs.get(k):
                f.append('%s := %s' % (k, tup(attrs[k])))
    return '("%s", { %s })' % (name.lower(), ', '.join(f))


out = ['import Verif.Textures', '', '/-!', 'Generated by tools/gen_textures.py from /repo/redeclipse/textures/*.py: the texture classes of each',
       'theme, as `discover_textures` (textures/__init__.py 215-221) stores them in `texref`.', '-/', '', 'namespace Verif', '']
for mod in ['minecraft', 'dull', 'paper', 'primary']:
    cs = classes(mod + '.py')
    out.append('/-- The classes of textures/%s.py (lines 1-%d). -/' % (mod, len(open(ROOT + mod + '.py').read().splitlines())))
    out.append('def %sTexs : List (String × Tex) := [' % mod)
    out.append(',\n'.join('  ' + tex(mod, n, cs) for n in sorted(cs)))
    out.append(']\n')
out.append('end Verif')
open('/verif/lean/Verif/TextureData.lean', 'w').write('\n'.join(out) + '\n')
