#!/usr/bin/env python3
"""Copies the tables of phonemes and graphemes of natural_translit into a Lean module.

The Python sources are parsed (not run).  Run:  python3 tools/gen_nt.py
"""
import ast, os
R = '/repo/nisaba/scripts/natural_translit/'
OUT = os.path.join(os.path.dirname(os.path.abspath(__file__)), '..', 'lean', 'Verif', 'Data', 'NtTables.lean')

def lists(path, names):
    """name -> (first line, last line, list of rows) of NAME = [f(*args) for args in [...]]"""
    tree = ast.parse(open(R + path, encoding='utf-8').read())
    out = {}
    for n in tree.body:
        if isinstance(n, ast.Assign) and isinstance(n.targets[0], ast.Name) and n.targets[0].id in names:
            v = n.value
            if isinstance(v, ast.ListComp):
                rows = v.generators[0].iter.elts
                rows = [r.elts if isinstance(r, ast.List) else [r] for r in rows]
            else:
                rows = [c.args for c in v.elts]
            out[n.targets[0].id] = (n.lineno, n.end_lineno, rows)
    assert set(out) == set(names), set(names) - set(out)
    return out

def s(x):
    assert '"' not in x and '\\' not in x
    return 'a!"%s"' % x

def attrs(e, mod):
    """mod.X + mod.Y -> ['X', 'Y']"""
    if isinstance(e, ast.BinOp):
        assert isinstance(e.op, ast.Add)
        return attrs(e.left, mod) + attrs(e.right, mod)
    assert isinstance(e, ast.Attribute) and e.value.id == mod
    return [e.attr]

def lst(xs):
    return '[' + ', '.join(s(x) for x in xs) + ']'

def comment(path, l):
    return '/-- nisaba/scripts/natural_translit/%s:%d-%d. -/\n' % (path, l[0], l[1])

out = ['import Verif.Model.NtFst', '/-! Generated by tools/gen_nt.py from the sources named below. -/',
       'namespace Nisaba.NT.Data', '']
w = out.append

P = 'phonology/phoneme_inventory.py'
w('/-- Rows `[txn, ftr, ipa, base_tr, alias]` of the base phonemes: txn, ipa, aliases of the parts of\nbase_tr, alias (empty when not given).  The features are left out. -/')
w('abbrev PhonRow := Str × Str × List Str × Str\n')
names = ['SILENCE', 'STANDALONE_FEATURE', 'UNASSIGNED_VOWEL', 'BASE_VOWEL', 'VOICED_NASAL', 'VOICELESS_STOP',
         'VOICED_STOP', 'VOICELESS_FRICATIVE', 'VOICED_FRICATIVE', 'CENTRAL_APPROXIMANT', 'LATERAL_APPROXIMANT',
         'VOICED_FLAP', 'VOICED_TRILL', 'CLICK_RELEASE']
for n, l in lists(P, names).items():
    rows = []
    for r in l[2]:
        alias = r[4].value if len(r) > 4 else ''
        rows.append('(%s, %s, %s, %s)' % (s(r[0].value), s(r[2].value), lst(attrs(r[3], 'tr')), s(alias)))
    w(comment(P, l) + 'def %s : List PhonRow := [\n  %s]\n' % (n, ',\n  '.join(rows)))

P = 'brahmic/grapheme_inventory.py'
w('/-- Rows `[typ, glyph, ph]` of the single point characters: typ, glyph, aliases of the parts of ph. -/')
w('abbrev CharRow := Str × Str × List Str\n')
names = ['INHERENT_VOWEL', 'SIMPLE_VOWEL_SIGN', 'SIMPLE_CONSONANT', 'SIMPLE_CODA', 'OM_VOWEL', 'MODIFIER', 'VIRAMA', 'SYMBOL']
for n, l in lists(P, names).items():
    rows = ['(%s, %s, %s)' % (s(r[0].value), s(r[1].value), lst(attrs(r[2], 'ph'))) for r in l[2]]
    w(comment(P, l) + 'def %s : List CharRow := [\n  %s]\n' % (n, ',\n  '.join(rows)))

names = ['LONG_VOCALIC', 'SHORT_VOCALIC', 'DIPHTHONG_SIGN']
w('/-- Rows `[chars, typ, ph]` of composite characters: aliases of the components, typ, aliases of\nthe parts of ph. -/')
w('abbrev CompRow := List Str × Str × List Str\n')
for n, l in lists(P, names).items():
    rows = ['(%s, %s, %s)' % (lst([a for e in r[0].elts for a in attrs(e, 'sp')]), s(r[1].value), lst(attrs(r[2], 'ph'))) for r in l[2]]
    w(comment(P, l) + 'def %s : List CompRow := [\n  %s]\n' % (n, ',\n  '.join(rows)))
w('end Nisaba.NT.Data')
open(OUT, 'w', encoding='utf-8').write('\n'.join(out) + '\n')
