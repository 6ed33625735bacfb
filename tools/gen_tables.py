#!/usr/bin/env python3
"""Copies the rule tables of /repo into Lean modules under lean/Verif/Data.

The tables are read from the textproto files that the BUILD.bazel files of the
data directories combine into the TSV files used at grammar-build time.
Run:  python3 tools/gen_tables.py
"""
import os, sys, unicodedata
sys.path.insert(0, os.path.dirname(os.path.abspath(__file__)))
import extract
OUT = os.path.join(os.path.dirname(os.path.abspath(__file__)), '..', 'lean', 'Verif', 'Data')
SCRIPTS = ["Beng","Bugi","Deva","Gujr","Guru","Knda","Lepc","Limb","Mlym","Mtei",
           "Newa","Orya","Sinh","Sylo","Takr","Taml","Telu","Tglg","Thaa","Tirh"]
LANGS = ('ar','azb','bal','ckb','fa','ks','ms','pa','prs','ps','sd','ug','ur','uz')
# pynini generated symbols: labels outside of Unicode.
GEN = {'[VIRAMA,ZWNJ]': 0x110000, '[ZWJ,VIRAMA]': 0x110001, '[VIRAMA,ZWJ]': 0x110002}
T = extract.all_tables()

def s(x):
    if x in GEN: return '[nat_lit %d]' % GEN[x]
    return '[' + ', '.join('nat_lit %d' % ord(c) for c in x) + ']'

def table(rows, ident):
    """ident: one-column rows are acceptors (pynini.string_file); otherwise they
    are deletions (pandas reader of rule.py)."""
    out = []
    for a, b in rows:
        if b is None: b = a if ident else ''
        out.append('(%s, %s)' % (s(a), s(b)))
    return '[' + ',\n    '.join(out) + ']'

# field name in Lean, component name, one-column rows are acceptors?
FIELDS = [('consonant','consonant',1),('deadConsonant','dead_consonant',1),
  ('subjoined','subjoined_consonant',1),('vowelSign','vowel_sign',1),('vowel','vowel',1),
  ('vowelLength','vowel_length_sign',1),('coda','coda',1),('standalone','standalone',1),
  ('virama','virama',1),('inherent','inherent_vowel',1),('accept','accept',1),
  ('preserve','preserve',1),('nfc','nfc',0),('visualRewrite','visual_rewrite',0),
  ('readingNorm','reading_norm',0)]

def tab(k, n):
    return T[k][n][1] if n in T.get(k, {}) else []

def chars(k):
    cs = []
    for n in "accept coda consonant dead_consonant standalone subjoined_consonant virama vowel vowel_length_sign vowel_sign".split():
        for a, b in tab(k, n): cs += list(a)
    for n in "nfc reading_norm visual_rewrite".split():
        for a, b in tab(k, n): cs += list(a) + list(b or '')
    return list(dict.fromkeys(cs))

def w(name, text):
    p = os.path.join(OUT, name + '.lean')
    os.makedirs(OUT, exist_ok=True)
    if not os.path.exists(p) or open(p).read() != text:
        open(p, 'w').write(text)

def srcs(k):
    return '\n'.join(sorted({'  ' + f.replace('/repo/', '') for n in T[k].values() for f in n[0]}))

HEAD = "/-! Generated by tools/gen_tables.py from\n%s\n-/\n"
for sc in SCRIPTS:
    k = 'brahmic/' + sc
    t = 'import Verif.Model.Tables\n' + HEAD % srcs(k)
    t += 'namespace Nisaba.Data\n\ndef %s : BrahmicData where\n  name := "%s"\n' % (sc.lower(), sc)
    for lf, comp, ident in FIELDS:
        t += '  %s := %s\n' % (lf, table(tab(k, comp), ident))
    t += '  marks := %s\n' % s(''.join(c for c in chars(k) if unicodedata.category(c) == 'Mn'))
    cfg = '/repo/nisaba/scripts/brahmic/data/%s/script_config.textproto' % sc
    ni = os.path.exists(cfg) and 'no_inherent_vowel: true' in open(cfg).read()
    t += '  noInherentVowel := %s\n' % ('true' if ni else 'false')
    t += '\nend Nisaba.Data\n'
    w(sc, t)
t = '\n'.join('import Verif.Data.' + sc for sc in SCRIPTS) + '\n'
t += HEAD % '  nisaba/scripts/brahmic/util.py (SCRIPTS) and nisaba/scripts/brahmic/data/symbol.textproto, Beng/{as,bn}, Deva/hi, Mlym/fixed'
t += 'namespace Nisaba.Data\n\n/-- nisaba/scripts/brahmic/util.py:75-96 `SCRIPTS`. -/\ndef scripts : List BrahmicData :=\n  [' + ', '.join(sc.lower() for sc in SCRIPTS) + ']\n\n'
t += '/-- data/symbol.textproto -/\ndef commonSymbol : List (Str × Str) := %s\n\n' % table(tab('brahmic/.', 'symbol'), 1)
for l in ('as', 'bn'):
    for c, cn in (('before_consonant', 'BeforeConsonant'), ('after_consonant', 'AfterConsonant')):
        t += 'def beng%s%s : List (Str × Str) := %s\n\n' % (l.capitalize(), cn, table(tab('brahmic/Beng/' + l, c), 1))
t += 'def devaHiReadingNorm : List (Str × Str) := %s\n\n' % table(tab('brahmic/Deva/hi', 'reading_norm'), 0)
t += 'def mlymFixed : List (Str × Str) := %s\n\n' % table(tab('brahmic/Mlym', 'fixed'), 0)
t += 'end Nisaba.Data\n'
w('Scripts', t)

k = 'abjad'
t = 'import Verif.Model.Tables\n' + HEAD % srcs(k) + 'namespace Nisaba.Data\n\n'
for lf, comp, ident in [('arabNfc','nfc',0),('arabVisualNorm','visual_norm',0),('arabPresentationForms','presentation_forms',0),('arabReversibleRoman','reversible_roman',1)]:
    t += 'def %s : List (Str × Str) := %s\n\n' % (lf, table(tab(k, comp), ident))
for l in LANGS:
    kk = 'abjad/' + l
    t += 'def arab%s : AbjadData where\n  lang := "%s"\n' % (l.capitalize(), l)
    for lf, comp, ident in [('visualNorm','visual_norm',0),('nonfinal','visual_norm_nonfinal',1),('finalIsolated','visual_norm_final_isolated',1),('isolated','visual_norm_isolated',1),('readingNorm','reading_norm',0)]:
        t += '  %s := %s\n' % (lf, table(tab(kk, comp), ident))
    t += '\n'
t += '/-- abjad_alphabet/util.py:29-30 `LANGS`. -/\ndef abjadLangs : List AbjadData :=\n  [' + ', '.join('arab' + l.capitalize() for l in LANGS) + ']\n\nend Nisaba.Data\n'
w('Abjad', t)
