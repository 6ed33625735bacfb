"""Writes lean/Verif/Data/PhonInv.lean: the descriptive features and the universal phonemes.

Reads phonology/features/descriptive.py and phonology/inventories/x_uni.py with `ast`.
"""
import ast
import os

ROOT = '/repo/nisaba/scripts/natural_translit/phonology/'
TABLE = os.path.join(os.path.dirname(__file__), '..', 'lean', 'Verif', 'Data', 'PhonInvTable.lean')
OUT = os.path.join(os.path.dirname(__file__), '..', 'lean', 'Verif', 'Data', 'PhonInv.lean')
ANY, NA = 1000, 1001
LISTS = ('equidistant', 'linear', 'cyclic')


def dotted(node):
  """['features', 'height', 'close'] for features.height.close."""
  if isinstance(node, ast.Name):
    return [node.id]
  return dotted(node.value) + [node.attr]


def q(name):
  return f'«{name}»' if name in ('open', 'none', 'mid', 'any') else name


def main():
  feats, sets, lines = {}, {}, {}
  tree = ast.parse(open(ROOT + 'features/descriptive.py').read())
  fn = next(n for n in tree.body if isinstance(n, ast.FunctionDef))
  aspects, profiles = [], []

  def walk(call, k, counter):
    name = call.func.attr if isinstance(call.func, ast.Attribute) else call.func.id
    me = counter[0]
    counter[0] += 1
    alias = call.args[0].value
    if name in LISTS:
      for a in call.args[1:]:
        walk(a, k, counter)
    else:
      feats[aspects[k][0], alias] = (k, me)
      lines[aspects[k][0], alias] = call.lineno

  def resolve(node):
    d = dotted(node)[1:]
    if len(d) == 2 and tuple(d) in feats:
      return [tuple(d)]
    if len(d) == 2 and d[1] == 'n_a':
      return [tuple(d)]
    return sets['.'.join(d)][0]

  for call in [n for n in ast.walk(fn) if isinstance(n, ast.Call)]:
    if isinstance(call.func, ast.Attribute) and call.func.attr == 'Aspect':
      aspects.append((call.args[0].args[0].value, call.args[0]))
  aspects.sort(key=lambda x: x[1].lineno)
  for k, (alias, root) in enumerate(aspects):
    walk(root, k, [0])
    feats[alias, 'any'] = (k, ANY)
    feats[alias, 'n_a'] = (k, NA)
    lines[alias, 'any'] = lines[alias, 'n_a'] = root.lineno
  for st in fn.body:
    if isinstance(st, ast.For):
      target = dotted(st.body[0].value.func)
      for t in st.iter.elts:
        sets[f'{target[1]}.{t.elts[0].value}'] = (
            [x for e in t.elts[1].elts for x in resolve(e)], t.lineno)
    if isinstance(st, ast.Expr) and isinstance(st.value, ast.Call):
      f = dotted(st.value.func)
      if f[-1] == 'set':
        sets[f'{f[1]}.{st.value.args[0].value}'] = (
            [x for e in st.value.args[1:] for x in resolve(e)], st.lineno)
      elif f[-1] == 'make_sets':
        for t in st.value.args:
          sets[t.elts[0].value] = (
              [x for e in t.elts[1].elts for x in resolve(e)], t.lineno)
      elif f[-1] == 'add_profile':
        profiles.append((st.value.args[0].value,
                         [x for e in st.value.args[1:] for x in resolve(e)],
                         st.lineno, st.end_lineno))
  name = lambda x: f'Phf.{x[0]}.{q(x[1])}'
  out = ['import Verif.Data.Features', 'import Verif.Model.NtFst',
         '/-! Generated by tools/gen_phoninv.py: descriptive features and universal phonemes. -/',
         'namespace Nisaba.PhonInv', '',
         '/-- A feature: the place of its aspect in phonology/features/descriptive.py:28-174 and its',
         'number in `Verif.Data.Features` (1000 for `any`, 1001 for `n_a`). -/',
         'abbrev Fe := Nat × Nat', '',
         '/-- phonology/features/descriptive.py:28-174: the aspects in order. -/',
         'def roots : List Feature.Val :=',
         '  [' + ', '.join('Feature.Data.' + a for a, _ in aspects) + ']', '']
  for key, v in feats.items():
    out += [f'/-- phonology/features/descriptive.py:{lines[key]} -/',
            f'def {name(key)} : Fe := ({v[0]}, {v[1]})']
  out.append('')
  for key, (fs, ln) in sets.items():
    if '.' in key:
      continue
    out += [f'/-- phonology/features/descriptive.py:{ln} -/',
            f'def Phf.{key} : List Fe := [' + ', '.join(map(name, fs)) + ']']
  for key, fs, a, b in profiles:
    out += [f'/-- phonology/features/descriptive.py:{a}-{b} -/',
            f'def Phf.{key} : List Fe := [' + ', '.join(map(name, fs)) + ']']
  out.append('')

  tree = ast.parse(open(ROOT + 'inventories/x_uni.py').read())
  fn = next(n for n in tree.body if isinstance(n, ast.FunctionDef))
  ops, raw, sym = [], [], {}
  prof = {k: fs for k, fs, _, _ in profiles}

  def group(fs, k):
    return list(dict.fromkeys(feats[f][1] for f in fs if feats[f][0] == k))
  S = lambda s: '[' + ', '.join(str(ord(c)) for c in s) + ']'
  A = lambda s: f'a!"{s}"'
  for st in fn.body:
    if isinstance(st, ast.Assign) and isinstance(st.value, ast.List):
      rows = []
      for t in st.value.elts:
        ipa, alias, nm = (e.value for e in t.elts)
        sym[alias] = (ipa, alias, nm, [group(prof[st.targets[0].id[:-1]], k) or [ANY]
                                       for k in range(len(aspects))])
        rows.append(f'  ({A(ipa)}, {A(alias)}, {A(nm)})')
      out += [f'/-- phonology/inventories/x_uni.py:{st.lineno}-{st.end_lineno}: IPA, alias, name. -/',
              f'def {st.targets[0].id} : List (Str × Str × Str) := [', ',\n'.join(rows) + ']', '']
    elif isinstance(st, ast.For):
      targets = [e.attr for e in st.iter.elts]
      calls, node = [], st.body[0].value
      while isinstance(node, ast.Call):
        assert node.func.attr == 'update_descriptives'
        calls.insert(0, node.args)
        node = node.func.value
      for args in calls:
        fs, flat = [], []
        for a in args:
          d = dotted(a)[1:]
          flat += resolve(a)
          fs.append(f'[Phf.{d[0]}.{q(d[1])}]' if len(d) == 2 else f'Phf.{d[0]}')
        raw.append((targets, flat))
        ops.append(f'  -- {st.lineno}-{st.end_lineno}\n  ([' + ', '.join(map(A, targets)) + '], '
                   + ' ++ '.join(fs) + ')')
  out += ['/-- phonology/inventories/x_uni.py:67-439: the calls of `update_descriptives` in order, each with',
          'the aliases of the phonemes of its loop and the features given. -/',
          'def updates : List (List Str × List Fe) := [', ',\n'.join(ops) + ']', '',
          'end Nisaba.PhonInv', '']
  open(OUT, 'w').write('\n'.join(out))

  for targets, fs in raw:
    for t in targets:
      for k in range(len(aspects)):
        if group(fs, k):
          sym[t][3][k] = group(fs, k)
  out = ['import Verif.Model.PhonInv',
         '/-! Generated by tools/gen_phoninv.py: what the inventory comes to (checked in',
         '`Verif.Lemmas.PhonInv`) and the distances in quarters. -/',
         'namespace Nisaba.PhonInv', '', 'def table : List Phoneme := [',
         ',\n'.join(f'  ⟨{A(i)}, {A(a)}, {A(n)}, {d}⟩' for i, a, n, d in sym.values()) + ']', '',
         '/-- Four times the distance of two values of an aspect, which are given by their numbers; 0 and 15',
         'stand for `any` and `n_a`. -/', 'def quarters : List (List (List Nat)) := [']
  mats = []
  for alias, root in aspects:
    d, m = {}, 0

    def go(call, counter):
      me = counter[0]
      counter[0] += 1
      if call.func.attr not in LISTS if isinstance(call.func, ast.Attribute) else True:
        return [me]
      step = 1.0
      for kw in call.keywords:
        step = kw.value.value
      parts = [go(a, counter) for a in call.args[1:]]
      for i, x in enumerate(parts):
        for j, y in enumerate(parts[:i]):
          for v in x:
            for w in y:
              d[v, w] = d[w, v] = int(4 * step * (1 if call.func.attr == 'equidistant' else i - j))
      return sum(parts, [])
    leaves = go(root, [0])
    m = max(d.values())
    for v in leaves + [15]:
      d[v, 15] = d[15, v] = m
    rows = []
    for v in range(16):
      rows.append('[' + ', '.join(str(0 if v == w else d.get((v, w), 0)) for w in range(16)) + ']')
    mats.append('  -- ' + alias + '\n  [' + ',\n   '.join(rows) + ']')
  out += [',\n'.join(mats) + ']', '', 'end Nisaba.PhonInv', '']
  open(TABLE, 'w').write('\n'.join(out))


main()
