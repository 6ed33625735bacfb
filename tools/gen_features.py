"""Writes lean/Verif/Data/Features.lean: the value lists of the aspects defined in the repository.

Reads the calls of `f.Aspect(...)` from the Python sources with `ast`.
"""
import ast
import os
from fractions import Fraction

ROOT = '/repo/nisaba/scripts/natural_translit'
FILES = ['phonology/features/descriptive.py', 'phonology/features/language.py',
         'script/grapheme.py', 'utils/symbol.py']
OUT = os.path.join(os.path.dirname(__file__), '..', 'lean', 'Verif', 'Data', 'Features.lean')


class Gen:
  def __init__(self):
    self.n = 0

  def new(self):
    self.n += 1
    return self.n - 1

  def val(self, call):
    """A Lean term for a Feature, Language, Script or value list expression."""
    fn = call.func
    name = fn.attr if isinstance(fn, ast.Attribute) else fn.id
    first = call.args[0]
    alias = first.elts[0].value if isinstance(first, ast.Tuple) else first.value
    if name in ('equidistant', 'linear', 'cyclic'):
      step = Fraction(1)
      for kw in call.keywords:
        assert kw.arg == 'step'
        step = Fraction(str(kw.value.value))
      me = self.new()
      items = [self.val(a) for a in call.args[1:]]
      st = f'{step.numerator}' if step.denominator == 1 else f'({step.numerator}/{step.denominator})'
      return f'.list {me} "{alias}" .{name} {st} [' + ', '.join(items) + ']'
    assert name in ('f', 'from_iso', 'Language', 'Script'), name
    return f'.feat ⟨{self.new()}, "{alias}"⟩'


def main():
  out = ['import Verif.Model.Feature',
         '/-! Generated by tools/gen_features.py: the aspects defined in the repository. -/',
         'namespace Nisaba.Feature.Data', '']
  names = []
  for path in FILES:
    tree = ast.parse(open(os.path.join(ROOT, path)).read())
    for node in ast.walk(tree):
      if (isinstance(node, ast.Call) and isinstance(node.func, ast.Attribute)
          and node.func.attr == 'Aspect'):
        g = Gen()
        arg = node.args[0]
        term = g.val(arg)
        alias = arg.args[0].value
        names.append(alias)
        out += [f'/-- {path}:{node.lineno}-{node.end_lineno} -/',
                f'def {alias} : Val :=', f'  {term}', '']
  out += ['def aspects : List Val :=', '  [' + ', '.join(names) + ']', '', 'end Nisaba.Feature.Data', '']
  open(OUT, 'w').write('\n'.join(out))


if __name__ == '__main__':
  main()
