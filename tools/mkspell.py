"""Writes lean/Verif/Data/Spellout.lean from the literal table of en_spellout.py (read as text)."""
import ast
import sys

SRC = '/repo/nisaba/scripts/natural_translit/brahmic/en_spellout.py'
OUT = '/verif/lean/Verif/Data/Spellout.lean'


def rows():
  tree = ast.parse(open(SRC, encoding='utf8').read())
  fn = [n for n in tree.body if getattr(n, 'name', '') == '_spellout_inventory'][0]
  tab = [n for n in fn.body if isinstance(n, ast.Assign)][0]
  return ast.literal_eval(tab.value), tab.lineno, tab.end_lineno


def main():
  table, first, last = rows()
  lines = [
      '/-!',
      '# Data of nisaba/scripts/natural_translit/brahmic/en_spellout.py',
      '',
      'Written by tools/mkspell.py from the literal table of the source, as lists of code points.',
      '-/',
      'namespace Nisaba.NT.Spellout',
      '',
      '/-- en_spellout.py:%d-%d `spellouts`: a letter and its spellings in the order of the parameters of'
      % (first, last),
      '`_EnLetterSpellOut.__init__` (lines 66-82). -/',
      'def table : List (Nat × List (List Nat)) := [',
  ]
  for k, row in enumerate(table):
    cells = [str([ord(c) for c in v]) for v in row[1:]]
    lines.append('  (%d, [' % ord(row[0]))
    for i, c in enumerate(cells):
      lines.append('    ' + c + (',' if i + 1 < len(cells) else ''))
    lines.append('  ])' + (',' if k + 1 < len(table) else ''))
  lines += [']', '', 'end Nisaba.NT.Spellout', '']
  text = '\n'.join(lines)
  open(OUT, 'w', encoding='utf8').write(text)


if __name__ == '__main__':
  main()
