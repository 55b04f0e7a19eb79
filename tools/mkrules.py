#!/usr/bin/env python3
"""Generate lean/Verif/Rules.lean from tools/rules.txt; line numbers are looked up in /repo/src/parser."""
import re, os
here = os.path.dirname(os.path.abspath(__file__))
SRC = {'mod': '/repo/src/parser/mod.rs', 'expression': '/repo/src/parser/expression.rs'}
rules = []
sec = None
for line in open(os.path.join(here, 'rules.txt')):
    line = line.strip()
    if not line or line.startswith('#'): continue
    if line.startswith('@'): sec = line[1:]; continue
    n, g = line.split(' = ', 1)
    rules.append((sec, n.strip(), g.strip()))

def where(sec, name):
    lines = open(SRC[sec]).read().split('\n')
    for i, l in enumerate(lines):
        if re.match(r'(pub\(crate\) )?fn %s<' % re.escape(name), l):
            j = i
            while lines[j] != '}': j += 1
            return '`src/parser/%s.rs` %d-%d' % (sec, i+1, j+1)
    raise Exception('no fn ' + name)

names = ['expression', 'statement_expression'] + [n for _, n, _ in rules]
assert len(set(names)) == len(names)
def esc(n): return '«%s»' % n if n in ('module',) else n
def wrapped(items, sep, ind):
    out, cur = [], ind
    for i, x in enumerate(items):
        piece = x + (sep if i < len(items)-1 else '')
        if len(cur) + len(piece) + 1 > 112:
            out.append(cur.rstrip()); cur = ind
        cur += piece + ' '
    out.append(cur.rstrip())
    return '\n'.join(out)
def fold(text, ind):
    out, cur = [], ''
    for w in text.split(' '):
        if cur and len(ind) + len(cur) + len(w) + 1 > 114:
            out.append(ind + cur); cur = w
        else: cur = cur + ' ' + w if cur else w
    out.append(ind + cur)
    return '\n'.join(out)

o = []
o.append('''import Verif.Gram
/-!
# The grammar rules

Generated by `tools/mkrules.py` from `tools/rules.txt`, which is a transcription by hand of `src/parser/mod.rs` and
`src/parser/expression.rs`: one rule for each parser function.  The functions of the tables at the end are the operator
parsers used by the shunting yard.
-/

namespace Verif

namespace Rules
open G
''')
def gen(sec, n, g):
    g = re.sub(r'\br \.(\w+)', lambda m: 'r .' + esc(m.group(1)), g)
    return '/-- %s, `%s`. -/\ndef %s : G :=\n%s\n' % (where(sec, n), n, 'rule_' + n, fold(g, '  '))
for sec, n, g in rules: o.append(gen(sec, n, g))
o.append('end Rules\n')
o.append('/-- The rule of each nonterminal; `expression` and `statement_expression` are the shunting yard\n(`src/parser/expression.rs` 14-56). -/')
o.append('def rules : NT → Rule\n  | .expression => .expr false\n  | .statement_expression => .expr true')
for sec, n, g in rules: o.append('  | .%s => .g Rules.rule_%s' % (esc(n), n))
o.append('\nend Verif\n')
open(os.path.join(here, '../lean/Verif/Rules.lean'), 'w').write('\n'.join(o))

nt = '''import Verif.Shunt
/-!
# The nonterminals

Generated by `tools/mkrules.py` from `tools/rules.txt`.
-/

namespace Verif

/-- The parser functions of `src/parser/mod.rs` and `src/parser/expression.rs` (lines given at the rules in
`Verif.Rules`). -/
inductive NT
''' + wrapped(['| ' + esc(n) for n in names], '', '  ') + '''
deriving DecidableEq, Repr, Inhabited

/-- All nonterminals. -/
def NT.all : List NT := [
''' + wrapped(['.' + esc(n) for n in names], ',', '  ') + ''']

theorem NT.mem_all (n : NT) : n ∈ NT.all := by cases n <;> decide

end Verif
'''
open(os.path.join(here, '../lean/Verif/NT.lean'), 'w').write(nt)
print(len(names), 'nonterminals')
