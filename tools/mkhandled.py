#!/usr/bin/env python3
"""Generate lean/Verif/Handled.lean from /repo/src/whitespace_apportioner.rs (read as text)."""
import re
src = open('/repo/src/whitespace_apportioner.rs').read()
line = lambda i: src.count('\n', 0, i) + 1
ms = list(re.finditer(r'fn (exit_\w+)\(&mut self, &mut ([\w<>]+)\) \{\}', src))
kinds = []
for m in ms:
    k = m.group(2).replace('<', '').replace('>', '')
    snake = re.sub(r'(?<!^)([A-Z])', r'_\1', k).lower()
    assert 'exit_' + snake == m.group(1), (snake, m.group(1))
    kinds.append(k)
assert len(set(kinds)) == len(kinds)
out = f'''import Verif.Ast
/-!
# The nodes the whitespace apportioner handles

Generated by `tools/mkhandled.py` from `src/whitespace_apportioner.rs`.
-/

namespace Verif

/-- `src/whitespace_apportioner.rs` {line(ms[0].start())}-{line(ms[-1].start())}: the structs with an `exit_…` method in `impl VisitorMut for
WhitespaceApportioner`. -/
def K.handled : K → Bool
'''
cur = '  '
for k in kinds:
    if len(cur) + len(k) + 5 > 110: out += cur.rstrip() + '\n'; cur = '  '
    cur += f'| .{k} '
out += cur + '=> true\n  | _ => false\n\nend Verif\n'
open('/verif/lean/Verif/Handled.lean', 'w').write(out)
print(len(kinds))
