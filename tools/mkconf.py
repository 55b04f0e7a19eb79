#!/usr/bin/env python3
"""Generate lean/Verif/Conformance.lean from the unit tests of /repo/src/parser."""
import re
nts=set(n.strip('«»') for n in re.findall(r'\| («?\w+»?)',open('/verif/lean/Verif/NT.lean').read()))
out=[];skip=[]
for f in ['mod','expression']:
    src=open(f'/repo/src/parser/{f}.rs').read().split('mod test {')[1]
    for m in re.finditer(r'fn (\w+)\(\) \{\n(.*?)\n    \}\n',src,re.S):
        name,body=m.groups()
        q=re.findall(r'let (\w+) = qp\((\w+), *(r?#?"(?:[^"\\]|\\.)*"#?)\);',body)
        for var,nt,txt in q:
            e=re.findall(r'assert_extent!\(%s, \((\d+), (\d+)\)\)'%var,body)
            if nt in nts and '\\\n' not in txt:
                out.append((nt,txt,e[0] if e else None,name))
            else: skip.append((name,nt,txt))
print(len(out),'skip',len(skip)); [print(s) for s in skip]
def lit(t):
    m=re.match(r'r(#*)"(.*)"\1$',t,re.S)
    if m: return '"'+m.group(2).replace('\\','\\\\').replace('"','\\"')+'"'
    return t
def esc(n): return '«%s»'%n if n=='module' else n
w=open('/verif/lean/Verif/Conformance.lean','w')
w.write('''import Verif.ParseLoop
import Verif.Props.Lex
/-!
# Conformance of the model with the unit tests of the parser

Generated by `tools/mkconf.py` from the tests of `src/parser/mod.rs` and `src/parser/expression.rs`: the extent that a test
expects is the extent the model gives.  These are tests of the model, not proofs.
-/

namespace Verif.Conformance

/-- `qp` of `src/parser/test_utils.rs`, then `HasExtent::extent`. -/
def run (nt : NT) (s : String) : Option Extent :=
  match extractWhitespace Verif.Props.asciiXid true s.toList with
  | .ok _ toks => match eval toks (evalFuel toks) nt .Unambiguous .zero with
    | ⟨.ok _ [v], _, _⟩ => v.extent?.orElse fun _ => some ⟨9999,9999⟩
    | _ => none
  | _ => none
''')
for nt,txt,e,name in out:
    if e: w.write(f'-- {name}\n#guard run .{esc(nt)} {lit(txt)} == some ⟨{e[0]}, {e[1]}⟩\n')
    else: w.write(f'-- {name}\n#guard (run .{esc(nt)} {lit(txt)}).isSome\n')
w.write('\nend Verif.Conformance\n')
