#!/usr/bin/env python3
"""Generate lean/Verif/Ast.lean from /repo/src/ast.rs (read as text)."""
import re
src = open('/repo/src/ast.rs').read()
s = re.sub(r'//[^\n]*', lambda m: ' ' * len(m.group(0)), src)
line = lambda i: src.count('\n', 0, i) + 1
defs = []
for m in re.finditer(r'((?:#\[[^\]]*\]\s*)*)pub (struct|enum) (\w+)(<\w+>)?\s*\{', s):
    attrs, kind, name, gen = m.groups()
    i = m.end(); d = 1
    while d:
        d += {'{': 1, '}': -1}.get(s[i], 0); i += 1
    body = re.sub(r'\s+', ' ', s[m.end():i - 1]).strip()
    l0 = line(m.start() + m.group(0).index('pub ' + kind)); l1 = line(i - 1)
    defs.append((kind, name, attrs, body, l0, l1))

def split_top(b):
    out = []; d = 0; cur = ''
    for c in b:
        if c in '<([{': d += 1
        if c in '>)]}': d -= 1
        if c == ',' and d == 0:
            out.append(cur.strip()); cur = ''
        else: cur += c
    if cur.strip(): out.append(cur.strip())
    return [x for x in out if x]

structs = [d for d in defs if d[0] == 'struct' and d[1] not in ('File', 'Attributed')]
enums = [d for d in defs if d[0] == 'enum' and d[1] not in ('Whitespace', 'Comment')]
sn = {d[1] for d in structs}; en = {d[1] for d in enums}
attributed = re.findall(r'visit_attributed!\((\w+),', src)
attr_line = line(src.index('pub struct Attributed<T>'))
attr_end = line(src.index('}', src.index('pub struct Attributed<T>')))

def ty(t):
    t = t.strip()
    if t == 'Extent': return '.ext'
    if t == 'bool': return '.bool'
    m = re.fullmatch(r'(\w+)<(.*)>', t)
    if m:
        h, a = m.groups()
        if h == 'Box': return ty(a)
        if h == 'Option': return f'.opt ({ty(a)})'
        if h == 'Vec': return f'.vec ({ty(a)})'
        if h == 'Attributed':
            assert a in attributed, a
            return f'.node .Attributed{a}'
    if t in sn: return f'.node .{t}'
    if t in en: return f'.enm .{t}'
    raise Exception(t)

def fields(body):
    r = []; ws = False; ex = False
    for f in split_top(body):
        ign = '#[visit(ignore)]' in f
        f = re.sub(r'#\[[^\]]*\]', '', f).strip()
        m = re.fullmatch(r'pub (\w+): (.*)', f)
        n, t = m.groups()
        if n == 'extent': assert t == 'Extent'; ex = True; continue
        if n == 'whitespace': assert t == 'Vec<Whitespace>'; ws = True; continue
        r.append((n, ty(t), not ign))
    assert ex
    return r, ws

def variants(body):
    r = []
    for v in split_top(body):
        m = re.fullmatch(r'(\w+)(?:\((.*)\))?', v)
        n, a = m.groups()
        r.append((n, [ty(x) for x in split_top(a)] if a else []))
    return r

def wrap(items, width=108, ind='  '):
    out = []; cur = ind
    for it in items:
        if len(cur) + len(it) + 3 > width: out.append(cur.rstrip()); cur = ind
        cur += '| ' + it + ' '
    out.append(cur.rstrip())
    return '\n'.join(out)

o = []
w = o.append
w('''import Verif.Tok
/-!
# The syntax tree

Generated by `tools/mkast.py` from `src/ast.rs`.  Every struct of `ast.rs` with an `extent` field is a node kind
(`K`), every enum is an `En` whose variants are `Tag`s.  Values of the tree are `V`.
-/

namespace Verif

/-- The node kinds: the structs of `src/ast.rs` (lines given at `K.fields`) and, for the generic struct
`Attributed<T>` (`src/ast.rs` %d-%d), one kind for each of the eleven `T` it is visited with (1341-1351). -/
inductive K''' % (attr_line, attr_end))
kinds = [d[1] for d in structs] + ['Attributed' + a for a in attributed]
w(wrap(kinds)); w('deriving DecidableEq, Repr, Inhabited\n')
w('/-- The enums of `src/ast.rs` (lines given at `Tag.payload`). -/\ninductive En')
w(wrap([d[1] for d in enums])); w('deriving DecidableEq, Repr, Inhabited\n')
tags = [(d[1], v, p) for d in enums for v, p in variants(d[3])]
w('/-- The variants of the enums of `src/ast.rs`, named `Enum_Variant`. -/\ninductive Tag')
w(wrap([f'{e}_{v}' for e, v, _ in tags])); w('deriving DecidableEq, Repr, Inhabited\n')
w('''/-- The types of fields.  `Box<T>` is transparent. -/
inductive Ty
  | ext | bool | node (k : K) | enm (n : En) | opt (t : Ty) | vec (t : Ty)
deriving DecidableEq, Repr, Inhabited

/-- A field of a struct: name, type, and whether derived visitors go into it (no `#[visit(ignore)]`). -/
structure Fld where
  name : String
  ty : Ty
  visited : Bool := true
deriving DecidableEq, Repr, Inhabited

/-- The fields of each struct in declaration order, without `extent` and `whitespace`. -/
def K.fields : K → List Fld''')
for kind, name, attrs, body, l0, l1 in structs:
    fs, ws = fields(body)
    w(f'  -- `src/ast.rs` {l0}-{l1}')
    w(f'  | .{name} => [' + ', '.join('⟨"%s", %s%s⟩' % (n, t, ', true' if v else ', false') for n, t, v in fs) + ']')
for a in attributed:
    t = f'.node .{a}' if a in sn else f'.enm .{a}'
    w(f'  -- `src/ast.rs` {attr_line}-{attr_end}')
    w(f'  | .Attributed{a} => [⟨"attributes", .vec (.enm .Attribute), true⟩, ⟨"value", {t}, true⟩]')
w('')
w('/-- Does the struct have a field `whitespace: Vec<Whitespace>`?  The structs without one are listed. -/')
w('def K.hasWs : K → Bool')
nows = [d[1] for d in structs if not fields(d[3])[1]]
w('\n'.join(f'  | .{n}' for n in nows) + ' => false\n  | _ => true\n')
w('/-- The enum a variant belongs to. -/\ndef Tag.en : Tag → En')
for d in enums:
    w('  ' + ' '.join(f'| .{d[1]}_{v}' for v, _ in variants(d[3])) + f' => .{d[1]}')
w('')
w('/-- The payload types of each variant. -/\ndef Tag.payload : Tag → List Ty')
for d in enums:
    w(f'  -- `src/ast.rs` {d[4]}-{d[5]}')
    for v, p in variants(d[3]):
        w(f'  | .{d[1]}_{v} => [' + ', '.join(p) + ']')
w('')
w('/-- All node kinds. -/\ndef K.all : List K := [')
w(',\n'.join('  ' + ', '.join('.' + k for k in kinds[i:i + 6]) for i in range(0, len(kinds), 6)) + ']\n')
w('theorem K.mem_all (k : K) : k ∈ K.all := by cases k <;> decide\n')
w('''/-- `src/ast.rs` 80-93, `Whitespace` and `Comment`: a piece of trivia. -/
inductive Ws
  | whitespace (e : Extent)
  | commentLine (e : Extent)
  | commentBlock (e : Extent)
deriving DecidableEq, Repr, Inhabited

/-- `HasExtent for Whitespace`. -/
def Ws.extent : Ws → Extent
  | .whitespace e | .commentLine e | .commentBlock e => e

/-- A value of the tree.
* `ext`: a field of type `Extent`;
* `bool`: a field of type `bool`;
* `list`: a `Vec`, or an `Option` (of length 0 or 1);
* `enm`: an enum variant with its payload;
* `node`: a struct, with its `extent`, its `whitespace` (empty for structs without that field) and its other fields in
  declaration order. -/
inductive V
  | ext (e : Extent)
  | bool (b : Bool)
  | list (vs : List V)
  | enm (t : Tag) (vs : List V)
  | node (k : K) (e : Extent) (ws : List Ws) (vs : List V)
deriving Repr, Inhabited

/-- `HasExtent::extent`: a struct has its own extent, an enum that of its payload. -/
def V.extent? : V → Option Extent
  | .ext e => some e
  | .node _ e _ _ => some e
  | .enm _ (v :: _) => v.extent?
  | _ => none

end Verif''')
wl = [line(src.index('pub enum Whitespace')), 0]
i = src.index('pub enum Comment'); wl[1] = line(src.index('}', i))
txt = '\n'.join(o) + '\n'
txt = txt.replace('`src/ast.rs` 80-93', '`src/ast.rs` %d-%d' % tuple(wl))
vl = [line(m.start()) for m in re.finditer(r'^visit_attributed!', src, re.M)]
txt = txt.replace('(1341-1351)', '(%d-%d)' % (vl[0], vl[-1]))
open('/verif/lean/Verif/Ast.lean', 'w').write(txt)
print(len(kinds), len(enums), len(tags))
