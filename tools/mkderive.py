#!/usr/bin/env python3
"""Generate lean/Verif/Derive.lean: what is derived for the types of /repo/src/ast.rs (read as text)."""
import re
src = open('/repo/src/ast.rs').read()
line = lambda i: src.count('\n', 0, i) + 1
s = re.sub(r'//[^\n]*', lambda m: ' ' * len(m.group(0)), src)
info = {}
for m in re.finditer(r'((?:#\[[^\]]*\]\s*)*)pub (struct|enum) (\w+)(<\w+>)?\s*\{', s):
    attrs, kind, name, gen = m.groups()
    d = re.findall(r'derive\(([^)]*)\)', attrs)
    i = m.end(); dep = 1
    while dep:
        dep += {'{': 1, '}': -1}.get(s[i], 0); i += 1
    body = s[m.end():i - 1]
    info[name] = (kind, {x.strip() for y in d for x in y.split(',')}, body, line(m.start() + m.group(0).index('pub ' + kind)))
enums = [n for n, v in info.items() if v[0] == 'enum' and n not in ('Whitespace', 'Comment')]
structs = [n for n, v in info.items() if v[0] == 'struct' and n not in ('File', 'Attributed')]
variants = {n: re.findall(r'(\w+)\s*(?:\([^,]*\))?\s*,?', re.sub(r'\(.*?\)', '', info[n][2])) for n in enums}
assert all('HasExtent' in info[n][1] and 'ExtentIndex' in info[n][1] for n in structs)
def sel(d): return [n for n in enums if d in info[n][1]]
assert sel('HasExtent') == sel('ExtentIndex')
o = []
w = o.append
w('''import Verif.Ast
/-!
# What is derived for the types of the tree

The lists are generated by `tools/mkderive.py` from `src/ast.rs`; the code that is derived is that of the derive crate.
-/

namespace Verif

/-- `#[derive(HasExtent, ExtentIndex)]` on the enums of `src/ast.rs`; the two always come together.  All structs derive both,
except for `Attributed`, which has the method `extent` (1305-1309) but no `ExtentIndex`. -/
def En.hasExtent : En → Bool''')
no = [n for n in enums if n not in sel('HasExtent')]
w('  ' + ' '.join(f'| .{n}' for n in no) + ' => false')
w('  | _ => true\n')
w('/-- `#[derive(Decompose)]` on the enums of `src/ast.rs`. -/\ndef En.decompose : En → Bool')
no = [n for n in enums if n not in sel('Decompose')]
w('  ' + ' '.join(f'| .{n}' for n in no) + ' => false')
w('  | _ => true\n')
w('/-- The variants of the enums of `src/ast.rs`, in the order of declaration. -/\ndef En.variants : En → List Tag')
for n in enums:
    w(f'  -- `src/ast.rs` {info[n][3]}')
    w(f'  | .{n} => [' + ', '.join(f'.{n}_{v}' for v in variants[n]) + ']')
w('')
w('/-- The names of the variants. -/\ndef Tag.name : Tag → Text')
for n in enums:
    for v in variants[n]: w(f'  | .{n}_{v} => c!"{v}"')
w('''
/-- `fuzzy-pickles-derive/src/lib.rs` 34-47, `camelcase_to_snake_case`.  Simplified: lower and upper case are those of ASCII, as all
names in `src/ast.rs` are. -/
def snakeCase (name : Text) : Text := name.flatMap fun c => if c.isLower then [c] else ['_', c.toLower]

/-- The name of a generated method (`fuzzy-pickles-derive/src/lib.rs` 205, 219, 233). -/
def Tag.method (t : Tag) (stem : Text) : Text := stem ++ snakeCase t.name

/-- Which variant a method of an enum is about: `impl_decompose` generates one method with each stem for each variant
(`fuzzy-pickles-derive/src/lib.rs` 173-255); `none` if there is no method of that name. -/
def En.lookup (n : En) (stem name : Text) : Option Tag :=
  if n.decompose then n.variants.find? fun t => t.method stem == name else none

/-- Calling a method `is_…` (`fuzzy-pickles-derive/src/lib.rs` 231-242); `none` if there is no such method. -/
def V.callIs (name : Text) : V → Option Bool
  | .enm t _ => (t.en.lookup c!"is" name).map fun u => t == u
  | _ => none

/-- Calling a method `as_…` or `into_…` (`fuzzy-pickles-derive/src/lib.rs` 203-229): the two differ only in taking a reference. -/
def V.callGet (stem name : Text) : V → Option (Option V)
  | .enm t vs => (t.en.lookup stem name).map fun u => if t == u then vs.head? else none
  | _ => none

/-- Whether a type has `HasExtent`: derived, or `src/lib.rs` 197-211, or `src/ast.rs` 1305-1309. -/
def Ty.hasExtent : Ty → Bool
  | .ext => true
  | .node _ => true
  | .enm n => n.hasExtent
  | .bool | .opt _ | .vec _ => false

/-- Indexing a text with a value of the tree (`fuzzy-pickles-derive/src/lib.rs` 299-322, `src/lib.rs` 178-194); `none` is a panic.  For
`Attributed` this is indexing with `extent()`. -/
def V.index (text : Text) (v : V) : Option Text := v.extent?.bind (sliceText text)

end Verif''')
open('lean/Verif/Derive.lean', 'w').write('\n'.join(o) + '\n')
