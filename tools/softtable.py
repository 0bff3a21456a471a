#!/usr/bin/env python3
"""Generate lean/Verif/Crypto/SoftTable.lean from /repo/src/Crypto/SoftPkcs11 (Interface, Callbacks.hpp, Functions)."""
import re, glob, os
R = '/repo/src/Crypto/SoftPkcs11/'
def strip(t):
    t = re.sub(r'/\*.*?\*/', lambda m: '\n' * m.group(0).count('\n'), t, flags=re.S)
    return re.sub(r'//[^\n]*', '', t)
def params(s):
    s = s.strip()
    return [] if s in ('', 'void') else [re.split(r'[\s\*&]+', p.strip())[-1] for p in s.split(',')]
rows = []
for f in sorted(glob.glob(R + 'Interface/*.cpp')):
    t = strip(open(f).read())
    for m in re.finditer(r'CK_RV\s+(C_\w+)\s*\(([^)]*)\)\s*(?:noexcept)?\s*\{(.*?)\n\}', t, re.S):
        ps = params(m.group(2))
        body = re.sub(r'\s+', '', m.group(3))
        c = re.fullmatch(r'return(?:::)?flame_ide::soft_pkcs11::GlobalContext::get\(\)\.callbacks\(\)\.([\w.]+)\(([\w,]*)\);', body)
        if not c: raise SystemExit(('NOFWD', m.group(1), body))
        args = [a for a in c.group(2).split(',') if a]
        line = t[:m.start()].count('\n') + 1
        rows.append((m.group(1), len(ps), c.group(1), [ps.index(a) for a in args], os.path.basename(f), line))
# callbacks
t = strip(open(R + 'Callbacks.hpp').read())
structs = {}
for m in re.finditer(r'struct (\w+)\s*\{(.*?)\n\};', t, re.S):
    structs[m.group(1)] = re.findall(r'const\s+flame_ide::pkcs11::callbacks::\w+\s+(\w+)\s*=\s*(?:flame_ide::soft_pkcs11::)?functions::([\w:]+);', m.group(2))
agg = re.search(r'struct CallbackAggregator\s*\{(.*)\n\};', t, re.S).group(1)
inner = re.search(r'struct\s*\{(.*?)\}\s*message;', agg, re.S)
outer = agg.replace(inner.group(0), '')
binds = []
for prefix, text in (('', outer), ('message.', inner.group(1))):
    for ty, mem in re.findall(r'(\w+)\s+(\w+);', text):
        for fld, fn in structs.get(ty, []):
            binds.append((prefix + mem + '.' + fld, fn))
# functions
fns = []
for f in sorted(glob.glob(R + 'Functions/*.cpp')):
    t = strip(open(f).read())
    ns = re.search(r'\{namespace functions\s*\{namespace (\w+)', t).group(1)
    for m in re.finditer(r'ReturnType\s+(\w+)\s*\(([^)]*)\)\s*(?:noexcept)?\s*\{(.*?)\n\}', t, re.S):
        ps = params(m.group(2))
        body = m.group(3)
        rest = re.sub(r'\s+', '', body)
        rest = re.sub(r'(?:flame_ide::)?unused\((\w+)\);', '', rest)
        pre = t[:m.start()]
        full = ns + '::' + m.group(1)
        r = pre.rfind('namespace recover')
        if r >= 0 and pre[r:].count('{') > pre[r:].count('}'):
            full = ns + '::recover::' + m.group(1)
        stub = rest in ('returnpkcs11::enums::value(pkcs11::enums::ReturnType::OK);', 'returnflame_ide::pkcs11::enums::value(flame_ide::pkcs11::enums::ReturnType::OK);')
        fns.append((full, len(ps), stub, os.path.basename(f), t[:m.start()].count('\n') + 1))
def q(x): return '"' + x + '"'
out = ['import Verif.Basic', '', '/-!', "# The soft token's tables: exported functions, callbacks, implementations (src/Crypto/SoftPkcs11)", '',
  'Generated by tools/softtable.py, which stops if the body of an exported function is anything but one call through',
  '`GlobalContext::get().callbacks()`.', '-/', '', 'namespace Flame.SoftTable', '',
  '/-- An exported function: number of parameters, the callback it calls and the parameter passed in each position. -/',
  'structure Row where', '  name : String', '  arity : Nat', '  callback : String', '  args : List Nat', '',
  '/-- An implementation: `stub` if its body is `unused(…)` for parameters and `return OK`. -/',
  'structure Fn where', '  name : String', '  arity : Nat', '  stub : Bool', '',
  '/-- src/Crypto/SoftPkcs11/Interface/*.cpp -/', 'def interface : List Row := [']
for i, r in enumerate(rows):
    out.append(f"  -- {r[4]} {r[5]}\n  ⟨{q(r[0])}, {r[1]}, {q(r[2])}, {r[3]}⟩" + (',' if i + 1 < len(rows) else ']'))
out += ['', '/-- Callbacks.hpp 22-293: what each member of `CallbackAggregator` is initialised with. -/', 'def bindings : List (String × String) := [']
out.append(',\n'.join(f"  ({q(k)}, {q(v)})" for k, v in binds) + ']')
out += ['', '/-- src/Crypto/SoftPkcs11/Functions/*.cpp -/', 'def functions : List Fn := [']
for i, x in enumerate(fns):
    out.append(f"  -- {x[3]} {x[4]}\n  ⟨{q(x[0])}, {x[1]}, {'true' if x[2] else 'false'}⟩" + (',' if i + 1 < len(fns) else ']'))
out += ['', 'end Flame.SoftTable', '']
if __name__ == '__main__':
    open('/verif/lean/Verif/Crypto/SoftTable.lean', 'w').write('\n'.join(out))
    print(len(rows), len(binds), len(fns), sum(x[2] for x in fns))
