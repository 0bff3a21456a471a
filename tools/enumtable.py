#!/usr/bin/env python3
"""Generate lean/Verif/Crypto/EnumTable.lean from Crypto/Pkcs11/Types/Enums.hpp and Crypto/Oasis/pkcs11t.h."""
import re, os
R = '/repo/include/FlameIDE/Crypto/'
mac = {}
for l in open(R + 'Oasis/pkcs11t.h'):
    m = re.match(r'#define\s+(C\w+)\s+(.*?)\s*(/\*.*)?$', l)
    if m:
        assert mac.setdefault(m.group(1), m.group(2)) == m.group(2), m.group(1)
def val(e):
    e = re.sub(r'\b(0x[0-9A-Fa-f]+|\d+)[UuLl]+', r'\1', e.strip())
    e = re.sub(r'\bC[A-Z]+_\w+', lambda m: '(%d)' % val(mac[m.group(0)]) if m.group(0) in mac else m.group(0), e)
    e = re.sub(r'\(CK_\w+\)', '', e).replace('~(0)', '(2**64-1)').replace('~0', '(2**64-1)')
    return eval(e)
src = open(R + 'Pkcs11/Types/Enums.hpp').read()
code = re.sub(r'//.*', '', src)
out = ['/-!', '# The enumerations of include/FlameIDE/Crypto/Pkcs11/Types/Enums.hpp', '',
       'Generated by tools/enumtable.py; the values are those of include/FlameIDE/Crypto/Oasis/pkcs11t.h.', '-/', '',
       'namespace Flame.PkEnum', '',
       '/-- One enumeration: its name, the bits of its underlying type (LP64), whether FLAG_OPERATORS (Enums.hpp 54-56) is applied to it,',
       'and its enumerators with their values. -/',
       'structure EnumDef where', '  name : String', '  bits : Nat', '  flags : Bool', '  values : List (String × Nat)', '']
names = []
for m in re.finditer(r'enum\s+(class\s+)?(\w+)\s*:\s*([\w:]+)\s*\{(.*?)\};', code, re.S):
    name, under = m.group(2), m.group(3).split('::')[-1]
    line = code[:m.start()].count('\n') + 1
    last = code[:m.end()].count('\n') + 1
    flag = bool(re.search(r'FLAG_OPERATORS\(%s\)' % name, code))
    items, prev = [], -1
    for it in m.group(4).split(','):
        it = it.strip()
        if not it: continue
        k, v = [x.strip() for x in it.split('=')] if '=' in it else (it, None)
        prev = val(v) if v is not None else prev + 1
        items.append((k, prev))
    n = 'e' + name
    names.append(n)
    out.append('/-- Enums.hpp %d-%d -/' % (line, last))
    out.append('def %s : EnumDef := ⟨"%s", %d, %s, [' % (n, name, 8 if under in ('Byte', 'Bool') else 64, 'true' if flag else 'false'))
    for i in range(0, len(items), 4):
        out.append('  ' + ', '.join('("%s", 0x%x)' % x for x in items[i:i + 4]) + (',' if i + 4 < len(items) else ']⟩'))
    out.append('')
out.append('def table : List EnumDef := [')
for i in range(0, len(names), 6):
    out.append('  ' + ', '.join(names[i:i + 6]) + (',' if i + 6 < len(names) else ']'))
out += ['', 'end Flame.PkEnum', '']
open(os.path.join(os.path.dirname(os.path.abspath(__file__)), '../lean/Verif/Crypto/EnumTable.lean'), 'w').write('\n'.join(out))
