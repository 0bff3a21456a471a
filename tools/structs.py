#!/usr/bin/env python3
"""Read the PKCS#11 structure wrappers in /repo and write lean/Verif/Crypto/StructTable.lean."""
import glob, os, re

R = '/repo/'
OASIS = R + 'include/FlameIDE/Crypto/Oasis/'


def strip(t):
    return re.sub(r'//[^\n]*', '', re.sub(r'/\*.*?\*/', lambda m: '\n' * m.group(0).count('\n'), t, flags=re.S))


t = strip(open(OASIS + 'pkcs11t.h').read())
structs = {}
for m in re.finditer(r'struct\s+(\w+)\s*\{(.*?)\}\s*(\w*)', t, re.S):
    fs = [re.sub(r'\[.*\]', '', x.strip().split()[-1]).lstrip('*') for x in m.group(2).split(';') if x.strip()]
    structs[m.group(1)] = fs
    if m.group(3):
        structs[m.group(3)] = fs
for m in re.finditer(r'typedef\s+(?:struct\s+)?(\w+)\s+(\w+)\s*;', t):
    if m.group(1) in structs and m.group(2) not in structs:
        structs[m.group(2)] = structs[m.group(1)]
f = strip(open(OASIS + 'pkcs11f.h').read())
old, new = f.split('#ifndef CK_PKCS11_2_0_ONLY', 1)
g = lambda s: re.findall(r'CK_PKCS11_FUNCTION_INFO\((\w+)\)', s)
structs['CK_FUNCTION_LIST'] = ['version'] + g(old)
structs['CK_FUNCTION_LIST_3_0'] = ['version'] + g(old) + g(new)


def functions(s):
    """(qualified name, parameters, initialiser, body, line) of every member function defined in s"""
    i = 0
    out = []
    pat = re.compile(r'(\w+)::(operator=|\w+)\s*\(')
    while True:
        m = pat.search(s, i)
        if not m:
            return out
        d = 0
        j = m.end() - 1
        while True:
            d += {'(': 1, ')': -1}.get(s[j], 0)
            if d == 0:
                break
            j += 1
        args = s[m.end():j]
        k = j + 1
        # initialiser list: balanced (...) and name{...} until the body
        d = 0
        while not (d == 0 and s[k] in '{;' and not re.search(r'[:,]\s*\w+\s*$', s[j + 1:k])):
            d += {'(': 1, ')': -1, '{': 1, '}': -1}.get(s[k], 0)
            k += 1
        if s[k] == ';':
            i = k
            continue
        init = ' '.join(s[j + 1:k].split())
        d = 0
        e = k
        while True:
            d += {'{': 1, '}': -1}.get(s[e], 0)
            if d == 0:
                break
            e += 1
        out.append((m.group(1), m.group(2), ' '.join(args.split()), init, s[k + 1:e], s[:m.start()].count('\n') + 1))
        i = e


def assigns(body):
    al = re.findall(r'(?:this->)?(\w+)\s*=\s*(?:\w+\.)?(\w+)\s*;', body)
    al += re.findall(r'\bcopy\(\s*(?:this->)?(\w+)\s*,\s*(?:\w+\.)?(\w+)\s*\)', body)
    # in order of appearance
    pos = lambda p: min(body.find(x) for x in (p[0] + ' = ', 'copy(this->' + p[0], 'copy(' + p[0]) if body.find(x) >= 0)
    return sorted(al, key=pos)


recs = []
for path in sorted(glob.glob(R + 'src/Crypto/Pkcs11/Types/Structs/*.cpp')):
    name = os.path.basename(path)[:-4]
    h = open(R + 'include/FlameIDE/Crypto/Pkcs11/Types/Structs/%s.hpp' % name).read()
    par = re.search(r'WithParent<\s*:*(\w+)', h).group(1)
    fields = structs[par]
    ix = {x: n for n, x in enumerate(fields)}
    fns = functions(strip(open(path).read()))
    zero = assign = ctor = params = None
    copies = set()
    for cls, fn, args, init, body, line in fns:
        b = ' '.join(body.split())
        if fn == 'operator=' and 'Parent' in args:
            assert 'return *this' in b, (name, b)
            assign = [(ix[x], ix[y]) for x, y in assigns(body)]
            aline = line
        elif fn == 'operator=':
            assert re.fullmatch(r'return operator=\(static_cast<const Parent ?&?>\(\w+\)\);', b), (name, b)
        elif not args:
            assert not b or 'operator=' not in b
            zero = 'Parent{' in init
            if b:
                print('default constructor with body:', name, b)
        elif 'decltype' in args:
            ps = re.findall(r'decltype\s*\(Parent::(\w+)\)\s*&?\s*(\w+)', args)
            if len(ps) != args.count('decltype'):
                print('?', name, args)
            n = len(re.split(r',', args))
            plist = [re.search(r'(\w+)$', x.strip()).group(1) for x in args.split(',')]
            decl = dict((q, p) for p, q in ps)
            params = [ix[decl[q]] if q in decl else None for q in plist]
            ctor = [(ix[x], plist.index(y)) for x, y in assigns(body)]
            if None in params:
                print('parameter without decltype:', name, plist[params.index(None)])
        else:
            assert re.fullmatch(r'operator=\(\w+\);', b) or (not b and re.search(r'\(static_cast<const Parent ?&>\(\w+\)\)', init)), (name, args, init, b)
    recs.append((name, path[len(R):], fields, assign, ctor, params, zero, aline))

soft = {}
cb = strip(open(R + 'src/Crypto/SoftPkcs11/Callbacks.cpp').read())
for n, key in (('FunctionList', 'createFunctionList()'), ('FunctionList3', 'createFunctionList3()')):
    body = cb[cb.index(key):]
    body = body[:body.index('return functionList')]
    soft[n] = re.findall(r'\bC_\w+', body)

if __name__ == '__main__':
    o = ['import Verif.Crypto.Structs', '', '/-!', '# The PKCS#11 structures — src/Crypto/Pkcs11/Types/Structs/*.cpp', '',
         'One record per file, read off the source (`tools/structs.py`): the members in order of declaration (Oasis/pkcs11t.h, pkcs11f.h), the assignments of',
         '`operator=(const Parent &)` in order as pairs of member numbers (target, source), the members the parameters of the value constructor are declared',
         'for, its assignments (member, parameter), and whether the default constructor sets the members (`Parent{}`).  All copy constructors, the constructors',
         'from `Parent` and `operator=(const Self &)` call `operator=(const Parent &)`.  The line cited is that of `operator=(const Parent &)`.', '-/', '',
         'namespace Flame.Structs', '']
    lst = lambda l: '[' + ', '.join(l) + ']'
    for name, path, fields, assign, ctor, params, zero, line in recs:
        o.append('/-- %s %d -/' % (path, line))
        o.append('def s%s : Rec :=' % name)
        o.append('  { name := "%s"' % name)
        o.append('    fields := %s' % lst('"%s"' % x for x in fields))
        o.append('    assigns := %s' % lst('(%d, %d)' % p for p in assign))
        o.append('    params := %s' % lst(str(p) for p in params))
        o.append('    ctor := %s' % lst('(%d, %d)' % p for p in ctor))
        o.append('    zeroed := %s }' % ('true' if zero else 'false'))
        o.append('')
    o.append('/-- All of them. -/')
    o.append('def table : List Rec :=\n  [' + ',\n   '.join('s' + r[0] for r in recs) + ']')
    o.append('')
    for n, name in (('FunctionList', 'softFunctions'), ('FunctionList3', 'softFunctions3')):
        o.append('/-- src/Crypto/SoftPkcs11/Callbacks.cpp, `create%s`: the functions handed to the constructor, after the version. -/' % n)
        o.append('def %s : List String :=\n  %s' % (name, lst('"%s"' % x for x in soft[n])))
        o.append('')
    o.append('end Flame.Structs')
    open('/verif/lean/Verif/Crypto/StructTable.lean', 'w').write('\n'.join(o) + '\n')
    print(len(recs), 'structures')
