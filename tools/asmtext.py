"""Expand the librseq headers for one architecture and extract every `asm goto` helper."""
import re, sys, os, tempfile
sys.path.insert(0, os.path.dirname(os.path.abspath(__file__)))
from cpp import CPP

COMMON = {'__GNUC__': '12', '__STDC_VERSION__': '201112L'}
TARGETS = {
    'x86_64': {'__x86_64__': '1', '__SIZEOF_LONG__': '8', '_LP64': '1'},
    'i386': {'__i386__': '1', '__SIZEOF_LONG__': '4'},
    'aarch64': {'__aarch64__': '1', '__SIZEOF_LONG__': '8', '_LP64': '1', '__AARCH64EL__': '1'},
    'riscv': {'__riscv': '1', '__riscv_xlen': '64', '__SIZEOF_LONG__': '8', '_LP64': '1',
              '__BYTE_ORDER': '1234', '__LITTLE_ENDIAN': '1234', '__BIG_ENDIAN': '4321'},
    'riscv32': {'__riscv': '1', '__riscv_xlen': '32', '__SIZEOF_LONG__': '4',
                '__BYTE_ORDER': '1234', '__LITTLE_ENDIAN': '1234', '__BIG_ENDIAN': '4321'},
    'ppc': {'__powerpc64__': '1', '__powerpc__': '1', '__SIZEOF_LONG__': '8', '_LP64': '1'},
    'ppc32': {'__powerpc__': '1', '__SIZEOF_LONG__': '4'},
    's390': {'__s390__': '1', '__s390x__': '1', '__SIZEOF_LONG__': '8', '_LP64': '1'},
    's390_31': {'__s390__': '1', '__SIZEOF_LONG__': '4'},
    'mips': {'__mips__': '1', '__SIZEOF_LONG__': '8', '_LP64': '1',
             '__BYTE_ORDER': '4321', '__LITTLE_ENDIAN': '1234', '__BIG_ENDIAN': '4321'},
    'mips32': {'__mips__': '1', '__SIZEOF_LONG__': '4',
               '__BYTE_ORDER': '1234', '__LITTLE_ENDIAN': '1234', '__BIG_ENDIAN': '4321'},
    'loongarch': {'__loongarch__': '1', '__loongarch_lp64': '1', '__SIZEOF_LONG__': '8', '_LP64': '1'},
    'arm': {'__arm__': '1', '__SIZEOF_LONG__': '4', '__ARM_ARCH': '7'},
}


def unquote(s):
    s = s[1:-1]
    return re.sub(r'\\(.)', lambda m: {'n': '\n', 't': '\t'}.get(m.group(1), m.group(1)), s)


def match(ts, i, o, c):
    d = 0
    for j in range(i, len(ts)):
        if ts[j] == ('op', o): d += 1
        if ts[j] == ('op', c):
            d -= 1
            if d == 0:
                return j
    raise ValueError('unbalanced')


def split(ts, sep):
    out, cur, d = [], [], 0
    for t in ts:
        if t[0] == 'op' and t[1] in '([{': d += 1
        if t[0] == 'op' and t[1] in ')]}': d -= 1
        if t == ('op', sep) and d == 0:
            out.append(cur); cur = []
        else:
            cur.append(t)
    out.append(cur)
    return out


class Helper:
    pass


INJECT = {'arm': {'__ARMEL__': '1'}, 'ppc': {'__PPC__': '1'}, 'ppc32': {'__PPC__': '1'}}


def inject_macros(path):
    """The part of param_test.c that defines the injection macros of each target."""
    s = open(path).read()
    b = s.index('#ifdef __i386__')
    return s[b:s.index('#define RSEQ_INJECT_FAILED')]


def helpers(target, extra=None, root='/repo/include', inject=None):
    p = CPP(root, dict(COMMON, **TARGETS[target], **(extra or {})))
    if inject:
        for k, v in INJECT.get(target, {}).items():
            p.m[k] = (None, [('num', v)])
        with tempfile.NamedTemporaryFile('w', suffix='.h') as f:
            f.write(inject_macros(inject))
            f.flush()
            p.file(f.name)
        p.out = []
    p.file('rseq/rseq.h')
    ts = [t for t in p.out if t[0] != 'ws']
    res, i = {}, 0
    while i < len(ts):
        if ts[i][1] == '__asm__' and any(t[1] == 'goto' for t in ts[i:i + 3]):
            # enclosing function: walk back to the `{` at depth 0
            d, b = 0, i
            while True:
                b -= 1
                if ts[b] == ('op', '}'): d += 1
                if ts[b] == ('op', '{'):
                    if d == 0: break
                    d -= 1
            e = match(ts, b, '{', '}')
            # header  name ( params ) {
            d, q = 0, b - 1
            assert ts[q] == ('op', ')')
            while True:
                if ts[q] == ('op', ')'): d += 1
                if ts[q] == ('op', '('):
                    d -= 1
                    if d == 0: break
                q -= 1
            h = Helper()
            h.name = ts[q - 1][1]
            h.params = []
            for par in split(ts[q + 1:b - 1], ','):
                h.params.append((par[-1][1], ' '.join(t[1] for t in par[:-1])))
            a = i
            while ts[a] != ('op', '('): a += 1
            z = match(ts, a, '(', ')')
            parts = split(ts[a + 1:z], ':')
            assert len(parts) == 5, (h.name, len(parts))
            assert all(t[0] == 'str' for t in parts[0]), [t for t in parts[0] if t[0] != 'str']
            h.text = ''.join(unquote(t[1]) for t in parts[0])
            assert parts[1] == [], 'outputs'
            h.inputs = {}
            for k in split(parts[2], ','):
                # [ name ] "constraint" ( expr )
                assert k[0] == ('op', '[') and k[2] == ('op', ']') and k[3][0] == 'str'
                assert k[4] == ('op', '(') and k[-1] == ('op', ')')
                assert k[1][1] not in h.inputs
                h.inputs[k[1][1]] = (unquote(k[3][1]), ''.join(t[1] for t in k[5:-1]))
            h.clob = [unquote(k[0][1]) for k in split(parts[3], ',')]
            h.labels = [k[0][1] for k in split(parts[4], ',')]
            pre = ts[b + 1:i]
            h.pre = ' '.join(t[1] for t in pre)
            # what follows the asm: statements, split at labels
            post, cur, lab = {}, [], ''
            j = z + 2
            while j < e:
                if ts[j][0] == 'id' and ts[j + 1] == ('op', ':'):
                    post[lab] = cur; lab, cur = ts[j][1], []; j += 2
                else:
                    cur.append(ts[j][1]); j += 1
            post[lab] = cur
            h.post = post
            assert h.name not in res, h.name
            res[h.name] = h
            i = e
        i += 1
    return res


if __name__ == '__main__':
    for t in sys.argv[1:] or TARGETS:
        r = helpers(t)
        for n, h in r.items():
            print('=====', t, n, h.params)
            print(h.pre)
            print(h.text.expandtabs(2))
            for k, v in h.inputs.items(): print('   ', k, v)
            print(h.clob, h.labels)
            for k, v in h.post.items(): print('  ', k or '(fall)', ' '.join(v))
