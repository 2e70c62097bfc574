"""A small C preprocessor, enough for the librseq headers.

It reads header text and expands macros; it never runs a compiler.  Supported: object-like and
function-like macros, `#`, `##`, `#include "..."` inside the header tree, `#if`/`#ifdef`/`#elif`/
`#else`/`#endif` with `defined`, integer constants, `== != && || ! ? :`, `#undef`, `#error`.
Angle-bracket includes of system headers are skipped; those of `rseq/...` are followed.
"""
import re, os

TOK = re.compile(r'''
   (?P<ws>\s+)
 | (?P<str>"(?:\\.|[^"\\])*")
 | (?P<chr>'(?:\\.|[^'\\])*')
 | (?P<id>[A-Za-z_]\w*)
 | (?P<num>\.?\d(?:[eEpP][+-]|[\w.])*)
 | (?P<op>\#\#|->|\+\+|--|<<=|>>=|<<|>>|<=|>=|==|!=|&&|\|\||\.\.\.|[-+*/%&|^~!<>=?:;,.(){}\[\]\#@$\\`])
''', re.X)


def tokenize(s):
    out, i = [], 0
    while i < len(s):
        m = TOK.match(s, i)
        if not m:
            raise ValueError('cannot tokenize %r' % s[i:i + 30])
        k = m.lastgroup
        out.append((k, ' ' if k == 'ws' else m.group()))
        i = m.end()
    return out


def strip_comments(s):
    # comments inside strings do not occur in these headers, but be exact anyway
    out, i = [], 0
    while i < len(s):
        c = s[i]
        if c in '"\'':
            j = i + 1
            while s[j] != c:
                j += 2 if s[j] == '\\' else 1
            out.append(s[i:j + 1]); i = j + 1
        elif s.startswith('/*', i):
            j = s.index('*/', i) + 2
            out.append(' ' + '\n' * s.count('\n', i, j)); i = j
        elif s.startswith('//', i):
            j = s.find('\n', i)
            i = len(s) if j < 0 else j
        else:
            out.append(c); i += 1
    return ''.join(out)


class Error(Exception):
    pass


class CPP:
    def __init__(self, root, defines, lines=False):
        self.root = root
        self.m = {}
        self.lines = lines
        for k, v in defines.items():
            self.m[k] = (None, tokenize(v))
        self.out = []

    # ---- macro expansion -------------------------------------------------
    def expand(self, toks, hide=frozenset()):
        toks = [t if len(t) == 3 else (t[0], t[1], hide) for t in toks]
        out = []
        while toks:
            k, s, h = toks.pop(0)
            if k != 'id' or s not in self.m or s in h:
                out.append((k, s, h)); continue
            params, body = self.m[s]
            if params is None:
                new = [(a, b, h | {s}) for a, b in self.subst(body, {}, s)]
                toks = new + toks
                continue
            j = 0
            while j < len(toks) and toks[j][0] == 'ws':
                j += 1
            if j >= len(toks) or toks[j][1] != '(':
                out.append((k, s, h)); continue
            args, depth, cur, j = [], 0, [], j + 1
            while True:
                if j >= len(toks):
                    raise Error('unterminated call of ' + s)
                t = toks[j]
                if t[0] == 'op' and t[1] == '(':
                    depth += 1
                if t[0] == 'op' and t[1] == ')':
                    if depth == 0:
                        break
                    depth -= 1
                if t[0] == 'op' and t[1] == ',' and depth == 0:
                    args.append(cur); cur = []
                else:
                    cur.append(t)
                j += 1
            args.append(cur)
            if params == [] and len(args) == 1 and not [t for t in args[0] if t[0] != 'ws']:
                args = []
            if params and params[-1] == '__VA_ARGS__':
                k = len(params) - 1
                va = []
                for a in args[k:]:
                    va += ([('op', ',', h)] if va else []) + a
                args = args[:k] + [va]
            if len(args) != len(params):
                raise Error('%s: %d arguments for %d parameters' % (s, len(args), len(params)))
            new = [(a, b, h | {s}) for a, b in self.subst(body, dict(zip(params, args)), s)]
            toks = new + toks[j + 1:]
        return out

    @staticmethod
    def trim(ts):
        ts = list(ts)
        while ts and ts[0][0] == 'ws':
            ts.pop(0)
        while ts and ts[-1][0] == 'ws':
            ts.pop()
        return ts

    def subst(self, body, args, name):
        out, i = [], 0
        while i < len(body):
            k, s = body[i][:2]
            if k == 'op' and s == '#' and args:
                j = i + 1
                while body[j][0] == 'ws':
                    j += 1
                a = self.trim(args[body[j][1]])
                txt = ''.join(t[1] for t in a).replace('\\', '\\\\').replace('"', '\\"')
                out.append(('str', '"' + txt + '"')); i = j + 1
                continue
            # GNU `, ## __VA_ARGS__`
            if k == 'op' and s == ',' and '__VA_ARGS__' in args:
                w = [j for j in range(i + 1, len(body)) if body[j][0] != 'ws'][:2]
                if len(w) == 2 and body[w[0]][1] == '##' and body[w[1]][1] == '__VA_ARGS__':
                    va = self.trim(args['__VA_ARGS__'])
                    if va:
                        out += [('op', ',')] + [t[:2] for t in self.expand(list(va))]
                    i = w[1] + 1
                    continue
            # `##`
            j = i + 1
            while j < len(body) and body[j][0] == 'ws':
                j += 1
            if j < len(body) and body[j][1] == '##' and k != 'ws':
                left = self.trim(args[s]) if k == 'id' and s in args else [(k, s)]
                while j < len(body) and body[j][1] == '##':
                    j += 1
                    while body[j][0] == 'ws':
                        j += 1
                    k2, s2 = body[j][:2]
                    right = self.trim(args[s2]) if k2 == 'id' and s2 in args else [(k2, s2)]
                    pasted = (left[-1][1] if left else '') + (right[0][1] if right else '')
                    left = [t[:2] for t in left[:-1]] + tokenize(pasted) + [t[:2] for t in right[1:]]
                    j += 1
                    jj = j
                    while jj < len(body) and body[jj][0] == 'ws':
                        jj += 1
                    if jj < len(body) and body[jj][1] == '##':
                        j = jj
                out += [t[:2] for t in left]; i = j
                continue
            if k == 'id' and s in args:
                out += [t[:2] for t in self.expand(list(args[s]))]
            else:
                out.append((k, s))
            i += 1
        return out

    # ---- directives ------------------------------------------------------
    def cond(self, text):
        text = re.sub(r'defined\s*\(\s*(\w+)\s*\)|defined\s+(\w+)',
                      lambda m: '1' if (m.group(1) or m.group(2)) in self.m else '0', text)
        ts = [t[1] for t in self.expand(tokenize(text)) if t[0] != 'ws']
        py = []
        for t in ts:
            if t == '&&': py.append(' and ')
            elif t == '||': py.append(' or ')
            elif t == '!': py.append(' not ')
            elif re.match(r'[A-Za-z_]', t): py.append('0')
            else: py.append(re.sub(r'[uUlL]+$', '', t))
        e = ''.join(py)
        m = re.match(r'^(.*?)\?(.*):(.*)$', e)
        if m:
            e = '(%s) if (%s) else (%s)' % (m.group(2), m.group(1), m.group(3))
        return bool(eval(e, {'__builtins__': {}}))

    def file(self, path):
        s = open(os.path.join(self.root, path)).read()
        s = re.sub(r'\\\n', '\x01', s)          # keep continuation lines together
        s = strip_comments(s)
        stack, buf = [], []

        def flush():
            if buf:
                self.out += [t[:2] for t in self.expand(tokenize(''.join(buf)))]
                buf.clear()
        for line in s.split('\n'):
            line = line.replace('\x01', ' ')
            m = re.match(r'^\s*#\s*(\w+)\s*(.*?)\s*$', line)
            live = all(x[0] for x in stack)
            if not m:
                if live:
                    buf.append(line + '\n')
                continue
            d, rest = m.group(1), m.group(2)
            if d in ('if', 'ifdef', 'ifndef'):
                if not live:
                    stack.append([False, True]); continue
                if d == 'ifdef': v = rest.split()[0] in self.m
                elif d == 'ifndef': v = rest.split()[0] not in self.m
                else: v = self.cond(rest)
                stack.append([v, v]); continue
            if d == 'elif':
                top = stack[-1]
                if top[1]: top[0] = False
                elif all(x[0] for x in stack[:-1]):
                    top[0] = top[1] = self.cond(rest)
                continue
            if d == 'else':
                top = stack[-1]
                top[0] = not top[1]; top[1] = True
                continue
            if d == 'endif':
                stack.pop(); continue
            if not live:
                continue
            if d in ('define', 'undef', 'include') and not self.open_call(buf):
                flush()
            if d == 'define':
                mm = re.match(r'(\w+)(\(([^)]*)\))?(.*)$', rest, re.S)
                params = None
                if mm.group(2) is not None:
                    params = [p.strip() for p in mm.group(3).split(',')] if mm.group(3).strip() else []
                    if params and params[-1] == '...':
                        params[-1] = '__VA_ARGS__'
                self.m[mm.group(1)] = (params, self.trim(tokenize(mm.group(4))))
            elif d == 'undef':
                self.m.pop(rest.split()[0], None)
            elif d == 'include':
                mm = re.match(r'[<"]([^>"]*)[>"]', rest)
                p = mm.group(1)
                if p.startswith('rseq/') and p != 'rseq/thread-pointer.h':
                    self.file(p)
            elif d == 'error':
                raise Error(path + ': #error ' + rest)
            elif d == 'pragma':
                pass
            else:
                raise Error('directive ' + d)
        if stack:
            raise Error('unbalanced #if in ' + path)
        flush()

    @staticmethod
    def open_call(buf):
        return False
