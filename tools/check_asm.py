#!/usr/bin/env python3
"""Compare lean/Verif/RseqArch.lean (and RseqTwice.lean) with the assembly of the librseq headers.

usage: check_asm.py [repo] [verif]

For every architecture the headers are expanded as text (cpp.py, no compiler), every `asm goto` helper is
cut out, its assembly is read line by line and translated into the `Instr` constructors of the model; the
result is compared with the `code`, `start`, `chk`, `commit`, `abort`, `ne` and `clobbers` of the Lean
definition.  The numeric labels are resolved as the assembler does, so jump targets are recomputed, not
copied.  The 32-bit variants of riscv, ppc, s390 and mips must give the same programs as the 64-bit ones,
the `mm_cid` variants the same programs as the `cpu_id` ones (with the other field).  With
RSEQ_COMPARE_TWICE the result is compared with the block insertion of RseqTwice.lean.  Both are repeated
with the injection macros of tests/param_test.c and compared with RseqInject.lean.
"""
import re, sys, os, subprocess, tempfile
sys.path.insert(0, os.path.dirname(os.path.abspath(__file__)))
from asmtext import helpers

REPO = sys.argv[1] if len(sys.argv) > 1 else '/repo'
VERIF = sys.argv[2] if len(sys.argv) > 2 else os.path.dirname(os.path.dirname(os.path.abspath(__file__)))

KIND = {'rseq_load_cbne_store__ptr': 'cbneStore',
        'rseq_load_cbeq_store_add_load_store__ptr': 'cbeqStoreAddLoadStore',
        'rseq_load_add_store__ptr': 'addStore',
        'rseq_load_add_load_load_add_store__ptr': 'addLoadLoadAddStore',
        'rseq_load_cbne_store_store__ptr': 'cbneStoreStore',
        'rseq_load_cbne_load_cbne_store__ptr': 'cbneCbneStore',
        'rseq_load_cbne_memcpy_store__ptr': 'cbneMemcpyStore'}
# target -> (architecture of the model, word size in bytes)
ARCH = {'x86_64': ('x86_64', 8), 'i386': ('i386', 4), 'aarch64': ('aarch64', 8), 'riscv': ('riscv', 8),
        'riscv32': ('riscv', 4), 'ppc': ('ppc', 8), 'ppc32': ('ppc', 4), 's390': ('s390', 8),
        's390_31': ('s390', 4), 'mips': ('mips', 8), 'mips32': ('mips', 4), 'loongarch': ('loongarch', 8),
        'arm': ('arm', 4)}
SIG = {'x86_64': '0x53053053', 'i386': '0x53053053', 'aarch64': '0xd428bc00', 'riscv': '0xf1401073',
       'ppc': '0x0fe5000b', 's390': '0xB2FF0FFF', 'mips': '0x0350000d', 'loongarch': '0x002a0010',
       'arm': '0xe7f5def3'}
REGS = {
    'x86_64': {'%%rax': 'rax', '%%rbx': 'rbx', '%%rcx': 'rcx'},
    'i386': {'%%eax': 'rax', '%%ebx': 'rbx', '%%ecx': 'rcx', '%%edx': 'rdx'},
    'aarch64': {'x15': 'x15', 'x14': 'x14'},
    'riscv': {'t6': 't6', 't5': 't5', 't4': 't4', 't3': 't3'},
    'ppc': {'%%r17': 'r17', '%%r18': 'r18', '%%r19': 'r19', '%%r20': 'r20', '%%r21': 'r21'},
    's390': {'%%r0': 'g0', '%%r1': 'g1'},
    'mips': {'$4': 'm4'}, 'loongarch': {'$r4': 'm4'},
    'arm': {'r0': 'a0', 'r5': 'a5', 'r6': 'a6', 'r7': 'a7', '%%r0': 'a0'}}
# delay injection of param_test.c: register of the model, its names in the clobber list, use of the
# condition codes, instructions of the loop for counter N (labels 222 before the last but one and 333 after)
INJREG = {'x86_64': 'rax', 'i386': 'rax', 'aarch64': 'x15', 'riscv': '6', 'ppc': 'r18', 's390': 'g0',
          'mips': '5', 'loongarch': '12', 'arm': '4'}
INJCLOB = {'x86_64': ['eax'], 'i386': [], 'aarch64': [], 'riscv': ['t1'], 'ppc': [], 's390': [],
           'mips': ['$5'], 'loongarch': ['$r12'], 'arm': ['r4']}
INJFLAGS = {'x86_64': 1, 'i386': 1, 'aarch64': 0, 'riscv': 0, 'ppc': 1, 's390': 1, 'mips': 0, 'loongarch': 0,
            'arm': 1}
INJTEXT = {
    'x86_64': ['lea asm_loop_cnt_N(%%rip), %%rax', 'mov (%%rax), %%eax', 'test %%eax,%%eax', 'jz 333f',
               'dec %%eax', 'jnz 222b'],
    'i386': ['movl %[ref_ip], %%eax', 'leal ( asm_loop_cnt_N - 881b)(%%eax), %%eax', 'movl (%%eax), %%eax',
             'test %%eax,%%eax', 'jz 333f', 'dec %%eax', 'jnz 222b'],
    'aarch64': ['ldr w15, %[loop_cnt_N]', 'cbz w15, 333f', 'sub w15, w15, #1', 'cbnz w15, 222b'],
    'riscv': ['lw t1, %[loop_cnt_N]', 'beqz t1, 333f', 'addi t1,t1, -1', 'bnez t1, 222b'],
    'ppc': ['lwz %%r18, %[loop_cnt_N]', 'cmpwi %%r18, 0', 'beq 333f', 'subic. %%r18, %%r18, 1', 'bne 222b'],
    's390': ['l %%r0, %[loop_cnt_N]', 'ltr %%r0, %%r0', 'je 333f', 'ahi %%r0, -1', 'jnz 222b'],
    'mips': ['lw $5, %[loop_cnt_N]', 'beqz $5, 333f', 'addiu $5, -1', 'bnez $5, 222b'],
    'loongarch': ['ld.w $r12, %[loop_cnt_N]', 'beqz $r12, 333f', 'addi.w $r12,$r12, -1', 'bnez $r12, 222b'],
    'arm': ['ldr r4, %[loop_cnt_N]', 'cmp r4, #0', 'beq 333f', 'subs r4, #1', 'bne 222b']}


class Bad(Exception):
    pass


def need(c, *what):
    if not c:
        raise Bad(' '.join(map(str, what)))


class Tr:
    """Translation of one helper."""

    def __init__(self, target, h, field):
        self.arch, self.word = ARCH[target]
        self.h = h
        self.field = field
        self.rets = {}
        for lab, body in h.post.items():
            txt = ' '.join(body)
            m = re.search(r'return (- )?(\d+) ;', txt)
            if m:
                self.rets[lab] = (-1 if m.group(1) else 1) * int(m.group(2))
            else:
                need(re.match(r'error\d$', lab) and 'abort' in txt or 'rseq_bug' in txt, 'label', lab, txt)
                self.rets[lab] = 1 + int(lab[5:])      # error1, error2, error3 -> 2, 3, 4
        need(set(h.labels) == set(self.rets) - {''}, 'goto labels', h.labels, list(self.rets))
        self.params = [p[0] for p in h.params]
        self.cr = None
        self.read()

    # ---- lines, labels, sections -----------------------------------------
    def read(self):
        seq = []                     # textual order: ('label', n) | ('insn', text) | ('data', text)
        sec, stack = 'text', []
        for line in self.h.text.split('\n'):
            line = line.strip().replace('"%l[', '%l[').replace(']"', ']')
            line = re.sub(r'\s+', ' ', line)
            while True:
                m = re.match(r'^(\d+):\s*(.*)$', line)
                if not m:
                    break
                seq.append((sec, 'label', m.group(1)))
                line = m.group(2)
            if not line:
                continue
            m = re.match(r'^\.pushsection (\w+), "(\w+)"?$', line)
            if line.startswith('.pushsection'):
                m = re.match(r'^\.pushsection (\w+), "(\w+)"?', line)
                stack.append(sec); sec = m.group(1)
            elif line == '.popsection':
                sec = stack.pop()
            elif line.startswith('.'):
                seq.append((sec, 'data', line))
            else:
                seq.append((sec, 'insn', line))
        need(stack == [], 'sections')
        self.seq = seq
        self.injections()
        self.check_tables()
        self.layout()

    def injections(self):
        """The delay loops of param_test.c: self.inj maps the positions of a loop to the text of the model,
        self.drop holds the instructions that form the address of the counter."""
        self.inj, self.drop = {}, set()
        ins = [i for i, s in enumerate(self.seq) if s[1] == 'insn']
        for k, i in enumerate(ins):
            m = re.search(r'asm_loop_cnt_(\d)|%\[loop_cnt_(\d)\]', self.seq[i][2])
            if not m:
                continue
            n = m.group(1) or m.group(2)
            if m.group(2):
                need(self.h.inputs['loop_cnt_' + n][1] == 'loop_cnt[%s]' % n, 'loop_cnt operand')
            pats = [p.replace('N', n) for p in INJTEXT[self.arch]]
            at = k - pats.index(next(p for p in pats if '_cnt_' in p))
            loop = ins[at:at + len(pats)]
            need([self.seq[j][2] for j in loop] == pats, 'injected loop', [self.seq[j][2] for j in loop])
            labs = [j for j in range(loop[0], loop[-1] + 2) if self.seq[j][1] == 'label']
            need([self.seq[j][2] for j in labs] == ['222', '333'] and labs[0] + 1 == loop[-2] and
                 labs[1] == loop[-1] + 1 and len(labs) + len(loop) == loop[-1] + 2 - loop[0], 'labels of the loop')
            need(self.resolve(loop[-1], '222b') == labs[0] and
                 all(self.resolve(j, '333f') == labs[1] for j in loop[:-2]), 'jumps of the loop')
            extra = len(pats) - (5 if INJFLAGS[self.arch] else 4)
            self.drop |= set(loop[:extra])
            r = INJREG[self.arch]
            text = (['.ldS %s 20%s' % (r, n), '.tst ' + r, '.je ', '.addf %s %s (-1)' % (r, r), '.jne ']
                    if INJFLAGS[self.arch] else
                    ['.ldS %s 20%s' % (r, n), '.cbz %s ' % r, '.addi %s %s (-1)' % (r, r), '.cbnz %s ' % r])
            jz = len(text) - 3
            for q, (j, t) in enumerate(zip(loop[extra:], text)):
                self.inj[j] = (t, labs[1] if q == jz else labs[0] if q == len(text) - 1 else None)

    def resolve(self, pos, ref):
        n, d = ref[:-1], ref[-1]
        need(n.isdigit() and d in 'fb', 'label reference', ref)
        r = range(pos + 1, len(self.seq)) if d == 'f' else range(pos - 1, -1, -1)
        for i in r:
            if self.seq[i][1] == 'label' and self.seq[i][2] == n:
                return i
        raise Bad('unresolved label ' + ref)

    def descriptor(self, i):
        """Read the descriptor at label position i: .balign 32 before, five fields after."""
        need(self.seq[i - 1][1:] == ('data', '.balign 32'), 'alignment of descriptor', self.seq[i - 1])
        f = [self.seq[i + k] for k in range(1, 6)]
        need(all(x[1] == 'data' for x in f), 'descriptor fields', f)
        w = lambda s: s.split(' ', 1)[1]
        need(w(f[0][2]) == '0x0' and w(f[1][2]) == '0x0', 'version, flags')

        def ptr(s):
            s = w(s)
            if self.word == 8 or self.arch == 'riscv':
                need(',' not in s, s); return s
            lo, hi = [x.strip() for x in s.split(',')]
            if self.arch in ('ppc', 's390'):          # big endian only
                lo, hi = hi, lo
            need(hi == '0x0', 'padding', s)
            return lo
        st = ptr(f[2][2])
        off = re.sub(r'[()\s]', '', ptr(f[3][2])).split('-')
        ab = ptr(f[4][2])
        need(off[1] == st, 'post_commit_offset', off, st)
        p = i + 3
        return (self.resolve(p, st), self.resolve(p, off[0]), self.resolve(p, ab))

    def check_tables(self):
        d = [i for i, s in enumerate(self.seq) if s[0] == '__rseq_cs' and s[1] == 'label']
        need(len(d) == 1, 'descriptors', d)
        self.table = d[0]
        self.desc = self.descriptor(d[0])
        # pointer array entry
        p = [i for i, s in enumerate(self.seq) if s[0] == '__rseq_cs_ptr_array']
        need(len(p) == 1 and any(self.resolve(p[0], r) == d[0]
                                 for r in re.findall(r'\d+b', self.seq[p[0]][2])), 'ptr array')
        # exit points: pairs (start, target); the targets are all C labels but abort
        e = [i for i, s in enumerate(self.seq) if s[0] == '__rseq_exit_point_array']
        need(len(e) % 2 == 0, 'exit points')
        self.exits = []
        for k in range(0, len(e), 2):
            need(any(self.resolve(e[k], r) == self.desc[0]
                     for r in re.findall(r'\b\d+f', self.seq[e[k]][2])), 'exit start')
            self.exits.append(re.search(r'%l\[(\w+)\]', self.seq[e[k + 1]][2]).group(1))
        # signature right before the abort handler
        a = self.desc[2]
        s = self.seq[a - 1]
        need(s[1] == 'data' and s[2].split(' ', 1)[1].strip().lower() == SIG[self.arch].lower(),
             'signature', s)

    # ---- layout and instruction list -------------------------------------
    def layout(self):
        main = [i for i, s in enumerate(self.seq) if s[0] == 'text' and s[1] == 'insn' and i not in self.drop]
        fail = [i for i, s in enumerate(self.seq) if s[0] == '__rseq_failure' and s[1] == 'insn']
        # the descriptor store: everything from csbeg up to the start label
        start = self.desc[0]
        cs, beg = self.cs_store(main, start)
        items = []                                     # ('cs', pos) | ('i', pos) | ('end',)
        for i in main:
            if i == beg:
                items.append(('cs', i))
            elif i in cs:
                continue
            else:
                items.append(('i', i))
        lastmain = main[-1]
        falls = not self.is_jump(self.seq[lastmain][2])
        if falls:
            items.append(('end', None))
        items += [('i', i) for i in fail]
        self.items = items
        # index of the instruction at or after a textual position, in its own section
        self.index = {}
        for k, it in enumerate(items):
            if it[0] != 'end':
                self.index[it[1]] = k
        self.endidx = next((k for k, it in enumerate(items) if it[0] == 'end'), None)
        self.main, self.fail, self.cs = main, fail, cs
        self.code = [self.emit(it) for it in items]
        self.start = self.at(self.desc[0])
        self.commit = self.at(self.desc[1])
        self.abort = self.at(self.desc[2])

    def at(self, lab):
        """Model index for a label position; None if the label is the end of the assembly."""
        sec = self.seq[lab][0]
        l = self.main if sec == 'text' else self.fail
        for i in l:
            if i > lab and i in self.index:
                return self.index[i]
        need(sec == 'text', 'label at the end of', sec)
        return self.endidx

    def is_jump(self, t):
        return t.split()[0] in ('b', 'j', 'jmp', 'jg')

    def cs_store(self, main, start):
        """The instructions that form the descriptor's address and store it; they end at `start`."""
        before = [i for i in main if i < start]
        pats = {
            'x86_64': [r'leaq (\d+[bf])\(%%rip\), %%rax', r'movq %%rax, %%fs:8\(%\[rseq_offset\]\)'],
            'i386': [r'jmp 779f', r'movl \(%%esp\), %%eax', r'ret', r'call 880b',
                     r'movl %%eax, %\[ref_ip\]', r'leal \((\d+[bf]) - 881b\)\(%%eax\), %%eax',
                     r'movl %%eax, %%gs:8\(%\[rseq_offset\]\)'],
            'aarch64': [r'adrp x15, (\d+[bf])', r'add x15, x15, :lo12:(\d+[bf])', r'str x15, %\[rseq_cs\]'],
            'riscv': [r'la t6, (\d+[bf])', (r'sd' if self.word == 8 else r'sw') + r' t6, %\[rseq_cs\]'],
            'ppc': ([r'lis %%r17, \((\d+[bf])\)@highest', r'ori %%r17, %%r17, \((\d+[bf])\)@higher',
                     r'rldicr %%r17, %%r17, 32, 31', r'oris %%r17, %%r17, \((\d+[bf])\)@high',
                     r'ori %%r17, %%r17, \((\d+[bf])\)@l', r'std %%r17, %\[rseq_cs\]'] if self.word == 8 else
                    [r'lis %%r17, \((\d+[bf])\)@ha', r'addi %%r17, %%r17, \((\d+[bf])\)@l',
                     r'stw%U\[rseq_cs\]%X\[rseq_cs\] %%r17, %\[rseq_cs\]']),
            's390': [r'larl %%r0, (\d+[bf])', ('stg' if self.word == 8 else 'st') + r' %%r0, %\[rseq_cs\]'],
            'mips': [('dla' if self.word == 8 else 'la') + r' \$4, (\d+[bf])',
                     ('sd' if self.word == 8 else 'sw') + r' \$4, %\[rseq_cs\]'],
            'loongarch': [r'la\.local \$r4, (\d+[bf])', r'st\.d \$r4, %\[rseq_cs\]'],
            'arm': [r'adr r0, (\d+[bf])', r'str r0, %\[rseq_cs\]'],
        }[self.arch]
        need(len(before) >= len(pats), 'descriptor store')
        cs = before[len(before) - len(pats):]
        for i, p in zip(cs, pats):
            m = re.fullmatch(p, self.seq[i][2])
            need(m, 'descriptor store', self.seq[i][2], 'vs', p)
            if m.groups():
                t = self.resolve(i, m.group(1))
                if t != self.table:                    # the copy next to the code
                    need(self.descriptor(t) == self.desc, 'descriptor copy differs')
        if self.arch not in ('x86_64', 'i386'):
            need(self.h.inputs['rseq_cs'][1] == 'rseq_get_abi()->rseq_cs.arch.ptr', 'rseq_cs operand')
        else:
            need(self.h.inputs['rseq_offset'][1].endswith('rseq_offset'), 'rseq_offset operand')
        return set(cs), cs[0]

    # ---- operands --------------------------------------------------------
    def opnd(self, s):
        """-> (class, Lean text); classes: r register, m word in memory (base register), s slot,
        cpu the CPU field, i immediate, w 32-bit view of a register."""
        s = s.strip()
        R = REGS[self.arch]
        if s in R:
            return 'r', R[s]
        if self.arch in ('x86_64', 'i386'):
            if s == '%%al':
                return 'b', 'rax'
            seg = '%%fs' if self.arch == 'x86_64' else '%%gs'
            if s == '%s:%d(%%[rseq_offset])' % (seg, {'cpu_id': 4, 'mm_cid': 24}[self.field]):
                return 'cpu', ''
        if self.arch == 'aarch64' and s in ('w15', 'w14'):
            return 'w', 'x' + s[1:]
        m = re.fullmatch(r'%w\[(\w+)\]', s)
        if m:
            c, t = self.opnd('%[' + m.group(1) + ']')
            need(c == 'r', s); return 'w', t
        m = re.fullmatch(r'%\[(\w+)\]', s)
        if m:
            con, ex = self.h.inputs[m.group(1)]
            if con in ('r', 'er', 'ir', 'Ir', 'b'):
                need(ex in self.params, 'operand', ex)
                return 'r', '(al .%s)' % ex
            need(con in ('m', 'Qo', 'A', 'ZC', 'ZB', 'Q'), 'constraint', con)
            if ex.startswith('*'):
                need(ex[1:] in self.params and dict(self.h.params)[ex[1:]] == 'intptr_t *', ex)
                return 'm', '(al .%s)' % ex[1:]
            if ex == 'rseq_get_abi()->' + self.field:
                return 'cpu', ''
            mm = re.fullmatch(r'rseq_scratch\[(\d)\]', ex)
            if mm:
                return 's', str(100 + int(mm.group(1)))
            mm = re.fullmatch(r'rseq_local\.(\w+)', ex)
            if mm:
                need('. %s = ( uint32_t ) %s ,' % (mm.group(1), mm.group(1)) in self.h.pre, 'rseq_local', ex)
                return 's', '(slotOf .%s)' % mm.group(1)
            need(ex in self.params, 'operand', ex)
            return 's', '(slotOf .%s)' % ex
        m = re.fullmatch(r'[#$]?(-?\d+)', s)
        if m and not (self.arch == 'mips' and s.startswith('$')):
            k = int(m.group(1))
            return 'i', str(k) if k >= 0 else '(%d)' % k
        m = re.fullmatch(r'(-?\d*)\((.*)\)', s)                     # disp(base)
        if m:
            c, t = self.opnd(m.group(2)); need(c == 'r', s)
            return ('m', t) if m.group(1) in ('', '0') else ('m' + m.group(1), t)
        m = re.fullmatch(r'\[([^,]*)\]', s)
        if m:
            c, t = self.opnd(m.group(1)); need(c == 'r', s)
            return 'm', t
        m = re.fullmatch(r'\[(.*), (.*)\]', s)
        if m:
            (c, t), (c2, t2) = self.opnd(m.group(1)), self.opnd(m.group(2))
            need(c == c2 == 'r', s)
            return 'mx', t + ' ' + t2
        raise Bad('operand ' + s)

    def target(self, pos, s):
        s = s.strip()
        m = re.fullmatch(r'%l\[(\w+)\]', s)
        if m:
            r = self.rets[m.group(1)]
            return '(.ret %s)' % (r if r >= 0 else '(%d)' % r)
        lab = self.resolve(pos, s)
        k = self.at(lab)
        if k is None:                                  # the end of the assembly
            return '(.ret %d)' % self.rets['']
        return '(.at %d)' % k

    # ---- instructions ----------------------------------------------------
    def emit(self, it):
        if it[0] == 'cs':
            reg = {'x86_64': 'rax', 'i386': 'rax', 'aarch64': 'x15', 'riscv': 't6', 'ppc': 'r17', 's390': 'g0',
                   'mips': 'm4', 'loongarch': 'm4', 'arm': 'a0'}[self.arch]
            return '.cs ' + reg
        if it[0] == 'end':
            return '.jmp (.ret %d)' % self.rets['']
        pos = it[1]
        if pos in self.inj:
            self.cr = None
            t, lab = self.inj[pos]
            if lab is None:
                return t
            k = self.at(lab)
            return t + '(.at %d)' % k
        t = self.seq[pos][2]
        if t.startswith('lock; addl $0,'):
            need(re.fullmatch(r'lock; addl \$0,-?\d+\(%%esp\)', t), t)
            return '.fence'
        mn, _, rest = t.partition(' ')
        args, d, cur = [], 0, ''
        for ch in rest:
            if ch in '([': d += 1
            if ch in ')]': d -= 1
            if ch == ',' and d == 0:
                args.append(cur.strip()); cur = ''
            else:
                cur += ch
        if cur.strip() or args:
            args.append(cur.strip())
        return getattr(self, 'i_' + self.arch)(mn, args, pos, t)

    def jumps(self, mn, args, pos, table):
        if mn in table:
            need(len(args) == 1)
            return table[mn] + ' ' + self.target(pos, args[0])
        return None

    def i_x86_64(self, mn, args, pos, t):
        j = self.jumps(mn, args, pos, {'jnz': '.jne', 'jne': '.jne', 'jz': '.je', 'je': '.je', 'jmp': '.jmp'})
        if j: return j
        q = 'q' if self.arch == 'x86_64' else 'l'
        o = [self.opnd(a) for a in args]
        c = ''.join(x[0] + '.' for x in o)
        v = [x[1] for x in o]
        if mn == 'mov' + q:
            if c == 'm.r.': return '.ld %s %s' % (v[1], v[0])
            if c == 's.r.': return '.ldS %s %s' % (v[1], v[0])
            if c == 'r.m.': return '.st %s %s' % (v[0], v[1])
            if c == 'r.s.': return '.stS %s %s' % (v[0], v[1])
        if mn == 'movb':
            if c == 'm.b.': return '.ldb %s %s' % (v[1], v[0])
            if c == 'b.m.': return '.stb %s %s' % (v[0], v[1])
        if mn == 'cmpl' and c == 'r.cpu.':
            need(v[0] == '(al .cpu)'); return '.cmpCpu ' + v[0]
        if mn == 'cmp' + q:
            if c == 'm.r.': return '.cmpM %s %s' % (v[0], v[1])
            if c == 'r.m.': return '.cmpM %s %s' % (v[1], v[0])
            if c == 'r.r.': return '.cmp %s %s' % (v[0], v[1])
        if mn == 'add' + q:
            if c == 'r.r.': return '.add %s %s %s' % (v[1], v[1], v[0])
            if c == 'r.m.': return '.addM %s %s' % (v[0], v[1])
        if mn == 'test' and c == 'r.r.' and v[0] == v[1]: return '.tst ' + v[0]
        if mn == 'inc': return '.addf %s %s 1' % (v[0], v[0])
        if mn == 'dec': return '.addf %s %s (-1)' % (v[0], v[0])
        raise Bad('x86 ' + t)

    i_i386 = i_x86_64

    def i_aarch64(self, mn, args, pos, t):
        if mn == 'b': return '.jmp ' + self.target(pos, args[0])
        if mn in ('cbnz', 'cbz'):
            c, v = self.opnd(args[0])
            return '.%s%s %s %s' % (mn, '32' if c == 'w' else '', v, self.target(pos, args[1]))
        o = [self.opnd(a) for a in args]
        c = ''.join(x[0] + '.' for x in o)
        v = [x[1] for x in o]
        if mn == 'ldr':
            if c == 'w.cpu.': return '.ldCpuZ ' + v[0]
            if c == 'r.m.': return '.ld %s %s' % (v[0], v[1])
            if c == 'r.mx.': return '.ldx %s %s' % (v[0], v[1])
        if mn == 'str' and c == 'r.m.': return '.st %s %s' % (v[0], v[1])
        if mn == 'stlr' and c == 'r.m.':
            need(self.h.inputs['v'][0] == 'Q' or True)
            return '.stl %s %s' % (v[0], v[1])
        if mn == 'sub':
            if c == 'w.w.w.': return '.sub32 %s %s %s' % tuple(v)
            if c == 'r.r.r.': return '.sub %s %s %s' % tuple(v)
            if c == 'r.r.i.': return '.addi %s %s (-%s)' % tuple(v)
        if mn == 'add' and c == 'r.r.r.': return '.add %s %s %s' % tuple(v)
        if mn == 'mov' and c == 'r.r.': return '.mov %s %s' % tuple(v)
        if mn == 'ldrb' and c == 'w.mx.': return '.ldbx %s %s' % tuple(v)
        if mn == 'strb' and c == 'w.mx.': return '.stbx %s %s' % tuple(v)
        raise Bad('aarch64 ' + t)

    def i_riscv(self, mn, args, pos, t):
        ld, sd = ('ld', 'sd') if self.word == 8 else ('lw', 'sw')
        if self.arch == 'loongarch': ld, sd = 'ld.d', 'st.d'
        lw = 'ld.w' if self.arch == 'loongarch' else 'lw'
        if mn in ('j', 'b'): return '.jmp ' + self.target(pos, args[0])
        if mn in ('bne', 'beq'):
            a, b = self.opnd(args[0]), self.opnd(args[1]); need(a[0] == b[0] == 'r')
            return '.%s %s %s %s' % (mn, a[1], b[1], self.target(pos, args[2]))
        if mn in ('bnez', 'beqz'):
            a = self.opnd(args[0]); need(a[0] == 'r')
            return '.%s %s %s' % ('cbnz' if mn == 'bnez' else 'cbz', a[1], self.target(pos, args[1]))
        if mn == 'fence':
            need(args == ['rw', 'w']); return '.fence'
        if mn == 'sync' and self.arch == 'mips': return '.fence'
        if mn == 'dbar' and self.arch == 'loongarch': return '.fence'
        o = [self.opnd(a) for a in args]
        c = ''.join(x[0] + '.' for x in o)
        v = [x[1] for x in o]
        if mn == lw and c == 'r.cpu.': return '.ldCpuS ' + v[0]
        if self.arch == 'loongarch' and c == 'r.r.i.' and mn in ('ld.d', 'ld.b', 'st.b'):
            need(v[2] == '0')
            return '.%s %s %s' % ({'ld.d': 'ld', 'ld.b': 'ldb', 'st.b': 'stb'}[mn], v[0], v[1])
        if mn == ld and c == 'r.m.': return '.ld %s %s' % tuple(v)
        if mn == ld and c == 'r.s.': return '.ldS %s %s' % tuple(v)
        if mn == sd and c == 'r.m.': return '.st %s %s' % tuple(v)
        if mn == sd and c == 'r.s.': return '.stS %s %s' % tuple(v)
        if mn == 'lb' and c == 'r.m.': return '.ldb %s %s' % tuple(v)
        if mn == 'sb' and c == 'r.m.': return '.stb %s %s' % tuple(v)
        if mn == 'mv' and c == 'r.r.': return '.mov %s %s' % tuple(v)
        if mn == 'add' and c == 'r.r.r.': return '.add %s %s %s' % tuple(v)
        if mn in {'riscv': ('addi',), 'mips': ('daddiu' if self.word == 8 else 'addiu',),
                  'loongarch': ('addi.d',)}[self.arch]:
            if len(v) == 2: c, v = 'r.' + c, [v[0]] + v
            if c == 'r.r.i.': return '.addi %s %s %s' % tuple(v)
            if c == 'r.r.r.': return '.add %s %s %s' % tuple(v)
        raise Bad(self.arch + ' ' + t)

    i_mips = i_riscv
    i_loongarch = i_riscv

    def i_ppc(self, mn, args, pos, t):
        m = re.fullmatch(r'(\w+)%U\[(\w+)\]%X\[(\w+)\]', mn)
        if m:
            need(m.group(2) == m.group(3) and args[-1] == '%[' + m.group(2) + ']', 'update/index form', t)
            mn = m.group(1)
        ld, sd, ldx, cmpl, cmpi = (('ld', 'std', 'ldx', 'cmpd', 'cmpdi') if self.word == 8 else
                                   ('lwz', 'stw', 'lwzx', 'cmpw', 'cmpwi'))
        if mn == 'b': return '.jmp ' + self.target(pos, args[0])
        if mn in ('bne-', 'beq-', 'bne', 'beq'):
            cr = 'cr7' if mn.endswith('-') else 'cr0'
            need((args[0] == 'cr7') == (cr == 'cr7'))
            need(self.cr == cr, 'condition register', t)
            return '.%s %s' % ('jne' if mn.startswith('bne') else 'je', self.target(pos, args[-1]))
        if mn == 'lwsync': return '.fence'
        if mn in ('cmpw', 'cmpd', 'cmpdi', 'cmpwi'):
            self.cr = 'cr7' if args[0] == 'cr7' else 'cr0'
            if args[0] == 'cr7': args = args[1:]
            o = [self.opnd(a) for a in args]
            c = ''.join(x[0] + '.' for x in o)
            if mn == cmpi and c == 'r.i.' and o[1][1] == '0': return '.tst ' + o[0][1]
            if mn == 'cmpw' and '(al .cpu)' in (o[0][1], o[1][1]): return '.cmp32 %s %s' % (o[0][1], o[1][1])
            if mn == cmpl and c == 'r.r.': return '.cmp %s %s' % (o[0][1], o[1][1])
        o = [self.opnd(a) for a in args]
        c = ''.join(x[0] + '.' for x in o)
        v = [x[1] for x in o]
        if mn == 'lwz' and c == 'r.cpu.': return '.ldCpuZ ' + v[0]
        if mn == ld and c == 'r.m.': return '.ld %s %s' % tuple(v)
        if mn == sd and c == 'r.m.': return '.st %s %s' % tuple(v)
        if mn == ldx and c == 'r.r.r.': return '.ldx %s %s %s' % tuple(v)
        if mn == 'add' and c == 'r.r.r.': return '.add %s %s %s' % tuple(v)
        if mn == 'addi' and c == 'r.r.i.': return '.addi %s %s %s' % tuple(v)
        if mn == 'mr' and c == 'r.r.': return '.mov %s %s' % tuple(v)
        if mn == 'lbzu' and c == 'r.m1.': return '.lbzu %s %s' % tuple(v)
        if mn == 'stbu' and c == 'r.m1.': return '.stbu %s %s' % tuple(v)
        raise Bad('ppc ' + t)

    def i_s390(self, mn, args, pos, t):
        j = self.jumps(mn, args, pos, {'jnz': '.jne', 'jne': '.jne', 'jz': '.je', 'je': '.je', 'jg': '.jmp'})
        if j: return j
        L, S, LT, C, CR, AI, AR = (('lg', 'stg', 'ltgr', 'cg', 'cgr', 'aghi', 'agr') if self.word == 8 else
                                   ('l', 'st', 'ltr', 'c', 'cr', 'ahi', 'ar'))
        o = [self.opnd(a) for a in args]
        c = ''.join(x[0] + '.' for x in o)
        v = [x[1] for x in o]
        if mn == 'c' and c == 'r.cpu.':
            need(v[0] == '(al .cpu)'); return '.cmpCpu ' + v[0]
        if mn == C and c == 'r.m.': return '.cmpM %s %s' % (v[1], v[0])
        if mn == CR and c == 'r.r.': return '.cmp %s %s' % tuple(v)
        if mn == L and c == 'r.m.': return '.ld %s %s' % tuple(v)
        if mn == L and c == 'r.s.': return '.ldS %s %s' % tuple(v)
        if mn == S and c == 'r.m.': return '.st %s %s' % tuple(v)
        if mn == S and c == 'r.s.': return '.stS %s %s' % tuple(v)
        if mn == LT and c == 'r.r.' and v[0] == v[1]: return '.tst ' + v[0]
        if mn == AI and c == 'r.i.': return '.addf %s %s %s' % (v[0], v[0], v[1])
        if mn == AR and c == 'r.r.': return '.addf2 %s %s' % tuple(v)
        if mn == 'ic' and c == 'r.m.': return '.ldb %s %s' % tuple(v)
        if mn == 'stc' and c == 'r.m.': return '.stb %s %s' % tuple(v)
        raise Bad('s390 ' + t)

    def i_arm(self, mn, args, pos, t):
        j = self.jumps(mn, args, pos, {'bne': '.jne', 'beq': '.je', 'b': '.jmp'})
        if j: return j
        if mn == 'dmb': return '.fence'
        o = [self.opnd(a) for a in args]
        c = ''.join(x[0] + '.' for x in o)
        v = [x[1] for x in o]
        if mn == 'ldr':
            if c == 'r.cpu.': return '.ldCpuZ ' + v[0]
            if c == 'r.m.': return '.ld %s %s' % tuple(v)
            if c == 'r.s.': return '.ldS %s %s' % tuple(v)
        if mn == 'str' and c == 'r.m.': return '.st %s %s' % tuple(v)
        if mn == 'str' and c == 'r.s.': return '.stS %s %s' % tuple(v)
        if mn == 'cmp':
            if c == 'r.i.' and v[1] == '0': return '.tst ' + v[0]
            if c == 'r.r.' and v[0] == '(al .cpu)': return '.cmp32 %s %s' % tuple(v)
            if c == 'r.r.': return '.cmp %s %s' % tuple(v)
        if mn == 'add' and c == 'r.r.': return '.add %s %s %s' % (v[0], v[0], v[1])
        if mn == 'adds' and c == 'r.i.': return '.addf %s %s %s' % (v[0], v[0], v[1])
        if mn == 'subs' and c == 'r.i.': return '.addf %s %s (-%s)' % (v[0], v[0], v[1])
        if mn == 'ldrb' and c == 'r.m.': return '.ldb %s %s' % tuple(v)
        if mn == 'strb' and c == 'r.m.': return '.stb %s %s' % tuple(v)
        raise Bad('arm ' + t)

    def clob(self):
        out = []
        for x in self.h.clob:
            if x in ('memory', 'cc'):
                continue
            for p in ('', '%%'):
                if p + x in REGS[self.arch]:
                    out.append(REGS[self.arch][p + x]); break
            else:
                need(self.inj and x in INJCLOB[self.arch], 'clobber', x)
                out.append(INJREG[self.arch])
        need('memory' in self.h.clob, 'memory clobber')
        return sorted(out)

    def chk(self):
        """First instruction after the first CPU comparison."""
        k = self.start
        while self.items[k][1] in self.inj or not re.search(r'\.(jne|bne|cbnz32) ', self.code[k]):
            k += 1
        return k + 1


# ---- the Lean side ------------------------------------------------------
OPNDS = ['cpu', 'v', 'expect', 'newv', 'expectnot', 'voffp', 'load', 'count', 'v2', 'expect2', 'newv2', 'dst',
         'src', 'len', 'ptr', 'off', 'inc']
SLOT = {'expect': 0, 'newv': 1, 'dst': 2, 'src': 3, 'len': 4}


def numeric(code, regs):
    """Lean text of an instruction -> the form printed by DUMP."""
    out = []
    for c in code:
        c = re.sub(r'\(al \.(\w+)\)', lambda m: str(1000 + OPNDS.index(m.group(1))), c)
        c = re.sub(r'\(slotOf \.(\w+)\)', lambda m: str(SLOT[m.group(1)]), c)
        c = re.sub(r'(?<![.\w])([a-z]\w+)\b', lambda m: str(regs[m.group(1)]), c)
        c = c.replace('(.at', '(Pc.at').replace('(.ret', '(Pc.ret')
        out.append('Instr' + c)
    return out


# Prints the programs of the model; operand registers are printed as 1000 + the index of the operand.
DUMP = r'''
import Verif.RseqInject
open Verif.Rseq

def opnds : List Opnd :=
  [.cpu, .v, .expect, .newv, .expectnot, .voffp, .load, .count, .v2, .expect2, .newv2, .dst, .src, .len,
   .ptr, .off, .inc]

def alloc (o : Opnd) : Nat := 1000 + opnds.findIdx (· = o)

def archs : List Arch := [.x86_64, .i386, .aarch64, .riscv, .ppc, .s390, .mips, .loongarch, .arm]

def kinds : List Kind :=
  [.cbneStore, .cbeqStoreAddLoadStore, .addStore, .addLoadLoadAddStore, .cbneCbneStore, .cbneStoreStore,
   .cbneMemcpyStore]

def showProg (P : Prog 8) : IO Unit := do
  for i in P.code do
    IO.println s!"i {((reprStr i).replace "\n" " ").replace "Verif.Rseq." ""}"
  IO.println s!"x {P.start} {P.chk} {P.commit} {P.abort} {P.ne}"

#eval show IO Unit from do
  for a in archs do
    for k in kinds do
      for r in [false, true] do
        match program (n := 8) alloc false 0 a k r with
        | none => pure ()
        | some P =>
          IO.println s!"p {reprStr a} {reprStr k} {r}"
          showProg P
          IO.println s!"t"
          showProg (twiceOf alloc a k P)
          IO.println s!"j"
          showProg ((injOf a).prog (injAt a k P.commit) P)
          IO.println s!"u"
          showProg ((injOf a).prog (injAtTwice a k P.commit
            ((twiceOf alloc a k P).commit - P.commit)) (twiceOf alloc a k P))
'''


def lean_programs():
    """(arch, kind, release, twice, injected) -> (code, indices), from the elaborated definitions."""
    with tempfile.NamedTemporaryFile('w', suffix='.lean') as f:
        f.write(DUMP)
        f.flush()
        r = subprocess.run(['lake', 'env', 'lean', f.name],
                           cwd=os.path.join(VERIF, 'lean'), capture_output=True, text=True)
    if r.returncode != 0:
        sys.exit('printing the programs failed:\n' + r.stdout[-2000:] + r.stderr[-2000:])
    out, key, tw = {}, None, (False, False)
    for l in r.stdout.split('\n'):
        if l.startswith('p '):
            _, a, k, rel = l.split()
            key, tw, cur = (a.split('.')[-1], k.split('.')[-1], rel == 'true'), (False, False), []
        elif l in ('t', 'j', 'u'):
            tw, cur = (l in 'tu', l in 'ju'), []
        elif l.startswith('i '):
            cur.append(l[2:])
        elif l.startswith('x '):
            out[key + tw] = (cur, tuple(map(int, l[2:].split())))
    return out


def lean_text():
    s = open(os.path.join(VERIF, 'lean/Verif/RseqArch.lean')).read()
    regs = {m.group(1): int(m.group(2)) for m in re.finditer(r'^abbrev (\w+) : Nat := (\d+)', s, re.M)}
    cl = {}
    for a, k, l in re.findall(r'\| \.(\w+), (\.\w+|_) => \[([^\]]*)\]', s[s.index('def clobbers'):]):
        cl.setdefault((a, k.lstrip('.')), sorted(x.strip() for x in l.split(',')))
    return regs, cl


def main():
    progs = lean_programs()
    regs, clob = lean_text()
    bad, n, used = [], 0, set()
    for twice, inj in ((False, False), (True, False), (False, True), (True, True)):
        for target, (arch, _) in ARCH.items():
            hs = helpers(target, {'RSEQ_COMPARE_TWICE': '1'} if twice else {}, os.path.join(REPO, 'include'),
                         os.path.join(REPO, 'tests/param_test.c') if inj else None)
            for name, h in hs.items():
                m = re.fullmatch(r'(\w+__ptr)_(relaxed|release)_(cpu_id|mm_cid)', name)
                if not m:
                    bad.append((target, name, 'unknown helper')); continue
                kind, rel, field = KIND[m.group(1)], m.group(2) == 'release', m.group(3)
                n += 1
                try:
                    tr = Tr(target, h, field)
                    key = (arch, kind, rel, twice, inj)
                    need(key in progs, 'no program in the model')
                    used.add(key + (target, field))
                    code, ix = progs[key]
                    src = numeric(tr.code, regs)
                    need(src == code, 'code differs:\n   source ' + '\n   source '.join(
                        '%2d %-40s | %s' % (i, a, b) for i, (a, b) in
                        enumerate(zip(src + ['-'] * 60, code)) if a != b) + ' (%d/%d)' % (len(src), len(code)))
                    five = [tr.at(i) for i, x in enumerate(tr.seq) if x[1] == 'label' and x[2] == '5']
                    tear = [i for i in five if i is not None]
                    # without a tear-down the model's `ne` is the length of the program, or in a
                    # RSEQ_COMPARE_TWICE build the length of the program before the tail is appended
                    sx = (tr.start, tr.chk(), tr.commit, tr.abort, tear[0] if tear else len(code))
                    need(sx == ix, 'indices', sx, ix)
                    c = clob.get((arch, kind), clob.get((arch, '_')))
                    need((tr.inj != {}) == inj, 'injected loops')
                    c = sorted(set(c) | {INJREG[arch]}) if inj else c
                    need(sorted(set(tr.clob())) == c, 'clobbers', tr.clob(), c)
                    need(sorted(tr.exits) == sorted(set(h.labels) - {'abort'}), 'exit points', tr.exits, h.labels)
                    need(tr.rets[''] == 0 and tr.rets['abort'] == -1, 'return values')
                except Bad as e:
                    bad.append((target, name, 'twice' if twice else '', 'injected' if inj else '', str(e)))
    for (a, k, r, tw, ij) in progs:
        for target, (arch, _) in ARCH.items():
            for f in ('cpu_id', 'mm_cid'):
                if arch == a and (a, k, r, tw, ij, target, f) not in used:
                    bad.append((target, k, 'in the model but not in the source', r, tw, ij, f))
    for b in bad:
        print('MISMATCH', *b)
    print('%d helpers, %d programs, %d mismatches' % (n, len(progs), len(bad)))
    return 1 if bad else 0


if __name__ == '__main__':
    sys.exit(main())
