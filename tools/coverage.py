#!/usr/bin/env python3
"""Writes COVERAGE.md: for every function of /repo outside its tests, the definitions of the model that cite its lines."""
import re, glob, os
V = os.path.dirname(os.path.dirname(os.path.abspath(__file__)))
cites = {}
for f in sorted(glob.glob(V + '/lean/Verif/Model/*.lean') + glob.glob(V + '/lean/Verif/Rust/*.lean')):
    s = open(f).read()
    ns = []
    for m in re.finditer(r'^namespace ([\w.]+)|^section\b[^\n]*|^end\b[^\n]*|/--(.*?)-/\s*(?:@\[[^\]]*\]\s*)*'
                         r'(?:noncomputable |protected |private )*(?:def|abbrev|structure|instance|inductive|class)?\s*([\w.\'?]*)',
                         s, re.S | re.M):
        t = m.group(0)
        if t.startswith('namespace'): ns.append(m.group(1))
        elif t.startswith('section'): ns.append(None)
        elif t.startswith('end'):
            if ns: ns.pop()
        else:
            name = '.'.join([x for x in ns if x] + [m.group(3)])
            if not m.group(3): continue
            doc = re.sub(r'\([^()]*\.rs:[\d,\- ]+\)\s*$', '', m.group(2))  # a place of use
            for c in re.finditer(r'((?:ml-kem|x-wing|dhkem)/(?:src|tests)/[\w/]+\.rs):([\d,\- ]+)', doc):
                for a in re.findall(r'(\d+)(?:-(\d+))?', c.group(2)):
                    cites.setdefault(c.group(1), []).append((int(a[0]), int(a[1] or a[0]), name))
out = ['# Coverage', '', 'Generated by `tools/coverage.py`. For every function of /repo outside its test modules, the definitions of the',
       'model whose comments cite lines of its body, the narrowest first. What is left out, and why, is at the end.', '']
left = []
os.chdir('/repo')
for f in sorted(glob.glob('*/src/*.rs')) :
    L = open(f).read().split('\n')
    test = next((i for i, l in enumerate(L) if '#[cfg(test)]' in l), len(L))
    rows = []; head = ''
    for i in range(test):
        if re.match(r'(impl|pub trait|trait|pub\(crate\) trait)\b', L[i].strip()): head = L[i].strip().rstrip('{').strip()
        if L[i].startswith('}'): head_next = ''
        m = re.match(r'(\s*)(?:pub(?:\([a-z]+\))? )?(?:const )?(?:unsafe )?fn (\w+)', L[i])
        if not m: continue
        if not m.group(1): head = ''
        j = i
        depth = 0; started = False; decl = False
        while j < test:
            depth += L[j].count('{') - L[j].count('}')
            if '{' in L[j]: started = True
            if not started and L[j].rstrip().endswith(';'): decl = True; break
            if started and depth <= 0: break
            j += 1
        lo, hi = i + 1, j + 1
        c = sorted({(h - l, n) for l, h, n in cites.get(f, []) if l <= hi and h >= lo and h - l < 120})
        names = []
        for _, n in c:
            if n not in names: names.append(n)
        desc = '`%s` (%d-%d)' % (m.group(2), lo, hi) + (' of `%s`' % head if head else '')
        if names: rows.append((desc, ', '.join('`%s`' % n for n in names[:4])))
        else: left.append((f, desc, decl))
    if rows:
        out += ['## ' + f, '', '| function | model |', '|---|---|'] + ['| %s | %s |' % (a.replace('|', '\\|'), b) for a, b in rows] + ['']
import json
why = json.load(open(V + '/tools/coverage.json'))
out += ['## Left out', '', '| function | why |', '|---|---|']
miss = []
for f, d, decl in left:
    k = f + ' ' + d
    w = next((why[x] for x in why if k.startswith(x)), 'declaration in a trait; its implementations are listed' if decl else None)
    if w is None: miss.append(k); w = '?'
    out.append('| %s %s | %s |' % (f, d.replace('|', '\\|'), w))
open(V + '/COVERAGE.md', 'w').write('\n'.join(out) + '\n')
print(len(left), 'left out;', len(miss), 'unexplained'); print('\n'.join(miss))
