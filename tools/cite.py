#!/usr/bin/env python3
"""Re-compute the line ranges of `/repo` citations of the form  `Class.func` (`dir/file.py:a-b` …
in the Lean sources.  Usage: cite.py [--fix] files…   (without --fix only reports)."""
import re, sys, os
REPO = '/repo/tcnc/'
cache = {}
def defs(path):
    if path in cache: return cache[path]
    out = {}
    lines = open(REPO + path, encoding='utf-8', errors='replace').read().split('\n')
    stack = []
    n = len(lines)
    for i, l in enumerate(lines):
        m = re.match(r'( *)(def|class) +(\w+)', l)
        if not m: continue
        ind = len(m.group(1))
        stack = [s for s in stack if s[0] < ind]
        qual = '.'.join([s[1] for s in stack] + [m.group(3)])
        stack.append((ind, m.group(3)))
        # start: include decorators
        a = i
        while a > 0 and lines[a-1].strip().startswith('@'): a -= 1
        j = i + 1
        depth = l.count('(') - l.count(')')
        while j < n and depth > 0:
            depth += lines[j].count('(') - lines[j].count(')'); j += 1
        last = j - 1
        while j < n:
            s = lines[j]
            if s.strip() == '' or s.lstrip().startswith('#'):
                j += 1; continue
            if len(s) - len(s.lstrip()) <= ind: break
            last = j; j += 1
        for k in (qual, m.group(3)):
            out.setdefault(k, []).append((a+1, last+1))
    cache[path] = out
    return out
fix = '--fix' in sys.argv
files = [f for f in sys.argv[1:] if f != '--fix']
pat = re.compile(r'`([\w.]+)`((?:[^`\n(]*)?)\(`([\w/]+\.py):(\d+)(?:-(\d+))?')
for f in files:
    s = open(f).read()
    def rep(m):
        name, mid, path, a, b = m.groups()
        if not os.path.exists(REPO + path):
            print(f, 'no such file', path); return m.group(0)
        d = defs(path).get(name)
        if d is None:
            # name not a def: check it at least occurs in the cited lines
            ls = open(REPO+path, errors='replace').read().split('\n')
            rng = '\n'.join(ls[int(a)-1:int(b or a)])
            if name.split('.')[-1] not in rng:
                print(f'{f}: `{name}` not found in {path}:{a}-{b}')
            return m.group(0)
        a, b = int(a), int(b or a)
        for (x, y) in d:
            if x <= a and b <= y and (b - a) < (y - x) and (a, b) != (x, y) and not fix_all: 
                return m.group(0)   # deliberate sub-range
        if (a, b) in d: return m.group(0)
        x, y = min(d, key=lambda r: abs(r[0]-a))
        print(f'{f}: `{name}` {path}:{a}-{b} -> {x}-{y}')
        return f'`{name}`{mid}(`{path}:{x}-{y}'
    fix_all = False
    t = pat.sub(rep, s)
    if fix and t != s: open(f, 'w').write(t)
