#!/usr/bin/env python3
"""Regenerates lean/Verif.lean and MANIFEST.json from the Lean sources and tools/notes.py."""
import json, os, re, glob, sys
root = os.path.join(os.path.dirname(os.path.abspath(__file__)), '..')
sys.path.insert(0, os.path.dirname(os.path.abspath(__file__)))
from notes import NOTES, STATUS
mods = sorted(glob.glob(root + '/lean/Verif/**/*.lean', recursive=True))
names = [os.path.relpath(m, root + '/lean')[:-5].replace('/', '.') for m in mods]
open(root + '/lean/Verif.lean', 'w').write(''.join('import %s\n' % n for n in names))
thms = {}
for m in mods:
    ns = []
    for line in open(m):
        a = re.match(r'namespace (\S+)', line)
        if a: ns.append(a.group(1))
        a = re.match(r'end (\S+)', line)
        if a and ns and ns[-1] == a.group(1): ns.pop()
        a = re.match(r'(?:@\[[^\]]*\] )?theorem (C\d\d\d?)(_\w+)', line)
        if a:
            thms.setdefault(a.group(1), []).append('.'.join(ns + [a.group(1) + a.group(2)]))
DOC = re.compile(r'/--((?:(?!-/).)*)-/\s*(?:set_option[^\n]*\n|open [^\n]* in\n)*(?:@\[[^\]]*\] )?theorem (C\d\d\d?)(_\w+)', re.S)
docs = {}
for m in mods:
    for a in DOC.finditer(open(m).read()):
        t = ' '.join(a.group(1).split())
        docs.setdefault(a.group(2), []).append((a.group(2) + a.group(3), t))
def auto_note(pid):
    out = []
    for n, t in docs.get(pid, []):
        if '_partial' in n or '_refuted' in n:
            out.append(n + ': ' + re.sub(r'\*\*', '', t))
    return ' | '.join(out)
claims = []
for l in open(root + '/properties.jsonl'):
    pid = json.loads(l)['id']
    t = thms.get(pid, [])
    if not t and pid not in STATUS:
        continue
    st = STATUS.get(pid) or ('partial' if any('_partial' in x or '_refuted' in x for x in t) else 'proved')
    claims.append(dict(property=pid, status=st, theorems=t, note=' '.join(x for x in (NOTES.get(pid, ''), auto_note(pid)) if x)))
json.dump({'claims': claims}, open(root + '/MANIFEST.json', 'w'), indent=1, ensure_ascii=False)
print(len(claims), 'claims', sum(len(c['theorems']) for c in claims), 'theorems',
      {s: sum(c['status'] == s for c in claims) for s in ('proved', 'partial', 'not_applicable')})
