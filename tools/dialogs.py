#!/usr/bin/env python3
"""Write lean/Verif/Cam/Dialogs.lean: the dialogs of /repo/inkinx and the option tables of the extensions, as data."""
import ast, glob, os, re
import xml.etree.ElementTree as ET
R = '/repo/tcnc/'
NS = '{http://www.inkscape.org/namespace/inkscape/extension}'
def q(s): return '"%s"' % s.replace('\\', '\\\\').replace('"', '\\"')
def num(v):
    s = repr(v)
    if isinstance(v, int): return 'zero' if v == 0 else '(ofInt %s)' % (v if v > 0 else '(%d)' % v)
    m = re.match(r'^(-?)(\d+)\.(\d+)$', ('%.10f' % v).rstrip('0') + ('0' if float(v).is_integer() else ''))
    if float(v).is_integer(): return num(int(v))
    sign, a, b = m.groups()
    n = int(a + b) * (-1 if sign else 1)
    return '(lit %s %d)' % (n if n >= 0 else '(%d)' % n, len(b))
def opts(f):
    out, lines = [], []
    for n in ast.walk(ast.parse(open(R + f).read())):
        if isinstance(n, ast.Call) and getattr(n.func, 'attr', getattr(n.func, 'id', '')) == 'ExtOption':
            names = [a.value for a in n.args]
            kw = {k.arg: k.value for k in n.keywords}
            if 'action' in kw: continue
            ty = kw['type'].value if 'type' in kw else 'string'
            d = ast.literal_eval(kw['default']) if 'default' in kw else None
            long = [x for x in names if x.startswith('--')]
            assert len(long) == 1
            out.append((n.lineno, long[0][2:], ty, d)); lines += [n.lineno, n.end_lineno]
    out.sort()
    return out, min(lines), max(lines)
T = dict(string='.string', int='.int', float='.float', inkbool='.inkbool', degrees='.degrees', docunits='.docunits')
def spec(name, ty, d):
    if d is None: return '⟨%s.toList, %s, .none⟩' % (q(name), T[ty])
    if isinstance(d, bool):
        return 'optB %s %s' % (q(name), str(d).lower()) if ty == 'inkbool' else '⟨%s.toList, %s, .bool %s⟩' % (q(name), T[ty], str(d).lower())
    if isinstance(d, str):
        return 'optS %s %s' % (q(name), q(d)) if ty == 'string' else '⟨%s.toList, %s, .text %s.toList⟩' % (q(name), T[ty], q(d))
    if ty == 'int' and isinstance(d, int): return 'optI %s %s' % (q(name), d if d >= 0 else '(%d)' % d)
    if ty in ('float', 'degrees', 'docunits'): return 'opt%s %s %s' % ({'float': 'F', 'degrees': 'D', 'docunits': 'L'}[ty], q(name), num(d))
    return '⟨%s.toList, %s, .num %s⟩' % (q(name), T[ty], num(d))
def wrap(items, ind='   '):
    lines, cur = [], ''
    for i, x in enumerate(items):
        x = x + (',' if i + 1 < len(items) else '')
        if len(cur) + len(x) > 140: lines.append(cur); cur = x
        else: cur = (cur + ' ' + x).strip()
    return ('\n' + ind).join(lines + [cur])
o = ['''import Verif.Cam.Options

/-!
# The dialogs of the extensions

Written by `tools/dialogs.py` from `/repo/inkinx/*.inx` and the tables of options of the extensions.  A dialog has fields; Inkscape runs the program of
the dialog with `--name=text` for every field.  Texts that only explain are left out, and so is everything that is commented out.
-/

namespace Verif.Cam
open Verif PyFloat PyTrig

/-- The kinds of fields of a dialog. -/
inductive Field
  /-- a number, with or without a fraction (`type="float"`) -/
  | float
  /-- a whole number (`type="int"`) -/
  | int
  /-- a box that is ticked or not (`type="boolean"`) -/
  | flag
  /-- one of some texts (`type="optiongroup"`, and the pages of `type="notebook"`) -/
  | choice (texts : List String)
  /-- any text (`type="string"`) -/
  | free

/-- A dialog (`inkinx/*.inx`): the file, the program it runs, and its fields. -/
structure Dialog where
  file : String
  program : String
  fields : List (String × Field)

/-- The extension programs that exist (`tcnc/*.py`). -/
def programs : List String :=
  [%s]

section
variable {K : Type} [PyTrig K]
''' % wrap([q(os.path.basename(f)) for f in sorted(glob.glob(R + '*.py')) if not f.endswith('__init__.py')])]
dialogs = []
for f in sorted(glob.glob('/repo/inkinx/*.inx')):
    raw = open(f).read()
    t = ET.fromstring(re.sub(r'<!--.*?-->', '', raw, flags=re.S))
    py = [c.text for c in t.iter(NS + 'command')][0].split('/')[-1]
    fields = []
    for e in t.iter():
        if e.tag in (NS + 'param', NS + '_param') and e.get('type') != 'description':
            ty = e.get('type')
            if ty == 'optiongroup': k = '.choice [%s]' % ', '.join(q(x.get('value')) for x in e)
            elif ty == 'notebook': k = '.choice [%s]' % ', '.join(q(x.get('name')) for x in e if x.tag == NS + 'page')
            else: k = dict(float='.float', int='.int', boolean='.flag', string='.free')[ty]
            fields.append('(%s, %s)' % (q(e.get('name')), k))
    base = os.path.basename(f)[:-4]
    ident = re.sub(r'_(.)', lambda m: m.group(1).upper(), base)
    dialogs.append((base, ident, py, os.path.exists(R + py), fields, raw.count('\n')))
for base, ident, py, ex, fields, n in dialogs:
    if ex and base != 'tcnc':
        os_, a, b = opts(py)
        o.append('/-- The options of `%s` (`%s:%d-%d`). -/\ndef %sOptions : List (OptSpec K) :=\n  [%s]\n' % (base, py, a, b, ident, wrap([spec(n_, t_, d_) for _, n_, t_, d_ in os_])))
o.append('end\n')
for base, ident, py, ex, fields, n in dialogs:
    o.append('/-- The dialog `inkinx/%s.inx` (`inkinx/%s.inx:1-%d`). -/\ndef %sDialog : Dialog :=\n  ⟨%s, %s,\n   [%s]⟩\n' % (base, base, n, ident, q(base + '.inx'), q(py), wrap(fields, '    ')))
have = [d for d in dialogs if d[3]]
o.append('/-- All dialogs (`inkinx/*.inx`). -/\ndef allDialogs : List Dialog :=\n  [%s]\n' % wrap(['%sDialog' % d[1] for d in dialogs]))
o.append('section\nvariable {K : Type} [PyTrig K]\n')
o.append('/-- The dialogs whose program exists, each with the options its program knows (`inkscape/inkext.py:262-282`). -/\ndef dialogOptions : List (Dialog × List (OptSpec K)) :=\n  [%s]\n' % wrap(['(%sDialog, %sOptions ++ commonOptions)' % (d[1], d[1]) for d in have]))
o.append('end\n')
raw = open('/repo/inkinx/tcnc.inx').read()
i = raw.index('<!--'); j = raw.index('-->', i)
ln = raw[:i].count('\n') + 1
o.append('/-- The text of the first comment in the dialog of tcnc (`inkinx/tcnc.inx:%d-%d`). -/\ndef tcncComment : String :=\n  %s\n' % (ln, ln + raw[i:j].count('\n'), q(raw[i + 4:j]).replace('\n', '\\n')))
o.append('end Verif.Cam\n')
open('/verif/lean/Verif/Cam/Dialogs.lean', 'w').write('\n'.join(o))
