#!/usr/bin/env python3
"""Regenerate the generated sections of DESIGN.md: findings, modelled code, axioms."""
import glob, json, os, re, subprocess, sys
root = os.path.dirname(os.path.dirname(os.path.abspath(__file__)))
lean = root + '/lean'
text = open(root + '/DESIGN.md').read()
head = text.split('<!-- generated -->')[0].rstrip() + '\n\n<!-- generated -->\n\n'

# findings
find = {}
cites = {}
for f in sorted(glob.glob(lean + '/Verif/**/*.lean', recursive=True)):
    s = open(f).read()
    for m in re.finditer(r'(/--(?:(?!-/).)*-/)\s*(?:set_option [^\n]*\n)?(?:open [^\n]*\n)?theorem (C\d+\w*violates\w*)', s, re.S):
        find[m.group(2)] = ' '.join(m.group(1)[3:-2].split())
    if f.endswith('Model.lean'):
        area = f.split('/')[-2]
        for d in re.finditer(r'/--((?:(?!-/).)*)-/', s, re.S):
            for m in re.finditer(r'([A-Za-z0-9_]+\.(?:cxx|h)):?\s*((?:\d+(?:-\d+)?)(?:,\s*\d+(?:-\d+)?)*)?', d.group(1)):
                cites.setdefault(m.group(1), {}).setdefault(area, []).append(m.group(2) or '')
out = ['## Findings', '', 'Code that disagrees with a property, each proved as the named theorem.  '
       'Generated from the comments of the theorems by `tools/mkdesign.py`.', '']
for k in sorted(find):
    out.append('* `%s`: %s' % (k, find[k]))
out += ['', '## Modelled code', '', 'Files and lines cited by the definitions of the model, by area.  '
        'Lines that are not listed are not modelled.', '']
def key(r):
    return int(re.match(r'\d+', r).group(0))
for k in sorted(cites):
    parts = []
    for a in sorted(cites[k]):
        rs = set()
        for r in cites[k][a]:
            for x in r.split(','):
                if x.strip():
                    rs.add(x.strip())
        parts.append('%s%s' % (a, (' (' + ', '.join(sorted(rs, key=key)) + ')') if rs else ''))
    out.append('* `%s`: %s' % (k, '; '.join(parts)))
srcs = sorted(os.path.basename(x) for x in glob.glob('/repo/src/*.cxx'))
if srcs:
    left = [x for x in srcs if x not in cites]
    out += ['', 'Source files of which nothing is modelled:', '', ', '.join('`%s`' % x for x in left) + '.']
else:
    m = re.search(r'Source files of which nothing is modelled:\n\n.*?\n', text)
    out += ['', m.group(0).rstrip()] if m else []

# axioms
man = json.load(open(root + '/MANIFEST.json'))
names = sorted({t for c in man['claims'] for t in c['theorems']})
tmp = '/tmp/axioms.lean'
with open(tmp, 'w') as g:
    g.write('import Verif\n')
    for n in names:
        g.write('#print axioms %s\n' % n)
r = subprocess.run(['lake', 'env', 'lean', tmp], cwd=lean, capture_output=True, text=True)
groups = {}
txt = re.sub(r'\s+', ' ', r.stdout)
for m in re.finditer(r"'([^']+)' (does not depend on any axioms|depends on axioms: \[([^\]]*)\])", txt):
    groups.setdefault(m.group(3) or 'none', []).append(m.group(1).split('.')[-1])
out += ['', '## Axioms', '', 'As printed by `#print axioms` for every theorem of MANIFEST.json.', '']
for k in sorted(groups):
    out.append('* %s: %d theorems%s' % (k, len(groups[k]), '' if len(groups[k]) > 60 else ' (' + ', '.join(sorted(groups[k])) + ')'))
if sum(map(len, groups.values())) != len(names):
    sys.exit('axioms: %d of %d theorems\n%s' % (sum(map(len, groups.values())), len(names), (r.stdout + r.stderr)[:2000]))
open(root + '/DESIGN.md', 'w').write(head + '\n'.join(out) + '\n')
print(len(find), 'findings;', {k: len(v) for k, v in groups.items()})
