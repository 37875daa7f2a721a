#!/usr/bin/env python3
"""Turn the raw results of the seeded-bug runs into seeded/LOG.jsonl.  usage: seedlog.py mutdir deps.tsv tightened.json
deps.tsv: constant, module, constants used (from a dependency dump of the built model); it is used to name the property theorems
that rest on the lemmas that stopped compiling."""
import sys, json, glob, os, re, collections
mutdir, deps, notes = sys.argv[1:4]
use = {}; mod = {}
for l in open(deps):
    n, m, d = l.rstrip('\n').split('\t'); use[n] = d.split(); mod[n] = m
rev = collections.defaultdict(set)
for n, ds in use.items():
    for d in ds: rev[d].add(n)
def above(xs):
    seen, st = set(), list(xs)
    while st:
        x = st.pop()
        for y in rev.get(x, ()):
            if y not in seen: seen.add(y); st.append(y)
    return seen
note = json.load(open(notes))
text = {}
for b in sorted(glob.glob(mutdir + '/b*.py')):
    ns = {}; exec(open(b).read(), ns)
    for m in ns['MUTS']: text[m[0]] = m
short = collections.defaultdict(list)
for n in use: short[n.split('.')[-1]].append(n); short[n.replace('Apk.', '', 1)].append(n)
out = {}
for r in sorted(glob.glob(mutdir + '/results-b*.jsonl')):
    for l in open(r):
        x = json.loads(l); out[x['id']] = x
rows = []
for i, x in sorted(out.items()):
    if i not in text or x['modelerr'] or x['timeout']: continue
    m = text[i]
    failed = [f.split(' (')[0] for f in x['failed']]
    roots = [n for f in failed for n in short.get(f, [])]
    props = sorted({n.split('.')[-1] for n in above(roots) | set(roots) if re.match(r'C\d\d_', n.split('.')[-1])})
    t = note.get(i, {})
    rows.append({'id': i, 'definition': x['definition'], 'edit': '%s: `%s` => `%s`' % (m[5], m[3], m[4]), 'claim_broken': m[6] if m[6] != 'auto' else ' '.join(sorted({p[:3] for p in props})),
        'theorems_failed': x['failed'], 'property_theorems_resting_on_them': props, 'theorems_tightened': t.get('tightened', []), 'note': t.get('note', '')})
with open(os.path.join(os.path.dirname(__file__), '..', 'seeded', 'LOG.jsonl'), 'w') as f:
    for r in rows: f.write(json.dumps(r, ensure_ascii=False) + '\n')
print(len(rows), 'rows; not killed:', [r['id'] for r in rows if not r['theorems_failed']], '; no property:', [r['id'] for r in rows if not r['property_theorems_resting_on_them']])
