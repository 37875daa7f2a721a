#!/usr/bin/env python3
"""Collect the property theorems (names Cxx_...) from lean/Verif/Props and write MANIFEST.json.
A property whose notes are listed in NOTES gets that note; a property is 'partial' if it is listed in PARTIAL."""
import re, glob, json, collections, os
root = os.path.join(os.path.dirname(__file__), '..')
exec(open(os.path.join(root, 'tools', 'notes.py')).read())
props = [json.loads(l)['id'] for l in open(os.path.join(root, 'properties.jsonl'))]
thms = collections.defaultdict(list)
for f in sorted(glob.glob(os.path.join(root, 'lean/Verif/Props/*.lean'))):
    ns = []
    for line in open(f):
        m = re.match(r'\s*namespace\s+(\S+)', line)
        if m: ns.append(m.group(1)); continue
        m = re.match(r'\s*end\s+(\S+)\s*$', line)
        if m and ns and ns[-1] == m.group(1): ns.pop(); continue
        m = re.match(r'\s*theorem\s+((C\d\d)_\S+)', line)
        if m: thms[m.group(2)].append('.'.join(ns + [m.group(1)]))
claims = []
for p in props:
    ts = thms.get(p, [])
    if p in NOTAPP: st = 'not_applicable'
    elif not ts: continue
    elif p in PARTIAL or all(t.endswith('_partial') for t in ts): st = 'partial'
    else: st = 'proved'
    claims.append({'property': p, 'status': st, 'theorems': ts, 'note': NOTES.get(p, '')})
json.dump({'claims': claims}, open(os.path.join(root, 'MANIFEST.json'), 'w'), indent=1)
print(len(claims), 'claims', sum(len(c['theorems']) for c in claims), 'theorems; missing:',
      [p for p in props if p not in [c['property'] for c in claims]])
