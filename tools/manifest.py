#!/usr/bin/env python3
"""Regenerate MANIFEST.json from the theorem names in lean/Verif/Props and the table below."""
import json, os, re, glob
root = os.path.join(os.path.dirname(os.path.abspath(__file__)), '..')
claims = json.load(open(os.path.join(root, 'tools', 'claims.json')))
names, byfile = [], {}
for f in sorted(glob.glob(os.path.join(root, 'lean/Verif/Props/**/*.lean'), recursive=True)):
    mod = os.path.relpath(f, os.path.join(root, 'lean/Verif/Props'))[:-5]
    ns = []
    out = []
    for line in open(f):
        m = re.match(r'\s*namespace\s+(\S+)', line)
        if m: ns.append(m.group(1))
        m = re.match(r'\s*end\s+(\S+)', line)
        if m and ns and ns[-1] == m.group(1): ns.pop()
        m = re.match(r'\s*(?:protected )?theorem\s+(\S+)', line)
        if m: out.append('.'.join(ns + [m.group(1)]))
    byfile[mod] = out
    names += out
known = set(names)
res, used, bad = [], set(), []
props = [json.loads(l)['id'] for l in open(os.path.join(root, 'properties.jsonl'))]
for p in props:
    c = claims.get(p)
    if c is None:
        res.append({"property": p, "status": "partial", "theorems": [], "note": "not yet proved"}); continue
    th = []
    for pat in c['theorems']:
        hit = [n for n in names if re.fullmatch(pat, n.replace('Verif.', '', 1))]
        if not hit: bad.append((p, pat))
        th += [h for h in hit if h not in th]
    used |= set(th)
    res.append({"property": p, "status": c['status'], "theorems": th, "note": c['note']})
for n in names:
    if n not in used: print('unused', n)
json.dump({"claims": res}, open(os.path.join(root, 'MANIFEST.json'), 'w'), indent=1, ensure_ascii=False)
if bad: raise SystemExit('no theorem matches %s' % bad)
