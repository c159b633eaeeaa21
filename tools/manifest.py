#!/usr/bin/env python3
"""Regenerate MANIFEST.json from the theorem names in lean/Verif/Props/*.lean (C<nn>_...)."""
import re, json, glob, os
root = os.path.dirname(os.path.dirname(os.path.abspath(__file__)))
props = [json.loads(l) for l in open(root + '/properties.jsonl') if l.strip()]
notes = json.load(open(root + '/tools/notes.json')) if os.path.exists(root + '/tools/notes.json') else {}
th = {}
for f in sorted(glob.glob(root + '/lean/Verif/Props/*.lean')):
    for m in re.finditer(r'^theorem ((C\d+)_\w*)', open(f).read(), re.M):
        th.setdefault(m.group(2), []).append('Props.' + m.group(1))
claims = []
for p in props:
    i = p['id']
    ts = th.get(i, [])
    n = notes.get(i, {})
    if not ts:
        if n.get('status') == 'not_applicable':
            claims.append({"property": i, "status": "not_applicable", "theorems": [], "note": n.get('note', '')})
        continue
    st = n.get('status') or ('partial' if any(t.endswith('_partial') or '_fails' in t for t in ts) else 'proved')
    claims.append({"property": i, "status": st, "theorems": ts, "note": n.get('note', p['title'])})
json.dump({"claims": claims}, open(root + '/MANIFEST.json', 'w'), indent=1, ensure_ascii=False)
print(len(claims), 'claims,', sum(c['status'] == 'proved' for c in claims), 'proved')
