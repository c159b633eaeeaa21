#!/usr/bin/env python3
"""Apply the restatements in tools/restate.json ({id: {field: text}}) to properties.jsonl."""
import json, os
root = os.path.dirname(os.path.dirname(os.path.abspath(__file__)))
new = json.load(open(root + '/tools/restate.json'))
out = []
for l in open(root + '/properties.jsonl'):
    if not l.strip(): continue
    p = json.loads(l)
    p.update(new.pop(p['id'], {}))
    out.append(p)
for i, p in sorted(new.items()):
    out.append({"id": i, **p})
out.sort(key=lambda p: int(p['id'][1:]))
open(root + '/properties.jsonl', 'w').write(''.join(json.dumps(p, ensure_ascii=False) + '\n' for p in out))
