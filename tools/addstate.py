#!/usr/bin/env python3
"""Merge {id: {field: text}} (stdin) into tools/restate.json; a field "note" goes to tools/notes.json; then run restate.py."""
import json, os, sys, subprocess
root = os.path.dirname(os.path.dirname(os.path.abspath(__file__)))
new = json.load(sys.stdin)
rs = json.load(open(root + '/tools/restate.json'))
ns = json.load(open(root + '/tools/notes.json'))
for i, d in new.items():
    if 'note' in d: ns.setdefault(i, {})['note'] = d.pop('note')
    if d: rs.setdefault(i, {}).update(d)
json.dump(rs, open(root + '/tools/restate.json', 'w'), indent=1, ensure_ascii=False)
json.dump(ns, open(root + '/tools/notes.json', 'w'), indent=1, ensure_ascii=False)
subprocess.check_call([sys.executable, root + '/tools/restate.py'])
