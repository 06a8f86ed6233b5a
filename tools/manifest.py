#!/usr/bin/env python3
"""Regenerate MANIFEST.json from the theorem names in lean/Verif/Props (Cnn_name) and tools/notes.json."""
import json, re, glob
notes = json.load(open('/verif/tools/notes.json'))
thms = {}
for f in sorted(glob.glob('/verif/lean/Verif/Props/**/*.lean', recursive=True)):
    stack = []
    for l in open(f):
        if m := re.match(r'(namespace|section)\b ?([\w.]*)', l):
            stack.append(m.group(2) if m.group(1) == 'namespace' else '')
        elif re.match(r'end\b', l) and stack:
            stack.pop()
        elif m := re.match(r'theorem ((C\d+)_\w+)', l):
            thms.setdefault(m.group(2), []).append('.'.join([x for x in stack if x] + [m.group(1)]))
claims = []
for l in open('/verif/properties.jsonl'):
    pid = json.loads(l)['id']
    ts = thms.pop(pid, [])
    n = notes.get(pid, {})
    status = n.get('status') or ('proved' if ts else None)
    if not ts and status != 'not_applicable':
        print('no theorem for', pid); continue
    if any(t.endswith('_partial') for t in ts) and status == 'proved': print('check partial', pid)
    claims.append({'property': pid, 'status': status, 'theorems': ts, 'note': n.get('note', '')})
if thms: print('theorems for unlisted properties:', thms)
json.dump({'claims': claims}, open('/verif/MANIFEST.json', 'w'), indent=1)
