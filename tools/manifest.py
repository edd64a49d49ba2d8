#!/usr/bin/env python3
"""Writes MANIFEST.json from the theorem names Cnn_... in lean/Verif/Props and tools/notes.json."""
import json, re, glob, os
root = os.path.dirname(os.path.dirname(os.path.abspath(__file__)))
notes = json.load(open(os.path.join(root, 'tools', 'notes.json')))
thms = {}
for f in sorted(glob.glob(root + '/lean/Verif/Props/*.lean')):
    ns = []
    for l in open(f):
        m = re.match(r'(namespace|section|end)\b\s*(\S*)', l)
        if m and m.group(1) == 'namespace':
            ns.append(m.group(2))
        elif m and m.group(1) == 'section':
            ns.append(None)
        elif m:
            ns.pop()
        m = re.match(r'(?:private |protected )?theorem ((C\d+)_[^\s:({\[]*)', l)
        if m:
            thms.setdefault(m.group(2), []).append('.'.join([n for n in ns if n] + [m.group(1)]))
claims = []
for l in open(root + '/properties.jsonl'):
    pid = json.loads(l)['id']
    ts = thms.get(pid, [])
    partial = any(t.endswith('_partial') or t.endswith('_fails') for t in ts)
    if not ts:
        claims.append({'property': pid, 'status': 'partial', 'theorems': [], 'note': notes.get(pid, 'No theorem yet.')})
    else:
        claims.append({'property': pid, 'status': 'partial' if partial else 'proved', 'theorems': ts, 'note': notes.get(pid, '')})
json.dump({'claims': claims}, open(root + '/MANIFEST.json', 'w'), indent=1)
print(sum(c['status'] == 'proved' for c in claims), 'proved', sum(c['status'] == 'partial' for c in claims), 'partial',
      [c['property'] for c in claims if not c['theorems']])
