#!/usr/bin/env python3
"""Regenerates MANIFEST.json: collects the theorems named C<nn>_... from lean/Verif/Props and joins them with the
status/notes table tools/status.json ({"C05": ["partial", "note"], ...}; default "proved")."""
import json, glob, re, os
root = os.path.dirname(os.path.dirname(os.path.abspath(__file__)))
thms = {}
for p in sorted(glob.glob(root + '/lean/Verif/Props/*.lean')):
    for m in re.finditer(r'^theorem (C\d\d+[a-zA-Z]*)_(\w+)', open(p).read(), re.M):
        thms.setdefault(m.group(1), []).append('BigO.' + m.group(1) + '_' + m.group(2))
status = json.load(open(root + '/tools/status.json'))
claims = []
for line in open(root + '/properties.jsonl'):
    pid = json.loads(line)['id']
    st, note = status.get(pid, ["proved", ""])
    ts = thms.pop(pid, [])
    if not ts and st != 'not_applicable':
        print('no theorem yet:', pid); continue
    claims.append({"property": pid, "status": st, "theorems": ts, "note": note})
for k in thms: print('theorems without property:', k, thms[k])
json.dump({"claims": claims}, open(root + '/MANIFEST.json', 'w'), indent=1, ensure_ascii=False)
print(len(claims), 'claims')
