#!/usr/bin/env python3
"""Regenerate MANIFEST.json from the theorem names found in Verif/Props and the notes below."""
import json, re, glob, os
root = os.path.dirname(os.path.dirname(os.path.abspath(__file__)))
exec(open(os.path.join(root, 'tools', 'notes.py')).read())   # NOTES: id -> (status, note)
thms = {}
for f in sorted(glob.glob(os.path.join(root, 'lean/Verif/Props/*.lean'))):
    ns = 'Gmid.Props'
    for m in re.finditer(r'^theorem (C(\d\d+)_\w+)', open(f).read(), re.M):
        thms.setdefault('C' + m.group(2), []).append(ns + '.' + m.group(1))
ids = [json.loads(l)['id'] for l in open(os.path.join(root, 'properties.jsonl'))]
claims = []
for i in ids:
    if i not in NOTES: continue
    st, note = NOTES[i]
    if st != 'not_applicable' and i not in thms:
        print('no theorems for', i); continue
    claims.append({"property": i, "status": st, "theorems": thms.get(i, []), "note": note})
for i in thms:
    if i not in NOTES: print('theorems without note:', i)
json.dump({"claims": claims}, open(os.path.join(root, 'MANIFEST.json'), 'w'), indent=1, ensure_ascii=False)
print(len(claims), 'claims', sum(len(c['theorems']) for c in claims), 'theorems; missing', [i for i in ids if i not in NOTES])
