#!/usr/bin/env python3
"""Scan lean/Verif/Props for theorems named Cnn_... and write MANIFEST.json.
Status: partial as soon as a theorem of the property ends in _partial or _false*,
unless overridden in notes.  Notes live in tools/notes.json ({"C01": "..."})."""
import re, glob, json, os
root = os.path.dirname(os.path.dirname(os.path.abspath(__file__)))
props = [json.loads(l) for l in open(f'{root}/properties.jsonl')]
nf = f'{root}/tools/notes.json'
notes = json.load(open(nf)) if os.path.exists(nf) else {}
th = {}
docs = {}
for f in sorted(glob.glob(f'{root}/lean/Verif/Props/**/*.lean', recursive=True)):
    for m in re.finditer(r'/--((?:(?!-/).)*?)-/\s*\n(?:(?:include|omit|open|set_option) .*\n)*theorem (C\d\d+_\w+)', open(f).read(), re.S):
        docs[m.group(2)] = ' '.join(m.group(1).split())
    for m in re.finditer(r'^(?:protected )?theorem (C\d\d+)_(\w+)', open(f).read(), re.M):
        th.setdefault(m.group(1), []).append(f'Aerokit.Props.{m.group(1)}_{m.group(2)}')
claims = []
for p in props:
    i = p['id']; t = th.get(i, [])
    if not t: continue
    part = any(re.search(r'(_partial|_false)', x) for x in t)
    note = notes.get(i, "")
    if part and not note:
        ds = [x.split('.')[-1] + ': ' + docs[x.split('.')[-1]] for x in t if re.search(r'(_partial|_false)', x) and x.split('.')[-1] in docs]
        note = ' | '.join(ds)
    claims.append({"property": i, "status": "partial" if part else "proved", "theorems": t,
                   "note": note})
json.dump({"claims": claims}, open(f'{root}/MANIFEST.json', 'w'), indent=1)
print(len(claims), 'claims', sum(c['status'] == 'partial' for c in claims), 'partial; missing',
      [p['id'] for p in props if p['id'] not in th])
