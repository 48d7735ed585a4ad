#!/usr/bin/env python3
"""Regenerate MANIFEST.json from the theorem names in lean/Verif/Props (Cxx_ prefixes)."""
import re, json, glob, os
root = os.path.dirname(os.path.dirname(os.path.abspath(__file__)))
thms = {}
for f in sorted(glob.glob(root + '/lean/Verif/Props/*.lean')):
    for l in open(f):
        m = re.match(r'(?:protected )?theorem ((?:C\d\d\d?_)+\w*)', l)
        if m:
            for c in re.findall(r'C\d\d\d?(?=_)', re.match(r'(?:C\d\d\d?_)+', m.group(1)).group(0)):
                thms.setdefault(c, []).append('Zkenc.Props.' + m.group(1))
notes = json.load(open(root + '/tools/manifest_notes.json'))
claims = []
for l in open(root + '/properties.jsonl'):
    p = json.loads(l); c = p['id']; n = notes.get(c, {})
    ts = thms.get(c, [])
    st = n.get('status', 'proved' if ts else 'partial')
    if not ts and st != 'not_applicable':
        print('no theorems yet:', c); continue
    claims.append({'property': c, 'status': st, 'theorems': ts, 'note': n.get('note', '')})
json.dump({'claims': claims}, open(root + '/MANIFEST.json', 'w'), indent=1)
