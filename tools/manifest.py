#!/usr/bin/env python3
"""Regenerate MANIFEST.json from the theorem names in lean/Verif/Props and the status table below."""
import json, pathlib, re
root = pathlib.Path(__file__).resolve().parent.parent
names = {}
for f in sorted((root / 'lean/Verif/Props').glob('*.lean')):
    ns = re.search(r'^namespace (\S+)', f.read_text(), re.M).group(1)
    for m in re.finditer(r'^theorem (C(\d\d+)\w*)', f.read_text(), re.M):
        names.setdefault('C' + m.group(2), []).append(ns + '.' + m.group(1))
status = json.loads((root / 'tools/status.json').read_text())
claims = []
for line in (root / 'properties.jsonl').read_text().splitlines():
    p = json.loads(line)['id']
    if p not in names:
        continue
    st = status.get(p, {})
    claims.append({'property': p, 'status': st.get('status', 'proved'), 'theorems': names[p],
                   'note': st.get('note', '')})
(root / 'MANIFEST.json').write_text(json.dumps({'claims': claims}, indent=1, ensure_ascii=False) + '\n')
print(len(claims), 'claims', sum(len(c['theorems']) for c in claims), 'theorems')
