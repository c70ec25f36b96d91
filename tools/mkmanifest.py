"""Regenerate MANIFEST.json from tools/claims.txt: `C01 status | note` followed by theorem names."""
import json, os
here = os.path.dirname(__file__)
claims = []
for line in open(os.path.join(here, 'claims.txt')):
    line = line.rstrip('\n')
    if not line or line.startswith('#'):
        continue
    if not line.startswith(' '):
        head, _, note = line.partition('|')
        pid, status = head.split()
        claims.append(dict(property=pid, status=status, theorems=[], note=note.strip()))
    else:
        claims[-1]['theorems'] += line.split()
json.dump({'claims': claims}, open(os.path.join(here, '..', 'MANIFEST.json'), 'w'), indent=1)
