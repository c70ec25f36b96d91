#!/usr/bin/env python3
"""Generates DESIGN.md: fixed text + a table of properties from MANIFEST.json / properties.jsonl."""
import json,os
R=os.path.join(os.path.dirname(__file__),'..')
props={}
for l in open(R+'/properties.jsonl'):
    d=json.loads(l); props[d['id']]=d
man={c['property']:c for c in json.load(open(R+'/MANIFEST.json'))['claims']}
rows=[]
for k in sorted(props):
    c=man.get(k)
    rows.append(f"| {k} | {props[k]['title']} | {c['status'] if c else 'planned'} | {c['note'].replace('|','/') if c else ''} |")
t=open(R+'/tools/design.in.md').read().replace('@TABLE@','\n'.join(rows))
open(R+'/DESIGN.md','w').write(t)
