#!/usr/bin/env python3
"""Writes MANIFEST.json; run from anywhere."""
import json, os
NS = 'Paradigm.Props.'
claims = []


def c(prop, status, theorems, note):
    claims.append({'property': prop, 'status': status,
                   'theorems': [NS + t for t in theorems.split()], 'note': note})


exec(open(os.path.join(os.path.dirname(__file__), 'claims.py')).read())
root = os.path.dirname(os.path.dirname(os.path.abspath(__file__)))
ids = [json.loads(l)['id'] for l in open(os.path.join(root, 'properties.jsonl'))]
assert len({x['property'] for x in claims}) == len(claims)
assert all(x['property'] in ids for x in claims)
claims.sort(key=lambda x: x['property'])
json.dump({'claims': claims}, open(os.path.join(root, 'MANIFEST.json'), 'w'), indent=1)
print('missing:', [i for i in ids if i not in {x['property'] for x in claims}])
