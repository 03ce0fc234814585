#!/usr/bin/env python3
"""Register a property: register.py FILE.json

FILE.json holds a property (fields of properties.jsonl) with the additional fields
`model` and `proof` (row of DESIGN.md) and `negative` (list of [theorem, text]).
"""
import json, sys
root = '/verif/'
o = json.load(open(sys.argv[1]))
for o in (o if isinstance(o, list) else [o]):
    model, proof, negative = o.pop('model'), o.pop('proof'), o.pop('negative', [])
    lines = open(root + 'properties.jsonl').read().splitlines()
    assert all(json.loads(l)['id'] != o['id'] for l in lines if l.strip())
    open(root + 'properties.jsonl', 'a').write(json.dumps(o) + '\n')
    s = open(root + 'DESIGN.md').read().split('\n')
    i = max(k for k, l in enumerate(s) if l.startswith('| C') and l[3].isdigit())
    s.insert(i + 1, f"| {o['id']} | {model} | {proof} |")
    j = max(k for k, l in enumerate(s) if l.startswith('* C') and l[3].isdigit())
    for k, (t, text) in enumerate(negative):
        s.insert(j + 1 + k, f"* {o['id']} `{t}`: {text}")
    open(root + 'DESIGN.md', 'w').write('\n'.join(s))
