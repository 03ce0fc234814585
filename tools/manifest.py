#!/usr/bin/env python3
"""Regenerate MANIFEST.json from the doc comments of the Lean sources.

A theorem whose doc comment starts with "Cnn" (possibly "Cnn, Cmm") is listed under these properties.
Statuses and notes come from tools/status.json."""
import glob, json, re, os
root = os.path.join(os.path.dirname(os.path.abspath(__file__)), '..')
props = [json.loads(l)['id'] for l in open(os.path.join(root, 'properties.jsonl'))]
status = json.load(open(os.path.join(root, 'tools', 'status.json')))
thms = {p: [] for p in props}
negs = {p: [] for p in props}
for f in sorted(glob.glob(os.path.join(root, 'lean/Verif/**/*.lean'), recursive=True)):
    src = open(f).read()
    ns = []
    for m in re.finditer(r'^(namespace|end)[ \t]+([\w.]+)[ \t]*$|/--\s*(C\d\d+(?:\s*,\s*C\d\d+)*)((?:(?!-/).)*?)-/\s*(?:@\[[^\]]*\]\s*)?theorem\s+([\w.\']+)', src, re.M | re.S):
        if m.group(1) == 'namespace':
            ns.append(m.group(2))
        elif m.group(1) == 'end':
            if ns and ns[-1] == m.group(2):
                ns.pop()
        else:
            name = '.'.join(ns + [m.group(5)])
            for p in re.findall(r'C\d\d+', m.group(3)):
                thms[p].append(name)
                if m.group(4).lstrip().startswith('(negative'):
                    negs[p].append(name)
claims = []
for p in props:
    st = status.get(p)
    if st is None:
        continue
    claims.append({'property': p, 'status': st['status'], 'theorems': thms[p], 'note': ' '.join(filter(None, [
        st['note'], negs[p] and 'Negative results, false of the code as it is: ' + ', '.join(negs[p]) + '.']))})
json.dump({'claims': claims}, open(os.path.join(root, 'MANIFEST.json'), 'w'), indent=1)
for p in props:
    print(p, status.get(p, {}).get('status'), len(thms[p]))
