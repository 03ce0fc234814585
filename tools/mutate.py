#!/usr/bin/env python3
"""Apply edits to a scratch copy of the model and record which theorems fail.

usage: mutate.py MUTATIONS.json [--dry]   (a list of {file, old, new, edit, claim, definition, why?, tightened?})
The modules with the theorems of the claim are built first; if they all build, everything is built.
Appends one line per mutation to seeded/LOG.jsonl, except for those which survive: they are written to /tmp/survivors.jsonl
and are run again after the theorems have been tightened."""
import json, os, re, subprocess, sys, shutil
root = os.path.abspath(os.path.join(os.path.dirname(os.path.abspath(__file__)), '..'))
scratch = os.environ.get('MUT_DIR', '/tmp/mut') + '/lean'

def name_at(path, line):
    src = open(path).read().split('\n')
    for i in range(min(line, len(src)) - 1, -1, -1):
        m = re.match(r'\s*(?:@\[[^\]]*\]\s*)?(?:private |noncomputable )*(theorem|lemma|def|instance|example)\b\s*([\w.\']*)', src[i])
        if m:
            return m.group(2) or 'example@%s:%d' % (os.path.relpath(path, scratch), i + 1)
    return '?'

def props_in(path):
    src = open(path).read()
    return [(m.group(1), m.group(2)) for m in re.finditer(r'/--\s*(C\d\d+(?:\s*,\s*C\d\d+)*)(?:(?:(?!-/).)*?)-/\s*(?:@\[[^\]]*\]\s*)?theorem\s+([\w.\']+)', src, re.S)]

def dependents(mods, start):
    r = set(start); ch = True
    while ch:
        ch = False
        for k, v in mods.items():
            if k not in r and any(x in r for x in v):
                r.add(k); ch = True
    return r

muts = json.load(open(sys.argv[1]))
os.makedirs(os.path.dirname(scratch), exist_ok=True)
subprocess.run(['rsync', '-a', '--delete', root + '/lean/', scratch + '/'], check=True) if shutil.which('rsync') else (shutil.rmtree(scratch, ignore_errors=True), subprocess.run(['cp', '-a', root + '/lean', scratch], check=True))
mods, props = {}, {}
for d, _, fs in os.walk(os.path.join(scratch, 'Verif')):
    for f in fs:
        if f.endswith('.lean'):
            p = os.path.join(d, f)
            k = os.path.relpath(p, scratch)[:-5].replace('/', '.')
            mods[k] = re.findall(r'^import (\S+)', open(p).read(), re.M)
            props[k] = props_in(p)
for m in muts:
    path = os.path.join(scratch, 'Verif', m['file'])
    orig = open(path).read()
    n = orig.count(m['old'])
    if n != 1:
        print('!! %s: pattern found %d times: %r' % (m['definition'], n, m['old']), flush=True); continue
    open(path, 'w').write(orig.replace(m['old'], m['new']))
    ids = re.findall(r'C\d\d+', m['claim'])
    deps = dependents(mods, ['Verif.' + m['file'][:-5].replace('/', '.')])
    targets = sorted(k for k in deps if any(x in c for c, t in props[k] for x in ids))
    out, code = '', 0
    if targets:
        r = subprocess.run(['lake', 'build'] + targets, cwd=scratch, capture_output=True, text=True)
        out, code = r.stdout + r.stderr, r.returncode
    if code == 0 and not (targets and 'MUT_QUICK' in os.environ):
        r = subprocess.run(['lake', 'build'], cwd=scratch, capture_output=True, text=True)
        out, code = out + r.stdout + r.stderr, r.returncode
        if code: print('## the theorems of the claim still build', flush=True)
    failed = []
    for e in re.finditer(r'error: (Verif/[\w/]+\.lean):(\d+):', out):
        nm = name_at(os.path.join(scratch, e.group(1)), int(e.group(2)))
        if nm not in failed: failed.append(nm)
    bad = set(re.findall(r'- (Verif[\w.]*)', out))
    unproved = [t for k in sorted(dependents(mods, bad) - bad) for c, t in props.get(k, []) if any(x in c for x in ids)]
    entry = {'definition': m['definition'], 'edit': m['edit'], 'claim_broken': m['claim'] + (': ' + m['why'] if 'why' in m else ''),
             'theorems_failed': failed, 'claim_theorems_not_rebuilt': unproved, 'theorems_tightened': m.get('tightened', [])}
    open(path, 'w').write(orig)
    print(json.dumps(entry), flush=True)
    if m['definition'] in failed: print('?? the edit does not compile', flush=True); continue
    if code == 0:
        print('!!!! SURVIVED', flush=True)
        with open('/tmp/survivors.jsonl', 'a') as f: f.write(json.dumps(m) + '\n')
        if 'harmless' not in m: continue
        entry['note'] = m['harmless']
    if '--dry' not in sys.argv:
        with open(os.path.join(root, 'seeded', 'LOG.jsonl'), 'a') as f: f.write(json.dumps(entry) + '\n')
