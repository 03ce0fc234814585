#!/usr/bin/env python3
"""Mutation operators applied automatically to the definitions of the model.

usage: automutate.py PRISTINE OUT [--per N] [--seed S] [--files PREFIX,...] [--skip-mutated]
PRISTINE is a built copy of lean/.  Each definition which cites the source gets up to N mutants; each mutant is built in a scratch
copy until the first error.  One JSON line per mutant is written to OUT: killed (with the first theorems which fail), invalid (the
definition itself does not compile) or survived.  Survivors are to be looked at: either the edit makes no difference to any claim, or
a theorem is to be tightened."""
import json, os, random, re, signal, subprocess, sys, shutil, time
args = sys.argv[1:]
pristine, outfile = args[0], args[1]
def opt(name, default):
    return args[args.index(name) + 1] if name in args else default
per = int(opt('--per', '2')); rnd = random.Random(int(opt('--seed', '1')))
prefixes = [p for p in opt('--files', '').split(',') if p]
root = os.path.abspath(os.path.join(os.path.dirname(os.path.abspath(__file__)), '..'))
scratch = os.environ.get('MUT_DIR', '/tmp/auto') + '/lean'

def sync():
    for d, ds, fs in os.walk(pristine):
        rel = os.path.relpath(d, pristine); t = os.path.join(scratch, rel)
        os.makedirs(t, exist_ok=True)
        for f in fs:
            a, b = os.path.join(d, f), os.path.join(t, f)
            try:
                sa = os.stat(a)
                sb = os.stat(b) if os.path.exists(b) else None
                if sb is None or sa.st_size != sb.st_size or sa.st_mtime_ns != sb.st_mtime_ns:
                    if sb is not None: os.remove(b)
                    shutil.copy2(a, b)
            except FileNotFoundError:
                pass

def name_at(path, line):
    src = open(path).read().split('\n')
    for i in range(min(line, len(src)) - 1, -1, -1):
        m = re.match(r'\s*(?:@\[[^\]]*\]\s*)?(?:private |protected |noncomputable )*(theorem|lemma|def|instance|example|structure|inductive|abbrev)\b\s*([\w.\']*)', src[i])
        if m:
            return m.group(1), m.group(2) or 'example@%s:%d' % (os.path.relpath(path, scratch), i + 1)
    return '?', '?'

OPS = [(r' < ', ' ≤ '), (r' ≤ ', ' < '), (r' > ', ' ≥ '), (r' ≥ ', ' > '), (r' \+ 1\b', ''), (r' - 1\b', ''), (r'\btrue\b', 'false'),
       (r'\bfalse\b', 'true'), (r' && ', ' || '), (r' \|\| ', ' && '), (r' ∧ ', ' ∨ '), (r' ∨ ', ' ∧ '), (r' = ', ' ≠ '), (r' ≠ ', ' = '),
       (r'\b0\b', '1'), (r'\b1\b', '0'), (r'\b1\b', '2'), (r'\b2\b', '1'), (r'(?<=[\w)])\.1\b', '.2'), (r'(?<=[\w)])\.2\b', '.1'),
       (r' \+ ', ' - '), (r' - ', ' + '), (r' \* ', ' + '), (r'¬ ', ''), (r' % ', ' / '), (r'(?<!\w)-(?=\w)', ''),
       (r'(?<=\bif )(.+?)(?= then\b)', r'¬ (\1)'), (r'throw \.runtimeError', 'ub'), (r'\bub\b', '.throw .runtimeError'), (r'\.take\b', '.drop'),
       (r'\.drop\b', '.take'), (r'\bmin\b', 'max'), (r'\bmax\b', 'min'), (r'\.reverse\b', ''), (r'if (.+?) then (\S+) else (\S+)', r'if \1 then \3 else \2')]

def mutants(block, start):
    """Edits of the body: positions after the first `:=` or `|` of the definition."""
    m = re.search(r':=|\n\s*\||\bwhere\b', block)
    if not m: return []
    base = m.start()
    found = []
    for pat, rep in OPS:
        for k in re.finditer(pat, block[base:]):
            if pat == r' = ' and not re.search(r'\bif\b|decide', block[base:][max(0, k.start() - 60):k.start()]): continue
            new = block[:base + k.start()] + k.expand(rep) + block[base + k.end():]
            line = block[:base + k.start()].count('\n')
            if '--' in block.split('\n')[line]: continue
            found.append((new, k.group(0).strip() + ' -> ' + k.expand(rep).strip(), line, block.split('\n')[line].strip()))
    rnd.shuffle(found)
    seen, out = set(), []
    for f in found:
        if f[0] != block and f[0] not in seen:
            seen.add(f[0]); out.append(f)
    return out

mutated = set()
if '--skip-mutated' in args:
    for l in open(root + '/seeded/LOG.jsonl'):
        for x in re.split(r'[ ,/]+', json.loads(l)['definition']): mutated.add(x.split('.')[-1])
done = set()
if os.path.exists(outfile):
    for l in open(outfile):
        d = json.loads(l); done.add((d['file'], d['definition']))
sync()
work = []
for d, _, fs in sorted(os.walk(os.path.join(pristine, 'Verif'))):
    for f in sorted(fs):
        if not f.endswith('.lean'): continue
        p = os.path.join(d, f); rel = os.path.relpath(p, os.path.join(pristine, 'Verif')); t = open(p).read()
        if prefixes and not any(rel.startswith(x) for x in prefixes): continue
        for m in re.finditer(r'/--((?:(?!-/).)*)-/\s*(?:@\[[^\]]*\]\s*)?((?:noncomputable |protected |private )*def\s+([\w.\'₁₂]+).*?)(?=\n\n|\Z)', t, re.S):
            if not re.search(r'\.(cc|hh|tcc|py):\d', m.group(1)): continue
            if m.group(3).split('.')[-1] in mutated or (rel, m.group(3)) in done: continue
            ms = mutants(m.group(2), m.start(2))
            if ms: work.append((rel, m.group(3), m.start(2), m.group(2), ms))
print(len(work), 'definitions', flush=True)
for rel, name, pos, block, ms in work:
    src = open(os.path.join(pristine, 'Verif', rel)).read()
    path = os.path.join(scratch, 'Verif', rel)
    valid = 0
    for new, edit, line, text in ms[:4 * per]:
        if valid >= per: break
        sync()
        open(path, 'w').write(src[:pos] + new + src[pos + len(block):])
        t0 = time.time()
        p = subprocess.Popen(['nice', '-n', '10', 'lake', 'build'], cwd=scratch, stdout=subprocess.PIPE, stderr=subprocess.STDOUT, text=True, start_new_session=True)
        errs = []
        for l in p.stdout:
            k = re.match(r'error: (Verif/\S+?\.lean):(\d+):\d+: (.*)', l)
            if k:
                errs.append((k.group(1), int(k.group(2)), k.group(3)))
            if l.startswith('error: Lean exited') or (errs and l.startswith('✖')) or 'build failed' in l:
                break
        if errs or p.poll() is None:
            try: os.killpg(p.pid, signal.SIGKILL)
            except ProcessLookupError: pass
        p.wait()
        rec = dict(file=rel, definition=name, edit=edit, line=text, seconds=round(time.time() - t0))
        if errs:
            names = []
            for f, ln, msg in errs:
                kind, n = name_at(os.path.join(scratch, f), ln)
                if n not in [x[1] for x in names]: names.append((kind, n, f))
            first = names[0]
            if first[2] == 'Verif/' + rel and first[1] == name:
                rec['result'] = 'invalid'
            else:
                rec['result'] = 'killed'; rec['failed'] = [n for _, n, _ in names]; valid += 1
        elif p.returncode == 0:
            rec['result'] = 'survived'; valid += 1
        else:
            rec['result'] = 'unknown'
        open(outfile, 'a').write(json.dumps(rec, ensure_ascii=False) + '\n')
