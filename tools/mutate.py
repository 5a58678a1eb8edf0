#!/usr/bin/env python3
"""Mutation runs over the model: small edits in the definitions of a file, each tried in a scratch copy without the examples.
usage: mutate.py out.jsonl seed per_def file...      Survivors are reviewed by hand: harmless, or a theorem to tighten."""
import json, os, random, re, shutil, signal, subprocess, sys, time
SRC, DST = '/verif/lean', '/tmp/mut/lean'
OPS = [(r'\b0x([0-9a-fA-F]+)\b', lambda m: hex(int(m.group(1), 16) ^ 1)), (r'\b0x([0-9a-fA-F]+)\b', lambda m: hex(int(m.group(1), 16) >> 1)),
       (r'(?<![\w.])(\d+)(?![\w.])', lambda m: str(int(m.group(1)) + 1)), (r'(?<![\w.])([1-9]\d*)(?![\w.])', lambda m: str(int(m.group(1)) - 1)),
       (r' < ', lambda m: ' ≤ '), (r' ≤ ', lambda m: ' < '), (r' > ', lambda m: ' ≥ '), (r' ≥ ', lambda m: ' > '),
       (r' = ', lambda m: ' ≠ '), (r' ≠ ', lambda m: ' = '), (r' == ', lambda m: ' != '), (r' \+ ', lambda m: ' - '), (r' - ', lambda m: ' + '), (r' \* ', lambda m: ' + '),
       (r' &&& ', lambda m: ' ||| '), (r' \|\|\| ', lambda m: ' &&& '), (r' \^\^\^ ', lambda m: ' ||| '), (r' >>> ', lambda m: ' <<< '), (r' <<< ', lambda m: ' >>> '),
       (r'\btake\b', lambda m: 'drop'), (r'\bdrop\b', lambda m: 'take'), (r' ∧ ', lambda m: ' ∨ '), (r' ∨ ', lambda m: ' ∧ '), (r' && ', lambda m: ' || '), (r' \|\| ', lambda m: ' && '),
       (r'\btrue\b', lambda m: 'false'), (r'\bfalse\b', lambda m: 'true'), (r'(\S+) \+\+ (\[?[\w.]+\]?)', lambda m: m.group(1)), (r'\.reverse\b', lambda m: ''),
       (r' / ', lambda m: ' % '), (r' % ', lambda m: ' / '), (r'\.getD (\w+) 0', lambda m: '.getD (%s + 1) 0' % m.group(1))]
def blocks(t):
    for m in re.finditer(r'^(?:private |protected |@\[[^\]]*\] )*def (\S+)(?:.|\n(?=[ \t\n|]))*', t, re.M):
        yield m.group(1), m.start(), m.end()
def body_start(s):
    i = s.find(':=')
    j = re.search(r'\n  \| ', s)
    return min([x for x in (i, j.start() if j else -1) if x >= 0] or [len(s)])
def mutants(f, per, rnd):
    t = open(os.path.join(SRC, f)).read()
    for name, a, b in blocks(t):
        s = t[a:b]; k = body_start(s); seen = set(); c = []
        com = [(m.start(), m.end()) for m in re.finditer(r'--[^\n]*|/-(?:.|\n)*?-/', s)]
        for rx, fn in OPS:
            for m in re.finditer(rx, s[k:]):
                x, y = m.start() + k, m.end() + k
                if any(u <= x < v for u, v in com): continue
                new = s[:x] + fn(m) + s[y:]
                if new != s and new not in seen:
                    seen.add(new); c.append((x, m.group(0), fn(m), new))
        rnd.shuffle(c)
        for x, o, n, new in c[:per]:
            ln = s[:x].count('\n'); line = s.split('\n')[ln].strip()
            yield name, line, o.strip(), n.strip(), t[:a] + new + t[b:]
def strip(t):
    t = re.sub(r'^#guard.*\n(?:  .*\n)*', lambda m: '\n' * m.group(0).count('\n'), t, flags=re.M)
    return re.sub(r'^(?:/--(?:(?!-/).)*-/\n)?example .*?(?=^\n|^end )', lambda m: '\n' * m.group(0).count('\n'), t + '\n', flags=re.M | re.S)
def enclosing(path, line):
    for l in reversed(open(path).read().split('\n')[:line]):
        m = re.match(r'^(?:private |protected |@\[[^\]]*\] )*(theorem|def|example|instance|lemma|inductive|structure)\s*([^\s:({\[]*)', l)
        if m: return (m.group(1) + ' ' if m.group(1) != 'theorem' else '') + m.group(2)
    return '?'
def build(f):
    p = subprocess.Popen(['nice', 'lake', 'build', 'Verif'], cwd=DST, stdout=subprocess.PIPE, stderr=subprocess.STDOUT, text=True, start_new_session=True)
    fails, timer = [], subprocess.Popen(['sleep', '1800'])
    for l in p.stdout:
        m = re.match(r'^error: (Verif/[\w/]+\.lean):(\d+):', l)
        if m:
            n = m.group(1)[6:-5].replace('/', '.') + ': ' + enclosing(os.path.join(DST, m.group(1)), int(m.group(2)))
            if n not in fails: fails.append(n)
        if fails and re.match(r'^[✖✔⚠]|^Some required', l) and len(fails) and not l.startswith('✖'):
            os.killpg(p.pid, signal.SIGKILL); break
        if timer.poll() is not None: os.killpg(p.pid, signal.SIGKILL); fails.append('timeout'); break
    timer.kill(); p.wait()
    return fails
if __name__ == '__main__':
    out, seed, per, files = sys.argv[1], int(sys.argv[2]), int(sys.argv[3]), sys.argv[4:]
    rnd = random.Random(seed)
    os.makedirs('/tmp/mut', exist_ok=True)
    subprocess.run(['cp', '-a', '--update', SRC, '/tmp/mut/'], check=True) if os.path.isdir(DST) else shutil.copytree(SRC, DST, symlinks=True)
    for r, d, fs in os.walk(DST + '/Verif'):
        for x in fs:
            q = os.path.join(r, x); t = open(os.path.join(SRC, os.path.relpath(q, DST))).read(); n = strip(t)
            if open(q).read() != n: open(q, 'w').write(n)
    r = subprocess.run(['lake', 'build', 'Verif'], cwd=DST, capture_output=True, text=True)
    assert r.returncode == 0, r.stdout[-3000:]
    done = set((json.loads(l)['def'], json.loads(l)['line'], json.loads(l)['new']) for l in open(out)) if os.path.exists(out) else set()
    for f in files:
        base = open(os.path.join(DST, f)).read()
        for name, line, o, n, text in mutants(f, per, rnd):
            if (name, line, n) in done: continue
            while os.path.exists('/tmp/mut/pause'): time.sleep(5)
            open(os.path.join(DST, f), 'w').write(strip(text))
            fails = build(f)
            open(os.path.join(DST, f), 'w').write(base)
            mod = f[6:-5].replace('/', '.')
            kind = 'INVALID' if any(x.startswith(mod + ': def ') for x in fails) else 'CAUGHT' if fails else 'MISSED'
            rec = {"file": f, "def": name, "line": line, "old": o, "new": n, "kind": kind, "failed": fails}
            open(out, 'a').write(json.dumps(rec, ensure_ascii=False) + '\n')
            print(kind, name, '|', line, '|', o, '->', n, '|', ', '.join(fails)[:120], flush=True)
