#!/usr/bin/env python3
"""Seeded-bug runs: apply an edit to a scratch copy of the Lean project, rebuild, list the theorems that fail, and log.
usage: seed.py batch.json   with [{"file","def","old","new","edit","breaks","target"?}, ...]"""
import json, os, re, shutil, subprocess, sys
SRC, DST = '/verif/lean', '/tmp/seed/lean'
def sync():
    os.makedirs('/tmp/seed', exist_ok=True)
    subprocess.run(['rsync', '-a', '--delete', SRC + '/', DST + '/'], check=True) if shutil.which('rsync') else (
        shutil.rmtree(DST, ignore_errors=True), subprocess.run(['cp', '-a', SRC, DST], check=True))
def enclosing(path, line):
    ls = open(path).read().split('\n')[:line]
    for l in reversed(ls):
        m = re.match(r'^(?:private |protected |@\[[^\]]*\] )*(theorem|def|example|instance|lemma|inductive|structure)\s*([^\s:({\[]*)', l)
        if m: return m.group(1) + ' ' + m.group(2) if m.group(1) != 'theorem' else m.group(2)
    return '?'
def names_at(text, old):
    """Declarations touched by the first occurrence of the text: the one it lies in and those it contains."""
    i = text.find(old)
    ds = [m for m in re.finditer(r'^(?:def|structure|abbrev|inductive) (\S+)', text, re.M) if m.start() < i + len(old)]
    inside = [m.group(1) for m in ds if m.start() >= i]
    before = [m.group(1) for m in ds if m.start() < i][-1:]
    return before + inside
def run(e, log=True):
    f = os.path.join(DST, e['file'])
    orig = open(f).read()
    assert orig.count(e['old']) >= 1, ('old text not found', e)
    if not e.get('all'):
        landed = names_at(orig, e['old'])
        assert any(e['def'].split('.')[-1].split(' ')[0].lower() in n.lower() for n in landed), ('edit lands in', landed, e['def'])
    open(f, 'w').write(orig.replace(e['old'], e['new'], 1 if not e.get('all') else -1))
    kept = {}
    for g in e.get('strip', []):      # leave out the examples of these files, to see what the theorems say
        kept[g] = open(os.path.join(DST, g)).read()
        open(os.path.join(DST, g), 'w').write(re.sub(r'^(?:/--(?:(?!-/).)*-/\n)?example .*?(?=^\n)', lambda m: '\n' * m.group(0).count('\n'), kept[g] + '\n', flags=re.M | re.S))
    try:
        r = subprocess.run(['lake', 'build'] + e.get('target', 'Verif').split(), cwd=DST, capture_output=True, text=True, timeout=3000)
    finally:
        open(f, 'w').write(orig)
        for g, t in kept.items(): open(os.path.join(DST, g), 'w').write(t)
    out = r.stdout + r.stderr
    fails = []
    for m in re.finditer(r'^error: (Verif/[\w/]+\.lean):(\d+):', out, re.M):
        n = enclosing(os.path.join(DST, m.group(1)), int(m.group(2)))
        mod = m.group(1)[6:-5].replace('/', '.')
        t = mod + ': ' + n
        if t not in fails: fails.append(t)
    model_errors = [t for t in fails if t.startswith(e['file'][6:-5].replace('/', '.') + ': ') and (': def ' in t or ': structure ' in t)]
    if model_errors:
        print('INVALID (the edited model does not compile, nothing tested) ' + e['def'] + ' | ' + e['edit'], model_errors); return None
    rec = {"definition": e['def'], "edit": e['edit'], "breaks": e['breaks'], "failed": fails, "tightened": e.get('tightened', [])}
    if e.get('note'): rec['note'] = e['note']
    print(('CAUGHT ' if fails else 'MISSED ') + e['def'] + ' | ' + e['edit'] + ' -> ' + ', '.join(fails)[:200])
    if not fails: print(out[-500:])
    if log:
        open('/verif/seeded/LOG.jsonl', 'a').write(json.dumps(rec, ensure_ascii=False) + '\n')
    return rec
if __name__ == '__main__':
    sync()
    for e in json.load(open(sys.argv[1])):
        run(e, log='--nolog' not in sys.argv)
    # restore compiled files for the unmodified sources is not needed: lake rehashes
