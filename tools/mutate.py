#!/usr/bin/env python3
"""Mutation testing of the theorems.

usage: mutate.py mutants_file.py [id ...]
Each mutant edits the model in a scratch copy (/tmp/mut) the way a realistic bug would, rebuilds the modules of the
properties whose claim the edit falsifies, and records which theorems fail.  The result goes to seeded/LOG.jsonl.
A mutant with no failing theorem is reported as SURVIVED.
"""
import json, os, re, subprocess, sys, runpy, time
ROOT = '/verif/lean'; BASE = '/tmp/base'; MUT = '/tmp/mut'; LOG = '/verif/seeded/LOG.jsonl'

def sh(c): return subprocess.run(c, shell=True, capture_output=True, text=True)

def sync_base():
    sh(f'mkdir -p {BASE}; rsync -a --delete {ROOT}/ {BASE}/') if sh('which rsync').returncode == 0 else sh(f'rm -rf {BASE}; cp -a {ROOT} {BASE}')

def fresh():
    if sh('which rsync').returncode == 0: sh(f'mkdir -p {MUT}; rsync -a --delete {BASE}/ {MUT}/')
    else: sh(f'rm -rf {MUT}; cp -a {BASE} {MUT}')

DECL = re.compile(r'^(?:@\[[^\]]*\]\s*)?(?:private |protected |noncomputable |nonrec )*(theorem|lemma|example|def|instance|abbrev)\s*([^\s:({\[]*)')
def decl_at(path, line):
    ls = open(path).read().split('\n')
    for i in range(min(line, len(ls)) - 1, -1, -1):
        m = DECL.match(ls[i])
        if m: return (m.group(2) or m.group(1)) if m.group(1) != 'example' else f'example@{i+1}'
    return '?'

def run(m):
    fresh()
    path = f'{MUT}/Verif/{m["file"]}'
    s = open(path).read()
    n = s.count(m['old'])
    if n != m.get('count', 1): return dict(err=f'old string occurs {n} times')
    k = m.get('nth')
    if k is None: s = s.replace(m['old'], m['new'])
    else:
        parts = s.split(m['old']); s = m['old'].join(parts[:k+1]) + m['new'] + m['old'].join(parts[k+1:])
    open(path, 'w').write(s)
    for f, old, new in m.get('also', []):   # the same bug in a second definition
        q = f'{MUT}/Verif/Model/{f}.lean'
        u = open(q).read()
        if u.count(old) != 1: return dict(err=f'also: {old!r} occurs {u.count(old)} times')
        open(q, 'w').write(u.replace(old, new))
    mods = ' '.join('Verif.Props.' + p for p in m['props'])
    t = time.time()
    r = sh(f'cd {MUT} && timeout 1500 lake build {mods} 2>&1')
    fails = {}; order = []
    for l in r.stdout.split('\n'):
        e = re.match(r'error: (Verif/[\w/]+\.lean):(\d+):(\d+)', l)
        if e:
            d = decl_at(f'{MUT}/{e.group(1)}', int(e.group(2)))
            key = e.group(1)[6:-5].replace('/', '.') + ':' + d
            if key not in order: order.append(key)
    mod_failed = sorted(set(re.findall(r'^- (Verif\.\S+)', r.stdout, re.M)))
    return dict(failed=order, modules=mod_failed, rc=r.returncode, secs=int(time.time() - t), out=r.stdout[-1500:])

if __name__ == '__main__':
    muts = runpy.run_path(sys.argv[1])['M']
    ids = sys.argv[2:]
    dry = 'check' in ids
    done = set()
    if os.path.exists(LOG): done = {json.loads(l).get('id') for l in open(LOG) if l.strip()}
    if not dry: sync_base()
    for m in muts:
        if dry:
            s = open(f'{ROOT}/Verif/{m["file"]}').read(); n = s.count(m['old'])
            if n != m.get('count', 1): print(m['id'], 'occurs', n)
            continue
        if ids and m['id'] not in ids: continue
        if not ids and m['id'] in done: continue
        r = run(m)
        if 'err' in r: print(m['id'], 'BAD', r['err'], flush=True); continue
        mod = m['file'][:-5].replace('/', '.')
        badmodel = [f for f in r['failed'] if f.startswith('Model.')]
        status = 'killed' if r['failed'] else ('SURVIVED' if r['rc'] == 0 else 'BUILD?')
        if badmodel: status = 'MODEL-BROKEN'
        print(m['id'], status, r['secs'], 's', m['definition'], r['failed'][:6], '' if status == 'killed' else r['out'][-600:], flush=True)
        if status in ('killed',):
            rec = dict(id=m['id'], definition=m['definition'], edit=f"{m['old']}  ->  {m['new']}", file='lean/Verif/' + m['file'],
                       claim_broken=m['claim'], properties=m['props'], theorems_failed=r['failed'], theorems_tightened=m.get('tightened', []))
            with open(LOG, 'a') as f: f.write(json.dumps(rec, ensure_ascii=False) + '\n')
