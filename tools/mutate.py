#!/usr/bin/env python3
"""Runs seeded bugs against the theorems. Usage: mutate.py muts.json [LOG.jsonl]
Each mutation {id, file, old, new, definition, edit, claim, property} is applied to a scratch copy of lean/ outside /verif
(/tmp/scratch, with its build output), the project is rebuilt, and the failing theorems are logged."""
import json, os, re, subprocess, sys, glob
SRC = '/verif/lean'; SCR = os.environ.get('SCR', '/tmp/scratch')
def sh(c, **k): return subprocess.run(c, shell=True, capture_output=True, text=True, **k)
def sync():
    os.makedirs(SCR, exist_ok=True)
    sh(f'rsync -a --delete {SRC}/ {SCR}/ 2>/dev/null || (rm -rf {SCR} && cp -a {SRC} {SCR})')
def imports():
    imp = {}
    for f in glob.glob(SCR + '/Verif/**/*.lean', recursive=True):
        m = os.path.relpath(f, SCR)[:-5].replace('/', '.')
        imp[m] = re.findall(r'^import (Verif\.\S+)', open(f).read(), re.M)
    return imp
def thm_at(f, line):
    name = None
    for i, l in enumerate(open(f), 1):
        m = re.match(r'(?:@\[[^\]]*\] *)?(?:private |protected )?(?:noncomputable )?(theorem|lemma|def|example|instance)\s*(\S*)', l)
        if m and i <= line: name = m.group(2) if m.group(1) != 'example' else f'example (line {i})'
    return name
def run(mu):
    f = os.path.join(SCR, mu['file']); orig = open(f).read()
    n = orig.count(mu['old'])
    if n != 1: return {'error': f'pattern occurs {n} times'}
    try:
        open(f, 'w').write(orig.replace(mu['old'], mu['new']))
        # the modules with the theorems of the property first; everything only if they still build
        own = [os.path.relpath(p, SCR)[:-5].replace('/', '.') for p in sorted(glob.glob(SCR + '/Verif/Props/*.lean'))
               if re.search(r'^theorem %s_' % mu['property'], open(p).read(), re.M)]
        for target in [os.environ.get('TARGET') or ' '.join(own), '']:
            out = sh(f'cd {SCR} && LEAN_NUM_THREADS=2 nice lake build {target}', timeout=3600).stdout
            if 'Build completed successfully' not in out or os.environ.get('TARGET'): break
        errs = re.findall(r'^error: (Verif\S*?\.lean):(\d+):', out, re.M)
        failed = []; mods = set()
        for p, l in errs:
            mods.add(p[:-5].replace('/', '.'))
            t = thm_at(os.path.join(SCR, p), int(l))
            if t and t not in failed: failed.append(t)
        imp = imports(); blocked = set()
        memo = {}
        def dep(m):
            if m not in memo: memo[m] = any(x in mods or dep(x) for x in imp.get(m, []))
            return memo[m]
        for m in imp:
            if m.startswith('Verif.Props') and dep(m): blocked.add(m)
        bt = []
        for m in sorted(blocked):
            bt += re.findall(r'^theorem (%s_\w+)' % mu['property'], open(SCR + '/' + m.replace('.', '/') + '.lean').read(), re.M)
        return {'failed': failed, 'blocked': [b for b in bt if b not in failed], 'ok': 'Build completed successfully' in out}
    finally:
        open(f, 'w').write(orig)
def main():
    muts = json.load(open(sys.argv[1])); log = sys.argv[2] if len(sys.argv) > 2 else '/tmp/mut/out.jsonl'
    done = {json.loads(l)['id'] for l in open(log)} if os.path.exists(log) else set()
    sync()
    for mu in muts:
        if mu['id'] in done: continue
        r = run(mu)
        rec = {'id': mu['id'], 'definition': mu['definition'], 'file': mu['file'], 'edit': mu.get('edit') or (mu['old'] + '  ->  ' + mu['new']),
               'claim': mu['claim'], 'property': mu['property'], 'result': r}
        open(log, 'a').write(json.dumps(rec, ensure_ascii=False) + '\n'); print(mu['id'], r, flush=True)
main()
