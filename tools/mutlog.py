#!/usr/bin/env python3
"""Turns the output of mutate.py into lines of seeded/LOG.jsonl. Usage: mutlog.py out.jsonl [notes.json]
notes.json optionally maps mutation ids to {"tightened": [...], "note": "..."}."""
import json, os, sys
root = os.path.dirname(os.path.dirname(os.path.abspath(__file__)))
path = os.path.join(root, 'seeded', 'LOG.jsonl')
have = {json.loads(l)['id'] for l in open(path)} if os.path.exists(path) else set()
notes = json.load(open(sys.argv[2])) if len(sys.argv) > 2 else {}
with open(path, 'a') as f:
    for l in open(sys.argv[1]):
        d = json.loads(l)
        if d['id'] in have or 'error' in d['result']: continue
        r = d['result']; n = notes.get(d['id'], {})
        rec = {'id': d['id'], 'definition': d['definition'], 'file': d['file'], 'edit': d['edit'], 'claim': d['claim'],
               'theorems_failed': r['failed'], 'theorems_blocked_by_failures': r['blocked'], 'survived': r['ok'],
               'theorems_tightened': n.get('tightened', [])}
        if 'note' in n: rec['note'] = n['note']
        f.write(json.dumps(rec, ensure_ascii=False) + '\n')
