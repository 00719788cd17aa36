#!/usr/bin/env python3
"""Appends the results of mutate.py to seeded/LOG.jsonl.

usage: log.py out.jsonl notes.json
notes: {id: {"tightened": [...], "note": "..."}}"""
import json, os, sys
root = os.path.dirname(os.path.dirname(os.path.abspath(__file__)))
notes = json.load(open(sys.argv[2]))
path = root + '/seeded/LOG.jsonl'
seen = {json.loads(l)['id'] for l in open(path)} if os.path.exists(path) else set()
with open(path, 'a') as f:
    for l in open(sys.argv[1]):
        d = json.loads(l)
        if d['id'] in seen: continue
        n = notes.get(d['id'], {})
        helper_only = bool(d['failed']) and all(x.startswith('Lemmas/') for x in d['failed'])
        note = n.get('note', '')
        if helper_only and not note:
            note = 'the helper lemma named here fails first, so the modules that use it were not built'
        f.write(json.dumps(dict(id=d['id'], definition=d['definition'], edit=d['edit'], claim_broken=d['claim'],
            result='survived' if d['survived'] else 'killed', theorems_failed=d['failed'],
            theorems_tightened=n.get('tightened', []), note=note), ensure_ascii=False) + '\n')
