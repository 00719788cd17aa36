#!/usr/bin/env python3
"""Enters the results of oracle.py in seeded/LOG.jsonl: an entry that is there gets the field
claims_false_on_runs; an edit that made some statement false and is not there yet is added.

usage: log_oracle.py out.jsonl ..."""
import json, os, re, sys
root = os.path.dirname(os.path.dirname(os.path.abspath(__file__)))
path = root + '/seeded/LOG.jsonl'
log = [json.loads(l) for l in open(path)]
at = {d['id']: d for d in log}
for f in sys.argv[1:]:
    for l in open(f):
        d = json.loads(l)
        if d['id'] == 'orig' or d['errors']: continue
        if d['id'] in at:
            at[d['id']]['claims_false_on_runs'] = d['violated']
        elif d['violated']:
            e = dict(id=d['id'], definition=d['definition'], edit=d['edit'], claim_broken=d['claim'],
                result='claims false', theorems_failed=sorted({c for v in d['violated'] for c in re.findall(r'C\d+', v)}),
                theorems_tightened=[], note='statements of the theorems of these claims evaluated on the edited program, proofs not rebuilt',
                claims_false_on_runs=d['violated'])
            at[d['id']] = e; log.append(e)
with open(path, 'w') as o:
    for d in log: o.write(json.dumps(d, ensure_ascii=False) + '\n')
