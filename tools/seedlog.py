#!/usr/bin/env python3
"""Append the results of tools/mutate.py to seeded/LOG.jsonl.

usage: seedlog.py RESULTS.jsonl MUTANTS.json... [TIGHTENED.json]

TIGHTENED.json (last argument, optional, an object) maps the id of a mutant that survived to
{"theorems": [...], "note": ...}: what was strengthened because of it, or why nothing had to be.
Mutants already in the log are not added again.
"""
import json, os, sys

LOG = '/verif/seeded/LOG.jsonl'
res = [json.loads(l) for l in open(sys.argv[1])]
mut, tight = {}, {}
for f in sys.argv[2:]:
    d = json.load(open(f))
    if isinstance(d, dict): tight = d
    else: mut.update({m['id']: m for m in d})
have = set()
if os.path.exists(LOG):
    have = {json.loads(l).get('id') for l in open(LOG)}
n = 0
with open(LOG, 'a') as out:
    for r in res:
        m = mut.get(r['id'])
        if m is None or r['id'] in have: continue
        if r['status'] not in ('caught', 'survived'): continue
        t = tight.get(r['id'], {})
        if r['status'] == 'survived' and r['id'] not in tight: continue
        e = {'id': r['id'], 'definition': m['file'].replace('Verif/Model/', '') + ' ' + m['definition'], 'edit': m['edit'],
             'old': m.get('short', [m['old']])[0], 'new': m.get('short', [m['new']])[-1], 'claim': m['claim'], 'status': r['status'],
             'theorems_failed': [x.replace('PathLib.', '') for x in r['broken']],
             'theorems_tightened': t.get('theorems', [])}
        if 'module' in r: e['note'] = 'only the theorems of ' + r['module'] + ' are listed'
        if 'note' in t: e['note'] = t['note']
        out.write(json.dumps(e) + '\n'); n += 1
print(n, 'added')
