#!/usr/bin/env python3
"""Write seeded/LOG.jsonl from seeded/round*.json (the edits) and seeded/result*.jsonl (what mutate.py found).

Usage: mutlog.py DEPS.txt

DEPS.txt has a line "theorem<TAB>constants it depends on" for every claim theorem.  The theorems that fail
for an edit are those that no longer check, and the claim theorems resting on them.
"""
import glob, json, os, sys

D = {}
for l in open(sys.argv[1]):
    a, b = l.rstrip('\n').split('\t')
    D[a] = {y for x in b.split() for y in (x.replace('AdBlock.', ''), x.replace('AdBlock.Own.', ''))}
os.chdir(os.path.join(os.path.dirname(__file__), '..', 'seeded'))
results = {}
for p in sorted(glob.glob('result*.jsonl')):
    for l in open(p):
        r = json.loads(l)
        old = results.get(r['n'])
        if old: r['failed'] = old['failed'] + [x for x in r['failed'] if x not in old['failed']]
        results[r['n']] = r
out = []
for p in sorted(glob.glob('round*.json')):
    for m in json.load(open(p)):
        r = results.get(m['n'])
        if r is None: continue
        names = [x.split(':')[1] for x in r['failed'] if not x.endswith(':example')]
        claims = [c for c in m['claim'].split('/')]
        above = sorted(t for t, deps in D.items() if t.split('.')[-1].split('_')[0] in claims
                       and any(n in deps for n in names))
        direct = ['AdBlock.' + n for n in names]
        rec = {'definition': m['definition'], 'file': 'lean/Verif/' + m['file'], 'edit': m['edit'], 'claim': m['claim'],
               'theorems_failed': direct + [t for t in above if t not in direct],
               'tightened': m.get('tightened', [])}
        if r['ok']: rec['survived'] = True
        if 'note' in m: rec['note'] = m['note']
        if not r['ok'] and not r['failed']: rec['note'] = 'the definitions no longer check'
        out.append(rec)
        if not r['ok'] and not above and not any(n[:1] == 'C' and n[1:3].isdigit() for n in names) and 'note' not in m:
            print('no claim theorem:', m['n'], m['claim'], names)
with open('LOG.jsonl', 'w') as o:
    for r in out: o.write(json.dumps(r) + '\n')
print(len(out), 'edits,', sum('survived' in r for r in out), 'survived')
