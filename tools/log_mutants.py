"""python3 tools/log_mutants.py MUTANTS.py [tightened...]: append /tmp/mut/result.jsonl to seeded/LOG.jsonl."""
import json, sys, runpy, os
muts = {m['name']: m for m in runpy.run_path(sys.argv[1])['MUTANTS']}
with open('/verif/seeded/LOG.jsonl', 'a') as out:
    for l in open(os.environ.get('MUTROOT', '/tmp/mut') + '/result.jsonl'):
        r = json.loads(l)
        if r['name'] not in muts: continue
        m = muts[r['name']]
        t = [x for x in m.get('tightened', [])]
        out.write(json.dumps(dict(mutant=r['name'], definition='lean/Verif/' + m['file'], edit={'from': m['old'], 'to': m['new']}, claim_broken=m['claim'],
            failed=r['failed'], property_theorems_failed=r['properties'], survived=r['ok'], tightened=t)) + '\n')
os.remove(os.environ.get('MUTROOT', '/tmp/mut') + '/result.jsonl')
