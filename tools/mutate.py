"""Mutation tests: python3 tools/mutate.py MUTANTS.py [NAME...]
MUTANTS.py defines MUTANTS, a list of dicts: name, file (below lean/Verif), old, new, claim.
Each mutant is applied to a scratch copy of /verif/lean and every module above it is elaborated again; a module with
failing declarations is still written (tools/elab.txt), so the modules above it are tried too. Prints the declarations that
no longer prove and the property theorems resting on them, and writes /tmp/mut/result.jsonl.
Unless QUICK=0 the modules below the properties named in the claim come first, and a mutant is left as soon as each of these
properties has lost a theorem; the theorems lost are then those that use a failing declaration in the unchanged project."""
import concurrent.futures as cf, json, os, re, subprocess, sys, runpy, threading, glob, time
ROOT = os.environ.get('MUTROOT', '/tmp/mut')
BASE, SCR, TOOLS = ROOT + '/base', ROOT + '/lean', ROOT + '/tools'
JOBS = int(os.environ.get('JOBS', '3'))
os.makedirs(ROOT, exist_ok=True)
def sh(cmd, cwd=SCR, timeout=3600):
    return subprocess.run(cmd, shell=True, cwd=cwd, capture_output=True, text=True, timeout=timeout)
def decl_at(path, line):
    name = '?'
    for i, l in enumerate(open(path), 1):
        if i > line: break
        m = re.match(r'(?:@\[[^\]]*\]\s*)*(?:private |protected )?(?:theorem|def|instance|example|abbrev|structure)\s*([^\s:({\[]*)', l)
        if m: name = m.group(1) or f'example@{i}'
    return name
subprocess.run(f'rm -rf {BASE} {SCR} {TOOLS} && cp -a /verif/lean {BASE} && cp -a {BASE} {SCR} && cp -a /verif/tools {TOOLS}', shell=True, check=True)
path = {}
for f in glob.glob(f'{BASE}/Verif/**/*.lean', recursive=True):
    path['Verif.' + f[len(BASE) + 7:-5].replace('/', '.')] = f[len(BASE) + 1:]
imps = {m: [i for i in re.findall(r'^import (\S+)', open(f'{BASE}/{p}').read(), re.M) if i in path] for m, p in path.items()}
users = {m: [k for k in imps if m in imps[k]] for m in imps}
def above(m):
    seen, todo = set(), [m]
    while todo:
        k = todo.pop()
        if k not in seen: seen.add(k); todo += users[k]
    return seen
def olean(m): return f"{SCR}/.lake/build/lib/lean/{m.replace('.', '/')}.olean"
ENV = None
def build(m):
    r = sh(f'lake env lean -o {olean(m)} {path[m]}')
    if r.returncode == 0: return []
    os.path.exists(olean(m)) and os.remove(olean(m))
    r = sh(f'lake env lean --run {TOOLS}/elab.txt {m} {path[m]} {olean(m)}')
    errs = [(path[m], decl_at(f'{SCR}/{path[m]}', int(l.split()[1])), l) for l in r.stdout.splitlines() if l.startswith('E ')]
    if r.returncode != 0 or not errs: errs.append((path[m], '?module', (r.stdout + r.stderr)[-300:]))
    return errs
def props():
    mods = ' '.join(sorted(m for m in path if m.startswith('Verif.Props.')))
    r = sh(f'lake env lean --run {TOOLS}/taint.txt {mods}')
    return {l[2:]: l[0] == '!' for l in r.stdout.splitlines() if l[:2] in ('! ', '  ')}, r
base_props, _ = props()
QUICK = os.environ.get('QUICK', '1') == '1'
users_of, home = {}, {}
if QUICK:
    for l in sh(f'lake env lean --run {TOOLS}/uses.txt').stdout.splitlines():
        n, m, used = (l.split('\t') + [''])[:3]
        home[n] = m
        for u in used.split(): users_of.setdefault(u, set()).add(n)
def resting(fails):
    seen, todo = set(), [n for f, d, _ in fails for n in home if home[n] == 'Verif.' + f[6:-5].replace('/', '.') and
                         (n == d or n.endswith('.' + d))]
    while todo:
        n = todo.pop()
        if n not in seen: seen.add(n); todo += users_of.get(n, ())
    return sorted(k for k in base_props if k in seen or 'Mopaq.' + k in seen or any(x.endswith('.' + k) for x in seen))
def below(ms):
    seen, todo = set(), list(ms)
    while todo:
        k = todo.pop()
        if k not in seen: seen.add(k); todo += imps[k]
    return seen
muts = runpy.run_path(sys.argv[1])['MUTANTS']
only = set(sys.argv[2:])
out = open(ROOT + '/result.jsonl', 'a')
for mu in muts:
    if only and mu['name'] not in only: continue
    t0 = time.time()
    p = f"{SCR}/Verif/{mu['file']}"
    s = open(p).read()
    assert s.count(mu['old']) >= 1, ('not found', mu['name'])
    open(p, 'w').write(s.replace(mu['old'], mu['new'], 1))
    todo = above('Verif.' + mu['file'][:-5].replace('/', '.'))
    affected = set(todo)
    for m in todo: os.path.exists(olean(m)) and os.remove(olean(m))
    fails, model_error, done, running = [], False, set(), {}
    ids = set(re.findall(r'C\d\d', mu['claim']))
    near = below(home[n] for n in home if QUICK and any(n.split('.')[-1].startswith(i + '_') for i in ids))
    enough = False
    with cf.ThreadPoolExecutor(JOBS) as ex:
        while (todo or running) and not model_error and not enough:
            for m in sorted(todo, key=lambda m: (m not in near, m)):
                if len(running) < JOBS and all(i not in affected or i in done for i in imps[m]):
                    running[ex.submit(build, m)] = m; todo.discard(m)
            for f in cf.wait(running, return_when=cf.FIRST_COMPLETED).done:
                m = running.pop(f); done.add(m)
                fails += f.result()
                if f.result() and m.startswith('Verif.Model'): model_error = True
                if QUICK and f.result():
                    lost = resting(fails)
                    enough = bool(lost) and all(any(k.split('.')[-1].startswith(i + '_') for k in lost) for i in ids)
    fn = {n for _, n, _ in fails}
    if enough or model_error: lost = resting(fails)
    else:
        now, r = props()
        lost = sorted(k for k in base_props if now.get(k, True))
    rec = dict(name=mu['name'], definition=mu['file'], claim=mu['claim'], failed=sorted(fn), properties=lost, ok=not fails, model_error=model_error,
      seconds=round(time.time() - t0))
    print(json.dumps(rec)); sys.stdout.flush()
    if model_error: print(fails[:3], flush=True)
    out.write(json.dumps(rec) + '\n'); out.flush()
    open(p, 'w').write(s)
    for m in affected:
        for suffix in ('.olean', '.ilean'):
            q = olean(m)[:-6] + suffix
            if os.path.exists(q.replace(SCR, BASE)): subprocess.run(['cp', '-a', q.replace(SCR, BASE), q])
