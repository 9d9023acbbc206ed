"""Generated mutants: python3 tools/automutate.py OUT.jsonl PER_DEFINITION [FILE...]
For every definition in lean/Verif/Model that no hand-written mutant in seeded/ touches (or all definitions of the files
given), makes up to PER_DEFINITION mutants by small changes to its text (constants, comparisons, connectives, branches,
projections, list operations), and elaborates the modules above it in a scratch copy until one fails. Writes one line per
mutant: killed (with the declaration that failed first), rejected (not a definition any more) or survived."""
import concurrent.futures as cf, glob, json, os, random, re, runpy, subprocess, sys, time
ROOT = '/tmp/amut'
SCR = ROOT + '/lean'
JOBS = int(os.environ.get('JOBS', '2'))
outfile, per = sys.argv[1], int(sys.argv[2])
files = sys.argv[3:]
os.makedirs(ROOT, exist_ok=True)
subprocess.run(f'rm -rf {SCR} && cp -a /verif/lean {SCR}', shell=True, check=True)
END = re.compile(r'\n(?=/--|def |abbrev |structure |inductive |theorem |instance |end |namespace |/-!|variable |@\[|deriving |mutual)')
def defs(path):
    s = open(path).read()
    out = []
    for m in re.finditer(r'^(?:@\[[^\]]*\]\s*)?def (\S+)', s, re.M):
        n = END.search(s, m.start() + 1)
        out.append((m.group(1), m.start(), n.start() if n else len(s)))
    return s, out
hit = set()
for f in sorted(glob.glob('/verif/seeded/m*.py')):
    for mu in runpy.run_path(f)['MUTANTS']:
        p = f"{SCR}/Verif/{mu['file']}"
        if not os.path.exists(p): continue
        s, ds = defs(p)
        i = s.find(mu['old'])
        if i < 0: continue
        k = 0
        while k < min(len(mu['old']), len(mu['new'])) and mu['old'][k] == mu['new'][k]: k += 1
        for n, a, b in ds:
            if a <= i + k < b: hit.add((mu['file'], n))
def bump(m):
    t = m.group(0)
    if t.startswith('0x'): return '0x' + format(int(t, 16) + 1, 'X')
    return str(int(t) + 1)
OPS = [
    ('constant', re.compile(r'(?<![\w#.])(?:0x[0-9A-Fa-f]+|\d+)(?![\w.])'), bump),
    ('constant', re.compile(r'(?<![\w#.])(?:0x[0-9A-Fa-f]+|\d+)(?=#)'), bump),
    ('less', re.compile(r' < '), ' ≤ '), ('less', re.compile(r' ≤ '), ' < '),
    ('and', re.compile(r' && '), ' || '), ('or', re.compile(r' \|\| '), ' && '),
    ('and', re.compile(r' ∧ '), ' ∨ '), ('or', re.compile(r' ∨ '), ' ∧ '),
    ('plus', re.compile(r' \+ '), ' - '), ('minus', re.compile(r' - '), ' + '), ('times', re.compile(r' \* '), ' + '),
    ('equal', re.compile(r'(?<=if )([^\n]*?) = (?=[^\n]* then)'), r'\1 ≠ '), ('unequal', re.compile(r' ≠ '), ' = '),
    ('equal', re.compile(r' == '), ' != '), ('unequal', re.compile(r' != '), ' == '),
    ('negation', re.compile(r'(?<![\w])!(?=[\w(])'), ''),
    ('take', re.compile(r'\.take\b'), '.drop'), ('drop', re.compile(r'\.drop\b'), '.take'),
    ('isSome', re.compile(r'\.isSome\b'), '.isNone'), ('isNone', re.compile(r'\.isNone\b'), '.isSome'),
    ('true', re.compile(r'(?<!\w)true(?!\w)'), 'false'), ('false', re.compile(r'(?<!\w)false(?!\w)'), 'true'),
    ('first', re.compile(r'(?<=[\w)])\.1(?!\d)'), '.2'), ('second', re.compile(r'(?<=[\w)])\.2(?!\d)'), '.1'),
    ('shift', re.compile(r' <<< '), ' >>> '), ('shift', re.compile(r' >>> '), ' <<< '),
    ('bits', re.compile(r' &&& '), ' ||| '), ('bits', re.compile(r' \|\|\| '), ' &&& '), ('bits', re.compile(r' \^\^\^ '), ' ||| '),
    ('append', re.compile(r' \+\+ ([^\n+]+)$', re.M), ''), ('text', re.compile(r'"([^"\n]+)"'), r'"\1x"'),
    ('error', re.compile(r'\.error \.io\b'), '.error .invalidFormat'), ('error', re.compile(r'\.error \.panic\b'), '.error .io'),
    ('error', re.compile(r'throw \.\w+'), 'throw .readOnly'),
    ('error', re.compile(r'\.error \.(?!io\b|panic\b)\w+'), '.error .readOnly'),
    ('none', re.compile(r'(?<= )some \((?:[^()\n]|\([^()\n]*\))*\)(?!\s*(?:=>|←|:=|,))'), 'none'),
]
def mutants(body, rng):
    i = body.find(':=')
    j = body.find('\n  | ')
    start = min(x for x in (i, j, len(body)) if x >= 0)
    all_ = []
    for name, rx, rep in OPS:
        for m in rx.finditer(body, start):
            line = body[body.rfind('\n', 0, m.start()) + 1:m.start()]
            if '--' in line: continue
            new = body[:m.start()] + (rep(m) if callable(rep) else m.expand(rep)) + body[m.end():]
            if new != body: all_.append((name, body[:m.start()].count('\n'), m.group(0), new))
    rng.shuffle(all_)
    return all_
path = {}
for f in glob.glob(f'{SCR}/Verif/**/*.lean', recursive=True):
    path['Verif.' + f[len(SCR) + 7:-5].replace('/', '.')] = f[len(SCR) + 1:]
imps = {m: [i for i in re.findall(r'^import (\S+)', open(f'{SCR}/{p}').read(), re.M) if i in path] for m, p in path.items()}
below = {}
def closure(m):
    """The modules imported, directly or not."""
    if m not in below: below[m] = set(imps[m]).union(*(closure(i) for i in imps[m]))
    return below[m]
def olean(m): return f"{SCR}/.lake/build/lib/lean/{m.replace('.', '/')}.olean"
def decl_at(p, line):
    name = '?'
    for i, l in enumerate(open(p), 1):
        if i > line: break
        m = re.match(r'(?:@\[[^\]]*\]\s*)*(?:private |protected )?(?:theorem|def|instance|example|abbrev|structure)\s*([^\s:({\[]*)', l)
        if m: name = m.group(1) or f'example@{i}'
    return name
u = subprocess.run('lake env lean --run /verif/tools/uses.txt', shell=True, cwd=SCR, capture_output=True, text=True).stdout
module, usedby = {}, {}
for l in u.splitlines():
    n, m, us = l.split('\t')
    module[n] = m
    for x in us.split(): usedby.setdefault(x, set()).add(n)
def dependents(m, name):
    """The modules with a declaration that rests on the definition."""
    todo = [n for n in module if module[n] == m and ('.' + n + '.').find('.' + name + '.') >= 0]
    seen = set(todo)
    while todo:
        for k in usedby.get(todo.pop(), ()):
            if k not in seen: seen.add(k); todo.append(k)
    return {module[n] for n in seen}, sorted(n.split('.')[-1] for n in seen if re.match(r'(Mopaq\.)?C\d\d_', n) and n.count('.') <= 1)
procs = {}
def build(m):
    p = subprocess.Popen(['lake', 'env', 'lean', '-M', '4000', '-o', olean(m), path[m]], cwd=SCR, stdout=subprocess.PIPE, stderr=subprocess.STDOUT, text=True)
    procs[m] = p
    try: o, _ = p.communicate(timeout=1500)
    except subprocess.TimeoutExpired: p.kill(); return ['timeout']
    finally: procs.pop(m, None)
    if p.returncode == 0: return []
    lines = [int(x) for x in re.findall(r'\.lean:(\d+):\d+: error', o)]
    return sorted({decl_at(f'{SCR}/{path[m]}', l) for l in lines}) or ['?' + o[-200:]]
saved = {}
def check(file, name, text):
    """Elaborates everything above; returns (state, declarations)."""
    p = f'{SCR}/Verif/{file}'
    old = open(p).read()
    open(p, 'w').write(text)
    me = 'Verif.' + file[:-5].replace('/', '.')
    affected = dependents(me, name)[0] | {me}
    for m in affected:
        if os.path.exists(olean(m)): os.rename(olean(m), olean(m) + '.sav')
    todo, done, running, result = set(affected), set(), {}, ('survived', [])
    stop = False
    with cf.ThreadPoolExecutor(JOBS) as ex:
        while (todo or running) and not (stop and not running):
            for m in sorted(todo, key=lambda m: (not m.startswith('Verif.Model'), not m.startswith('Verif.Lemmas'), m)):
                if not stop and len(running) < JOBS and all(i not in affected or i in done for i in closure(m)):
                    running[ex.submit(build, m)] = m; todo.discard(m)
            for f in cf.wait(running, return_when=cf.FIRST_COMPLETED).done:
                m = running.pop(f); done.add(m)
                if f.result() and not stop:
                    stop = True
                    result = ('rejected' if m == me else 'killed', [m] + f.result())
                    for q in list(procs.values()): q.kill()
    open(p, 'w').write(old)
    for m in affected:
        if os.path.exists(olean(m) + '.sav'): os.replace(olean(m) + '.sav', olean(m))
    return result
seen = set()
if os.path.exists(outfile):
    for l in open(outfile):
        r = json.loads(l); seen.add((r['file'], r['definition'], r['line'], r['text'], r['operator']))
out = open(outfile, 'a')
for p in sorted(glob.glob(f'{SCR}/Verif/Model/*.lean')):
    file = p[len(SCR) + 7:]
    if files and os.path.basename(file)[:-5] not in files: continue
    s, ds = defs(p)
    for name, a, b in ds:
        if not files and (file, name) in hit: continue
        rng = random.Random(file + name)
        theorems = dependents('Verif.' + file[:-5].replace('/', '.'), name)[1]
        if not theorems: print('no property rests on', file, name, flush=True)
        good = 0
        for op, line, text, new in mutants(s[a:b], rng):
            if good >= per: break
            if (file, name, line, text, op) in seen: good += 1; continue
            t0 = time.time()
            state, where = check(file, name, s[:a] + new + s[b:])
            if state != 'rejected': good += 1
            rec = dict(file=file, definition=name, operator=op, line=line, text=text, state=state, first=where, seconds=round(time.time() - t0))
            if state == 'survived': rec['new'] = new
            out.write(json.dumps(rec, ensure_ascii=False) + '\n'); out.flush()
