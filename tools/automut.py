#!/usr/bin/env python3
"""Automatic seeded bugs.  usage: automut.py OUT.json SEED [DEFS-PER-RUN]
For every `def` of Verif/Model that no hand-written mutant edits, one random edit of its body by the operators below, kept only if the
edited model file still compiles.  Then the whole project is rebuilt in a scratch copy; an `example` that fails is cut out and the build
repeated, so that only theorems count; the build is stopped at the first module with a failing theorem."""
import json, os, re, subprocess, sys, glob, random, signal, shutil, time
ROOT = '/verif'; SRC = ROOT + '/lean'; DST = os.environ.get('SEED_DIR', '/tmp/scratch/auto')
OUT = sys.argv[1]; RES = OUT.replace('mutants', 'results').replace('.json', '.jsonl'); rnd = random.Random(int(sys.argv[2]))
OPS = [(r'(?<=\s)<(?=\s)', '≤'), (r'(?<=\s)≤(?=\s)', '<'), (r'(?<=\s)\+(?=\s)', '-'), (r'(?<=\s)-(?=\s)', '+'), (r'\bmin\b', 'max'), (r'\bmax\b', 'min'),
       (r'\btake\b', 'drop'), (r'\bdrop\b', 'take'), (r'\btrue\b', 'false'), (r'\bfalse\b', 'true'), (r'(?<=[\w)])\.1\b', '.2'), (r'(?<=[\w)])\.2\b', '.1'),
       (r'∧', '∨'), (r'∨', '∧'), (r'(?<=\s)=(?=\s)(?!.*:=)', '≠'), (r'≠', '='), (r'&&', '||'), (r'\|\|', '&&'), (r'⌊', '⌈'), (r'(?<=\s)\*(?=\s)', '+'), (r'(?<=\s)/(?=\s)', '*'),
       (r'\.error \.value', '.error .other'), (r'\.error \.key', '.error .value'), (r'\.error \.index', '.error .value'), (r'\.error \.other', '.error .value'),
       (r'(?<![\w.])0(?![\w.])', '1'), (r'(?<![\w.])1(?![\w.])', '2'), (r'(?<![\w.])2(?![\w.])', '3'), (r'List\.range (\w+)', r'List.range (\1 + 1)'), (r'\bfilter\b', 'filter (fun _ => true) <| List.filter'),
       (r'\bmap\b', 'reverse.map'), (r'\bsome\b', 'id'), (r'\bheadD\b', 'getLastD'), (r'\bgetLastD\b', 'headD'), (r'\bfoldl\b', 'reverse.foldl'), (r'\bnot\b', 'id'), (r'!(?=\w)', ''),
       (r'\bfst\b', 'snd'), (r'\bsnd\b', 'fst'), (r'\.ok \(', '.ok (id <| '), (r'\+\+', '++ []  ++'), (r'"([^"]+)"', r'"\1x"'), (r'(\w+) \+\+ (\w+)', r'\2 ++ \1'), (r'\binl\b', 'inr'), (r'\bnone\b', 'some default')]
SKIP = {'.ok (id <| ', '++ []  ++', 'filter (fun _ => true) <| List.filter'}
def decls(path):
    s = open(path).read(); pos = [m.start() for m in re.finditer(r'^(?=/--|(?:@\[[^\]]*\]\s*)?(?:private |protected |noncomputable )*(?:def|instance|structure|abbrev|inductive|theorem|lemma|namespace|end|open|variable|section|set_option)\b|/-!)', s, re.M)] + [len(s)]
    out = []
    for a, b in zip(pos, pos[1:]):
        m = re.match(r'(?:@\[[^\]]*\]\s*)?(?:private |protected |noncomputable )*def\s+([^\s:({\[]+)', s[a:b])
        if m: out.append((m.group(1), a, b))
    return s, out
def body_start(t):
    d = 0
    for i, c in enumerate(t):
        if c in '([{⟨': d += 1
        elif c in ')]}⟩': d -= 1
        elif d == 0 and t.startswith(':=', i): return i + 2
        elif d == 0 and t.startswith('\n  |', i): return i
        elif d == 0 and t.startswith('\nwhere', i): return i
        elif d == 0 and re.match(r'\s+where\b', t[i:]): return i
    return None
def candidates(t, k):
    c = []
    for pat, rep in OPS:
        if rep in SKIP: continue
        for m in re.finditer(pat, t[k:]):
            e = m.expand(rep) if '\\' in rep else rep
            c.append((k + m.start(), k + m.end(), e))
    body = t[k:]
    for a, b in FIELDS:
        for x, y in ((a, b), (b, a)):
            for m in re.finditer(r'\b' + x + r'\b(?!\s*:=)', body): c.append((k + m.start(), k + m.end(), y))
    names = [x for g in re.findall(r'\(([\w?\' ]+) :', t) for x in g.split()] + re.findall(r'let (\w+) ←', body) + re.findall(r'fun (\w+)', body)
    for m in re.finditer(r"(?<![\w.'])([\w']+)(?![\w'])", body):
        if m.group(1) in names:
            for y in names:
                if y != m.group(1): c.append((k + m.start(), k + m.end(), y))
    for m in re.finditer(r"(?<=\s)([\w.']+) ([\w.']+)(?=[\s)])", body):
        if m.group(1) != m.group(2): c.append((k + m.start(), k + m.end(), m.group(2) + ' ' + m.group(1)))
    for m in re.finditer(r"\bif (.+?) then (.+?) else (.+?)$", body, re.M): c.append((k + m.start(), k + m.end(), f'if {m.group(1)} then {m.group(3)} else {m.group(2)}'))
    for m in re.finditer(r"\.map \(?fun[^\n]*$", body, re.M): pass
    for m in re.finditer(r"\.(reverse|tail|dropLast|flatten|eraseDups|dedup)\b", body): c.append((k + m.start(), k + m.end(), ''))
    rnd.shuffle(c); return c
FIELDS = [('firstTime', 'lastTime'), ('winSize', 'olapSize'), ('winSizes', 'olapSizes'), ('inChans', 'outChans'), ('inChans', 'crossChans'), ('nIn', 'nOut'), ('beginTime', 'endTime'),
          ('nWins', 'winSize'), ('refTime', 'firstTime'), ('magnitude', 'phase'), ('getInputs', 'getInputs'), ('outData', 'inData'), ('real', 'imag'), ('re', 'im'), ('mds', 'hists'), ('sum', 'prod'),
          ('keys', 'values'), ('map Prod.fst', 'map Prod.snd'), ('any', 'all'), ('find?', 'findIdx?'), ('head?', 'getLast?'), ('takeWhile', 'dropWhile'), ('toLower', 'toUpper'), ('isPrefixOf', 'isSuffixOf'), ('length', 'length + 1')]
def run(cmd, stop=None):
    p = subprocess.Popen(cmd, cwd=DST, stdout=subprocess.PIPE, stderr=subprocess.STDOUT, text=True, start_new_session=True)
    t = ''
    for l in p.stdout:
        t += l
        if stop and re.match(r'^error: (?:\./)?Verif\S*\.lean:\d+', l):
            time.sleep(0.2)
        if stop and l.startswith('error: Lean exited'):
            os.killpg(p.pid, signal.SIGTERM); break
    p.wait(); return p.returncode, t
def theorem_at(path, line):
    ls = open(path).read().split('\n'); name = None; at = 0
    for i, l in enumerate(ls[:line]):
        m = re.match(r'^(?:@\[[^\]]*\]\s*)?(?:private |protected |noncomputable )*(?:theorem|lemma|def|instance|structure|abbrev)\s+([^\s:({\[]+)', l)
        if m: name = m.group(1); at = i
        elif re.match(r'^example\b', l): name = 'example@%d' % (i + 1); at = i
    return name, at
def cut(path, at):
    ls = open(path).read().split('\n'); e = at + 1
    while e < len(ls) and not re.match(r'^(/-|@\[|private |protected |noncomputable |theorem|lemma|def|instance|structure|abbrev|example|end|namespace|section|open|set_option|variable)', ls[e]): e += 1
    for i in range(at, e): ls[i] = ''
    open(path, 'w').write('\n'.join(ls))
def build():
    saved = {}; seen = []
    for _ in range(30):
        rc, t = run(['lake', 'build'], stop=True)
        errs = []
        for m in re.finditer(r'^error: (?:\./)?(Verif[^:\s]*\.lean):(\d+):', t, re.M):
            p = os.path.join(DST, m.group(1)); n, at = theorem_at(p, int(m.group(2)))
            x = (os.path.basename(p)[:-5] + '.' + str(n), p, at)
            if x not in errs: errs.append(x)
        real = [x for x in errs if '.example@' not in x[0]]
        if real or not errs:
            for p, s in saved.items(): open(p, 'w').write(s)
            return rc, [x[0] for x in real], seen, t
        for x in sorted(errs, key=lambda x: -x[2]):
            saved.setdefault(x[1], open(x[1]).read()); seen.append(x[0]); cut(x[1], x[2])
    for p, s in saved.items(): open(p, 'w').write(s)
    return 2, [], seen, t
def main():
    os.makedirs(DST, exist_ok=True)
    subprocess.run(['rsync', '-a', '--delete', SRC + '/', DST + '/'], check=True) if shutil.which('rsync') else (shutil.rmtree(DST, ignore_errors=True), subprocess.run(['cp', '-a', SRC, DST], check=True))
    muts = json.load(open(OUT)) if os.path.exists(OUT) else []
    again = os.environ.get('AGAIN')
    done = {(m['file'], m['definition']) for m in muts if not again}
    if not again:
        for f in glob.glob(ROOT + '/seeded/mutants*.json'): done |= {(m['file'], m['definition']) for m in json.load(open(f))}
    todo = []
    for f in sorted(glob.glob(DST + '/Verif/Model/*.lean')):
        s, ds = decls(f); todo += [(f, n) for n, _, _ in ds if (os.path.basename(f), n) not in done]
    rnd.shuffle(todo)
    if len(sys.argv) > 3: todo = todo[:int(sys.argv[3])]
    print(len(todo), 'definitions', flush=True)
    used = {(m['file'], m['definition'], m['old'], m['new']) for m in muts}
    for f, n in todo:
        s, ds = decls(f); a, b = [(a, b) for x, a, b in ds if x == n][0]
        t = s[a:b]; k = body_start(t)
        if k is None: print('NOBODY', n); continue
        ok = None
        for (i, j, e) in candidates(t, k)[:14]:
            if t[i:j] == e: continue
            if re.search(r'/--', t[:i]) and False: continue
            new = s[:a] + t[:i] + e + t[j:] + s[b:]
            open(f, 'w').write(new)
            rc, o = run(['lake', 'env', 'lean', os.path.relpath(f, DST)])
            if rc == 0: ok = (i, j, e); break
        if not ok:
            open(f, 'w').write(s); print('NONE', os.path.basename(f), n, flush=True); continue
        i, j, e = ok
        l0 = t.rfind('\n', 0, i) + 1; l1 = t.find('\n', j); l1 = len(t) if l1 < 0 else l1
        rc, fails, ex, o = build()
        open(f, 'w').write(s)
        mid = os.environ.get('PREFIX', 'au') + '%03d' % (len(muts) + 1)
        muts.append(dict(id=mid, file=os.path.basename(f), definition=n, old=t[l0:l1], new=t[l0:i] + e + t[j:l1], claim='(automatic)'))
        r = dict(id=mid, rc=rc, failed=fails, examples=ex, modelerr=[])
        json.dump(muts, open(OUT, 'w'), indent=1, ensure_ascii=False); open(RES, 'a').write(json.dumps(r) + '\n')
        print(('SURVIVED ' if rc == 0 else 'killed ') + mid, os.path.basename(f), n, '|', t[l0:l1].strip(), '==>', (t[l0:i] + e + t[j:l1]).strip(), fails[:3], ex, flush=True)
main()
