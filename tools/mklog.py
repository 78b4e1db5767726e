#!/usr/bin/env python3
"""Writes /verif/seeded/LOG.jsonl from the mutants (seeded/mutants*.json), the results of tools/seed.py and the dependencies of the
property theorems (output of `lake env lean` on tools/Deps.lean.txt).  usage: mklog.py DEPS RESULTS..."""
import json, sys, pathlib, glob
root = pathlib.Path(__file__).resolve().parent.parent
deps = {}
for l in open(sys.argv[1]):
    if l.startswith('DEP '):
        n, r = l[4:].strip().split(' :: ') if ' :: ' in l else (l[4:].strip(), '')
        deps[n.replace('Resistics.', '', 1)] = {x.replace('Resistics.', '', 1) for x in r.split()}
muts = {}
for f in sorted(glob.glob(str(root / 'seeded/mutants*.json'))):
    for m in json.load(open(f)): muts[m['id']] = m
tight = json.loads((root / 'seeded/tightened.json').read_text())
res = {}
for f in sys.argv[2:]:
    for l in open(f):
        r = json.loads(l); res[r['id']] = r
titles = {}
for l in (root / 'properties.jsonl').read_text().split('\n'):
    if l.strip():
        q = json.loads(l); titles[q['id']] = q['title']
def claim_of(m, direct, failed):
    if m['claim'] != '(automatic)': return m['claim']
    ids = [d.split('.', 1)[1][:3] for d in direct if d.split('.', 1)[1].startswith('C')] or [t[:3] for t in sorted(failed) if t[0] == 'C']
    ids = [i for i in ids if i in titles]
    if not ids: return 'none (see note)'
    i = max(set(ids), key=lambda x: (ids.count(x), x))
    return f'{i}: {titles[i]}'
# who mentions whom, by text: for lemmas that simp uses by definitional unfolding, which leave no trace in the proof terms
import re
uses = {}
for f in glob.glob(str(root / 'lean/Verif/*/*.lean')):
    if '/Model/' in f: continue
    parts = re.split(r'(?m)^(?:@\[[^\]]*\] *)?(?:private |protected |noncomputable )*(?:theorem|def|lemma|instance) +', open(f).read())
    for part in parts[1:]:
        name = re.match(r'\S+', part).group(0)
        for w in set(re.findall(r"[\w.'₀-₉?!]+", part)) - {name}:
            for v in {w, w.rsplit('.', 1)[-1]}: uses.setdefault(v, set()).add(name)
def mentioned(d):
    seen, todo = set(), [d]
    while todo:
        x = todo.pop()
        for y in uses.get(x, set()) | uses.get(x.rsplit('.', 1)[-1], set()):
            if y not in seen: seen.add(y); todo.append(y)
    return {x for x in seen if re.match(r'C\d\d_', x)}
out = []
for i, m in muts.items():
    if i not in res: continue
    r = res[i]
    failed = set()
    for x in r['failed']:
        mod, d = x.split('.', 1)
        if d.startswith('example@'): failed.add(f'{mod}:example'); continue
        if d in deps: failed.add(d)
        failed |= {t for t, s in deps.items() if d in s}
    if not [f for f in failed if not f.endswith(':example')]:
        for x in r['failed']: failed |= mentioned(x.split('.', 1)[1])
    t = tight.get(i, {})
    e = dict(id=i, definition=f"{m['file']}:{m['definition']}", edit=f"{m['old'].strip()}  ==>  {m['new'].strip() or '(removed)'}",
             claim=claim_of(m, r['failed'], failed), direct=r['failed'], theorems_failed=sorted(failed), theorems_tightened=t.get('tightened', []))
    if t.get('note'): e['note'] = t['note']
    if r['rc'] == 0 and not t.get('note'): print('SURVIVOR without note', i)
    if not [f for f in failed if not f.endswith(':example')]: print('no property theorem', i, r['failed'])
    out.append(e)
(root / 'seeded/LOG.jsonl').write_text(''.join(json.dumps(e, ensure_ascii=False) + '\n' for e in out))
print(len(out), 'entries;', [i for i in muts if i not in res])
