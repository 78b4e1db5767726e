#!/usr/bin/env python3
"""Seeded-bug harness.  usage: seed.py MUTANTS.json [id ...]
Each mutant: {"id","file","definition","old","new","claim","expect":[theorem prefixes]}.
Edits a scratch copy of /verif/lean (never /verif itself), rebuilds, and records which theorems no longer prove."""
import json, os, re, subprocess, sys, shutil
SRC, DST = '/verif/lean', os.environ.get('SEED_DIR', '/tmp/scratch/lean')
OUT = os.environ.get('SEED_OUT', '/tmp/scratch/results.jsonl')
def sync():
    os.makedirs(DST, exist_ok=True)
    subprocess.run(['rsync','-a','--delete',SRC+'/',DST+'/'], check=True) if shutil.which('rsync') else \
        (shutil.rmtree(DST, ignore_errors=True), subprocess.run(['cp','-a',SRC,DST],check=True))
def theorem_at(path, line):
    ls = open(path).read().split('\n'); name = None
    for i,l in enumerate(ls[:line]):
        m = re.match(r'^(?:@\[[^\]]*\]\s*)?(?:private |protected |noncomputable )*(?:theorem|lemma|def|instance|structure|abbrev)\s+([^\s:({\[]+)', l)
        if m: name = m.group(1)
        elif re.match(r'^example\b', l): name = 'example@%d'%(i+1)
    return name
def build():
    p = subprocess.run(['lake','build'],cwd=DST,capture_output=True,text=True)
    t = p.stdout+p.stderr; fails=[]; 
    for m in re.finditer(r'^error: (?:\./)?(Verif[^:\s]*\.lean):(\d+):', t, re.M):
        n = os.path.basename(m.group(1))[:-5]+'.'+str(theorem_at(os.path.join(DST,m.group(1)),int(m.group(2))))
        if n not in fails: fails.append(n)
    return p.returncode, fails, t
def main():
    muts = json.load(open(sys.argv[1])); want=set(sys.argv[2:])
    sync()
    for m in muts:
        if want and m['id'] not in want: continue
        f = os.path.join(DST,'Verif/Model',m['file']); s = open(f).read()
        if s.count(m['old'])!=1: print('BAD',m['id'],s.count(m['old'])); continue
        open(f,'w').write(s.replace(m['old'],m['new']))
        rc,fails,t = build()
        open(f,'w').write(s)
        r = dict(id=m['id'],rc=rc,failed=fails,modelerr=[x for x in fails if os.path.exists(os.path.join(DST,'Verif/Model',x.split('.')[0]+'.lean')) and re.search(r'error: (\./)?Verif/Model/'+x.split('.')[0],t)])
        open(OUT,'a').write(json.dumps(r)+'\n'); print(json.dumps(r),flush=True)
main()
