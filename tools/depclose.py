#!/usr/bin/env python3
"""Transitive dependencies of the property theorems from the output of Deps.lean.txt (direct dependencies).
usage: depclose.py DIRECT.txt CLOSED.txt"""
import sys
D, P = {}, []
for l in open(sys.argv[1]):
    if ' ::' not in l: continue
    k, rest = l.rstrip('\n').split(' ', 1); n, _, u = rest.partition(' ::')
    D[n.strip()] = u.split()
    if k == 'PROP': P.append(n.strip())
with open(sys.argv[2], 'w') as f:
    for p in P:
        seen, st = set(), [p]
        while st:
            for y in D.get(st.pop(), []):
                if y not in seen: seen.add(y); st.append(y)
        f.write(f"DEP {p} :: {' '.join(sorted(seen))}\n")
