#!/usr/bin/env python3
"""Regenerates /verif/AXIOMS.txt: the axioms each theorem of MANIFEST.json depends on (run after `lake build`)."""
import json, pathlib, re, subprocess, tempfile
root = pathlib.Path(__file__).resolve().parent.parent
names = [t for c in json.loads((root / "MANIFEST.json").read_text())["claims"] for t in c["theorems"]]
src = "import Verif\n" + "".join(f"#print axioms {n}\n" for n in names)
f = pathlib.Path(tempfile.mkdtemp()) / "Axioms.lean"
f.write_text(src)
out = subprocess.run(["lake", "env", "lean", str(f)], cwd=root / "lean", capture_output=True, text=True).stdout
out = re.sub(r"\n\s+", " ", out)
lines = [l for l in out.splitlines() if "axioms" in l]
assert len(lines) == len(names), (len(lines), len(names))
(root / "AXIOMS.txt").write_text("\n".join(lines) + "\n")
print(len(lines), sorted(set(re.sub(r".*depends on axioms: |.*does not depend on any axioms", "", l) for l in lines)))
