#!/usr/bin/env python3
"""Write AXIOMS.md: the axioms on which each theorem of MANIFEST.json depends, as reported by Lean. Run after `lake build`."""
import collections, json, os, re, subprocess, tempfile

root = os.path.dirname(os.path.dirname(os.path.abspath(__file__)))
names = []
for c in json.load(open(f"{root}/MANIFEST.json"))["claims"]:
    for t in c["theorems"]:
        if t not in names:
            names.append(t)
with tempfile.NamedTemporaryFile("w", suffix=".lean", delete=False) as f:
    f.write("import Verif\n" + "".join(f"#print axioms {n}\n" for n in names))
out = subprocess.run(["lake", "env", "lean", f.name], cwd=f"{root}/lean", capture_output=True, text=True).stdout
os.unlink(f.name)
out = re.sub(r"\n\s+", " ", out)
deps = {}
for m in re.finditer(r"'([^']+)' (?:depends on axioms: \[([^\]]*)\]|does not depend on any axioms)", out):
    deps[m[1]] = ", ".join(sorted((m[2] or "").replace(" ", "").split(","))) or "none"
missing = [n for n in names if n not in deps]
assert not missing, missing
groups = collections.defaultdict(list)
for n in names:
    groups[deps[n]].append(n)
with open(f"{root}/AXIOMS.md", "w") as g:
    g.write("# Axioms of the theorems of MANIFEST.json\n\nGenerated by `tools/axioms.py` from `#print axioms`.\n")
    for k in sorted(groups):
        g.write(f"\n## {k} ({len(groups[k])} theorems)\n\n" + "".join(f"* `{n}`\n" for n in groups[k]))
print({k: len(v) for k, v in groups.items()})
