#!/usr/bin/env python3
"""Write AXIOMS.md: the axioms each theorem of MANIFEST.json depends on. Needs a built lean/.
Usage: python3 tools/axioms.py"""
import json, os, re, subprocess, tempfile

root = os.path.join(os.path.dirname(os.path.abspath(__file__)), "..")
claims = json.load(open(os.path.join(root, "MANIFEST.json")))["claims"]
names = []
for c in claims:
    for t in c["theorems"]:
        if t not in names:
            names.append(t)
with tempfile.NamedTemporaryFile("w", suffix=".lean", delete=False) as f:
    f.write("import Verif\n" + "".join(f"#print axioms {n}\n" for n in names))
out = subprocess.run(["lake", "env", "lean", f.name], cwd=os.path.join(root, "lean"), capture_output=True, text=True).stdout
os.unlink(f.name)
out = re.sub(r"\n\s+", " ", out)
deps = {}
for m in re.finditer(r"'([^']+)' (does not depend on any axioms|depends on axioms: \[([^\]]*)\])", out):
    deps[m.group(1)] = tuple(sorted(x.strip() for x in m.group(3).split(","))) if m.group(3) else ()
missing = [n for n in names if n not in deps]
assert not missing, missing[:5]
groups = {}
for n in names:
    groups.setdefault(deps[n], []).append(n)
with open(os.path.join(root, "AXIOMS.md"), "w") as f:
    f.write("# Axioms of the theorems in MANIFEST.json\n\nWritten by `tools/axioms.py` from `#print axioms`.\n")
    for k in sorted(groups, key=lambda k: (len(k), k)):
        f.write("\n## " + (", ".join(f"`{x}`" for x in k) if k else "none") + f" ({len(groups[k])})\n\n")
        f.write("".join(f"* `{n}`\n" for n in sorted(groups[k])))
print({k: len(v) for k, v in groups.items()})
