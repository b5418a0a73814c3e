"""Write AXIOMS.md: the axioms every theorem of MANIFEST.json depends on."""
import json, os, re, subprocess, collections
m = json.load(open("/verif/MANIFEST.json"))
names = [(c["property"], t) for c in m["claims"] for t in c["theorems"]]
src = "import Verif\n" + "".join(f"#print axioms {t}\n" for _, t in names)
f = "/tmp/axioms_check.lean"
open(f, "w").write(src)
out = subprocess.run(["lake", "env", "lean", f], cwd="/verif/lean", capture_output=True, text=True)
txt = (out.stdout + out.stderr).replace("\n ", " ")
ax = {}
for l in txt.split("\n"):
    k = re.match(r"(?:.*?info: )?'([^']+)' depends on axioms: \[(.*)\]", l)
    if k: ax[k.group(1)] = k.group(2)
    k = re.match(r"(?:.*?info: )?'([^']+)' does not depend on any axioms", l)
    if k: ax[k.group(1)] = "none"
missing = [t for _, t in names if t not in ax]
print(len(names), "theorems,", len(missing), "missing", missing[:5])
print(collections.Counter(ax.values()))
with open("/verif/AXIOMS.md", "w") as g:
    g.write("# Axioms of the property theorems\n\nGenerated by `tools/axioms.py` from `#print axioms`.\n\n| property | theorem | axioms |\n|---|---|---|\n")
    for p, t in names: g.write(f"| {p} | `{t}` | {ax.get(t, '?')} |\n")
