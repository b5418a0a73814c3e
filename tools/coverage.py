"""Write MODELLED.md: which functions of /repo the model's definitions cite, and which not."""
import ast, glob, re, os, collections
import sys
sys.path.insert(0, os.path.dirname(os.path.abspath(__file__)))
import identical
R = "/repo/ciscoconfparse"
PRE = {"models_nxos.py": "NXOS", "models_iosxr.py": "IOSXR", "models_asa.py": "ASA", "models_all.py": "All", "models_junos.py": "Junos"}
files = ["ccp_util.py", "ccp_abc.py", "ciscoconfparse.py", "models_cisco.py", "models_nxos.py", "models_iosxr.py",
         "models_asa.py", "models_all.py", "models_junos.py", "protocol_values.py", "errors.py"]
cites = collections.defaultdict(list)
for f in sorted(glob.glob("/verif/lean/Verif/**/*.lean", recursive=True)):
    txt = re.sub(r"/-!.*?-/", "", open(f).read(), flags=re.S)  # citations of a file's header do not count
    for m in re.finditer(r"\b(\w+\.py):((?:\d+(?:-\d+)?(?:,\s*(?=\d))?)+)", txt):
        for a in re.findall(r"(\d+)(?:-(\d+))?", m.group(2)):
            lo = int(a[0]); hi = int(a[1] or a[0])
            cites[m.group(1)].append((lo, hi, os.path.relpath(f, "/verif/lean")))
out = ["# What is modelled", "", "Generated by `tools/coverage.py` from the citations in the Lean sources: a function",
       "counts as modelled when a definition or lemma cites lines inside it.  A method of another",
       "platform also counts when its code is that of a modelled method of `models_cisco.py`, and so",
       "is the code of all methods it uses (`tools/identical.py` compares the syntax trees).", ""]
for fn in files:
    p = os.path.join(R, fn)
    if not os.path.exists(p): continue
    tree = ast.parse(open(p).read())
    funs = []
    def walk(node, pre):
        for c in node.body:
            if isinstance(c, ast.ClassDef): walk(c, pre + c.name + ".")
            elif isinstance(c, (ast.FunctionDef, ast.AsyncFunctionDef)):
                setter = any("setter" in ast.dump(d) for d in c.decorator_list)
                funs.append((pre + c.name + (" (setter)" if setter else ""), min([c.lineno] + [d.lineno for d in c.decorator_list]), c.end_lineno))
    walk(tree, "")
    yes, no = [], []
    same = {}
    if fn in PRE:
        for cname, meth, line, other in identical.compare(fn, PRE[fn]):
            mods = sorted({m for lo, hi, m in cites["models_cisco.py"] if lo - 3 <= other <= hi})
            if mods: same[line] = (other, mods)
    for name, a, b in funs:
        body_mods = sorted({m for lo, hi, m in cites[fn] if (lo >= a and lo <= b) or (lo < a and hi >= b)})
        if not body_mods:
            hit = [same[l] for l in same if a <= l <= b]
            if hit: body_mods = [f"the code is that of models_cisco.py:{hit[0][0]}, modelled in " + ", ".join(hit[0][1])]
        (yes if body_mods else no).append((name, a, b, body_mods))
    out.append(f"## {fn}: {len(yes)} of {len(funs)} functions")
    out.append("")
    if yes:
        out.append("Modelled:")
        out.append("")
        for n, a, b, m in yes: out.append(f"* `{n}` ({a}-{b}): " + ", ".join(x.replace("Verif/", "").replace(".lean", "") for x in m))
        out.append("")
    out.append("Not modelled: " + (", ".join(f"`{n}`" for n, *_ in no) if no else "none") + ".")
    out.append("")
    print(fn, len(yes), len(funs))
open("/verif/MODELLED.md", "w").write("\n".join(out))
