"""Which methods of the other platforms are textually those of models_cisco.py?

A method counts when its syntax tree (without docstrings and `@logger.catch(reraise=True)`) equals that of the method of
the same name in the corresponding class of models_cisco.py, and every attribute of
`self` it uses is itself such a method, or is defined in ccp_abc.py.
"""
import ast, json, sys
R = "/repo/ciscoconfparse/"

def strip_doc(f):
    f = ast.parse(ast.unparse(f)).body[0]
    if f.body and isinstance(f.body[0], ast.Expr) and isinstance(getattr(f.body[0], "value", None), ast.Constant) \
            and isinstance(f.body[0].value.value, str):
        f.body = f.body[1:] or [ast.Pass()]
    f.decorator_list = [d for d in f.decorator_list if not ast.unparse(d).startswith('logger.catch')]
    return f

def classes(fn):
    t = ast.parse(open(R + fn).read())
    out = {}
    for c in t.body:
        if isinstance(c, ast.ClassDef):
            ms = {}
            for f in c.body:
                if isinstance(f, ast.FunctionDef):
                    setter = any(ast.unparse(d).endswith(".setter") for d in f.decorator_list)
                    ms[f.name + ("=" if setter else "")] = f
            out[c.name] = (ms, [ast.unparse(b) for b in c.bases], c.lineno)
    return out

def uses(f):
    return {n.attr for n in ast.walk(f) if isinstance(n, ast.Attribute) and isinstance(n.value, ast.Name) and n.value.id == "self"}

def flat(cl, name):
    """All methods of a class in its module, inherited ones included."""
    if name not in cl: return {}
    ms = {}
    for b in cl[name][1]:
        ms.update(flat(cl, b))
    ms.update(cl[name][0])
    return ms

def compare(fn, pre):
    a, b = classes("models_cisco.py"), classes(fn)
    res = []
    for name in b:
        other = name.replace(pre, "IOS") if pre else name
        if other not in a: continue
        ma, mb = flat(a, other), flat(b, name)
        same = {m for m in mb if m in ma and ast.dump(strip_doc(ma[m])).replace(pre or "IOS", "IOS") ==
                ast.dump(strip_doc(mb[m])).replace(pre or "IOS", "IOS")}
        changed = True
        own = set(x.rstrip("=") for x in mb) | set(x.rstrip("=") for x in ma)
        while changed:
            changed = False
            for m in list(same):
                for u in uses(mb[m]):
                    if u in own and (u not in same):
                        same.discard(m); changed = True; break
        for m in sorted(same):
            if m in b[name][0]:
                res.append((name, m, b[name][0][m].lineno, ma[m].lineno))
    return res

if __name__ == "__main__":
    for fn, pre in [("models_nxos.py", "NXOS"), ("models_iosxr.py", "IOSXR"), ("models_asa.py", "ASA"), ("models_all.py", "All"), ("models_junos.py", "Junos")]:
        r = compare(fn, pre)
        print(fn, len(r), sorted({x[0] for x in r}))
        cl = classes(fn)
        for n in cl: print("   ", n, cl[n][1], len(cl[n][0]), sum(1 for x in r if x[0] == n))
