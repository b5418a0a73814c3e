#!/usr/bin/env python3
"""Try wrong programs against the theorems.

usage: seed.py SEEDS.json   (list of {file, def, old, new, claim, targets})
`targets` (optional) are the modules to build; else all are built.

Copies /verif/lean to a scratch directory, applies each edit to the model alone,
rebuilds, and appends one line per edit to /verif/seeded/LOG.jsonl: the theorems
whose proofs no longer go through, and the property theorems in modules that could
not be built any more because they depend on a failed one.
"""
import json, os, re, subprocess, sys

SRC = '/verif/lean'
DST = '/tmp/scratch/lean'
LOG = '/verif/seeded/LOG.jsonl'

DECL = re.compile(r'^(?:@\[.*\]\s*)?(?:private |protected |noncomputable )*(theorem|def|example|abbrev|instance|inductive|structure)\s*([^\s:({\[]*)')


def enclosing(path, line):
    name = '?'
    for i, l in enumerate(open(path), 1):
        if i > line:
            break
        m = DECL.match(l)
        if m:
            name = m.group(2) if m.group(1) != 'example' else 'example@%d' % i
    return name


def main():
    os.makedirs('/tmp/scratch', exist_ok=True)
    subprocess.run(['rm', '-rf', DST], check=True)
    subprocess.run(['cp', '-a', SRC, DST], check=True)
    seeds = json.load(open(sys.argv[1]))
    for sd in seeds:
        path = os.path.join(DST, sd['file'])
        orig = open(path).read()
        if orig.count(sd['old']) != 1:
            print('BAD SEED', sd['def'], orig.count(sd['old']), flush=True)
            continue
        open(path, 'w').write(orig.replace(sd['old'], sd['new']))
        r = subprocess.run(['lake', 'build'] + sd.get('targets', []), cwd=DST, capture_output=True, text=True)
        out = r.stdout + r.stderr
        failed = []
        files = set()
        for m in re.finditer(r'error: (Verif/[\w/]+\.lean):(\d+):', out):
            n = enclosing(os.path.join(DST, m.group(1)), int(m.group(2)))
            files.add(m.group(1))
            q = m.group(1)[6:-5] + ':' + n
            if q not in failed:
                failed.append(q)
        # property theorems in modules that import a failed module
        imports = {}
        for root, _, fs in os.walk(os.path.join(DST, 'Verif')):
            for f in fs:
                if f.endswith('.lean'):
                    rel = os.path.relpath(os.path.join(root, f), DST)
                    imports[rel] = [x.replace('.', '/') + '.lean' for x in
                                    re.findall(r'^import (Verif[\w.]*)', open(os.path.join(root, f)).read(), re.M)]
        dep = set(files)
        while True:
            more = {f for f, im in imports.items() if f not in dep and any(i in dep for i in im)}
            if not more:
                break
            dep |= more
        blocked = []
        for f in sorted(dep - files):
            blocked += re.findall(r'^theorem (C\d\d_\w+)', open(os.path.join(DST, f)).read(), re.M)
        open(path, 'w').write(orig)
        rec = {'definition': sd['def'], 'file': sd['file'], 'edit': sd['old'].strip() + '  ==>  ' + sd['new'].strip(),
               'claim': sd['claim'], 'theorems_failed': failed,
               'unbuilt_after_failure': blocked, 'tightened': sd.get('tightened', [])}
        if r.returncode != 0 and not failed:
            # the prover was killed: the check of a proof that is no longer one did not end
            rec['theorems_failed'] = failed = [x.replace('.', '/')[6:] + ':(out of memory)' for x in
                                               re.findall(r'^- (Verif[\w.]*)', out, re.M)]
        rec['verdict'] = 'caught' if failed else 'SURVIVED'
        with open(LOG, 'a') as fh:
            fh.write(json.dumps(rec) + '\n')
        print(rec['verdict'], sd['def'], '|', sd['new'].strip()[:60].replace('\n', ' '), '|', failed[:4], flush=True)


main()
