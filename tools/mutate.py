#!/usr/bin/env python3
"""Apply seeded bugs to a scratch copy of the Lean model and record which theorems fail.

Usage: mutate.py FILE.json
FILE.json is a list of {"file", "definition", "old", "new", "claim"} (paths relative to lean/).
Appends one line per attempt to seeded/LOG.jsonl.  The scratch copy lives in /tmp/mut.
"""
import json, os, re, shutil, subprocess, sys
ROOT = '/verif'
SCRATCH = '/tmp/mut/lean'

def sync():
    os.makedirs('/tmp/mut', exist_ok=True)
    subprocess.run(['rsync', '-a', '--delete', f'{ROOT}/lean/', SCRATCH + '/'], check=False) \
        if shutil.which('rsync') else subprocess.run(
            f'rm -rf {SCRATCH} && cp -a {ROOT}/lean {SCRATCH}', shell=True, check=True)

def theorem_at(path, line):
    name = None
    with open(path) as f:
        for i, l in enumerate(f, 1):
            m = re.match(r'\s*(?:@\[[^\]]*\]\s*)?(?:private |protected )?(theorem|example|def|instance|lemma)\b\s*([^\s:({\[]*)', l)
            if m:
                name = m.group(2) if m.group(1) != 'example' else f'example@{os.path.basename(path)}:{i}'
            if i >= line:
                break
    return name

def run(m):
    path = f"{SCRATCH}/{m['file']}"
    src = open(path).read()
    if src.count(m['old']) < 1:
        return None, 'pattern not found'
    if src.count(m['old']) > 1 and not m.get('all'):
        return None, f"pattern occurs {src.count(m['old'])} times"
    open(path, 'w').write(src.replace(m['old'], m['new']))
    try:
        r = subprocess.run(['lake', 'build'], cwd=SCRATCH, capture_output=True, text=True, timeout=1500)
        out = r.stdout + r.stderr
    finally:
        pass
    failed = []
    for f, l in re.findall(r'error: (Verif/[^:\s]*\.lean):(\d+):', out):
        t = theorem_at(f'{SCRATCH}/{f}', int(l))
        if t and t not in failed:
            failed.append(t)
    modelfail = [f for f in re.findall(r'error: (Verif/[^:\s]*\.lean):', out) if '/Model/' in f]
    open(path, 'w').write(src)
    return failed, ('model does not compile' if modelfail else ('ok' if r.returncode else 'SURVIVED'))

def main():
    muts = json.load(open(sys.argv[1]))
    sync()
    for m in muts:
        failed, st = run(m)
        print(st, '|', m['definition'], '|', m['old'][:60].replace('\n', ' '), '=>', m['new'][:60].replace('\n', ' '), '|', failed)
        sys.stdout.flush()
        if failed is None or st == 'model does not compile':
            continue
        with open(f'{ROOT}/seeded/LOG.jsonl', 'a') as f:
            f.write(json.dumps({'definition': m['definition'], 'file': m['file'],
                'edit': f"{m['old'].strip()}  =>  {m['new'].strip()}", 'claim': m['claim'],
                'failed': failed, 'survived': st == 'SURVIVED', 'tightened': m.get('tightened', [])}, ensure_ascii=False) + '\n')
main()
