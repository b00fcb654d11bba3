#!/usr/bin/env python3
"""Generate small edits of the model definitions and record which theorems fail.

Usage: automutate.py SEED PER_DEF [FILE...]
Definitions that no line of seeded/LOG.jsonl mentions come first, then the others, both in random order.
For each definition of lean/Verif/Model/*.lean (or of the files given), picks at most PER_DEF edits at random:
a changed comparison, constant, operator or boolean, a dropped field update, swapped branches, arms or arguments.
Appends one line per attempt that compiles to seeded/LOG.jsonl; survivors are also printed.
The build of a mutant is stopped at the first theorem that fails.  Scratch copies: /tmp/automut.
"""
import glob, json, os, random, re, shutil, signal, subprocess, sys, time
ROOT = '/verif'
BASE, SCRATCH = '/tmp/automut/base', '/tmp/automut/lean'

def sync(src, dst):
    seen = set()
    for d, _, fs in os.walk(src):
        r = os.path.relpath(d, src)
        os.makedirs(os.path.join(dst, r), exist_ok=True)
        for f in fs:
            p, q = os.path.join(d, f), os.path.join(dst, r, f)
            seen.add(os.path.normpath(q))
            try:
                a, b = os.stat(p), os.stat(q)
                if a.st_size == b.st_size and a.st_mtime_ns == b.st_mtime_ns:
                    continue
            except FileNotFoundError:
                pass
            shutil.copy2(p, q)
    for d, _, fs in os.walk(dst):
        for f in fs:
            q = os.path.normpath(os.path.join(d, f))
            if q not in seen:
                os.remove(q)

def definitions(path):
    """(name, doc, start, end) of each definition: offsets of its body in the source."""
    src = open(path).read()
    blank = lambda m: re.sub(r'[^\n]', ' ', m.group(0))
    code = re.sub(r'/-.*?-/', blank, src, flags=re.S)
    code = re.sub(r'--[^\n]*', blank, code)
    code = re.sub(r'"(?:[^"\\]|\\.)*"', blank, code)
    heads = [m for m in re.finditer(
        r'^(?:@\[[^\]]*\]\s*)?(?:private |protected |noncomputable )?'
        r'(def|abbrev|instance|theorem|example|structure|inductive|class|namespace|end|open|variable|section|mutual|deriving|termination_by|decreasing_by|/--)\b[ ]*([^\s:({\[]*)',
        code, flags=re.M)]
    out = []
    for i, h in enumerate(heads):
        if h.group(1) not in ('def', 'abbrev', 'instance'):
            continue
        end = heads[i + 1].start() if i + 1 < len(heads) else len(code)
        body = code[h.start():end]
        t = re.search(r'\n\s*(termination_by|decreasing_by)', body)
        if t:
            body = body[:t.start()]
        b = re.search(r':=|\n\s*\||\bwhere\b', body)
        if not b:
            continue
        doc = re.findall(r'/--(.*?)-/\s*$', src[:h.start()].rstrip() and src[:h.start()], flags=re.S)
        doc = ' '.join(doc[-1].split())[:160] if doc else ''
        s = h.start() + b.start()
        out.append((h.group(2) or 'instance', doc, s, h.start() + len(body), code))
    return src, out

def candidates(code, s, e):
    """Edits (position, old, new) within code[s:e]."""
    t, res = code[s:e], []
    def add(m, g, new):
        res.append((s + m.start(g), m.group(g), new))
    for pat, new in [(r' (<) ', '≤'), (r' (≤) ', '<'), (r' (>) ', '≥'), (r' (≥) ', '>'), (r' (<) ', '>'),
                     (r' (∧) ', '∨'), (r' (∨) ', '∧'), (r' (&&) ', '||'), (r' (\|\|) ', '&&'),
                     (r' (\+) ', '-'), (r' (-) ', '+'), (r' (\*) ', '+'), (r' (/) ', '*'), (r' (%) ', '/'),
                     (r'\b(true)\b', 'false'), (r'\b(false)\b', 'true'), (r' (=) ', '≠'), (r' (≠) ', '='),
                     (r' (==) ', '!='), (r'\.(take)\b', 'drop'), (r'\.(drop)\b', 'take'), (r'(\.reverse)\b', ''),
                     (r'( \+\+ \[[^\[\]\n]*\])', ''), (r'(\.some|\bsome) ', None), (r'\b(min)\b', 'max'), (r'\b(max)\b', 'min'),
                     (r'(!)[a-z(]', ''), (r'(¬)', ''), (r'( - 1)\b', ''), (r'( \+ 1)\b', ''), (r'\b(none)\b', None)]:
        if new is None:
            continue
        for m in re.finditer(pat, t):
            if pat == r' (=) ' and not re.search(r'\bif\b|decide|filter|any|all', t[:m.start()].split('\n')[-1]):
                continue
            add(m, 1, new)
    for m in re.finditer(r'(?<![\w.])(\d+)(?![\w.])', t):
        n = int(m.group(1)); add(m, 1, str(n + 1))
        if n > 0:
            add(m, 1, str(n - 1))
    for m in re.finditer(r'with\s+(\w+ := [^\n,{}]*,)\s', t):
        add(m, 1, ' ' * 0)
    for m in re.finditer(r'(, \w+ := [^\n,{}()]*) \}', t):
        add(m, 1, '')
    for m in re.finditer(r'(\{ (\w+) with [^{}\n]* \})', t):
        res.append((s + m.start(1), m.group(1), m.group(2)))
    for m in re.finditer(r'if ([^\n]*?) then ([^\n]*?) else ([^\n]*)', t):
        if 'if ' not in m.group(3) and m.group(3).count('(') == m.group(3).count(')'):
            res.append((s + m.start(), m.group(0), f'if {m.group(1)} then {m.group(3)} else {m.group(2)}'))
    arms = [m for m in re.finditer(r'\n(\s*\|[^\n]*?=> )([^\n]+)', t) if m.group(2).strip()]
    for a, b in list(zip(arms, arms[1:])) + list(zip(arms[1:], arms)):
        if a.group(2) != b.group(2):
            res.append((s + a.start(2), a.group(2), b.group(2)))
    for m in re.finditer(r'(?<=[( ])([a-z]\w*) ([a-z]\w?) ([a-z]\w?)(?=[) \n])', t):
        if m.group(1) not in ('fun', 'let', 'with', 'match', 'if', 'then', 'else', 'do', 'in', 'from', 'at', 'by') \
                and m.group(2) != m.group(3) and m.group(3) not in ('in', 'do', 'by', 'if') and m.group(2) not in ('in', 'do', 'if', 'by'):
            res.append((s + m.start(), m.group(0), f'{m.group(1)} {m.group(3)} {m.group(2)}'))
    for m in re.finditer(r'\((\w+), (\w+)\)', t):
        if m.group(1) != m.group(2):
            res.append((s + m.start(), m.group(0), f'({m.group(2)}, {m.group(1)})'))
    return res

def theorem_at(path, line):
    name = None
    for i, l in enumerate(open(path), 1):
        m = re.match(r'\s*(?:@\[[^\]]*\]\s*)?(?:private |protected )?(theorem|example|def|instance|lemma)\b\s*([^\s:({\[]*)', l)
        if m:
            name = m.group(2) if m.group(1) != 'example' else f'example@{os.path.basename(path)}:{i}'
        if i >= line:
            break
    return name

def attempt(rel, text):
    """Builds with `text` for the file: (status, theorem)."""
    path = f'{SCRATCH}/{rel}'
    with open(path, 'w') as f:
        f.write(text)
    p = subprocess.Popen(['lake', 'build'], cwd=SCRATCH, stdout=subprocess.PIPE, stderr=subprocess.STDOUT, text=True,
                         start_new_session=True)
    res, t0 = None, time.time()
    try:
        for l in p.stdout:
            m = re.search(r'error: (Verif/[^:\s]*\.lean):(\d+):', l)
            if m:
                if '/Model/' in m.group(1) and theorem_at(f'{SCRATCH}/{m.group(1)}', int(m.group(2))) is None:
                    res = ('model', None)
                elif '/Model/' in m.group(1):
                    res = ('model', None)
                else:
                    res = ('killed', theorem_at(f'{SCRATCH}/{m.group(1)}', int(m.group(2))))
                break
        if res is None:
            p.wait(timeout=60)
            res = ('SURVIVED', None) if p.returncode == 0 else ('other', None)
    finally:
        try:
            os.killpg(p.pid, signal.SIGKILL)
        except ProcessLookupError:
            pass
        p.wait()
    sync(BASE, SCRATCH)
    return res + (time.time() - t0,)

def main():
    rnd, per = random.Random(int(sys.argv[1])), int(sys.argv[2])
    files = sys.argv[3:] or [os.path.basename(f) for f in sorted(glob.glob(f'{ROOT}/lean/Verif/Model/*.lean'))]
    os.makedirs(SCRATCH, exist_ok=True)
    sync(f'{ROOT}/lean', BASE)
    sync(BASE, SCRATCH)
    tried = set()
    for l in open(f'{ROOT}/seeded/LOG.jsonl'):
        r = json.loads(l)
        tried.add((os.path.basename(r.get('file', '')), r['definition'].split('.')[-1]))
    todo = []
    for fn in files:
        src, defs = definitions(f'{BASE}/Verif/Model/{fn}')
        todo += [(fn, src) + d for d in defs]
    rnd.shuffle(todo)
    todo.sort(key=lambda d: (d[0], d[2].split('.')[-1]) in tried)
    print(sum((d[0], d[2].split('.')[-1]) not in tried for d in todo), 'definitions without an attempt', flush=True)
    for fn, src, name, doc, s, e, code in todo:
        rel = f'Verif/Model/{fn}'
        cands = candidates(code, s, e)
        rnd.shuffle(cands)
        done = 0
        for pos, old, new in cands[:3 * per]:
            if done >= per:
                break
            assert code[pos:pos + len(old)] == old
            real = src[pos:pos + len(old)]
            if real != old:
                continue
            st, thm, dt = attempt(rel, src[:pos] + new + src[pos + len(old):])
            a, b = src.rfind('\n', 0, pos) + 1, src.find('\n', pos + len(old))
            line = src[a:b].strip()
            new_line = (src[a:pos] + new + src[pos + len(old):b]).strip()
            print(f'{st} | {fn} | {name} | {line} => {new_line} | {thm} | {dt:.0f}s', flush=True)
            if st in ('model', 'other'):
                continue
            done += 1
            if st == 'killed':
                with open(f'{ROOT}/seeded/LOG.jsonl', 'a') as f:
                    f.write(json.dumps({'definition': name, 'file': rel, 'edit': f'{line}  =>  {new_line}',
                        'claim': doc or f'{name} does what the code it cites does', 'failed': [thm],
                        'survived': False, 'tightened': []}, ensure_ascii=False) + '\n')
main()
