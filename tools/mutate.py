#!/usr/bin/env python3
"""Tests the theorems against wrong programs, in a scratch copy of the Lean project.

Usage: mutate.py SPEC.jsonl OUT.jsonl
Each line of SPEC: {"def", "file", "old", "new", "edit", "breaks"}; `old` must occur exactly once in
Verif/`file` (or once after the optional "after" marker). The edit is applied, the project is built, every
declaration that no longer elaborates gets `sorry` as its proof, and this is repeated until the project
builds. Theorems of the manifest that then rest on `sorry` are the ones the edit has broken.
"""
import json, os, re, subprocess, sys, shutil

SRC = os.environ.get('SRC', '/verif/lean')
DST = os.environ.get('MUT', '/tmp/mut/lean')
START = re.compile(r'^(?:@\[[^\]]*\]\s*)?(?:private |protected |noncomputable )*(theorem|lemma|def|abbrev|example|instance|structure|inductive|class)\b')
TOP = re.compile(r'^(?:@\[|private |protected |noncomputable |theorem|lemma|def|abbrev|example|instance|structure|inductive|class|namespace|section|end\b|open|variable|set_option|/-|#|--|attribute|macro|syntax|local|mutual)')

def sync():
    os.makedirs(DST, exist_ok=True)
    subprocess.run(['rsync', '-a', '--delete', '--exclude', '.lake', SRC + '/', DST + '/'], check=True) if shutil.which('rsync') else copy()

def copy():
    for root, dirs, files in os.walk(SRC):
        if '.lake' in dirs: dirs.remove('.lake')
        rel = os.path.relpath(root, SRC)
        os.makedirs(os.path.join(DST, rel), exist_ok=True)
        for f in files:
            a, b = os.path.join(root, f), os.path.join(DST, rel, f)
            new = open(a, 'rb').read()
            if not os.path.exists(b) or open(b, 'rb').read() != new:
                open(b, 'wb').write(new)

def build():
    p = subprocess.run(['lake', 'build'], cwd=DST, stdout=subprocess.PIPE, stderr=subprocess.STDOUT, text=True)
    errs = {}
    for m in re.finditer(r'^error: (?:\./)?(Verif/[\w/]+\.lean):(\d+):\d+: ?(.*)$', p.stdout, re.M):
        errs.setdefault(m.group(1), []).append((int(m.group(2)), m.group(3)))
    return p.returncode, errs, p.stdout

def decl_at(lines, n):
    """Start line (0-based), end line and kind of the declaration around line n (1-based)."""
    i = min(n, len(lines)) - 1
    while i >= 0:
        m = START.match(lines[i])
        if m: break
        i -= 1
    if i < 0: return None
    j = i + 1
    while j < len(lines) and not TOP.match(lines[j]): j += 1
    name = re.match(r'.*?\b' + m.group(1) + r'\s+(\S+)', lines[i])
    return i, j, m.group(1), name.group(1) if name else 'anonymous'

def stub(text):
    """Replaces the proof by sorry."""
    depth = 0
    i = 0
    lines_eq = re.search(r'\n  \| ', text)
    while i < len(text):
        c = text[i]
        if c in '([{⟨': depth += 1
        elif c in ')]}⟩': depth -= 1
        elif depth == 0 and text.startswith(':=', i):
            # skip a `let x := ` or `have` inside the statement
            head = text[:i]
            if re.search(r'\b(let|have)\s+[^\n;]*$', head):
                i += 2; continue
            return text[:i] + ':= by sorry\n'
        elif depth == 0 and text.startswith('\n  | ', i) and not re.search(r'\bwith\b', text[:i]):
            return text[:i] + ' := by sorry\n'
        i += 1
    if lines_eq: return text[:lines_eq.start()] + ' := by sorry\n'
    return None

def run(spec, base_theorems):
    copy()
    path = os.path.join(DST, 'Verif', spec['file'])
    s = open(path).read()
    k = s.index(spec['after']) if 'after' in spec else 0
    if s[k:].count(spec['old']) != 1 and not ('after' in spec and spec['old'] in s[k:]):
        return {'problem': 'old text occurs %d times' % s[k:].count(spec['old'])}
    s = s[:k] + s[k:].replace(spec['old'], spec['new'], 1)
    open(path, 'w').write(s)
    failed = []
    for rnd in range(40):
        code, errs, out = build()
        if code == 0: break
        if not errs: return {'problem': 'build failed without located error', 'out': out[-2000:]}
        for f, es in errs.items():
            p = os.path.join(DST, f)
            lines = open(p).read().split('\n')
            decls = {}
            for n, msg in es:
                d = decl_at(lines, n)
                if d is None: return {'problem': 'no declaration at %s:%d: %s' % (f, n, msg)}
                decls[d[0]] = d
            for st in sorted(decls, reverse=True):
                i, j, kind, name = decls[st]
                text = '\n'.join(lines[i:j]).rstrip() + '\n'
                if '/Model/' in f and kind != 'theorem': return {'problem': 'definition no longer elaborates: %s %s: %s' % (f, name, es[0][1])}
                if kind == 'example':
                    new = 'example : True := trivial\n'
                    failed.append('example in ' + f)
                else:
                    if 'by sorry' in text: return {'problem': 'still failing: %s %s %s' % (f, name, es)}
                    new = stub(text)
                    if new is None: return {'problem': 'cannot stub %s %s' % (f, name)}
                    failed.append(name)
                lines[i:j] = (new + '\n').split('\n')[:-1] if new else ['']
            open(p, 'w').write('\n'.join(lines))
    else:
        return {'problem': 'too many rounds', 'failed': failed}
    chk = os.path.join(DST, 'Verif', 'Chk.lean')
    with open(chk, 'w') as f:
        f.write('import Verif\n' + ''.join('#print axioms %s\n' % t for t in base_theorems))
    p = subprocess.run(['lake', 'build', 'Verif.Chk'], cwd=DST, stdout=subprocess.PIPE, stderr=subprocess.STDOUT, text=True)
    os.remove(chk)
    seen = re.findall(r"'(\S+?)' (depends on axioms: \[[^\]]*\]|does not depend)", p.stdout)
    if len(seen) != len(base_theorems): return {'problem': '%d of %d theorems checked' % (len(seen), len(base_theorems)), 'failed': failed, 'out': p.stdout[-1500:]}
    broken = [t for t, ax in seen if 'sorryAx' in ax]
    return {'failed': failed, 'broken': broken}

def main():
    specs = [json.loads(l) for l in open(sys.argv[1]) if l.strip()]
    man = json.load(open(os.path.join(os.path.dirname(SRC), 'MANIFEST.json')))
    ths = sorted({t for c in man['claims'] for t in c['theorems']})
    done = set()
    if os.path.exists(sys.argv[2]):
        for l in open(sys.argv[2]): done.add(json.loads(l)['edit'])
    for spec in specs:
        if spec['edit'] in done: continue
        r = run(spec, ths)
        with open(sys.argv[2], 'a') as f:
            f.write(json.dumps({**spec, **r}, ensure_ascii=False) + '\n')

main()
