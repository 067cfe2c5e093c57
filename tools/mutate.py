#!/usr/bin/env python3
"""Test the theorems against wrong programs.

Usage: mutate.py MUTANTS.json RESULTS.jsonl

Copies /verif/lean (or $MUT_SRC) to a scratch directory, applies one edit of the model at a time, builds,
and records which theorems no longer check.  With MUT_DEEP=1, these theorems are then left unproved in the
scratch copy and the build goes on, so that the modules depending on them are tested as well.
A mutant that builds at once has survived.
"""
import json, os, re, shutil, subprocess, sys

SRC = os.environ.get('MUT_SRC', '/verif/lean')
WORK = os.environ.get('MUT_WORK', '/tmp/mut/work')
DEEP = os.environ.get('MUT_DEEP') == '1'

START = re.compile(r'(?:@\[[^\]]*\]\s*)?(?:private |protected |omit .* in |noncomputable )*(theorem|def|instance|structure|inductive|example|abbrev)\b\s*(\S*)')
TOP = re.compile(r'(/--|@\[|private |protected |omit |noncomputable |theorem|def |instance|structure|inductive|example|abbrev|namespace|end |section|variable|open |/-!|/-)')

def declaration(lines, line):
    """the kind, the name and the range of lines of the declaration around a line (counted from 1)"""
    i = min(line, len(lines)) - 1
    while i >= 0 and not START.match(lines[i]): i -= 1
    if i < 0: return None
    j = i + 1
    while j < len(lines) and not TOP.match(lines[j]): j += 1
    m = START.match(lines[i])
    return m.group(1), (m.group(2) if m.group(1) != 'example' else 'example'), i, j

def body_start(text):
    depth = 0
    for k, c in enumerate(text):
        if c in '([{⟨': depth += 1
        elif c in ')]}⟩': depth -= 1
        elif depth == 0 and text.startswith(':=', k): return k
        elif depth == 0 and text.startswith('\n  | ', k): return k
    return None

def leave_unproved(path, at):
    """at: set of (kind, name, i, j)"""
    lines = open(path).read().split('\n')
    for kind, name, i, j in sorted(at, key=lambda d: -d[2]):
        if kind == 'example':
            lines[i:j] = ['example : True := trivial', '']
        elif kind == 'theorem':
            text = '\n'.join(lines[i:j])
            k = body_start(text)
            if k is None: return False
            lines[i:j] = (text[:k] + ' := by sorry\n').split('\n')
        else:
            return False
    open(path, 'w').write('\n'.join(lines))
    return True

def main(mutants, results):
    done = set()
    if os.path.exists(results):
        done = {json.loads(l)['n'] for l in open(results)}
    for m in json.load(open(mutants)):
        if m['n'] in done: continue
        if os.path.exists(WORK): shutil.rmtree(WORK)
        shutil.copytree(SRC, WORK, symlinks=True)
        p = os.path.join(WORK, 'Verif', m['file'])
        s = open(p).read()
        if s.count(m['old']) < 1:
            print(m['n'], 'NOT FOUND', flush=True); continue
        s = s.replace(m['old'], m['new'], 1)
        open(p, 'w').write(s)
        failed, rounds, complete = [], 0, False
        while True:
            r = subprocess.run(['lake', 'build'], cwd=WORK, capture_output=True, text=True)
            if r.returncode == 0: complete = True; break
            rounds += 1
            out = r.stdout + r.stderr
            broken = {}
            for f, l in re.findall(r'error: (Verif/[\w/]+\.lean):(\d+):', out):
                d = declaration(open(os.path.join(WORK, f)).read().split('\n'), int(l))
                if d is None: broken = None; break
                broken.setdefault(f, set()).add(d)
                name = f[6:-5].replace('/', '.') + ':' + d[1]
                if name not in failed: failed.append(name)
            if not DEEP or not broken or rounds > 25: break
            if not all(leave_unproved(os.path.join(WORK, f), ds) for f, ds in broken.items()): break
        rec = dict(n=m['n'], ok=rounds == 0, failed=failed, complete=complete)
        with open(results, 'a') as o: o.write(json.dumps(rec) + '\n')
        print(m['n'], 'SURVIVED' if rounds == 0 else 'failed: ' + ', '.join(failed[:12]), flush=True)

main(*sys.argv[1:])
