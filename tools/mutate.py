#!/usr/bin/env python3
"""Test the theorems against wrong programs.

usage: mutate.py [--fast] MUTANTS.json RESULTS.jsonl

Each mutant is {"id", "file", "definition", "old", "new", "edit", "claim"}: in a scratch copy of /verif/lean the text
`old` (it must occur exactly once in the file, or once in the text of `definition`) is replaced by `new` and the project is
rebuilt. A declaration that no longer compiles is recorded and its proof replaced by `sorry`, so that the modules
behind it are built as well; at the end every theorem of the manifest that depends on `sorryAx` is listed.

With --fast the modules under Verif/Props are built one at a time, those that mention the definition first, until one contains
a broken theorem of the manifest; only the broken theorems of that module are listed. Failing examples alone do not count.
"""
import json, os, re, subprocess, sys, time

DIR = os.environ.get('MUT_DIR', '/tmp/mut')
PRISTINE, SCRATCH = f'{DIR}/pristine', f'{DIR}/scratch'
DECL = re.compile(r'^(?:@\[[^\]]*\]\s*)?(?:private\s+|noncomputable\s+|protected\s+)*(theorem|lemma|def|example|instance|abbrev|structure|inductive)\b\s*([^\s:({\[]*)')

def sh(cmd, **kw):
    return subprocess.run(cmd, shell=True, stdout=subprocess.PIPE, stderr=subprocess.STDOUT, text=True, **kw)

def reset():
    sh(f'rm -rf {SCRATCH}; cp -a {PRISTINE} {SCRATCH}')

def blocks(lines):
    """Start indices of declarations, including the comment in front."""
    starts = [i for i, l in enumerate(lines) if DECL.match(l)]
    out = []
    for k, i in enumerate(starts):
        j = i + 1
        while j < len(lines) and (lines[j].strip() == '' or lines[j][0] in ' \t⟨{' or lines[j].startswith('|')
                                  or lines[j].startswith('termination_by') or lines[j].startswith('decreasing_by')):
            j += 1
        m = DECL.match(lines[i])
        out.append((i, j, m.group(1), m.group(2)))
    return out

def proof_split(text):
    """Offset of the `:=` that starts the proof."""
    depth, i = 0, 0
    pend_let = 0
    while i < len(text):
        c = text[i]
        if c in '([{⟨': depth += 1
        elif c in ')]}⟩': depth -= 1
        elif depth == 0:
            if re.match(r'\blet\b', text[i:]) and not text[i-1].isalnum(): pend_let += 1
            if text.startswith(':=', i):
                if pend_let: pend_let -= 1
                else: return i
        i += 1
    return None

def patch(path, errlines):
    """Replace the proofs of the declarations at the given lines; returns (failed names, fatal)."""
    lines = open(path).read().split('\n')
    bl = blocks(lines)
    hit, fatal = {}, []
    for e in errlines:
        cand = [b for b in bl if b[0] <= e < b[1]]
        if not cand:
            # maybe the doc comment / attribute in front
            cand = [b for b in bl if b[0] >= e][:1]
        if not cand: fatal.append(f'line {e+1}'); continue
        hit[cand[0][0]] = cand[0]
    names = []
    for i in sorted(hit, reverse=True):
        b = hit[i]
        text = '\n'.join(lines[b[0]:b[1]])
        if b[2] == 'example':
            names.append(f'example at line {b[0]+1}')
            # drop the example together with its comment
            lines[b[0]:b[1]] = ['example : True := trivial', '']
            continue
        if b[2] in ('theorem', 'lemma'):
            k = proof_split(text)
            if k is None or text[k:].strip().startswith(':= sorry'):
                fatal.append(b[3]); continue
            names.append(b[3])
            # remove termination hints
            lines[b[0]:b[1]] = (text[:k] + ':= sorry\n').split('\n')
            continue
        fatal.append(b[3])
    open(path, 'w').write('\n'.join(lines))
    return names, fatal

def run(m):
    reset()
    path = f"{SCRATCH}/{m['file']}"
    src = open(path).read()
    if src.count(m['old']) != 1:
        return {'status': 'bad', 'why': f"old text occurs {src.count(m['old'])} times"}
    open(path, 'w').write(src.replace(m['old'], m['new']))
    failed, fatal = {}, []
    for rnd in range(12):
        r = sh('nice lake build', cwd=SCRATCH)
        errs = {}
        for mm in re.finditer(r'^error: (Verif/\S+\.lean):(\d+):(\d+): ', r.stdout, re.M):
            errs.setdefault(mm.group(1), set()).add(int(mm.group(2)) - 1)
        if r.returncode == 0: break
        if not errs:
            fatal.append('build: ' + r.stdout[-500:]); break
        stop = False
        for f, ls in errs.items():
            if '/Model/' in f or '/Spec/' in f and f == m['file']:
                fatal.append(f + ' ' + r.stdout[-1500:]); stop = True; continue
            n, ft = patch(f'{SCRATCH}/{f}', ls)
            for x in n: failed.setdefault(f, []).append(x)
            if ft: fatal += [f'{f}: {x}' for x in ft]
            if not n: stop = True
        if stop: break
    res = {'failed': failed, 'fatal': fatal}
    if not fatal or True:
        man = json.load(open('/verif/MANIFEST.json'))
        th = sorted({t for c in man['claims'] for t in c['theorems']})
        if not failed: res['broken'] = []
        elif not fatal:
            src = 'import Verif\n' + '\n'.join(f'#print axioms {t}' for t in th)
            open(f'{SCRATCH}/Ax.lean', 'w').write(src)
            r = sh('nice lake env lean Ax.lean', cwd=SCRATCH)
            br = []
            for mm in re.finditer(r"'([^']+)' depends on axioms: \[([^\]]*)\]", r.stdout):
                if 'sorryAx' in mm.group(2): br.append(mm.group(1))
            res['broken'] = sorted(br)
    res['status'] = 'invalid' if fatal and not failed else ('caught' if failed else 'survived')
    return res

def axioms(module, text, theorems):
    """The theorems that depend on sorryAx, in a module with the given text (which may contain errors)."""
    open(f'{SCRATCH}/Ax.lean', 'w').write(text + '\n' + '\n'.join(f'#print axioms {t}' for t in theorems))
    r = sh('nice lake env lean Ax.lean', cwd=SCRATCH)
    br = [mm.group(1) for mm in re.finditer(r"'([^']+)' depends on axioms: \[([^\]]*)\]", r.stdout) if 'sorryAx' in mm.group(2)]
    br += [t for t in theorems if re.search(r"[Uu]nknown (constant|identifier) .?" + re.escape(t) + r"\b", r.stdout)]
    return sorted(set(br)), r.stdout

def fast(m):
    reset()
    path = f"{SCRATCH}/{m['file']}"
    src = open(path).read()
    if src.count(m['old']) != 1:
        return {'status': 'bad', 'why': f"old text occurs {src.count(m['old'])} times"}
    open(path, 'w').write(src.replace(m['old'], m['new']))
    man = json.load(open('/verif/MANIFEST.json'))
    th = sorted({t for c in man['claims'] for t in c['theorems']})
    mods = {}
    for f in sorted(os.listdir(f'{SCRATCH}/Verif/Props')):
        text = open(f'{SCRATCH}/Verif/Props/{f}').read()
        own = [t for t in th if re.search(r'theorem ' + re.escape(t.split('.')[-1]) + r'(?!\w)', text)]
        words = [w for w in re.split(r'[^\w.]+', m['definition']) if w]
        score = sum(len(re.findall(r'\b' + re.escape(w.split('.')[-1]) + r'\b', text)) for w in words)
        if own: mods[f[:-5]] = (own, score / (len(text) ** 0.5))
    failed, fatal = {}, []
    for mod in sorted(mods, key=lambda x: -mods[x][1]):
        own = mods[mod][0]
        bad = False
        for rnd in range(12):
            r = sh(f'nice lake build Verif.Props.{mod}', cwd=SCRATCH)
            if r.returncode == 0: break
            errs = {}
            for mm in re.finditer(r'^error: (Verif/\S+\.lean):(\d+):(\d+): ', r.stdout, re.M):
                errs.setdefault(mm.group(1), set()).add(int(mm.group(2)) - 1)
            if not errs:
                return {'failed': failed, 'fatal': ['build: ' + r.stdout[-500:]], 'status': 'invalid'}
            stop = False
            for f, ls in errs.items():
                if '/Model/' in f or '/Spec/' in f and f == m['file']:
                    return {'failed': failed, 'fatal': [f + ' ' + r.stdout[-1500:]], 'status': 'invalid'}
                if f == f'Verif/Props/{mod}.lean':
                    bad = True; continue
                n, ft = patch(f'{SCRATCH}/{f}', ls)
                for x in n: failed.setdefault(f, []).append(x)
                if ft: fatal += [f'{f}: {x}' for x in ft]
                if not n: stop = True
            if stop: bad = True
            if bad: break
        text = open(f'{SCRATCH}/Verif/Props/{mod}.lean').read() if bad else f'import Verif.Props.{mod}'
        if bad or failed:
            br, o = axioms(mod, text, own)
            if br:
                return {'failed': failed, 'fatal': fatal, 'module': mod, 'broken': br, 'status': 'caught'}
            if bad:
                ls = {int(x) - 1 for x in re.findall(r'^Ax\.lean:(\d+):\d+: error', o, re.M)}
                n, ft = patch(f'{SCRATCH}/Verif/Props/{mod}.lean', ls)
                for x in n: failed.setdefault(f'Verif/Props/{mod}.lean', []).append(x)
                br = sorted(t for t in own if t.split('.')[-1] in n)
                if br:
                    return {'failed': failed, 'fatal': fatal, 'module': mod, 'broken': br, 'status': 'caught'}
    return {'failed': failed, 'fatal': fatal, 'broken': [], 'status': 'survived'}

def main():
    args = [a for a in sys.argv[1:] if a != '--fast']
    muts, out = json.load(open(args[0])), args[1]
    done = set()
    if os.path.exists(out):
        done = {json.loads(l)['id'] for l in open(out)}
    for m in muts:
        if m['id'] in done: continue
        t = time.time()
        res = (fast if '--fast' in sys.argv else run)(m)
        res = {'id': m['id'], 'time': round(time.time() - t), **res}
        with open(out, 'a') as f: f.write(json.dumps(res) + '\n')
        print(m['id'], res['status'], res['time'], res.get('broken', '?'), res.get('fatal'), flush=True)

main()
