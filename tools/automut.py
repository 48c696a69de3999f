#!/usr/bin/env python3
"""Generate small edits of the model for tools/mutate.py.

usage: automut.py OUT.json [SEED [PER_DEFINITION]]

Each edit changes one token of one definition under lean/Verif/Model: an operator, a comparison, a constant, a component, a connective.
"""
import glob, json, os, random, re, sys

ROOT = os.path.join(os.path.dirname(os.path.dirname(os.path.abspath(__file__))), 'lean')
HEAD = re.compile(r'^(?:@\[[^\]]*\]\s*)?(?:private\s+|noncomputable\s+|protected\s+)*def\s+([^\s:({\[]+)')
RULES = [
    (r' \+ ', [' - ']), (r' - ', [' + ']), (r' \* ', [' + ']), (r' / ', [' * ']),
    (r' < ', [' ≤ ', ' > ']), (r' ≤ ', [' < ', ' ≥ ']), (r' > ', [' ≥ ', ' < ']), (r' ≥ ', [' > ', ' ≤ ']),
    (r'(?<=if )(\S+) = ', [r'\1 ≠ ']), (r' == ', [' != ']), (r' != ', [' == ']), (r' ≠ ', [' = ']),
    (r' ∧ ', [' ∨ ']), (r' ∨ ', [' ∧ ']), (r' && ', [' || ']), (r' \|\| ', [' && ']),
    (r'(?<![\w.])(\d+)(?![\w.])', ['INC']),
    (r'\.1\b(?!\.)', ['.2']), (r'\.2\b(?!\.)', ['.1']),
    (r'\btrue\b', ['false']), (r'\bfalse\b', ['true']),
    (r'pyMin', ['pyMax']), (r'pyMax', ['pyMin']), (r'\bfirst\b', ['last']), (r'\blast\b', ['first']),
    (r'\.left\b', ['.right']), (r'\.right\b', ['.left']), (r'\.top\b', ['.bottom']), (r'\.bottom\b', ['.top']),
    (r'\.xs\b', ['.ys']), (r'\.width\b', ['.height']), (r'\.height\b', ['.width']),
    (r'\bReal\.sin\b', ['Real.cos']), (r'\bReal\.cos\b', ['Real.sin']),
    (r'R\.sub', ['R.add']), (r'R\.add', ['R.sub']), (r'R\.mul', ['R.add']),
    (r'\.error \.(\w+)', ['ERR']), (r'¬ ?', ['']), (r' \+\+ ', ['SWAP']),
    (r'(?<![\w.])-(?=[\w(])', ['']),
    (r'\.reverse\b', ['']), (r'\.dropLast\b', ['']), (r'\.tail\b', ['']),
    (r'\.fill\b', ['.stroke']), (r'\.stroke\b', ['.fill']),
]

def definitions(path):
    lines = open(path).read().split('\n')
    i, comment = 0, False
    while i < len(lines):
        m = HEAD.match(lines[i])
        if m:
            j = i + 1
            while j < len(lines) and (lines[j].strip() == '' or lines[j][0] in ' \t|'): j += 1
            while lines[j - 1].strip() == '': j -= 1
            yield m.group(1), '\n'.join(lines[i:j])
            i = j
        else: i += 1

def body_start(text):
    depth = 0
    for i, c in enumerate(text):
        if c in '([{': depth += 1
        elif c in ')]}': depth -= 1
        elif depth == 0 and text.startswith(':=', i): return i + 2
        elif depth == 0 and text.startswith('\n  |', i): return i
    return 0

def edits(text):
    start = body_start(text)
    for pat, subs in RULES:
        for m in re.finditer(pat, text[start:]):
            a, b = start + m.start(), start + m.end()
            if '--' in text[text.rfind('\n', 0, a) + 1:a]: continue
            for s in subs:
                if s == 'INC': r = str(int(m.group(1)) + 1)
                elif s == 'ERR': r = '.error .' + ('valueError' if m.group(1) != 'valueError' else 'indexError')
                elif s == 'SWAP': continue
                else: r = m.expand(s)
                new = text[:a] + r + text[b:]
                l0 = text.rfind('\n', 0, a) + 1
                l1 = text.find('\n', b); l1 = len(text) if l1 < 0 else l1
                yield new, text[l0:l1].strip(), (text[l0:a] + r + text[b:l1]).strip()

def main():
    out = sys.argv[1]
    seed = sys.argv[2] if len(sys.argv) > 2 else '1'
    per = int(sys.argv[3]) if len(sys.argv) > 3 else 2
    rng = random.Random(seed)
    res = []
    for f in sorted(glob.glob(f'{ROOT}/Verif/Model/*.lean')):
        whole = open(f).read()
        for name, text in definitions(f):
            if whole.count(text) != 1: continue
            es = list(edits(text))
            rng.shuffle(es)
            for new, a, b in es[:per]:
                res.append({'file': os.path.relpath(f, ROOT), 'definition': name, 'old': text, 'new': new,
                            'edit': f'`{a}` becomes `{b}`', 'short': [a, b], 'claim': 'generated edit of one token'})
    rng.shuffle(res)
    for i, m in enumerate(res): m['id'] = f'g{seed}-{i:03}'
    json.dump(res, open(out, 'w'), indent=1, ensure_ascii=False)
    print(len(res), 'edits')

main()
