#!/usr/bin/env python3
"""List the functions of /repo that no citation in the Lean sources covers."""
import re, glob, os
root = os.path.join(os.path.dirname(os.path.abspath(__file__)), '..', 'lean', 'Verif')
cited = {}
for p in glob.glob(os.path.join(root, '*.lean')):
    # a file name, then line ranges; later ranges after commas, names and words belong to the same file until another file is named;
    # ranges in line comments of a definition belong to the file its doc comment names last
    doc = None
    for comment in re.findall(r'/-.*?-/|--[^\n]*', open(p).read(), re.S):
        cur = doc if comment.startswith('--') else None
        for m in re.finditer(r'([a-z_0-9]+\.go)|(?<![A-Za-z_0-9.])(\d+)(?:-(\d+))?', comment):
            if m.group(1):
                cur = m.group(1)
            elif cur:
                a, b = int(m.group(2)), int(m.group(3) or m.group(2))
                cited.setdefault(cur, set()).update(range(a, b + 1))
        if not comment.startswith('--'):
            doc = cur
total = missing = 0
for f in sorted(glob.glob('/repo/*.go')):
    if f.endswith('_test.go'):
        continue
    name = os.path.basename(f)
    for i, l in enumerate(open(f), 1):
        m = re.match(r'func\s+(\([^)]*\)\s*)?(\w+)', l)
        if m:
            total += 1
            if i not in cited.get(name, set()):
                missing += 1
                print(f'{name}:{i}', (m.group(1) or '').strip(), m.group(2))
print(f'{total - missing} of {total} functions covered')
