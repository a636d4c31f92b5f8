#!/usr/bin/env python3
"""Check that every `file.go:a-b `Name`` citation in the Lean sources points at lines of /repo that mention the name."""
import re, glob, os, sys
bad = 0
for p in sorted(glob.glob(os.path.join(os.path.dirname(__file__), '..', 'lean', 'Verif', '*.lean'))):
    text = open(p).read()
    for m in re.finditer(r'([a-z_]+\.go):([0-9][0-9, \-]*)(?:\s+(`[A-Za-z_0-9.]+`(?:,\s+`[A-Za-z_0-9.]+`)*))?', text):
        f, ranges, names = m.groups()
        path = '/repo/' + f
        line = text.count('\n', 0, m.start()) + 1
        if not os.path.exists(path):
            print(f'{p}:{line}: no file {f}'); bad += 1; continue
        src = open(path).read().split('\n')
        covered = []
        for r in re.findall(r'(\d+)(?:-(\d+))?', ranges):
            a, b = int(r[0]), int(r[1] or r[0])
            if b > len(src) or a > b:
                print(f'{p}:{line}: {f}:{a}-{b} out of range'); bad += 1; continue
            covered += src[a-1:b]
        for n in re.findall(r'`([A-Za-z_0-9.]+)`', names or ''):
            n = n.split('.')[-1]
            if not any(n in c for c in covered):
                print(f'{p}:{line}: {f}:{ranges.strip()} does not mention {n}'); bad += 1
sys.exit(1 if bad else 0)
