#!/usr/bin/env python3
"""Rewrite the 'Findings' section of DESIGN.md from the docstrings of the *_false* theorems."""
import re, glob, os
root = os.path.dirname(os.path.dirname(os.path.abspath(__file__)))
rows = []
for f in sorted(glob.glob(f'{root}/lean/Verif/Props/*.lean')):
    for m in re.finditer(r'/--((?:(?!-/).)*?)-/\s*\n(?:(?:include|omit|open|set_option|attribute) .*\n)*theorem (C\d\d+_\w*false\w*)', open(f).read(), re.S):
        rows.append((m.group(2), ' '.join(m.group(1).split())))
rows.sort()
d = f'{root}/DESIGN.md'
s = open(d).read()
i = s.index('## Findings')
j = s.find('\n## ', i + 5)
tail = s[j:] if j >= 0 else ''
body = '## Findings: properties that are false of the code\n\nEach line is a theorem proving the failure, with its docstring.\n\n'
body += ''.join(f'* `{a}` — {b}\n' for a, b in rows)
open(d, 'w').write(s[:i] + body + tail)
print(len(rows), 'findings')
