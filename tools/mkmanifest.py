#!/usr/bin/env python3
"""Writes MANIFEST.json.  Theorem lists are collected from lean/Verif/Props/*.lean by their
C<nn>_ prefix; the status and the note come from the table below."""
import json, re, glob, os
here = os.path.dirname(os.path.dirname(os.path.abspath(__file__)))
thms = {}
for f in sorted(glob.glob(here + '/lean/Verif/Props/*.lean')):
    spaces = []
    for line in open(f):
        m = re.match(r"namespace (\S+)", line)
        if m: spaces.append(m.group(1))
        m = re.match(r"end (\S+)", line)
        if m and spaces and spaces[-1] == m.group(1): spaces.pop()
        m = re.match(r"theorem (C\d\d+)(_\w+)", line)
        if m: thms.setdefault(m.group(1), []).append('.'.join(spaces + [m.group(1) + m.group(2)]))
NOTES = json.load(open(here + '/tools/notes.json'))
claims = []
for l in open(here + '/properties.jsonl'):
    i = json.loads(l)['id']
    if i not in thms:
        if i in NOTES and NOTES[i].get('status') == 'not_applicable':
            claims.append({'property': i, 'status': 'not_applicable', 'theorems': [], 'note': NOTES[i]['note']})
        else:
            print('no theorem for', i)
        continue
    n = NOTES.get(i, {})
    part = any(t.endswith('_partial') for t in thms[i])
    claims.append({'property': i, 'status': n.get('status', 'partial' if part else 'proved'),
                   'theorems': thms[i], 'note': n.get('note', '')})
json.dump({'claims': claims}, open(here + '/MANIFEST.json', 'w'), indent=1)
print(len(claims), 'claims', sum(len(c['theorems']) for c in claims), 'theorems')
