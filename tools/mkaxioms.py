#!/usr/bin/env python3
"""Writes AXIOMS.tsv: every theorem of MANIFEST.json with the axioms it depends on (run after `lake build`)."""
import json, os, subprocess, tempfile
root = os.path.dirname(os.path.dirname(os.path.abspath(__file__)))
names = [t for c in json.load(open(root + '/MANIFEST.json'))['claims'] for t in c['theorems']]
src = 'import Verif\nimport Lean\nopen Lean\nrun_cmd do\n  let mut out : Array String := #[]\n'
src += '  for n in [' + ', '.join('`' + n for n in names) + '] do\n'
src += '''    let ax ← collectAxioms n
    let ax := (ax.map toString).qsort (· < ·)
    out := out.push (s!"{n}\\t" ++ String.intercalate " " ax.toList)
  IO.FS.writeFile "%s/AXIOMS.tsv" (String.intercalate "\\n" out.toList ++ "\\n")
''' % root
with tempfile.NamedTemporaryFile('w', suffix='.lean', delete=False) as f:
    f.write(src)
r = subprocess.run(['lake', 'env', 'lean', f.name], cwd=root + '/lean')
os.unlink(f.name)
import collections
print(collections.Counter(l.rstrip('\n').split('\t')[1] for l in open(root + '/AXIOMS.tsv')))
