#!/usr/bin/env python3
"""Write DESIGN.md from the fixed text below, MANIFEST.json, properties.jsonl and (optional) an axiom listing.
usage: mkdesign.py [axioms.json]   axioms.json: {"theorem": "depends on axioms: [...]"}"""
import json, sys, re, os
props = [json.loads(l) for l in open('/verif/properties.jsonl')]
man = {c['property']: c for c in json.load(open('/verif/MANIFEST.json'))['claims']}
ax = json.load(open(sys.argv[1])) if len(sys.argv) > 1 else {}
plan = json.load(open('/verif/tools/plan.json'))
short = {'propext': 'p', 'Classical.choice': 'c', 'Quot.sound': 'q'}
def axs(t):
    a = ax.get(t)
    if a is None: return '?'
    m = re.search(r"\[(.*)\]", a)
    return ''.join(short[x.strip()] for x in m.group(1).split(',')) if m else '-'
def fileof(t):
    n = t.split('.')[-1]
    d = '/verif/lean/Verif/Props'
    for f in sorted(os.listdir(d)):
        if re.search(r"^(?:private |protected )?theorem " + re.escape(n) + r"\b", open(f'{d}/{f}').read(), re.M): return f[:-5]
    return '?'
out = [open('/verif/tools/design_head.md').read().rstrip(), '', '## Per property', '',
"Letters after a theorem: the axioms it depends on (`#print axioms`): p = propext, c = Classical.choice, q = Quot.sound, - = none.", '']
for p in props:
    c = man[p['id']]
    out.append(f"### {p['id']} {p['title']} ({c['status']})")
    out.append(plan.get(p['id'], ''))
    if c.get('note'): out.append(f"*Scope:* {c['note']}")
    by = {}
    for t in c['theorems']: by.setdefault(fileof(t), []).append(f"`{t.split('.')[-1]}`({axs(t)})")
    out.append("*Theorems:* " + '; '.join(f"Props/{f}: " + ', '.join(v) for f, v in by.items()))
    out.append('')
open('/verif/DESIGN.md', 'w').write('\n'.join(out))
missing = [p['id'] for p in props if not plan.get(p['id'])]
print('no plan text:', missing, 'unknown axioms:', sum(1 for p in props for t in man[p['id']]['theorems'] if axs(t) == '?'))
