#!/usr/bin/env python3
"""Rebuild MANIFEST.json from the theorem names C<nn>_* in lean/Verif/Props and the notes below."""
import json, re, glob, os
root = os.path.dirname(os.path.dirname(os.path.abspath(__file__)))
thms = {}
for f in sorted(glob.glob(root + '/lean/Verif/Props/**/*.lean', recursive=True)):
    ns = []
    for line in open(f):
        m = re.match(r'namespace (\S+)', line)
        if m: ns.append(m.group(1))
        m = re.match(r'end (\S+)', line)
        if m and ns and ns[-1] == m.group(1): ns.pop()
        m = re.match(r'theorem (C\d\d+)(_\S+)', line)
        if m: thms.setdefault(m.group(1), []).append('.'.join(ns + [m.group(1) + m.group(2)]))
notes = json.load(open(root + '/tools/notes.json'))
claims = []
for line in open(root + '/properties.jsonl'):
    pid = json.loads(line)['id']
    t = thms.get(pid, [])
    n = notes.get(pid, {})
    status = n.get('status') or ('partial' if any('_partial' in x or 'violated' in x for x in t) else 'proved')
    if not t and status != 'not_applicable': continue
    claims.append({'property': pid, 'status': status, 'theorems': t, 'note': n.get('note', '')})
json.dump({'claims': claims}, open(root + '/MANIFEST.json', 'w'), indent=1, ensure_ascii=False)
print({s: sum(c['status'] == s for c in claims) for s in ('proved', 'partial', 'not_applicable')}, 'theorems', sum(len(c['theorems']) for c in claims))
