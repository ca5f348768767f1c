"""Writes MANIFEST.json: theorems named Cnn_* are collected from lean/Verif/Props; status and
note come from NOTES."""
import re, json, glob, os
root = os.path.dirname(os.path.dirname(os.path.abspath(__file__)))
thms = {}
for f in sorted(glob.glob(root + '/lean/Verif/Props/*.lean')):
    ns = []
    for line in open(f):
        m = re.match(r'namespace (\S+)', line)
        if m: ns.append(m.group(1))
        m = re.match(r'end (\S+)', line)
        if m and ns and ns[-1] == m.group(1): ns.pop()
        m = re.match(r'theorem (C\d\d+)(_\w+)', line)
        if m: thms.setdefault(m.group(1), []).append('.'.join(ns + [m.group(1) + m.group(2)]))
NOTES = json.load(open(root + '/tools/notes.json'))
claims = []
for l in open(root + '/properties.jsonl'):
    i = json.loads(l)['id']
    st, note = NOTES.get(i, ['not_applicable', 'not yet modelled'])
    if st != 'not_applicable' and i not in thms: raise SystemExit('no theorem for ' + i)
    claims.append({'property': i, 'status': st, 'theorems': thms.get(i, []), 'note': note})
json.dump({'claims': claims}, open(root + '/MANIFEST.json', 'w'), indent=1)
