"""Regenerates MANIFEST.json from the theorem names in lean/Verif/Props and the notes in
tools/notes.json.  A property is partial if one of its theorems carries the suffix _partial or
_violated, or if notes.json says so."""
import glob, json, os, re
root = os.path.dirname(os.path.dirname(os.path.abspath(__file__)))
thms = {}
for f in sorted(glob.glob(root + '/lean/Verif/Props/*.lean')):
    ns = []
    for line in open(f):
        m = re.match(r'namespace (\S+)', line)
        if m: ns.append(m.group(1))
        m = re.match(r'end (\S+)', line)
        if m and ns and ns[-1] == m.group(1): ns.pop()
        m = re.match(r'theorem ((C\d\d+)_\w+)', line)
        if m: thms.setdefault(m.group(2), []).append('.'.join(ns + [m.group(1)]))
notes = json.load(open(root + '/tools/notes.json'))
ids = [json.loads(l)['id'] for l in open(root + '/properties.jsonl') if l.strip()]
claims = []
for i in ids:
    t = thms.get(i, [])
    n = notes.get(i, {})
    if isinstance(n, str): n = {'note': n}
    if not t:
        if n.get('status') == 'not_applicable':
            claims.append({'property': i, 'status': 'not_applicable', 'theorems': [], 'note': n.get('note', '')})
        else: print('no theorem yet:', i)
        continue
    st = n.get('status') or ('partial' if any(x.endswith(('_partial', '_violated')) for x in t) else 'proved')
    claims.append({'property': i, 'status': st, 'theorems': t, 'note': n.get('note', '')})
for i in thms:
    if i not in ids: print('theorem for unknown property', i)
json.dump({'claims': claims}, open(root + '/MANIFEST.json', 'w'), indent=1)
print(len(claims), 'claims', sum(len(c['theorems']) for c in claims), 'theorems')
