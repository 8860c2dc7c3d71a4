"""Regenerate MANIFEST.json from the theorem names in lean/Verif/Props and the notes in tools/notes.json."""
import json, re, glob, os
root = os.path.dirname(os.path.dirname(os.path.abspath(__file__)))
notes = json.load(open(os.path.join(root, 'tools', 'notes.json')))
props = [json.loads(l) for l in open(os.path.join(root, 'properties.jsonl')) if l.strip()]
found = {}
for f in sorted(glob.glob(os.path.join(root, 'lean/Verif/Props/**/*.lean'), recursive=True)):
    ns = []
    for line in open(f):
        m = re.match(r'namespace (\S+)', line)
        if m: ns.append(m.group(1)); continue
        m = re.match(r'end (\S+)', line)
        if m and ns and ns[-1] == m.group(1): ns.pop(); continue
        m = re.match(r'theorem (C(\d+)_\S+)', line)
        if m:
            found.setdefault('C' + m.group(2), []).append('.'.join(ns + [m.group(1)]))
claims = []
for p in props:
    i = p['id']
    if i not in found:
        print('no theorem yet:', i, p['title']); continue
    th = found[i]
    n = notes.get(i, {})
    status = 'partial' if any(t.endswith('_partial') or 'counterexample' in t for t in th) else 'proved'
    status = n.get('status', status)
    claims.append(dict(property=i, status=status, theorems=th, note=n.get('note', '')))
unknown = set(found) - {p['id'] for p in props}
assert not unknown, unknown
json.dump(dict(claims=claims), open(os.path.join(root, 'MANIFEST.json'), 'w'), indent=1)
print(len(claims), 'claims;', sum(c['status'] == 'proved' for c in claims), 'proved')
