"""Regenerates MANIFEST.json from the theorem names in lean/Verif/Props."""
import json, re, glob, os
root = os.path.dirname(os.path.dirname(os.path.abspath(__file__)))
names = {}
for f in sorted(glob.glob(root + '/lean/Verif/Props/*.lean')):
    src = open(f).read()
    for m in re.finditer(r'^(?:omit .* in\s+)?(?:private )?theorem ((C\d+)_\w+)', src, re.M):
        names.setdefault(m.group(2), []).append('Stroke.' + m.group(1))
notes = json.load(open(root + '/tools/status.json'))
props = [json.loads(l)['id'] for l in open(root + '/properties.jsonl')]
claims = []
for p in props:
    st, note = notes.get(p, ['', ''])
    th = [n for n in names.get(p, []) if not n.endswith('_hyps')]
    if st and th:
        claims.append({'property': p, 'status': st, 'theorems': th, 'note': note})
    else:
        print('no claim for', p, st, th)
json.dump({'claims': claims}, open(root + '/MANIFEST.json', 'w'), indent=1)
print(len(claims), 'claims')
