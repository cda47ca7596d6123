"""Generate MANIFEST.json from the theorem names in lean/Verif/Props and the notes below."""
import glob, json, os, re
root = os.path.dirname(os.path.dirname(os.path.abspath(__file__)))
thms = {}
for f in sorted(glob.glob(root + '/lean/Verif/Props/*.lean')):
    ns = []
    for line in open(f):
        m = re.match(r'namespace (\S+)', line)
        if m: ns.append(m.group(1))
        m = re.match(r'end (\S+)', line)
        if m and ns and ns[-1] == m.group(1): ns.pop()
        m = re.match(r'theorem ((C\d\d+)_\w+)', line)
        if m: thms.setdefault(m.group(2), []).append('.'.join(ns + [m.group(1)]))
exec(open(root + '/tools/notes.py').read())
claims = []
for l in open(root + '/properties.jsonl'):
    pid = json.loads(l)['id']
    ts = thms.get(pid, [])
    status, note = NOTES.get(pid, ('proved', ''))
    if not ts:
        if status == 'not_applicable':
            claims.append(dict(property=pid, status=status, theorems=[], note=note))
        else:
            print('no theorem yet:', pid)
        continue
    if pid not in NOTES: print('no note:', pid)
    claims.append(dict(property=pid, status=status, theorems=ts, note=note))
json.dump({'claims': claims}, open(root + '/MANIFEST.json', 'w'), indent=1)
print(len(claims), 'claims', sum(len(c['theorems']) for c in claims), 'theorems')
