"""Regenerate MANIFEST.json from the theorem names in lean/Verif/*/Props*.lean and the notes in notes.json."""
import glob, json, re, os
root = os.path.dirname(os.path.dirname(os.path.abspath(__file__)))
thms = {}
for f in sorted(glob.glob(root + '/lean/Verif/*/Props*.lean') + glob.glob(root + '/lean/Verif/*/Sample*.lean')):
    ns = None
    for line in open(f):
        m = re.match(r'namespace (\S+)', line)
        if m:
            ns = m.group(1)
        m = re.match(r'theorem (C\d+)_(\S+)', line)
        if m:
            thms.setdefault(m.group(1), []).append(f'{ns}.{m.group(1)}_{m.group(2)}')
notes = json.load(open(root + '/tools/notes.json'))
claims = []
for line in open(root + '/properties.jsonl'):
    pid = json.loads(line)['id']
    n = notes.get(pid, {})
    if pid in thms or n.get('status') == 'not_applicable':
        claims.append({'property': pid, 'status': n.get('status', 'proved'), 'theorems': thms.get(pid, []), 'note': n.get('note', '')})
json.dump({'claims': claims}, open(root + '/MANIFEST.json', 'w'), indent=1)
mods = sorted(f[len(root) + 6:-5].replace('/', '.') for f in glob.glob(root + '/lean/Verif/**/*.lean', recursive=True))
open(root + '/lean/Verif.lean', 'w').write(''.join(f'import {m}\n' for m in mods))
print(len(claims), 'claims', sum(len(c['theorems']) for c in claims), 'theorems', len(mods), 'modules')

# DESIGN.md
how = json.load(open(root + '/tools/how.json'))
more = ''.join(f'| {a} | {b} |\n' for a, b in json.load(open(root + '/tools/areas.json')))
out = open(root + '/tools/design_head.md').read().replace('@@MORE@@\n', more)
status = {c['property']: c['status'] for c in claims}
for line in open(root + '/properties.jsonl'):
    p = json.loads(line)
    n = notes.get(p['id'], {}).get('note', '')
    st = '' if status.get(p['id']) == 'proved' else f" ({status.get(p['id'], 'not proved')})"
    out += f"* **{p['id']}**{st} {p['title'].rstrip('.')}. {how.get(p['id'], '')}" + (f' *Limits:* {n}' if n else '') + '\n'
out += open(root + '/tools/design_tail.md').read()
open(root + '/DESIGN.md', 'w').write(out)
