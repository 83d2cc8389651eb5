"""Regenerates MANIFEST.json from theorem names in lean/Verif/Props and the status table below."""
import glob, json, re
STATUS = json.load(open('/verif/tools/status.json'))
props = [json.loads(l)['id'] for l in open('/verif/properties.jsonl')]
found = {}
for f in sorted(glob.glob('/verif/lean/Verif/Props/*.lean')):
    for m in re.finditer(r'^(?:@\[[^\]]*\]\s*)?theorem (C\d\d\d?_[^\s({\[:]+)', open(f).read(), re.M):
        found.setdefault(m.group(1).split("_")[0], []).append('OptBinning.' + m.group(1))
claims = []
for p in props:
    st = STATUS.get(p)
    if p not in found:
        if st and st[0] == 'not_applicable':
            claims.append(dict(property=p, status=st[0], theorems=[], note=st[1]))
        continue
    claims.append(dict(property=p, status=st[0], theorems=found[p], note=st[1]))
json.dump({"claims": claims}, open('/verif/MANIFEST.json', 'w'), indent=1)
print(len(claims), [p for p in props if p not in found], [p for p in found if p not in STATUS])
