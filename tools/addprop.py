"""Append properties and notes: python3 tools/addprop.py file.json  ({"props": [...], "notes": {...}})"""
import json, sys
d = json.load(open(sys.argv[1]))
L = [json.loads(l) for l in open('/verif/properties.jsonl')]
ids = {p['id'] for p in L}
for p in d.get('props', []):
    if p['id'] in ids:
        L = [p if q['id'] == p['id'] else q for q in L]
    else:
        L.append(p)
open('/verif/properties.jsonl', 'w').write(''.join(json.dumps(p) + '\n' for p in L))
N = json.load(open('/verif/tools/notes.json'))
N.update(d.get('notes', {}))
json.dump(N, open('/verif/tools/notes.json', 'w'), indent=0)
