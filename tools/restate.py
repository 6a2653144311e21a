"""Usage: restate.py id 'statement' 'note' [status]: change a property's statement and its note in status.json."""
import json,sys
i,stm,note=sys.argv[1:4]; status=sys.argv[4] if len(sys.argv)>4 else "proved"
st=json.load(open('/verif/tools/status.json'))
st[i]=[status,note]
out=[];ok=False
for l in open('/verif/properties.jsonl'):
    d=json.loads(l)
    if d['id']==i:
        ok=True
        if stm: d['statement']=stm
    out.append(json.dumps(d))
assert ok
open('/verif/properties.jsonl','w').write('\n'.join(out)+'\n')
json.dump(st,open('/verif/tools/status.json','w'),indent=1)
