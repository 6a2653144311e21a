#!/usr/bin/env python3
"""Regenerate MANIFEST.json from the Cnn_ theorems in lean/Verif/Props and tools/status.json."""
import json,re,glob,os
root=os.path.dirname(os.path.dirname(os.path.abspath(__file__)))
st=json.load(open(root+"/tools/status.json"))
ths={}
for f in sorted(glob.glob(root+"/lean/Verif/Props/**/*.lean",recursive=True)):
    ns=[]
    for line in open(f):
        m=re.match(r"namespace (\S+)",line)
        if m: ns.append(m.group(1)); continue
        m=re.match(r"end (\S+)",line)
        if m and ns and ns[-1]==m.group(1): ns.pop(); continue
        m=re.match(r"theorem (C\d\d+)(_\S+)",line)
        if m: ths.setdefault(m.group(1),[]).append(".".join(ns+[m.group(1)+m.group(2)]))
claims=[]
props=[json.loads(l)["id"] for l in open(root+"/properties.jsonl")]
for p in props:
    s=st.get(p)
    if s is None and p not in ths: continue
    s=s or ["proved",""]
    claims.append(dict(property=p,status=s[0],theorems=ths.get(p,[]),note=s[1]))
json.dump({"claims":claims},open(root+"/MANIFEST.json","w"),indent=1)
print(len(claims),"claims;",sum(len(v) for v in ths.values()),"theorems; missing",[p for p in props if p not in ths and p not in st], "unknown",[p for p in ths if p not in props])
