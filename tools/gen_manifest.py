#!/usr/bin/env python3
"""Writes ../MANIFEST.json and checks that every theorem it names exists in the Lean sources and that every property has a claim."""
import json, os, re, glob
root=os.path.dirname(os.path.dirname(os.path.abspath(__file__)))
CL=[]
def c(prop, status, theorems, note):
    CL.append(dict(property=prop, status=status, theorems=["Prexel."+t for t in theorems.split()], note=note))

exec(open(os.path.join(root,"tools","claims.py")).read())

names=set()
for f in glob.glob(os.path.join(root,"lean","Verif","Props","*.lean")):
    for l in open(f):
        m=re.match(r"(?:@\[[^\]]*\] )?theorem ([A-Za-z0-9_.]+)",l)
        if m: names.add("Prexel."+m.group(1))
bad=[t for x in CL for t in x["theorems"] if t not in names]
props=[json.loads(l)["id"] for l in open(os.path.join(root,"properties.jsonl"))]
miss=[p for p in props if p not in [x["property"] for x in CL]]
extra=[x["property"] for x in CL if x["property"] not in props]
used={t for x in CL for t in x["theorems"]}
un=[t for t in sorted(names) if re.match(r"Prexel\.C\d",t) and t not in used]
json.dump({"claims":CL},open(os.path.join(root,"MANIFEST.json"),"w"),indent=1,ensure_ascii=False)
print("claims",len(CL),"theorems",len(used)); print("unknown",bad); print("properties without claim",miss); print("claims without property",extra); print("theorems not claimed",un)
