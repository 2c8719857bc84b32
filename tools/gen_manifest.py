#!/usr/bin/env python3
"""Writes /verif/MANIFEST.json from tools/claims.json-like table below and checks that the names exist."""
import json, os, re, glob
root=os.path.join(os.path.dirname(os.path.abspath(__file__)),"..")
props=[json.loads(l)["id"] for l in open(os.path.join(root,"properties.jsonl"))]
claims={}
exec(open(os.path.join(root,"tools","claims.py")).read())
names=set()
for f in glob.glob(os.path.join(root,"lean/Verif/**/*.lean"),recursive=True):
    src=open(f).read()
    ns=[]
    for line in src.split("\n"):
        m=re.match(r"namespace\s+(\S+)",line)
        if m: ns.append(m.group(1))
        m=re.match(r"end\s+(\S+)",line)
        if m and ns and ns[-1]==m.group(1): ns.pop()
        m=re.match(r"(?:@\[[^\]]*\]\s*)?(?:private\s+)?theorem\s+(\S+)",line)
        if m: names.add(".".join(ns+[m.group(1)]))
out=[]
for p in props:
    if p in claims:
        st,ths,note=claims[p]
        ths=["DG.Props."+t if not t.startswith("DG.") else t for t in ths]
        for t in ths:
            if t not in names: print("MISSING",p,t)
        out.append(dict(property=p,status=st,theorems=ths,note=note))
    else:
        print("no claim yet:",p)
json.dump({"claims":out},open(os.path.join(root,"MANIFEST.json"),"w"),indent=1)
