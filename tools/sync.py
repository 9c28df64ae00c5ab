#!/usr/bin/env python3
"""Regenerates lean/Verif.lean (imports) and MANIFEST.json (theorem names per property)."""
import json, re, os, glob
root="/verif/lean"
mods=[]
for d in ["Basic","Model","Spec","Lemmas","Props"]:
    for f in sorted(glob.glob(f"{root}/Verif/{d}/*.lean")):
        mods.append("Verif.%s.%s"%(d,os.path.basename(f)[:-5]))
open(f"{root}/Verif.lean","w").write("".join(f"import {m}\n" for m in mods))
thms={}
for f in sorted(glob.glob(f"{root}/Verif/Props/*.lean")):
    ns=[]
    for line in open(f):
        m=re.match(r"namespace (\S+)",line)
        if m: ns.append(m.group(1))
        m=re.match(r"end (\S+)",line)
        if m and ns and ns[-1]==m.group(1): ns.pop()
        m=re.match(r"(?:protected |private )?theorem (C\d\d+)_(\S+)",line)
        if m: thms.setdefault(m.group(1),[]).append(".".join(ns+[f"{m.group(1)}_{m.group(2)}"]))
notes=json.load(open("/verif/tools/notes.json"))
claims=[]
for line in open("/verif/properties.jsonl"):
    p=json.loads(line); i=p["id"]
    t=thms.get(i,[])
    n=notes.get(i,{})
    if not t: continue
    claims.append(dict(property=i,status=n.get("status","proved"),theorems=t,note=n.get("note","")))
json.dump({"claims":claims},open("/verif/MANIFEST.json","w"),indent=1)
missing=[json.loads(l)["id"] for l in open("/verif/properties.jsonl") if json.loads(l)["id"] not in thms]
print(len(claims),"claims; without theorem:",missing)
if missing: raise SystemExit(1)
