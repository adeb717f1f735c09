#!/usr/bin/env python3
import json,re,glob
C=[]
def c(pid,status,thms,note=""):
    C.append({"property":pid,"status":status,"theorems":["IndraDB."+t for t in thms],"note":note})
def more(pid,thms):
    next(x for x in C if x["property"]==pid)["theorems"]+=["IndraDB."+t for t in thms]
exec(open('/verif/scripts/manifest_claims.py').read())
names=set()
for f in glob.glob('/verif/lean/Verif/**/*.lean',recursive=True):
    for m in re.finditer(r'^theorem\s+([^\s:({\[]+)',open(f).read(),re.M): names.add(m.group(1))
for x in C:
    for t in x["theorems"]:
        base=t[len("IndraDB."):]
        if base not in names and base.split('.')[-1] not in names: print("MISSING",t)
C.sort(key=lambda x:x["property"])
json.dump({"claims":C},open('/verif/MANIFEST.json','w'),indent=1)
open('/verif/MANIFEST.json','a').write("\n")
have={x["property"] for x in C}
print("no claim:",[json.loads(l)["id"] for l in open('/verif/properties.jsonl') if json.loads(l)["id"] not in have])
