# Collects theorems named Cnn_* from Props, plus status/notes.
import re,json,glob
props=[json.loads(l) for l in open('/verif/properties.jsonl')]
th={}
for fn in sorted(glob.glob('/verif/lean/Verif/Props/*.lean')):
    for m in re.finditer(r"^theorem (C\d\d\d?)(_\w+)",open(fn).read(),re.M):
        th.setdefault(m.group(1),[]).append("AdBlock."+m.group(1)+m.group(2))
notes=json.load(open('/verif/tools/notes.json'))
claims=[]
for p in props:
    i=p['id']
    if i in th:
        st,note=notes.get(i,["proved",""])
        claims.append({"property":i,"status":st,"theorems":th[i],"note":note})
json.dump({"claims":claims},open('/verif/MANIFEST.json','w'),indent=1,ensure_ascii=False)
print(len(claims),"claims; missing:",[p['id'] for p in props if p['id'] not in th])
