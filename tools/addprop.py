# usage: addprop.py < json with keys prop (properties.jsonl object), status, theorems, note, design
import json,sys
for d in json.load(sys.stdin):
    p=d["prop"]
    lines=[l for l in open("properties.jsonl") if l.strip() and json.loads(l)["id"]!=p["id"]]
    lines.append(json.dumps(p)+"\n"); open("properties.jsonl","w").writelines(lines)
    s=open("tools/manifest.py").read()
    row=' ("%s","%s",%s,%s),\n'%(p["id"],d["status"],json.dumps(d["theorems"]),json.dumps(d["note"]))
    s=s.replace("]\nids=[json",row+"]\nids=[json"); open("tools/manifest.py","w").write(s)
    g=open("DESIGN.md").read().split("\n")
    k=max(i for i,l in enumerate(g) if l.startswith("| C"))
    g.insert(k+1,"| %s | %s |"%(p["id"],d["design"])); open("DESIGN.md","w").write("\n".join(g))
