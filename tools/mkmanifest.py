#!/usr/bin/env python3
"""Build MANIFEST.json: theorems are found by their Cnn_ prefix in lean/Verif/Props/*.lean; status and note
come from tools/status.json ({"C01": ["partial", "note"], ...})."""
import json,re,glob,os
root=os.path.dirname(os.path.dirname(os.path.abspath(__file__)))
thms={}
for f in sorted(glob.glob(root+'/lean/Verif/Props/*.lean')):
    s=open(f).read()
    ns=[]
    for line in s.split('\n'):
        m=re.match(r'namespace\s+(\S+)',line)
        if m: ns.append(m.group(1))
        m=re.match(r'end\s+(\S+)',line)
        if m and ns and ns[-1]==m.group(1): ns.pop()
        m=re.match(r'(?:protected )?theorem\s+(C(\d\d)_\S+)',line)
        if m: thms.setdefault('C'+m.group(2),[]).append('.'.join(ns+[m.group(1)]))
st=json.load(open(root+'/tools/status.json'))
ids=[json.loads(l)['id'] for l in open(root+'/properties.jsonl')]
claims=[]
for i in ids:
    if i in st and thms.get(i):
        claims.append({"property":i,"status":st[i][0],"theorems":thms[i],"note":st[i][1]})
for i in thms:
    if i not in st: print('no status for',i)
for i in st:
    if i not in thms: print('no theorems for',i)
json.dump({"claims":claims},open(root+'/MANIFEST.json','w'),indent=1)
print(len(claims),'claims',sum(len(c['theorems']) for c in claims),'theorems')
