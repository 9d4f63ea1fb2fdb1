#!/usr/bin/env python3
"""usage: setstatus.py ID status note ... (triples); updates tools/status.json"""
import json,sys,os
p=os.path.join(os.path.dirname(os.path.abspath(__file__)),'status.json')
d=json.load(open(p))
a=sys.argv[1:]
for i in range(0,len(a),3): d[a[i]]=[a[i+1],a[i+2]]
open(p,'w').write("{\n"+",\n".join(json.dumps(k)+": "+json.dumps(d[k]) for k in sorted(d))+"\n}\n")
