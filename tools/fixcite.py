#!/usr/bin/env python3
"""Check (and with -w fix) citations of the form `fn`, maa/file.c:a-b against tools/fns.txt."""
import re,sys,glob
fns={}
for l in open('/verif/tools/fns.txt'):
    x=l.split()
    if len(x)==3: fns[(x[0],x[1])]=x[2]
w='-w' in sys.argv
for p in glob.glob('/verif/lean/Verif/Model/*.lean'):
    s=open(p).read()
    def sub(m):
        k=(m.group(3),m.group(1))
        if k in fns and fns[k]!=m.group(4):
            print(p.split('/')[-1],m.group(1),m.group(4),'->',fns[k])
            return f"`{m.group(1)}`{m.group(2)}maa/{m.group(3)}:{fns[k]}"
        if k not in fns: pass
        return m.group(0)
    t=re.sub(r"(?<=/-- )`(\w+)`(,\s)maa/(\w+\.c):(\d+-\d+)",sub,s)
    if w and t!=s: open(p,'w').write(t)
