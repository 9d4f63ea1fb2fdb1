"""Rows of seeded/LOG.jsonl for the automatic single-token edits (called by mklog.py)."""
import json,glob,re,os
L='/tmp/mutw2/lean'
NOTES=json.load(open(os.path.join(os.path.dirname(__file__),'autonotes.json')))
def rows():
    mods={}
    for f in glob.glob(L+'/Verif/**/*.lean',recursive=True):
        mods[os.path.relpath(f,L)[:-5].replace('/','.')]=open(f).read()
    imp={m:re.findall(r'^import (Verif\.\S+)',s,re.M) for m,s in mods.items()}
    def deps(M):
        d={M};ch=True
        while ch:
            ch=False
            for m in imp:
                if m not in d and any(i in d for i in imp[m]): d.add(m);ch=True
        return d
    cl={m:sorted(set(re.findall(r'^theorem (C\d\d)_',s,re.M))) for m,s in mods.items()}
    res=[]
    for f in sorted(glob.glob('/tmp/mutw2/auto*.out')):
        for l in open(f):
            r=json.loads(l)
            name=''
            if r['where']:
                ln=int((r['msg'].split(' ')[0] or '0')); src=mods[r['where']].split('\n')[:ln]
                for x in reversed(src):
                    m=re.match(r'(?:@\[.*\] )?(?:private )?(theorem|def|example|instance|abbrev)\s*(\S*)',x)
                    if m: name=m.group(2) if m.group(1)!='example' else 'example'; break
            res.append({'definition':r['definition'],'file':'lean/'+r['module'].replace('.','/')+'.lean',
              'edit':'automatic: "%s" => "%s"'%(r['line'],r['mutated']),
              'claim':', '.join(sorted({c for m in deps(r['where'] or r['module']) for c in cl.get(m,[])})) if r['where'] else '',
              'theorems_failed':[r['where'].replace('Verif.','')+':'+name] if r['where'] else [],
              'theorems_tightened':[],'verdict':r['verdict'].lower()})
            if r['verdict']=='SURVIVED':
                n=next((v for k,v in NOTES if k[0]==r['definition'] and k[1] in r['mutated']),None)
                if n: res[-1]['theorems_tightened']=n[0]; res[-1]['note']=n[1]
                else: print('NO NOTE',r['module'],r['definition'],r['line'],'=>',r['mutated'])
    return res
