import re,sys
for f in sys.argv[1:]:
    L=open(f).read().split('\n')
    i=0; start=None
    depth0=None
    for n,l in enumerate(L,1):
        if l=='{' or (re.match(r'^[a-z].*\{\s*$',l) and '(' in l):
            # header: go back to line after blank/comment/}
            s=n
            while s>1 and L[s-2].strip() and not L[s-2].startswith('}') and not L[s-2].rstrip().endswith('*/') and not L[s-2].startswith('#'): s-=1
            start=s
        if l=='}' and start:
            hdr=' '.join(L[start-1:start+1])
            m=re.search(r'(\w+)\s*\(',hdr)
            print(f,m.group(1) if m else hdr,f'{start}-{n}'); start=None
