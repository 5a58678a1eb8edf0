#!/usr/bin/env python3
"""Check citations `file.go:a-b `name`` in the models against /repo: the declaration of name must start on line a and end on line b."""
import re, glob, os
R='/verif/lean/Verif'
files={}
for p in glob.glob('/repo/**/*.go',recursive=True):
    if p.endswith('_test.go'): continue
    files.setdefault(os.path.basename(p),[]).append(p)
bad=0; n=0
def decls(path):
    ls=open(path).read().split('\n'); d={}
    for i,l in enumerate(ls,1):
        m=re.match(r'(?:func (?:\([^)]*\) )?|type |var |const )(\w+)',l)
        if m:
            j=i
            if l.rstrip().endswith('{') or l.rstrip().endswith('('):
                while j<=len(ls) and not re.match(r'[})]',ls[j-1]) : j+=1
            d.setdefault(m.group(1),[]).append((i,j))
    return d
cache={}
for p in sorted(glob.glob(R+'/**/*.lean',recursive=True)):
    t=open(p).read()
    for m in re.finditer(r'(\w[\w-]*\.go):(\d+)(?:-(\d+))?((?: and [\d-]+)?,? `([^`]+)`)?',t):
        f,a,b,name=m.group(1),int(m.group(2)),int(m.group(3) or m.group(2)),m.group(5)
        if f not in files: print(p,'no file',f); bad+=1; continue
        if not name: continue
        name=re.sub(r'^\(.*?\)\.?','',name)
        nm=re.match(r'\w+',name)
        if not nm: continue
        n+=1
        ds=[]
        for q in files[f]:
            if q not in cache: cache[q]=decls(q)
            ds+=cache[q].get(nm.group(0),[])
        if not ds: continue
        if not any(x==a and y==b for x,y in ds):
            line=t[:m.start()].count('\n')+1
            print('%s:%d: %s:%d-%d %s -> %s'%(p[len(R)+1:],line,f,a,b,name,ds)); bad+=1
print(n,'citations with names,',bad,'mismatches')
