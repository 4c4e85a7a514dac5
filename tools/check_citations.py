#!/usr/bin/env python3
"""Rough check of the citations in the model: for "`name`, `file.py` a-b" the lines must
contain `name` near line a, and the range must be inside the file."""
import re,glob,os
repo='/repo/spinn_machine'
files={}
for r,_,fs in os.walk(repo):
    for f in fs:
        if f.endswith(('.py','.txt','.cfg')): files.setdefault(f,[]).append(os.path.join(r,f))
bad=0;n=0
for p in sorted(glob.glob('/verif/lean/Verif/Model/*.lean')):
    s=open(p).read()
    for m in re.finditer(r'/--(.*?)-/',s,re.S):
        c=' '.join(m.group(1).split())
        line=s[:m.start()].count('\n')+1
        for q in re.finditer(r'`([\w/]+\.(?:py|txt|cfg))`((?:,? ?\(?\d+(?:-\d+)?)+)',c):
            f=os.path.basename(q.group(1))
            if f not in files: print(p,line,'no file',f); bad+=1; continue
            L=open(files[f][0]).read().split('\n')
            for a,b in re.findall(r'(\d+)(?:-(\d+))?',q.group(2)):
                a=int(a); b=int(b or a); n+=1
                if b>len(L) or a>b: print(p,line,'range',q.group(0)); bad+=1
        # leading name
        q=re.match(r'\s*`(?:[\w]+\.)?([A-Za-z_]\w*)(?:\([^`]*\))?`[^`]*?`([\w/]+\.py)` (\d+)(?:-(\d+))?',c)
        if q:
            name,f,a,b=q.group(1),os.path.basename(q.group(2)),int(q.group(3)),int(q.group(4) or q.group(3))
            L=open(files[f][0]).read().split('\n')
            seg=[i for i,l in enumerate(L,1) if re.search(r'\b(def|class) '+re.escape(name)+r'\b',l) or re.match(r'\s*'+re.escape(name)+r'\s*[:=]',l)]
            if seg and not any(a-4<=i<=b for i in seg):
                print(f'{p}:{line}: {name} cited {f} {a}-{b}, defined at {seg}'); bad+=1
            elif seg and not any(a-3<=i<=a+1 for i in seg) :
                print(f'{p}:{line}: (start) {name} cited {f} {a}-{b}, defined at {seg}')
print(n,'ranges,',bad,'bad')
