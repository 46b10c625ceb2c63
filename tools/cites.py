#!/usr/bin/env python3
"""Citation checker.
 1. every definition under lean/Verif/Model has a doc comment with a line number in it;
 2. the cited lines exist in /repo;
 3. prints the C functions of /repo no citation falls into."""
import re,os,sys,glob
R='/repo'
cfiles={}
for d,_,fs in os.walk(R):
    for f in fs:
        if f.endswith(('.c','.h','.xsd')) and '/tests/' not in d+'/': cfiles.setdefault(f,[]).append(os.path.join(d,f))
cited={}
bad=[];nodoc=[]
def default_file(text):
    m=re.findall(r'([A-Za-z0-9_\-]+\.(?:c|h|xsd))',text)
    return m[-1] if m else None
for p in sorted(glob.glob('/verif/lean/Verif/Model/**/*.lean',recursive=True)):
    t=open(p).read()
    head=re.search(r'/-!(.*?)-/',t,re.S)
    cur=default_file(head.group(1)) if head else None
    # all comments
    for m in re.finditer(r'/-[!-]?(.*?)-/|--([^\n]*)',t,re.S):
        c=m.group(1) or m.group(2) or ''
        isdoc=t[m.start():m.start()+3]=='/-!'
        f=cur
        for tok in re.finditer(r'([A-Za-z0-9_\-]+\.(?:c|h|xsd))(?=\W)|(?<![\w.^])(\d+)(?:-(\d+))?(?![\w^]|\.\d)',c):
            if tok.group(1):
                f=tok.group(1)
                if isdoc: cur=f
            else:
                a=int(tok.group(2)); b=int(tok.group(3) or a)
                if f: cited.setdefault(f,[]).append((a,b,p))
    # defs
    for m in re.finditer(r'^(?:@\[[^\]]*\]\s*)?(?:private |partial |noncomputable |protected )*(def|structure|inductive|abbrev|instance|class)\s+(\S+)',t,re.M):
        before=t[:m.start()].rstrip()
        if before.endswith('mutual'): before=before[:-6].rstrip()
        ok=before.endswith('-/') 
        if ok:
            s=before.rfind('/--'); doc=before[s:] if s>=0 else ''
            ok=bool(re.search(r'\d+',doc))
        if not ok: nodoc.append((p.replace('/verif/lean/Verif/',''),m.group(2)))
for f in cited:
    if f not in cfiles: bad.append((f,'no such file')); continue
    n=max(sum(1 for _ in open(x,errors='replace')) for x in cfiles[f])
    for a,b,p in cited[f]:
        if b>n or a>b: bad.append((f,a,b,p))
print('definitions without line citation:',len(nodoc))
for x in nodoc: print('  ',*x)
print('bad citations:',len(bad))
for x in bad[:60]: print('  ',*x)
unc=[]
for f,ps in sorted(cfiles.items()):
    if not f.endswith('.c'): continue
    for p in ps:
        ls=open(p,errors='replace').read().split('\n')
        i=0
        while i<len(ls):
            if ls[i].startswith('{'):
                e=i
                while e<len(ls) and not ls[e].startswith('}'): e+=1
                s=i
                while s>0 and not re.match(r'^[A-Za-z_].*\(',ls[s]): s-=1
                h=' '.join(ls[s:i])
                m=re.search(r'([A-Za-z_0-9]+)\s*\(',h)
                if m and not h.startswith(('typedef','struct','enum')):
                    hit=any(a<=e+1 and b>=s+1 for a,b,_ in cited.get(f,[]))
                    if not hit: unc.append((p.replace(R+'/',''),m.group(1),s+1,e+1))
                i=e
            i+=1
print('functions not cited:',len(unc))
for x in unc: print('  ',*x)
