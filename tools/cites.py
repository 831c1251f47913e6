import re,glob,os,subprocess
root='/verif/lean/Verif'
allf=[f for f in subprocess.run("find /repo -name '*.cpp' -o -name '*.h' -o -name '*.hpp'",shell=True,capture_output=True,text=True).stdout.split('\n') if f and '/tests/' not in f]
byname={}
for f in allf: byname.setdefault(os.path.basename(f),[]).append(f)
def res(p):
    b=os.path.basename(p); c=byname.get(b,[])
    x=[f for f in c if f.endswith('/'+p.lstrip('…/').replace('repo/',''))] or c
    return x
bad=0;tot=0;un=set()
for f in sorted(glob.glob(root+'/**/*.lean',recursive=True)):
    area=os.path.dirname(f)
    def abbr(t):
        ab={}
        for m in re.finditer(r'`(\w+)`\s*=\s*`?([\w/.…\-]+\.(?:cpp|hpp|h))`?',t): ab[m[1]]=res(m[2])
        for m in re.finditer(r'`([\w/.…\-]+\.(?:cpp|hpp|h))`[^`]{0,40}?(?:cited|abbreviated)\s*(?:as)?\s*`(\w+)`',t): ab[m[2]]=res(m[1])
        return ab
    ab={}
    for g in glob.glob(area+'/*.lean'): 
        for k,v in abbr(open(g).read()).items(): ab.setdefault(k,v)
    t=open(f).read(); ab.update(abbr(t))
    for m in re.finditer(r'/-[-!](.*?)-/',t,re.S):
        c=m[1]
        names=[x.split('::')[-1].split('.')[-1] for x in re.findall(r'`([A-Za-z_:.~<>=]+)(?:\(\))?`',c) if not x.endswith(('.cpp','.h','.hpp'))]
        names=[n for n in names if n not in ab]
        its=list(re.finditer(r'\b([a-z_]\w*(?:\.(?:cpp|hpp|h))?):(\d+)(?:[-–](\d+))?((?:,\s*\d+(?:[-–]\d+)?)*)',c))
        its+=list(re.finditer(r'`([\w]+\.(?:cpp|hpp|h))` (\d+)(?:[-–](\d+))?((?:,\s*\d+(?:[-–]\d+)?)*)',c))
        for q in its:
            fs=ab.get(q[1]) or (res(q[1]) if '.' in q[1] else None)
            if not fs: un.add((f[len(root)+1:],q[1])); continue
            rs=[(int(q[2]),int(q[3] or q[2]))]+[(int(a),int(b or a)) for a,b in re.findall(r'(\d+)(?:[-–](\d+))?',q[4])]
            for a,b in rs:
                tot+=1
                ok=False;rng=True
                for ff in fs:
                    L=open(ff,errors='replace').read().split('\n')
                    if b>len(L) or a>b: continue
                    rng=False
                    seg='\n'.join(L[max(0,a-4):b+1])
                    if not names or any(n and n in seg for n in names): ok=True
                if rng: print('RANGE',f[len(root)+1:],t.count('\n',0,m.start())+1,q[0]); bad+=1
                elif not ok: bad+=1; print(f[len(root)+1:],t.count('\n',0,m.start())+1,q[1],(a,b),names[:4])
print(tot,'citations',bad,'unmatched; unknown',sorted(un)[:40])
