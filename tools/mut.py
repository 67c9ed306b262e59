#!/usr/bin/env python3
"""usage: mut.py file  (json list of {file, old, new, def, edit, claim})"""
import sys,json,subprocess,os,re,shutil
SRC=sys.argv[2] if len(sys.argv)>2 else '/tmp/snap'; M='/tmp/mut'
if not os.path.exists(M): subprocess.run(['cp','-r',SRC,M])
def sync():
    subprocess.run(f"rsync -a --delete --exclude .lake {SRC}/ {M}/ 2>/dev/null || (rm -rf {M}/Verif {M}/Verif.lean && cp -r {SRC}/Verif {SRC}/Verif.lean {M}/)",shell=True)
    subprocess.run(f"rm -rf {M}/.lake/build && mkdir -p {M}/.lake && cp -r --preserve=timestamps {SRC}/.lake/build {M}/.lake/build",shell=True)
def enclosing(path,line):
    L=open(path).read().split('\n')
    ns=[]
    for i in range(min(line,len(L))-1,-1,-1):
        m=re.match(r'\s*(?:@\[[^\]]*\]\s*)?(?:private |protected )?(theorem|lemma|def|example|instance|abbrev)\b\s*([^\s:({\[]*)',L[i])
        if m: return (m.group(2) or m.group(1)+'@%d'%(i+1))
    return '?'
muts=json.load(open(sys.argv[1]))
out=[]
for m in muts:
    sync()
    p=os.path.join(M,m['file'])
    s=open(p).read()
    n=s.count(m['old'])
    if n!=1 and not m.get('nth'):
        print('BAD',n,m['edit']); continue
    if m.get('nth'):
        parts=s.split(m['old']); k=m['nth']
        s=m['old'].join(parts[:k])+m['new']+m['old'].join(parts[k:])
    else: s=s.replace(m['old'],m['new'])
    open(p,'w').write(s)
    r=subprocess.run('lake build '+m.get('targets','')+' 2>&1',shell=True,cwd=M,capture_output=True,text=True).stdout
    fails=[]
    modelbad=False
    for e in re.findall(r'^error: (Verif/\S+?\.lean):(\d+):',r,re.M):
        t=enclosing(os.path.join(M,e[0]),int(e[1]))
        if '/Model/' in e[0]: modelbad=True
        if t not in fails: fails.append(t)
    print(('MODELBROKEN ' if modelbad else '')+('KILLED' if fails else 'SURVIVED'),m['def'],'|',m['edit'],'|',fails[:8],flush=True)
    if modelbad:
        print(r[:1500])
        continue
    out.append(dict(definition=m['def'],edit=m['edit'],claim_broken=m['claim'],theorems_failed=fails,theorems_tightened=[]))
json.dump(out,open(sys.argv[1]+'.out','w'),indent=1)
