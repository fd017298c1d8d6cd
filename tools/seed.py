#!/usr/bin/env python3
"""seed.py JOBS.json [RESULTS] : test the theorems against wrong programs.

Each job {def,file,old,new,claim,note} edits a definition in a scratch copy of the last commit and rebuilds.
A theorem whose proof breaks is replaced by sorry in the scratch copy and the build is repeated, until everything
else has been checked; then every theorem of MANIFEST.json is asked whether it depends on a sorry.  Result:
theorems whose own proof broke and theorems that rest on a broken one."""
import json,os,re,shutil,subprocess,sys
HEAD='/tmp/seed/head'; SRC=HEAD+'/lean'; DST='/tmp/seed/lean'; BASE='/tmp/seed/base'
RES=sys.argv[2] if len(sys.argv)>2 else '/tmp/s/seedres.jsonl'
def run(c,**k): return subprocess.run(c,shell=True,capture_output=True,text=True,**k)
def export():
    shutil.rmtree(HEAD,ignore_errors=True); os.makedirs(HEAD)
    subprocess.run('git -C /verif archive HEAD | tar -x -C '+HEAD,shell=True,check=True)
    shutil.copy('/verif/lean/lake-manifest.json',SRC+'/lake-manifest.json')
def build():
    p=run('nice lake build 2>&1',cwd=DST,timeout=3600)
    return p.returncode,p.stdout
def reset():
    shutil.rmtree(DST,ignore_errors=True); shutil.copytree(SRC,DST,symlinks=True)
    if os.path.exists(BASE): run(f'mkdir -p {DST}/.lake && cp -a {BASE} {DST}/.lake/build')
DECL=re.compile(r'(?:@\[[^\]]*\]\s*)?(?:private |protected |noncomputable )*(theorem|lemma|def|example|instance|abbrev|structure|inductive)\b\s*(\S*)')
TOP=re.compile(r'(@\[|private |protected |noncomputable |theorem |lemma |def |example|instance|abbrev |structure |inductive |namespace |end\b|section|open |variable|/-|set_option|attribute|#|local )')
def block(L,line):
    i=min(line,len(L))-1
    while i>=0 and not DECL.match(L[i]): i-=1
    if i<0: return None
    j=i+1
    while j<len(L) and not TOP.match(L[j]): j+=1
    return i,j
def sorryout(f,line):
    """returns (kind,name) of the declaration at line, its proof replaced"""
    p=os.path.join(DST,f); L=open(p).read().split('\n')
    b=block(L,line)
    if not b: return ('?',f'{f}:{line}')
    i,j=b; m=DECL.match(L[i]); kind,name=m.group(1),m.group(2)
    txt='\n'.join(L[i:j])
    if kind not in ('theorem','lemma','example'): return (kind,name)
    if kind=='example' and re.match(r'example\s*:=',txt): new=''
    else:
        d=0; pos=None
        for k,c in enumerate(txt):
            if c in '([{⟨': d+=1
            elif c in ')]}⟩': d-=1
            elif d==0 and txt.startswith(':=',k): pos=k; break
            elif d==0 and txt.startswith('\n  | ',k): pos=k; break
        if pos is None: return ('?',name)
        new=txt[:pos]+' := sorry\n'
    if kind=='example': name=f'example@{f}:{i+1}'
    # keep line numbers
    pad=txt.count('\n')-new.count('\n')
    L[i:j]=(new+'\n'*max(pad,0)).split('\n')
    open(p,'w').write('\n'.join(L))
    return (kind,name)
def main():
    jobs=json.load(open(sys.argv[1]))
    export()
    shutil.rmtree(BASE,ignore_errors=True); shutil.rmtree(DST,ignore_errors=True); reset()
    if os.path.exists('/verif/lean/.lake/build'): run(f'mkdir -p {DST}/.lake && cp -a /verif/lean/.lake/build {DST}/.lake/build')
    rc,o=build(); print('baseline',rc,flush=True)
    if rc: print(o[-2000:]); return
    run(f'cp -a {DST}/.lake/build {BASE}')
    names=[t for c in json.load(open(HEAD+'/MANIFEST.json'))['claims'] for t in c['theorems']]
    log=open(RES,'a')
    for j in jobs:
        reset()
        p=os.path.join(DST,j['file']); s=open(p).read()
        if s.count(j['old'])<1: print('NOT FOUND',j['def'],j['old'],flush=True); continue
        open(p,'w').write(s.replace(j['old'],j['new'],1))
        broke=[]; stuck=''; rest=[]
        for rnd in range(30):
            rc,o=build()
            if rc==0: break
            errs=sorted({(m.group(1),int(m.group(2))) for m in re.finditer(r'error: (Verif/\S+\.lean):(\d+):\d+',o)},key=lambda e:(e[0],-e[1]))
            if not errs: stuck='no error position: '+o[-300:]; break
            done=set()
            for f,l in errs:
                L=open(os.path.join(DST,f)).read().split('\n'); b=block(L,l)
                if b and (f,b[0]) in done: continue
                if b: done.add((f,b[0]))
                k,n=sorryout(f,l)
                if k in ('theorem','lemma','example'):
                    if n in broke: stuck=f'{n} fails with sorry'
                    else: broke.append(n)
                else: stuck=f'{k} {n} does not compile'
            if stuck: break
        if rc==0:
            open(DST+'/Ax.lean','w').write('import Verif\n'+'\n'.join('#print axioms '+n for n in names)+'\n')
            a=run('lake env lean Ax.lean',cwd=DST).stdout
            for m in re.finditer(r"'([^']+)' depends on axioms: \[([^\]]*)\]",a):
                if 'sorryAx' in m.group(2): rest.append(m.group(1).split('Iges.Props.')[-1])
            os.remove(DST+'/Ax.lean')
        r={'definition':j['def'],'file':j['file'],'edit':j['old'].strip()+'  =>  '+j['new'].strip(),'claim':j['claim'],
           'proofs_broken':broke,'theorems_failed':rest if rc==0 else broke,'note':(j.get('note','')+' '+stuck).strip(),'built':rc==0 and not broke}
        print(json.dumps(r),flush=True); log.write(json.dumps(r)+'\n'); log.flush()
main()
