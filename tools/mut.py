import json,sys,subprocess,re,os,shutil
# usage: mut.py muts.json   each: {definition,file,old,new,edit,claim}
muts=json.load(open(sys.argv[1]))
W='/tmp/mut'
shutil.rmtree(W,ignore_errors=True); subprocess.run(['cp','-r','/verif/lean',W],check=True)
r=subprocess.run(['lake','build'],cwd=W,capture_output=True,text=True)
if r.returncode!=0: sys.exit('baseline does not build')
def thms_at(path,lines):
    src=open(path).read().split('\n'); out=[]
    for ln in lines:
        for k in range(min(ln,len(src))-1,-1,-1):
            m=re.match(r'(?:private )?(theorem|example|def|lemma)\s*(\S*)',src[k])
            if m:
                out.append((m.group(2) if m.group(1)!='example' else 'example@%d'%(k+1))); break
    return out
for m in muts:
    p=W+'/Verif/'+m['file']
    s=open(p).read()
    if s.count(m['old'])!=1:
        print('BAD count',s.count(m['old']),m['definition'],m['edit']); continue
    open(p,'w').write(s.replace(m['old'],m['new']))
    r=subprocess.run(['lake','build'],cwd=W,capture_output=True,text=True)
    out=r.stdout+r.stderr
    fails={}
    for f,ln in re.findall(r'error: (Verif/\S+?\.lean):(\d+):',out):
        fails.setdefault(f,[]).append(int(ln))
    names=[]
    for f,l in fails.items():
        for n in thms_at(W+'/'+f,l):
            if n not in names: names.append(n)
    if r.returncode!=0 and not names: names=['(build aborted)']
    print(('CAUGHT ' if names else 'SURVIVED '),m['definition'],'|',m['edit'],'->',names[:8], flush=True)
    if 'dry' not in sys.argv:
        with open('/verif/seeded/LOG.jsonl','a') as g:
            g.write(json.dumps(dict(definition=m['definition'],file='lean/Verif/'+m['file'],edit=m['edit'],claim=m['claim'],failed=names,tightened=m.get('tightened',[]),survived=not names))+'\n')
    open(p,'w').write(s)
