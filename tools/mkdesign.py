"""Regenerate the generated tail of DESIGN.md: module list and disagreements."""
import re,glob,os
P='/verif/DESIGN.md'
s=open(P).read()
MARK='<!-- generated tail: tools/mkdesign.py -->'
s=s.split(MARK)[0].rstrip()+'\n\n'+MARK+'\n'
out=['\n## Modelled code, module by module\n','The code outside the cited lines is not modelled.\n','| module | code cited |','|---|---|']
for f in sorted(glob.glob('/verif/lean/Verif/Model/*.lean')):
    t=open(f).read()
    cites=re.findall(r'((?:nimble/)?[\w/]*\w+\.py)(?::| lines? )?(\d[\d\-, ]*)?',t)
    d={}
    for a,b in cites:
        a=a.replace('nimble/','').split('/')[-1]
        d.setdefault(a,[]).append((b or '').strip(' ,'))
    def rng(l):
        xs=[]
        for b in l:
            for part in re.split(r'[, ]+',b):
                m=re.match(r'(\d+)(?:-(\d+))?$',part)
                if m:
                    lo=int(m.group(1)); hi=int(m.group(2) or lo)
                    if hi>=lo: xs.append((lo,hi))
        xs.sort(); r=[]
        for lo,hi in xs:
            if r and lo<=r[-1][1]+30: r[-1][1]=max(r[-1][1],hi)
            else: r.append([lo,hi])
        return ', '.join(f'{a}-{b}' for a,b in r)
    out.append('| %s | %s |'%(os.path.basename(f)[:-5],'; '.join(f'{a} {rng(l)}'.strip() for a,l in d.items())))
out+=['\n## Disagreements between code and property\n','Each is a theorem with a concrete witness about the unchanged code as modelled.\n']
for f in sorted(glob.glob('/verif/lean/Verif/Props/*.lean')):
    t=open(f).read()
    for m in re.finditer(r'(?:/--((?:(?!-/).)*?)-/\s*)?theorem (C\d\d_\w*violated\w*)',t,re.S):
        doc=' '.join((m.group(1) or '').split())
        out.append((m.group(2),doc))
hdr=[x for x in out if isinstance(x,str)]; v=sorted(x for x in out if not isinstance(x,str))
open(P,'w').write(s+'\n'.join(hdr)+'\n'+'\n'.join(f'* `{a}` – {b}' for a,b in v)+'\n')
