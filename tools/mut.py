#!/usr/bin/env python3
"""Mutation runner: works on a scratch copy outside /verif.
usage: mut.py muts.py   where muts.py defines MUTS = [(file, definition, old, new, claim), ...]
Prints per mutation the theorems whose proof fails; appends to /verif/seeded/LOG.jsonl."""
import sys,os,re,json,subprocess,shutil
SRC='/verif/lean'; DST='/tmp/mut/lean'
def sync():
    subprocess.run(['rsync','-a','--delete',SRC+'/',DST+'/'],check=False) if shutil.which('rsync') else (shutil.rmtree(DST,ignore_errors=True), shutil.copytree(SRC,DST,symlinks=True))
def enclosing(path,line):
    ls=open(path).read().split('\n')
    for i in range(min(line,len(ls))-1,-1,-1):
        m=re.match(r'^(?:private |protected |noncomputable )*(theorem|lemma|def|example|instance|abbrev)\s*(\S*)',ls[i])
        if m: return m.group(1), (m.group(2) if m.group(1)!='example' else f'example@{i+1}')
    return '?','?'
def run(m):
    f,d,old,new,claim=m[:5]
    p=f'{DST}/Verif/{f}'
    orig=open(p).read()
    if orig.count(old)<1: return None,'PATTERN NOT FOUND'
    if len(m)>5: # occurrence index
        parts=orig.split(old); k=m[5]; txt=old.join(parts[:k+1])+new+old.join(parts[k+1:])
    else:
        if orig.count(old)>1: return None,f'PATTERN AMBIGUOUS {orig.count(old)}'
        txt=orig.replace(old,new)
    open(p,'w').write(txt)
    try:
        r=subprocess.run(['lake','build'],cwd=DST,capture_output=True,text=True,timeout=3000)
    finally:
        open(p,'w').write(orig)
    out=r.stdout+r.stderr
    bad=[]
    modelbroken=False
    for e in re.finditer(r'error: (?:\./)?(Verif/\S+\.lean):(\d+):',out):
        q=f'{DST}/{e.group(1)}'
        # use mutated text line numbers: only matters for mutated file
        if q==p: open(p,'w').write(txt)
        k,n=enclosing(q,int(e.group(2)))
        if q==p: open(p,'w').write(orig)
        if k in('def','abbrev','instance'): modelbroken=True; n='DEF '+n
        if n not in bad: bad.append(n)
    if not bad and r.returncode!=0:
        bad=['module '+x+' (elaboration aborted, no located error)' for x in re.findall(r'^- (Verif\S+)',out,re.M)]
    return bad,('' if not modelbroken else 'definition does not elaborate: '+out[:600])
def main():
    g={}
    exec(open(sys.argv[1]).read(),g)
    sync()
    for m in g['MUTS']:
        bad,msg=run(m)
        tag='KILLED' if bad else 'SURVIVED'
        if bad is None or msg: tag='BROKEN'
        print(tag,m[1],'|',m[2].strip()[:50],'=>',m[3].strip()[:50],'|',bad and bad[:8],msg[:400],flush=True)
        if tag!='BROKEN':
            json_line={"definition":m[1],"file":"Verif/"+m[0],"edit":m[2].strip()+"  ==>  "+m[3].strip(),"claim_broken":m[4],"theorems_failed":bad,"theorems_tightened":[]}
            if tag=='SURVIVED': json_line["note"]="SURVIVED"
            open('/verif/seeded/LOG.jsonl','a').write(json.dumps(json_line)+"\n")
    # rebuild scratch clean lazily
main()
