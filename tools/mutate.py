#!/usr/bin/env python3
"""Seeded-bug runner: applies each edit of a JSON list to a scratch copy of /verif/lean, rebuilds, and appends one line per
edit to /verif/seeded/LOG.jsonl.  usage: mutate.py edits.json [--nolog]
edit = {"file","old","new","definition","edit","claim","tightened"?}"""
import json,sys,subprocess,re,os,shutil
SRC=os.environ.get('MUTSRC','/verif/lean'); DST='/tmp/mut/lean'; LOG='/verif/seeded/LOG.jsonl'
def sync(): subprocess.run(['rsync','-a','--delete',SRC+'/',DST+'/'],check=True) if shutil.which('rsync') else subprocess.run(f'rm -rf {DST}; cp -a {SRC} {DST}',shell=True,check=True)
def encl(path,line):
    ls=open(path).read().split('\n')
    for i in range(min(line,len(ls))-1,-1,-1):
        m=re.match(r'(?:@\[[^\]]*\]\s*)?(?:private )?(theorem|lemma|def|instance|example)\b\s*(\S*)',ls[i])
        if m: return (m.group(2) if m.group(1)!='example' else f'example@{i+1}') or m.group(1)
    return '?'
sync()
for e in json.load(open(sys.argv[1])):
    p=f'{DST}/Verif/{e["file"]}'
    orig=open(p).read()
    n=orig.count(e['old'])
    if n!=1 and not e.get('all'): print('!! count',n,e['definition'],e['old']); continue
    open(p,'w').write(orig.replace(e['old'],e['new']))
    try:
        r=subprocess.run(['timeout','1500','lake','build'],cwd=DST,capture_output=True,text=True)
        out=r.stdout+r.stderr
        fails=[]
        for m in re.finditer(r'error: (Verif/\S+?\.lean):(\d+):',out):
            f,l=m.group(1),int(m.group(2))
            t=f'{f[6:-5]}:{encl(DST+"/"+f,l)}'
            if t not in fails: fails.append(t)
        mods=re.findall(r'^- (Verif\S*)',out,re.M)
        row={"definition":e["definition"],"edit":e["edit"],"claim_broken":e["claim"],"theorems_failed":fails,"theorems_tightened":e.get("tightened",[])}
        if e.get("note"): row["note"]=e["note"]
        print('SURVIVED' if r.returncode==0 else 'killed',e['definition'],'|',e['edit'],'|',fails[:6],len(fails),flush=True)
        if '--nolog' not in sys.argv: open(LOG,'a').write(json.dumps(row)+'\n')
    finally:
        open(p,'w').write(orig)
