#!/usr/bin/env python3
"""Mutation testing in a scratch copy (/tmp/mut). usage: mutate.py muts.json [--log]
each mutant: {"def","file","old","new","edit","claim"}; the log line is appended to /verif/seeded/LOG.jsonl"""
import json,subprocess,sys,re,os,shutil
SC='/tmp/mut'
def sync():
    subprocess.run(['rsync','-a','--exclude','.lake','/verif/lean/',SC+'/'],check=False) if shutil.which('rsync') else subprocess.run('cd /verif/lean && tar cf - --exclude=.lake . | (cd %s && tar xf -)'%SC,shell=True)
def encl(path,line):
    L=open(os.path.join(SC,path)).read().split('\n')
    for i in range(min(line,len(L))-1,-1,-1):
        m=re.match(r'\s*(?:@\[[^\]]*\]\s*)?(?:private |noncomputable |protected )*(theorem|lemma|def|instance|example|structure|inductive|abbrev)\b\s*(\S*)',L[i])
        if m: return (m.group(2) if m.group(1) not in('example','instance') else m.group(1)+'@'+str(i+1)), path
    return '?',path
def build():
    r=subprocess.run('timeout 2400 lake build 2>&1',shell=True,cwd=SC,capture_output=True,text=True)
    fails=[]
    for m in re.finditer(r'^error: (\S+?\.lean):(\d+):',r.stdout,re.M):
        n,p=encl(m.group(1),int(m.group(2)))
        x=n+' ('+p.replace('Verif/','')+')'
        if x not in fails: fails.append(x)
    return r.returncode,fails,r.stdout
if __name__=='__main__':
    muts=json.load(open(sys.argv[1])); log='--log' in sys.argv
    sync()
    rc,f,o=build()
    if rc: print('BASE FAILS',f,o[-2000:]); sys.exit(1)
    for m in muts:
        p=os.path.join(SC,m['file']); s=open(p).read()
        if s.count(m['old'])!=1: print('NOMATCH',s.count(m['old']),m['def'],m['edit']); continue
        open(p,'w').write(s.replace(m['old'],m['new']))
        rc,f,o=build()
        open(p,'w').write(s)
        st='killed' if rc else 'SURVIVED'
        print(st,m['def'],'|',m['edit'],'|',f[:8],flush=True)
        if rc and not f: print(o[-1500:])
        if log:
            json.dump({"definition":m['def'],"file":m['file'],"edit":m['edit'],"claim_broken":m['claim'],"result":st.lower(),"theorems_failed":f,"theorems_tightened":m.get('tightened',[])},open('/verif/seeded/LOG.jsonl','a'),ensure_ascii=False); open('/verif/seeded/LOG.jsonl','a').write('\n')
    build()
