#!/usr/bin/env python3
"""Seeded-bug runner.  usage: mutate.py <batch.json> [--no-examples] [--dir scratch] : for each mutant edits a scratch copy of the Lean project, rebuilds,
records which theorems no longer prove.  A batch entry: {id, file, def, old, new, edit, breaks}.  Appends to seeded/LOG.jsonl."""
import json,os,re,subprocess,sys,shutil
SRC='/verif/lean'; DIR=sys.argv[sys.argv.index('--dir')+1] if '--dir' in sys.argv else '/tmp/mut'; DST=DIR+'/lean'
man=json.load(open('/verif/MANIFEST.json'))
manth=[t for c in man['claims'] for t in c['theorems']]
def sync():
    os.makedirs(DIR,exist_ok=True)
    subprocess.run(['rsync','-a','--delete',SRC+'/',DST+'/'],check=True) if shutil.which('rsync') else subprocess.run('rm -rf %s && cp -a %s %s'%(DST,SRC,DST),shell=True,check=True)
KEYS=('theorem','def','example','end','/-','namespace','inductive','structure','instance','section','variable','open','@[','private','noncomputable','mutual','abbrev','set_option','local','attribute','lemma','class','termination_by','decreasing_by','--')
def strip_examples():
    """Option --no-examples: without the examples in the scratch copy, so that only theorems can object."""
    for d,_,fs in os.walk(DST+'/Verif'):
        for f in fs:
            if not f.endswith('.lean'): continue
            p=os.path.join(d,f); ls=open(p).read().split('\n'); out=[]; i=0
            while i<len(ls):
                if re.match(r'example\b',ls[i]):
                    if out and out[-1].rstrip().endswith('-/'):
                        while out and not out[-1].startswith('/--'): out.pop()
                        if out: out.pop()
                    i+=1
                    while i<len(ls) and not (ls[i] and ls[i].startswith(KEYS)): i+=1
                else: out.append(ls[i]); i+=1
            open(p,'w').write('\n'.join(out))
def decl_at(path,line):
    ls=open(path).read().split('\n')
    for i in range(min(line,len(ls))-1,-1,-1):
        m=re.match(r'\s*(?:@\[[^\]]*\]\s*)?(?:private |protected |noncomputable )*(theorem|def|example|instance|lemma|inductive|structure)\s*([^\s:({\[]*)',ls[i])
        if m: return (m.group(2) or 'example') if m.group(1)!='example' else 'example'
    return '?'
def imports(mod,seen):
    p=SRC+'/'+mod.replace('.','/')+'.lean'
    if mod in seen or not os.path.exists(p): return
    seen.add(mod)
    for l in open(p):
        m=re.match(r'import (Verif\S*)',l)
        if m: imports(m.group(1),seen)
def theorem_modules():
    r={}
    for d,_,fs in os.walk(SRC+'/Verif'):
        for f in fs:
            if f.endswith('.lean'):
                p=os.path.join(d,f); t=open(p).read()
                ns=re.search(r'^namespace (\S+)',t,re.M)
                mod=os.path.relpath(p,SRC)[:-5].replace('/','.')
                for m in re.finditer(r'^namespace (\S+)|^theorem (\S+)',t,re.M):
                    if m.group(1): cur=m.group(1)
                    else: r[cur+'.'+m.group(2)]=mod
    return r
def run(m):
    p=DST+'/'+m['file']; orig=open(p).read()
    if orig.count(m['old'])<1: return {'error':'pattern not found'}
    n=m.get('nth',0)
    parts=orig.split(m['old'])
    if len(parts)!=2 and 'nth' not in m: return {'error':'pattern occurs %d times'%(len(parts)-1)}
    new=m['old'].join(parts[:n+1])+m['new']+m['old'].join(parts[n+1:])
    open(p,'w').write(new)
    try:
        r=subprocess.run(['lake','build'],cwd=DST,capture_output=True,text=True,timeout=1500)
        out=r.stdout+r.stderr
    finally:
        open(p,'w').write(orig)
    failed=[]; badmods=set()
    for mm in re.finditer(r'^error: (Verif/\S+?\.lean):(\d+):',out,re.M):
        pth=DST+'/'+mm.group(1)
        if mm.group(1)==m['file']: d='(mutated file) '+decl_at(pth,int(mm.group(2)))
        else: d=decl_at(pth,int(mm.group(2)))
        badmods.add(mm.group(1)[:-5].replace('/','.'))
        if d not in failed: failed.append(d)
    tm=theorem_modules()
    blocked=[]
    for t in manth:
        seen=set(); imports(tm.get(t,''),seen)
        if seen & badmods: blocked.append(t)
    return {'ok':r.returncode==0,'failed':failed,'blocked':blocked,'msg':'' if failed or r.returncode==0 else out[-500:]}
def main():
    batch=json.load(open(sys.argv[1])); log=open('/verif/seeded/LOG.jsonl','a')
    sync()
    if '--no-examples' in sys.argv: strip_examples()
    if subprocess.run(['lake','build'],cwd=DST,capture_output=True).returncode: sys.exit('the unedited copy does not build')
    for m in batch:
        res=run(m)
        if 'error' in res or (not res['ok'] and not res['failed']) or any(f.startswith('(mutated file)') for f in res.get('failed',[])):
            print('BAD',m['id'],res); continue
        line={'id':m['id'],'definition':m['def'],'file':'lean/'+m['file'],'edit':m['edit'],'claim_broken':m['breaks'],'killed':not res['ok'],
              'theorems_failed':res['failed'],'manifest_theorems_no_longer_accepted':[t.split('.')[-1] for t in res['blocked']],'theorems_tightened':m.get('tightened',[])}
        if 'note' in m: line['note']=m['note']
        print(('SURVIVED' if res['ok'] else 'killed'),m['id'],res['failed'][:6],flush=True)
        log.write(json.dumps(line)+'\n'); log.flush()
main()
