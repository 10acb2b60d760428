#!/usr/bin/env python3
"""Apply one edit at a time to a scratch copy of the model, rebuild, and log which theorems stop proving.
usage: seed.py FILE_WITH_SEEDS.py   (a python file defining SEEDS = [(file, definition, old, new, edit, claim, property)])"""
import sys, subprocess, re, json, os, time, signal
V='/tmp/seedbase/lean/'; S='/tmp/seed/lean/'
# the snapshot is taken once, so that work in /verif/lean does not disturb a running batch
subprocess.run('rm -rf /tmp/seedbase && mkdir -p /tmp/seedbase && cp -a /verif/lean /tmp/seedbase/',shell=True,check=True)
ns={}; exec(open(sys.argv[1]).read(), ns)
LOG='/verif/seeded/LOG.jsonl'
def sync():
    subprocess.run('rm -rf %s && mkdir -p %s && cp -a %s. %s' % (S,S,V,S),shell=True,check=True)
def imports():
    d={}
    for r,_,fs in os.walk(S+'Verif'):
        for f in fs:
            if f.endswith('.lean'):
                p=os.path.join(r,f); m=p[len(S):-5].replace('/','.')
                d[m]=[l.split()[1] for l in open(p) if l.startswith('import Verif')]
    return d
def build():
    # watchdog on memory and time
    p=subprocess.Popen(['lake','build','Verif'],cwd=S,stdout=subprocess.PIPE,stderr=subprocess.STDOUT,text=True,start_new_session=True)
    import threading
    stop=[False]; killed=[]
    def wd():
        t0=time.time()
        while not stop[0]:
            time.sleep(1)
            for q in subprocess.run(['pgrep','-x','lean'],capture_output=True,text=True).stdout.split():
                try:
                    if '/tmp/seed' not in open(f'/proc/{q}/cmdline').read(): continue
                except Exception: continue
                try: rss=int(re.search(r'VmRSS:\s+(\d+)',open(f'/proc/{q}/status').read()).group(1))
                except Exception: continue
                try: age=time.time()-os.stat(f'/proc/{q}').st_ctime
                except Exception: age=0
                if rss>5000000 or age>240:
                    try: os.kill(int(q),9); killed.append(q)
                    except Exception: pass
    t=threading.Thread(target=wd,daemon=True); t.start()
    out=p.communicate()[0]; stop[0]=True
    return out
def encl(f,line):
    name=None
    for i,l in enumerate(open(f)):
        if i>=line: break
        m=re.match(r'\s*(?:private\s+|@\[[^\]]*\]\s*)*(theorem|lemma|def|example|structure|instance)\s*(\S*)',l)
        if m: name=m.group(2) if m.group(1)!='example' else 'example'
    return name
for sd in ns['SEEDS']:
    (file,defn,old,new,edit,claim,prop)=sd[:7]; tight=list(sd[7:])
    sync()
    p=S+'Verif/'+file
    s=open(p).read()
    if s.count(old)<1: print('!! pattern missing',file,repr(old)); continue
    if s.count(old)>1 and not edit.startswith('[first]') : print('!! pattern not unique',file,repr(old)); continue
    open(p,'w').write(s.replace(old,new,1))
    t0=time.time(); out=build()
    fails=[]; badmods=set(); modelerr=[]
    for m in re.finditer(r'error: (Verif/\S+\.lean):(\d+):',out):
        f,l=m.group(1),int(m.group(2)); mod=f[:-5].replace('/','.')
        badmods.add(mod); n=encl(S+f,l)
        if n and n not in fails: fails.append(n)
        if '/Model/' in f: modelerr.append(m.group(0))
    for m in re.finditer(r'^- (Verif\S+)',out,re.M): badmods.add(m.group(1))
    badmods.discard('Verif')
    imp=imports(); blocked=set(); ch=True
    while ch:
        ch=False
        for m,ds in imp.items():
            if m not in blocked and m not in badmods and any(d in blocked or d in badmods for d in ds): blocked.add(m); ch=True
    props=[f for f in fails if f.startswith('C') ]
    rec=dict(definition=defn,file='lean/Verif/'+file,edit=edit,claim_broken=claim,property=prop,
      theorems_failed=[f for f in fails if f!='example'],modules_failed=sorted(badmods),
      modules_blocked=sorted(b for b in blocked if b.startswith('Verif.Props')),
      only_example_failed=(fails==['example']),theorems_tightened=tight)
    print(('!!! SURVIVED' if not [f for f in fails if f!='example'] and not badmods else 'ok'),'|',defn,'|',edit,'|',fails[:8],'|',sorted(badmods),'|%ds'%(time.time()-t0), 'MODELERR' if modelerr else '',flush=True)
    if not modelerr:
        open(LOG,'a').write(json.dumps(rec)+'\n')
sync()
