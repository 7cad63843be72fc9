#!/usr/bin/env python3
"""Mutation testing of the theorems in a scratch copy (never in /verif).
usage: mutate.py MUTATIONS.json ; each entry {file, old, new, claim, definition}.
Appends one line per attempt to /verif/seeded/LOG.jsonl."""
import json, re, subprocess, sys, shutil, os
SRC=os.environ.get('MUTSRC','/verif/lean'); DST='/tmp/w/mut/lean'
def sync():
    for root,ds,fs in os.walk(SRC):
        ds[:]=[d for d in ds if d!='.lake']
        for f in fs:
            a=os.path.join(root,f); b=os.path.join(DST,os.path.relpath(a,SRC))
            os.makedirs(os.path.dirname(b),exist_ok=True)
            if not os.path.exists(b) or open(a,'rb').read()!=open(b,'rb').read(): shutil.copy(a,b)
def decl_at(path,line):
    ls=open(path).read().split('\n')
    for i in range(min(line,len(ls))-1,-1,-1):
        m=re.match(r'(?:private )?(?:theorem|def|instance|example|structure)\s*(\S*)',ls[i])
        if m: return m.group(1).rstrip(':') or f'example@{os.path.basename(path)}:{i+1}'
    return '?'
def build():
    """lake build, stopped a little after the first error (the first failures are enough)"""
    import threading, signal, time
    p=subprocess.Popen(['lake','build'],cwd=DST,stdout=subprocess.PIPE,stderr=subprocess.STDOUT,text=True,start_new_session=True)
    out=[]; t0=None
    def kill():
        try: os.killpg(p.pid,signal.SIGTERM)
        except ProcessLookupError: pass
    for l in p.stdout:
        out.append(l)
        if t0 is None and l.startswith('error: Verif/'):
            t0=threading.Timer(25,kill); t0.start()
    p.wait()
    if t0: t0.cancel()
    return p.returncode,''.join(out)
for f in sys.argv[1:]:
    for mu in json.load(open(f)):
        sync()
        p=os.path.join(DST,mu['file']); s=open(p).read()
        if s.count(mu['old'])<1: print('NOT FOUND',mu['old'][:60]); continue
        s=s.replace(mu['old'],mu['new'],1); open(p,'w').write(s)
        mod=mu['file'][:-5].replace('/','.')
        r0=subprocess.run(['lake','build',mod],cwd=DST,capture_output=True,text=True)
        if r0.returncode: print('ILL-TYPED',mu['definition'],flush=True); continue
        rc,out=build()
        failed=[]
        for m in re.finditer(r'error: (Verif/\S+?\.lean):(\d+):',out):
            d=decl_at(os.path.join(DST,m.group(1)),int(m.group(2)))
            e=f'{m.group(1)[6:-5].replace("/",".")}:{d}'
            if e not in failed: failed.append(e)
        rec={'definition':mu['definition'],'edit':mu.get('edit') or f"{mu['old']!r} -> {mu['new']!r}",'claim':mu['claim'],'failed':failed,'tightened':mu.get('tightened',[])}
        print(0 if rc==0 else 1, 'EX' if failed and all('example' in x for x in failed) else '', mu['definition'], mu['claim'], '=>', failed[:6],flush=True)
        open('/verif/seeded/LOG.jsonl','a').write(json.dumps(rec)+'\n')
sync()
