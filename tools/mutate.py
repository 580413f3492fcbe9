"""Apply seeded bugs to a scratch copy of the model and report which theorems stop building.

usage: mutate.py muts.py results.jsonl [id ...]
muts.py defines M = [(id, file, definition, old, new, claim)].
"""
import sys, re, json, subprocess, shutil, os, threading, signal
GRACE=float(os.environ.get("GRACE","1e6"))
SRC="/tmp/mut/src/lean"; DST="/tmp/mut/lean"
ns={}
exec(open(sys.argv[1]).read(),ns)
out=sys.argv[2]; only=set(sys.argv[3:])
# snapshot of the last commit
subprocess.run("rm -rf /tmp/mut/src && mkdir -p /tmp/mut/src && git -C /verif archive HEAD lean | tar x -C /tmp/mut/src",shell=True,check=True)
def sync():
    subprocess.run(["rsync","-a","--checksum","--delete","--exclude",".lake",SRC+"/",DST+"/"],check=True) if shutil.which("rsync") else subprocess.run(f"cd {SRC} && find . -name '*.lean' -not -path './.lake/*' | while read f; do mkdir -p {DST}/$(dirname $f); cmp -s $f {DST}/$f || cp $f {DST}/$f; done",shell=True,check=True)
def build():
    # stops a while after the first failure
    p=subprocess.Popen("exec nice -n 10 lake build 2>&1",shell=True,cwd=DST,stdout=subprocess.PIPE,text=True,start_new_session=True)
    timer=None; log=[]
    for line in p.stdout:
        log.append(line)
        if timer is None and line.startswith("error: Verif"):
            timer=threading.Timer(GRACE,lambda: os.killpg(p.pid,signal.SIGTERM)); timer.start()
    rc=p.wait()
    if timer: timer.cancel()
    return (rc if timer is None else 1),"".join(log)
def enclosing(f,line):
    src=open(os.path.join(DST,f)).read().split("\n")
    for k in range(min(line,len(src))-1,-1,-1):
        m=re.match(r"\s*(?:@\[.*\]\s*)?(?:noncomputable |private |protected )*(theorem|lemma|def|example|structure|instance|abbrev|inductive)\b\s*([^\s:({\[]*)",src[k])
        if m: return (m.group(2) if m.group(1)!="example" else f"example@{f}:{k+1}")
    return "?"
for (i,f,d,old,new,claim) in ns["M"]:
    if only and i not in only: continue
    sync()
    p=os.path.join(DST,f); s=open(p).read()
    if s.count(old)!=1:
        print(i,"pattern count",s.count(old)); continue
    open(p,"w").write(s.replace(old,new))
    rc,log=build()
    errs=[]
    for m in re.finditer(r"error: (Verif/\S+\.lean):(\d+):\d+",log):
        n=enclosing(m.group(1),int(m.group(2)))
        if n not in errs: errs.append(n)
    failed=sorted(set(re.findall(r"^- (Verif\S*)",log,re.M))|{x.replace("/",".") for x in re.findall(r"error: (Verif/\S+)\.lean:",log)})
    built=set(re.findall(r"(?:Built|Replayed) (Verif\S*)",log))
    r=dict(id=i,definition=d,file=f,old=old,new=new,claim=claim,rc=rc,errors=errs,failed_modules=failed)
    open(out,"a").write(json.dumps(r)+"\n"); print(i,rc,errs,failed,flush=True)
sync()
