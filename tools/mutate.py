#!/usr/bin/env python3
"""Apply wrong-program edits to a scratch copy of the Lean project and record which theorems fail.
Usage: mutate.py batch.json   (list of {file, old, new, claim, desc}); appends to seeded/LOG.jsonl."""
import json,os,re,signal,subprocess,sys,shutil,time
SRC="/verif/lean"; MUT="/tmp/mut"
def sync():
    want={}
    for root,_,fs in os.walk(os.path.join(SRC,"Verif")):
        for g in fs:
            q=os.path.join(root,g); want[os.path.relpath(q,SRC)]=open(q).read()
    want["Verif.lean"]=open(os.path.join(SRC,"Verif.lean")).read()
    for root,_,fs in os.walk(os.path.join(MUT,"Verif")):
        for g in fs:
            q=os.path.join(root,g)
            if os.path.relpath(q,MUT) not in want: os.remove(q)
    for k,t in want.items():
        q=os.path.join(MUT,k)
        if not os.path.exists(q) or open(q).read()!=t:
            os.makedirs(os.path.dirname(q),exist_ok=True); open(q,"w").write(t)
def theorem_at(path,line):
    name=None
    for i,l in enumerate(open(path),1):
        m=re.match(r"(?:@\[[^\]]*\]\s*)?(?:private\s+)?(?:theorem|lemma|def|abbrev|instance|example)\s*([^\s:({\[]*)",l)
        if m: name=m.group(1) or ("example@%d"%i)
        if i>=line: break
    return name
class R: pass
def build():
    """lake build; with FAST=1 stop 20 s after the first error (the list of failing theorems is then only a part)."""
    if not os.environ.get("FAST"):
        return subprocess.run(["lake","build","Verif"],cwd=MUT,capture_output=True,text=True)
    log=open("/tmp/mut_build.log","w")
    pr=subprocess.Popen(["lake","build","Verif"],cwd=MUT,stdout=log,stderr=log,start_new_session=True)
    t=None
    while pr.poll() is None:
        time.sleep(1)
        if t is None and re.search(r"error: \S*Verif/\S+\.lean:", open("/tmp/mut_build.log").read()): t=time.time()
        if t is not None and time.time()-t>20:
            os.killpg(pr.pid,signal.SIGTERM); time.sleep(1); pr.wait(); break
    r=R(); r.stdout=open("/tmp/mut_build.log").read(); r.stderr=""; r.returncode=1 if t is not None else pr.returncode
    return r
def main():
    batch=json.load(open(sys.argv[1]))
    if not os.path.isdir(MUT):
        subprocess.run(["cp","-r",SRC,MUT],check=True)
    out=open("/verif/seeded/LOG.jsonl","a")
    for m in batch:
        sync()
        f=os.path.join(MUT,"Verif",m["file"])
        s=open(f).read()
        if s.count(m["old"])!=1:
            print("SKIP (occurrences=%d): %s"%(s.count(m["old"]),m["desc"])); continue
        open(f,"w").write(s.replace(m["old"],m["new"]))
        r=build()
        txt=r.stdout+r.stderr
        fails=[]
        for x in re.finditer(r"error: (?:\S*?)(Verif/\S+?\.lean):(\d+):",txt):
            n=theorem_at(os.path.join(MUT,x.group(1)),int(x.group(2)))
            k="%s (%s)"%(n,x.group(1))
            if k not in fails: fails.append(k)
        if any(k=="%s (Verif/%s)"%(m.get("def"),m["file"]) for k in fails):
            print("INVALID (does not elaborate): "+m["desc"]); continue
        blocked=sorted(set(re.findall(r"^- (Verif\S*)",txt,re.M)))
        # downstream property theorems that can no longer be built
        failedmods={re.search(r"\((.*)\.lean\)",k).group(1).replace("/",".") for k in fails}
        deps={}
        for root,_,fs in os.walk(os.path.join(MUT,"Verif")):
            for g in fs:
                if g.endswith(".lean"):
                    p=os.path.join(root,g); mod=os.path.relpath(p,MUT)[:-5].replace("/",".")
                    deps[mod]=re.findall(r"^import (Verif\S*)",open(p).read(),re.M)
        def reach(mod,seen=None):
            return any(d in failedmods or reach(d) for d in deps.get(mod,[]))
        down=[]
        for mod in deps:
            if mod in failedmods or not reach(mod): continue
            t=open(os.path.join(MUT,mod.replace(".","/")+".lean")).read()
            down+=re.findall(r"^theorem (C\d\d_\S+)",t,re.M)
        rec={"definition":m["file"]+": "+m.get("def",""),"edit":m["desc"],"claim_broken":m["claim"],
             "theorems_failed":fails[:12],"blocked_property_theorems":down[:8],
             "survived":r.returncode==0,"theorems_tightened":m.get("tightened",[])}
        out.write(json.dumps(rec,ensure_ascii=False)+"\n"); out.flush()
        print(("SURVIVED " if r.returncode==0 else "killed   ")+m["desc"],"|",", ".join(fails[:4]),"| down:",", ".join(down[:4]))
main()
