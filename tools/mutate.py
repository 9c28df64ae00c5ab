#!/usr/bin/env python3
"""Seeded-bug testing.  usage: mutate.py muts.json
Each entry: {"definition","file","old","new","edit","breaks"}.  Applies one edit at a time to a scratch copy in
/tmp/mut, rebuilds, and appends what failed to /verif/seeded/LOG.jsonl."""
import json, os, re, subprocess, sys
S="/tmp/mut/lean"
def sync():
    os.makedirs("/tmp/mut",exist_ok=True)
    subprocess.run(["rsync","-a","--delete","/verif/lean/",S+"/"],check=True) if subprocess.run(["which","rsync"],capture_output=True).returncode==0 else subprocess.run("rm -rf /tmp/mut/lean && cp -a /verif/lean /tmp/mut/lean",shell=True,check=True)
def thm_at(path,line):
    name=None
    for i,l in enumerate(open(path),1):
        m=re.match(r"\s*(?:@\[[^\]]*\]\s*)?(?:protected |private |noncomputable )*(theorem|lemma|def|example|instance|abbrev)\s*(\S*)",l)
        if m: name=(m.group(2) if m.group(1)!="example" else "example") or m.group(1)
        if i>=line: break
    return name
def main():
    muts=json.load(open(sys.argv[1]))
    sync()
    log=open("/verif/seeded/LOG.jsonl","a")
    for m in muts:
        p=f"{S}/{m['file']}"
        src=open(p).read()
        n=src.count(m["old"])
        if n<1: print("NOT FOUND",m["definition"],m["edit"]); continue
        k=m.get("occ",0)
        parts=src.split(m["old"])
        new=m["old"].join(parts[:k+1])+m["new"]+m["old"].join(parts[k+1:])
        open(p,"w").write(new)
        r=subprocess.run(["lake","build"],cwd=S,capture_output=True,text=True)
        out=r.stdout+r.stderr
        failed=[]
        modelfail=False
        for f,l in re.findall(r"error: (\S+?\.lean):(\d+):",out):
            t=thm_at(f"{S}/{f}",int(l))
            if t and t not in failed: failed.append(t)
            if "/Model/" in f: modelfail=True
        blocked=sorted(set(re.findall(r"- (Verif\.\S+)",out)))
        open(p,"w").write(src)
        e=dict(definition=m["definition"],edit=m["edit"],breaks=m["breaks"],theorems_failed=failed,modules_failed=blocked,theorems_tightened=m.get("tightened",[]))
        if modelfail: print("MODEL DOES NOT COMPILE",m["definition"],m["edit"],out[-800:]); continue
        if r.returncode==0: print("SURVIVED",m["definition"],m["edit"]); e["note"]="survived"; json.dump(e,open("/tmp/survivors.jsonl","a")); open("/tmp/survivors.jsonl","a").write("\n"); continue
        print("killed",m["definition"],"|",m["edit"],"|",failed[:4])
        log.write(json.dumps(e)+"\n"); log.flush()
main()
