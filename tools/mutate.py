#!/usr/bin/env python3
"""Mutation testing of the theorems. usage: mutate.py spec.json
spec: list of {file, old, new, definition, edit, claim, [count]}; edits a scratch copy, rebuilds, records which theorems
fail in /verif/seeded/LOG.jsonl. """
import json,sys,os,subprocess,re,shutil
SC="/tmp/mut"
spec=json.load(open(sys.argv[1]))
def sync():
    subprocess.run(["rsync","-a","--delete","/verif/lean/",SC+"/"],check=True) if shutil.which("rsync") else (shutil.rmtree(SC,ignore_errors=True), shutil.copytree("/verif/lean",SC,symlinks=True))
sync()
DECL=re.compile(r"^\s*(?:@\[[^\]]*\]\s*)?(?:private\s+|noncomputable\s+)*(theorem|lemma|def|instance|example|inductive|structure|abbrev)\b\s*(\S*)")
def encl(path,line):
    ls=open(os.path.join(SC,path)).read().split("\n")
    for i in range(min(line,len(ls))-1,-1,-1):
        m=DECL.match(ls[i])
        if m:
            k,n=m.group(1),m.group(2)
            return n if k!="example" else "example@%s:%d"%(path,i+1)
    return "?"
for s in spec:
    p=os.path.join(SC,"Verif",s["file"])
    orig=open(p).read()
    if s["old"] not in orig:
        print("NOT FOUND",s["file"],s["old"]); continue
    mt=orig.replace(s["old"],s["new"],s.get("count",1))
    open(p,"w").write(mt)
    failed=[]
    # build repeatedly: modules with failed imports are not built; list failing ones plus the dependents
    # with "first": build these modules first, and the others only if they still build
    r=None
    if s.get("first"):
        r=subprocess.run("cd %s && lake build %s 2>&1"%(SC," ".join(s["first"])),shell=True,capture_output=True,text=True)
    if r is None or r.returncode==0:
        r=subprocess.run("cd %s && lake build 2>&1"%SC,shell=True,capture_output=True,text=True)
    for m in re.finditer(r"^error: (Verif/\S+?\.lean):(\d+):\d+",r.stdout,re.M):
        n=encl(m.group(1),int(m.group(2)))
        if n not in failed: failed.append(n)
    dep=sorted(set(re.findall(r"^- (Verif\S*)",r.stdout,re.M)))
    entry=dict(definition=s["definition"],edit=s["edit"],claim=s["claim"],theorems_failed=failed,
        modules_failed=dep,killed=(r.returncode!=0),theorems_tightened=s.get("tightened",[]))
    if s.get("note"): entry["note"]=s["note"]
    open("/verif/seeded/LOG.jsonl","a").write(json.dumps(entry)+"\n")
    print("KILLED" if r.returncode else "SURVIVED",s["definition"],"|",s["edit"],"|",failed[:6])
    open(p,"w").write(orig)
