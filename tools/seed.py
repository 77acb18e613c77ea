#!/usr/bin/env python3
"""Seeded-bug testing.  Applies each edit of tools/seeds/*.py to a scratch copy of the Lean
project in /tmp/seed, rebuilds, records which declarations fail in seeded/LOG.jsonl.
usage: seed.py [seedfile ...]   (skips edits already in the log)"""
import glob, json, os, re, shutil, signal, subprocess, sys
here = os.path.dirname(os.path.abspath(__file__))
src = os.path.join(here, "../lean")
scratch = "/tmp/seed/lean"
logf = os.path.join(here, "../seeded/LOG.jsonl")
files = sys.argv[1:] or sorted(glob.glob(os.path.join(here, "seeds/*.py")))
done = set()
if os.path.exists(logf):
    for l in open(logf):
        d = json.loads(l); done.add((d["definition"], d["edit"]))
def sync():
    os.makedirs(scratch, exist_ok=True)
    subprocess.run(["rsync", "-a", "--delete", src + "/", scratch + "/"], check=False) \
        if shutil.which("rsync") else subprocess.run(
        "rm -rf %s && mkdir -p /tmp/seed && cp -a %s %s" % (scratch, src, scratch), shell=True)
def decl_at(path, line):
    ls = open(path).read().split("\n")
    for i in range(min(line, len(ls)) - 1, -1, -1):
        m = re.match(r"\s*(?:private |protected )?(theorem|def|example|instance|structure|inductive|abbrev)\s*([^\s:({\[]*)", ls[i])
        if m: return m.group(1) + (" " + m.group(2) if m.group(1) != "example" else " (line %d)" % (i + 1))
    return "?"
sync()
bad = 0
for f in files:
    ns = {}; exec(open(f).read(), ns)
    for s in ns["SEEDS"]:
        edit = s.get("edit") or "%s  ->  %s" % (s["old"].strip(), s["new"].strip())
        if (s["def"], edit) in done: continue
        p = os.path.join(scratch, "Verif", s["file"])
        orig = open(p).read()
        m = re.search(r"^(?:def|abbrev|structure|inductive) %s\b" % re.escape(s["def"]), orig, re.M)
        at = orig.find(s["old"], m.start() if m else 0)
        if at < 0:
            print("NOT FOUND", s["def"], s["old"]); bad += 1; continue
        open(p, "w").write(orig[:at] + s["new"] + orig[at + len(s["old"]):])
        out = subprocess.Popen(["lake", "build", "Verif"], cwd=scratch, stdout=subprocess.PIPE, stderr=subprocess.STDOUT, text=True, start_new_session=True)
        txt = ""
        fails = []
        for line in out.stdout:
            txt += line
            m = re.search(r"error: (?:\./)*(?:.*?)(Verif/[\w/]+\.lean):(\d+):", line)
            if not m:
                # with FAST, one module with a theorem that fails is enough
                if os.environ.get("FAST") and any(":theorem" in x for x in fails) and re.search(r"\] (Built|Building|Ran|Replayed)", line):
                    os.killpg(out.pid, signal.SIGTERM); break
                continue
            d = decl_at(os.path.join(scratch, m.group(1)), int(m.group(2)))
            n = m.group(1).split("/")[-1] + ":" + d
            if n not in fails: fails.append(n)
        out.stdout.close(); out.wait()
        open(p, "w").write(orig)
        thm = [x for x in fails if ":theorem" in x]
        rec = {"definition": s["def"], "edit": edit, "breaks": s["claim"],
               "failed": fails, "tightened": s.get("tightened", [])}
        status = "killed" if thm else ("examples only" if fails else "SURVIVED")
        if not thm and out.returncode != 0 and not fails: status = "build error?"; print(txt[-800:])
        print(status, "|", s["def"], "|", edit[:80].replace("\n", " "), "|", fails[:4])
        if status != "killed" and not s.get("equiv"):
            bad += 1
            continue
        open(logf, "a").write(json.dumps(rec) + "\n")
print("problems:", bad)
