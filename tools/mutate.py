#!/usr/bin/env python3
"""Apply seeded bugs to a scratch copy of the model, one at a time, and record which theorems stop proving.

usage: mutate.py batch.json   (list of {file, definition, old, new, edit, claims:[ids], why})
Results are appended to seeded/LOG.jsonl."""
import json, os, re, subprocess, sys, shutil, time
ROOT = os.path.join(os.path.dirname(os.path.abspath(__file__)), "..")
SCR = "/tmp/mut/lean"
LOG = os.path.join(ROOT, "seeded", "LOG.jsonl")
def sync():
    os.makedirs(SCR, exist_ok=True)
    while subprocess.run(["cp", "-a", os.path.join(ROOT, "lean") + "/.", SCR]).returncode: time.sleep(20)  # a build was running
def enclosing(path, line):
    ls = open(os.path.join(SCR, path)).read().split("\n")
    for i in range(min(line, len(ls)) - 1, -1, -1):
        m = re.match(r"\s*(?:@\[[^\]]*\]\s*)?(?:private |protected |noncomputable )*(theorem|lemma|def|example|instance|structure|inductive|abbrev)\b\s*(\S*)", ls[i])
        if m: return m.group(2) if m.group(1) != "example" else "example"
    return "?"
def deps():
    d = {}
    for r, _, fs in os.walk(os.path.join(SCR, "Verif")):
        for f in fs:
            if f.endswith(".lean"):
                p = os.path.relpath(os.path.join(r, f), SCR)
                d[p] = [x.replace(".", "/") + ".lean" for x in re.findall(r"^import (Verif\.\S+)", open(os.path.join(SCR, p)).read(), re.M)]
    return d
def taint(bad):
    """Theorems whose proofs use, directly or not, a declaration that failed."""
    bodies = {}
    for r, _, fs in os.walk(os.path.join(SCR, "Verif")):
        for f in fs:
            if f.endswith(".lean"):
                cur = None
                for line in open(os.path.join(r, f)):
                    m = re.match(r"(?:@\[[^\]]*\]\s*)?(?:private |protected |noncomputable )*(?:theorem|lemma|def)\s+(\S+)", line)
                    if m: cur = m.group(1); bodies[cur] = set()
                    elif re.match(r"(example|end|section|namespace|structure|inductive|/--)", line): cur = None if not line.startswith("/--") else cur
                    if cur:
                        for x in re.findall(r"[\w.']+", line):
                            bodies[cur].update({x, x.split(".")[0]})  # also h in h.1, h.mp
    t = set(bad) - {"example", "?"}; ch = True
    while ch:
        ch = False
        for n, b in bodies.items():
            if n not in t and b & t: t.add(n); ch = True
    return sorted(x for x in t if re.match(r"C\d\d", x) and x not in bad)
def run(m):
    p = os.path.join(SCR, "Verif", m["file"])
    src = open(p).read()
    if src.count(m["old"]) < 1:
        return {"error": "pattern not found"}
    if src.count(m["old"]) > 1 and not m.get("all"):
        return {"error": "pattern ambiguous"}
    open(p, "w").write(src.replace(m["old"], m["new"]))
    # only the modules that contain theorems of the affected properties, and what they import
    targets = sorted({f[:-5].replace("/", ".") for f in deps() if f.startswith("Verif/Props/") and any(
        re.search(r"^theorem %s_" % c, open(os.path.join(SCR, f)).read(), re.M) for c in m["claims"])})
    r = subprocess.run(["lake", "build"] + targets, cwd=SCR, capture_output=True, text=True, env=dict(os.environ, LEAN_NUM_THREADS=os.environ.get("MUT_THREADS", "2")))
    out = r.stdout + r.stderr
    bad, badfiles = [], set()
    for f, l in re.findall(r"^error: (?:\./)?(Verif/\S+?\.lean):(\d+):", out, re.M):
        badfiles.add(f)
        n = enclosing(f, int(l))
        if n not in bad: bad.append(n)
    d = deps(); blocked = set(); ch = True
    while ch:
        ch = False
        for f, ds in d.items():
            if f not in badfiles and f not in blocked and any(x in badfiles or x in blocked for x in ds):
                blocked.add(f); ch = True
    tainted = taint(bad)
    blockedthms = []
    for f in sorted(blocked):
        blockedthms += re.findall(r"^theorem (C\d\d\S*)", open(os.path.join(SCR, f)).read(), re.M)
    open(p, "w").write(src)
    return {"rc": r.returncode, "failed": bad, "tainted": tainted, "blocked": blockedthms, "badfiles": sorted(badfiles)}
def main():
    sync()
    done = {(r["definition"], r["old"], r["new"]) for r in map(json.loads, open(LOG)) if "old" in r}
    for m in json.load(open(sys.argv[1])):
        if (m["definition"], m["old"], m["new"]) in done and "tightened" not in m: continue  # "tightened": a survivor tried again
        res = run(m)
        if "error" in res:
            print("SKIP", m["definition"], m["edit"], res); continue
        if any(f.startswith("Verif/Model") for f in res["badfiles"]):
            print("BROKEN EDIT", m["definition"], m["edit"], res["failed"][:3]); continue
        hit = [c for c in m["claims"] if any(t.startswith(c + "_") for t in res["failed"])]
        blk = [c for c in m["claims"] if any(t.startswith(c + "_") for t in res["blocked"])]
        tnt = [c for c in m["claims"] if any(t.startswith(c + "_") for t in res["tainted"])]
        # a theorem in a module that was not rebuilt is no evidence, unless its proof uses a declaration that failed
        und = [c for c in m["claims"] if c in blk and c not in hit and c not in tnt]
        miss = [c for c in m["claims"] if c not in hit and c not in blk and c not in tnt]
        mine = lambda ts: sorted(set(t for t in ts if any(t.startswith(c + "_") for c in m["claims"])))
        down = mine(res["tainted"]); rest = [t for t in mine(res["blocked"]) if t not in down]
        rec = {"definition": m["definition"], "file": "lean/Verif/" + m["file"], "edit": m["edit"], "old": m["old"], "new": m["new"], "claim_broken": m["why"],
               "properties": m["claims"], "failed": res["failed"], "theorems_resting_on_a_failed_lemma": down, "not_rebuilt": rest,
               "caught": res["rc"] != 0 and not miss and not und, "tightened": m.get("tightened", [])}
        if miss: rec["survived"] = miss
        if und: rec["undetermined"] = und
        with open(LOG, "a") as f: f.write(json.dumps(rec, ensure_ascii=False) + "\n")
        print("MISS" if miss else "UNDETERMINED" if und else "OK  ", m["definition"], "|", m["edit"], "| hit", hit, "blocked", blk, "tainted", tnt, "miss", miss, "| failed", res["failed"][:6], flush=True)
if __name__ == "__main__": main()
