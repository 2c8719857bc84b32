#!/usr/bin/env python3
"""Apply edits to a scratch copy of the Lean project and record which theorems stop proving.

usage: mutate.py edits.json      (run from anywhere; scratch copy in /root/mut/lean)
edits.json: list of {"def":..., "file":..., "old":..., "new":..., "breaks":..., "tightened": []}
Each result is appended to /verif/seeded/LOG.jsonl.
"""
import json, os, re, shutil, subprocess, sys
SRC = "/verif/lean"; DST = "/root/mut/lean"

def sync():
    subprocess.run(["mkdir", "-p", DST], check=True)
    subprocess.run(["rsync", "-a", "--delete", SRC + "/", DST + "/"], check=False) if shutil.which("rsync") else \
        subprocess.run(f"rm -rf {DST} && cp -a {SRC} {DST}", shell=True, check=True)

def theorem_at(path, line):
    name = None
    for i, l in enumerate(open(path), 1):
        if i > line: break
        m = re.match(r"\s*(?:private |protected |@\[.*\] )*(?:theorem|lemma|def|instance|example|structure)\s*([^\s:({\[]*)", l)
        if m: name = m.group(1) or f"example@{os.path.basename(path)}:{i}"
    return name

def run(m):
    saved = {}
    for e in [m] + m.get("also", []):   # "also": the same slip in a table that the specification repeats
        path = os.path.join(DST, e["file"])
        text = open(path).read()
        saved.setdefault(path, text)
        assert text.count(e["old"]) >= 1, ("old text not found", e)
        assert text.count(e["old"]) == 1 or e.get("all"), ("ambiguous", e)
        open(path, "w").write(text.replace(e["old"], e["new"]))
    failed = []
    try:
        target = m.get("target", "Verif")
        out = subprocess.run(["lake", "build", target], cwd=DST, capture_output=True, text=True, timeout=3000)
        txt = out.stdout + out.stderr
        for f, l in re.findall(r"error: (Verif/\S+?\.lean):(\d+):\d+", txt):
            n = theorem_at(os.path.join(DST, f), int(l))
            if n and n not in failed: failed.append(n)
        blocked = re.findall(r"^- (Verif\S*)", txt, re.M)
    finally:
        for path, text in saved.items(): open(path, "w").write(text)
    rec = {"definition": m["def"], "edit": m.get("edit") or f"{m['old']!r} -> {m['new']!r}", "claim_broken": m["breaks"],
           "theorems_failed": failed, "tightened": m.get("tightened", [])}
    rec["expected_failures"] = m.get("expect", [])
    if m.get("also"): rec["edit"] += " (and in the table of the specification)"
    if m.get("note"): rec["note"] = m["note"]
    rec["survived"] = out.returncode == 0
    return rec

if __name__ == "__main__":
    sync()
    for m in json.load(open(sys.argv[1])):
        r = run(m)
        print(m["def"], "SURVIVED" if r["survived"] else "killed", r["theorems_failed"][:6], flush=True)
        if r["survived"] and not m.get("keep"):
            print("   NOT logged; investigate:", json.dumps(m)[:300]); continue
        with open("/verif/seeded/LOG.jsonl", "a") as f: f.write(json.dumps(r) + "\n")
