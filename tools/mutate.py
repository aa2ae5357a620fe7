#!/usr/bin/env python3
"""Test the theorems against wrong programs.

Usage: mutate.py FILE.jsonl [ID...]

Every line of FILE.jsonl describes one edit of the model:
  {"id", "file", "definition", "edit", "old", "new", "claim"}
("old" must occur exactly once in "file").  For every edit the project is copied to a scratch
directory outside /verif, the edit is applied, and the project is rebuilt.  One line per edit is
appended to seeded/LOG.jsonl: the theorems whose proofs failed, and the theorems of the claim that
were rebuilt without an error ("survived").
"""
import json, os, re, shutil, subprocess, sys

ROOT = os.path.dirname(os.path.dirname(os.path.abspath(__file__)))
SCRATCH = "/tmp/mutate"
BASE = "/tmp/mutate_base"
DECL = re.compile(r"^(?:private |protected |@\[[^\]]*\] ?|noncomputable )*(theorem|lemma|def|example|instance|abbrev)\s*([^\s:({\[]*)")


def enclosing(path, line):
    name = None
    with open(path) as f:
        for n, text in enumerate(f, 1):
            if n > line:
                break
            m = DECL.match(text)
            if m:
                name = (m.group(2) or m.group(1)) if m.group(1) != "example" else f"example({os.path.basename(path)}:{n})"
    return name


def module_files(lean):
    out = {}
    for d, _, fs in os.walk(os.path.join(lean, "Verif")):
        for f in fs:
            if f.endswith(".lean"):
                p = os.path.join(d, f)
                rel = os.path.relpath(p, lean)[:-5].replace("/", ".")
                with open(p) as h:
                    text = h.read()
                imports = re.findall(r"^import (Verif\.\S+)", text, re.M)
                claims = re.findall(r"^theorem (C\d\d_\S*)", text, re.M)
                out[rel] = (p, imports, claims)
    return out


def run(m):
    shutil.rmtree(SCRATCH, ignore_errors=True)
    subprocess.check_call(["cp", "-a", BASE, SCRATCH])
    path = os.path.join(SCRATCH, m["file"])
    text = open(path).read()
    if text.count(m["old"]) != 1:
        return {"id": m["id"], "problem": f"old text occurs {text.count(m['old'])} times"}
    open(path, "w").write(text.replace(m["old"], m["new"]))
    p = subprocess.run(["lake", "build"], cwd=SCRATCH, stdout=subprocess.PIPE,
                       stderr=subprocess.STDOUT, text=True)
    failed, bad, killed = [], set(), set()
    for f, line in re.findall(r"^error: (Verif/[^:]+\.lean):(\d+):", p.stdout, re.M):
        full = os.path.join(SCRATCH, f)
        name = enclosing(full, int(line))
        bad.add(f[:-5].replace("/", "."))
        if name and name not in failed:
            failed.append(name)
    # A failing proof can also exhaust the memory: then there is no position, only a failed module.
    for mod in re.findall(r"^✖ \[\d+/\d+\] Building (Verif\.\S+)", p.stdout, re.M):
        if mod not in bad:
            bad.add(mod)
            killed.add(mod)
            failed.append(mod + " (not accepted: prover killed)")
    mods = module_files(SCRATCH)
    blocked = set(bad)
    changed = True
    while changed:
        changed = False
        for k, (_, imports, _) in mods.items():
            if k not in blocked and any(i in blocked for i in imports):
                blocked.add(k)
                changed = True
    direct, down, survived = [], [], []
    for k, (_, _, claims) in sorted(mods.items()):
        for c in claims:
            if c in failed:
                direct.append(c)
            elif k in killed or (k in blocked and k not in bad):
                down.append(c)
            elif c.startswith(m["claim"]):
                survived.append(c)
    r = {"definition": m["definition"], "edit": m["edit"], "claim": m["claim"],
         "theorems_failed": failed}
    rebuilt = [c for c in survived]
    r["claim_theorems_not_rebuilt"] = [c for c in direct + down if c.startswith(m["claim"])]
    r["claim_theorems_still_proved"] = rebuilt
    if p.returncode == 0:
        r["theorems_failed"] = []
    r["theorems_tightened"] = []
    return r


def main():
    muts = [json.loads(l) for l in open(sys.argv[1]) if l.strip()]
    ids = set(sys.argv[2:])
    shutil.rmtree(BASE, ignore_errors=True)
    subprocess.check_call(["cp", "-a", os.path.join(ROOT, "lean"), BASE])
    for m in muts:
        if ids and m["id"] not in ids:
            continue
        r = run(m)
        print(m["id"], json.dumps(r), flush=True)
        if "problem" not in r:
            with open(os.path.join(ROOT, "seeded", "LOG.jsonl"), "a") as f:
                f.write(json.dumps(r) + "\n")


if __name__ == "__main__":
    main()
