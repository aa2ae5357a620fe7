#!/usr/bin/env python3
"""Test the theorems about a language against random wrong programs.

Usage: automutate.py LANG COUNT SEED [WORKERS]

Makes COUNT small edits of lean/Verif/Lang/LANG.lean, one at a time and in scratch copies outside of
/verif: another token type, a number that is off by one, a swapped or negated condition, another
character, a dropped statement.  For each edit, Verif.Props.Lang.LANG is rebuilt.  Edits that are not
well-typed are dropped.  One line per edit is written to /tmp/automutate/LANG.jsonl, for seeded/LOG.jsonl.  Edits for which all
theorems are still proved are printed; each has to be looked at.
"""
import json, os, random, re, shutil, subprocess, sys, queue, threading

ROOT = os.path.dirname(os.path.dirname(os.path.abspath(__file__)))
CLAIMS = {"Diff": "C34", "Tex": "C35", "Ebnf": "C36", "Llvm": "C38", "Bash": "C39", "Python": "C41", "Css": "C42",
          "Java": "C43", "Kotlin": "C44", "Rust": "C45", "Nasm": "C46", "Lua": "C47", "Html": "C48", "Xml": "C49",
          "Cowel": "C50", "Cpp": "C51", "Js": "C52", "Markdown": "C53", "Yaml": "C54", "Json": "C30", "JsonParse": "C29"}
TARGETS = {"JsonParse": ["JsonParse", "JsonParseSound", "JsonParseComplete"]}
DECL = re.compile(r"^(?:private |protected |@\[[^\]]*\] ?|noncomputable )*(theorem|lemma|def|example|instance|abbrev)\s*([^\s:({\[]*)")


def code_spans(text):
    """The parts of the file outside of comments and theorems, with the name of the definition."""
    blank = re.sub(r"/-.*?-/", lambda m: re.sub(r"[^\n]", " ", m.group(0)), text, flags=re.S)
    blank = re.sub(r"--[^\n]*", lambda m: " " * len(m.group(0)), blank)
    out, name, kind, pos = [], None, None, 0
    for line in blank.split("\n"):
        m = DECL.match(line)
        if m:
            kind, name = m.group(1), m.group(2)
        elif line and not line[0].isspace() and not line.startswith("|"):
            kind = None
        if kind == "def" and not line.strip().startswith(("termination_by", "decreasing_by")):
            out.append((pos, line, name))
        pos += len(line) + 1
    return out


def sites(text):
    spans = code_spans(text)
    hts = sorted(set(re.findall(r"(?<![\w)])\.([a-z]+(?:_[a-z]+)+|comment|string|number|error|value|keyword)\b", text)))
    chars = sorted(set(re.findall(r'c!"((?:\\.|[^"\\])+)"', text)))
    res = []
    for n, (pos, line, name) in enumerate(spans):
        def add(i, j, new, what):
            res.append((pos + i, pos + j, new, name, what))
        body = line.index(":=") + 2 if DECL.match(line) and ":=" in line else 0
        if DECL.match(line) and ":=" not in line:
            continue
        if os.environ.get("NO_TABLES") and re.match(r'\s*[\[(]*b!"[^"]*", ', line):
            continue
        lit = [(m.start(), m.end()) for m in re.finditer(r'[cb]!"(?:\\.|[^"\\])*"', line)]
        inlit = lambda i: any(a <= i < b for a, b in lit)
        for m in re.finditer(r"(?<![\w)])\.([a-z]+(?:_[a-z]+)+|comment|string|number|error|value|keyword)\b", line):
            if m.start() >= body and m.group(1) in hts:
                for new in hts:
                    if new != m.group(1):
                        add(m.start(1), m.end(1), new, f"type {m.group(1)} becomes {new}")
        for m in re.finditer(r"(?<![\w.!\"])(\d+)(?![\w\"])", line):
            fuel = re.search(r"(HM\.loop|whileNotEof|[Ff]uel|[lL]oop|Go) \([^)]*$", line[:m.start()])
            if m.start() >= body and not inlit(m.start()) and not fuel:
                k = int(m.group(1))
                add(m.start(), m.end(), str(k + 1), f"{k} becomes {k + 1}")
                if k:
                    add(m.start(), m.end(), str(k - 1), f"{k} becomes {k - 1}")
        for a, b in (("&&", "||"), ("||", "&&"), ("∧", "∨"), ("∨", "∧"), ("≠", "="), (" < ", " ≤ "), (" ≤ ", " < "),
                     ("!=", "=="), ("==", "!=")):
            for m in re.finditer(re.escape(a), line):
                if m.start() >= body and not inlit(m.start()):
                    add(m.start(), m.end(), b, f"{a.strip()} becomes {b.strip()}")
        for m in re.finditer(r"(?<=[ (])!(?=[\w(])", line):
            if m.start() >= body and not inlit(m.start()):
                add(m.start(), m.end(), "", "negation is dropped")
        for m in re.finditer(r"\bif (?![\w]+ :)(?!let)(.+?) then", line):
            if "←" in m.group(1):
                add(m.start(1), m.end(1), f"!({m.group(1)})", f"condition {m.group(1)} is negated")
            else:
                add(m.start(1), m.end(1), f"¬ ({m.group(1)})", f"condition {m.group(1)} is negated")
        for m in re.finditer(r'c!"((?:\\.|[^"\\])+)"', line):
            for new in chars:
                if new != m.group(1):
                    add(m.start(1), m.end(1), new, f"character {m.group(1)} becomes {new}")
        for m in re.finditer(r'b!"((?:\\.|[^"\\])*)"', line):
            t = m.group(1)
            if len(t) > 1 and "\\" not in t:
                add(m.start(1), m.end(1), t[:-1], f"text {t} becomes {t[:-1]}")
        s = line.strip()
        if re.match(r"(HM\.(advance|emitAdv|emitAdvIf|emit|set|modify)|expect|consume)\b", s) and n + 1 < len(spans):
            nxt = spans[n + 1][1]
            if nxt.strip() and len(nxt) - len(nxt.lstrip()) == len(line) - len(line.lstrip()):
                ind = len(line) - len(line.lstrip())
                add(ind, len(line), "pure ()", f"statement {s} is dropped")
    return res


def enclosing(path, line):
    name = None
    with open(path) as f:
        for n, text in enumerate(f, 1):
            if n > line:
                break
            m = DECL.match(text)
            if m:
                name = (m.group(2) or m.group(1)) if m.group(1) != "example" else f"example({os.path.basename(path)}:{n})"
    return name


def run(lang, dirname, text, site):
    i, j, new, name, what = site
    path = os.path.join(dirname, "Verif/Lang", lang + ".lean")
    open(path, "w").write(text[:i] + new + text[j:])
    targets = ["Verif.Props.Lang." + t for t in TARGETS.get(lang, [lang])]
    try:
        p = subprocess.run("exec timeout 900 lake build " + " ".join(targets), shell=True, cwd=dirname,
                           stdout=subprocess.PIPE, stderr=subprocess.STDOUT, text=True)
    finally:
        open(path, "w").write(text)
    if re.search(rf"^✖ \[\d+/\d+\] Building Verif\.Lang\.{lang}\b", p.stdout, re.M):
        return None
    failed = []
    for f, line in re.findall(r"^error: (Verif/[^:]+\.lean):(\d+):", p.stdout, re.M):
        n = enclosing(os.path.join(dirname, f), int(line))
        if n and n not in failed:
            failed.append(n)
    if p.returncode and not failed:
        failed = ["Verif.Props.Lang." + lang + " (not accepted: prover stopped)"]
    line = text[text.rfind("\n", 0, i) + 1:text.find("\n", j)].strip()
    return {"definition": f"Ulight.{lang}.{name}", "edit": f"{what} in `{line}`", "claim": CLAIMS[lang],
            "theorems_failed": failed, "theorems_tightened": []}


def main():
    lang, count, seed = sys.argv[1], int(sys.argv[2]), int(sys.argv[3])
    workers = int(sys.argv[4]) if len(sys.argv) > 4 else 2
    text = open(os.path.join(ROOT, "lean/Verif/Lang", lang + ".lean")).read()
    rng = random.Random(seed)
    groups = {}
    for s in sites(text):
        groups.setdefault((s[0], s[1]), []).append(s)
    todo = [rng.choice(g) for g in groups.values()]
    rng.shuffle(todo)
    todo = todo[:count]
    print(lang, len(groups), "places,", len(todo), "edits", flush=True)
    q, lock = queue.Queue(), threading.Lock()
    for s in todo:
        q.put(s)
    stats = {"killed": 0, "survived": 0, "invalid": 0}

    def work(n):
        d = f"/tmp/automutate/{lang}{n}"
        shutil.rmtree(d, ignore_errors=True)
        os.makedirs(os.path.dirname(d), exist_ok=True)
        subprocess.check_call(["cp", "-a", os.path.join(ROOT, "lean"), d])
        while True:
            try:
                s = q.get_nowait()
            except queue.Empty:
                break
            r = run(lang, d, text, s)
            with lock:
                if r is None:
                    stats["invalid"] += 1
                elif r["theorems_failed"]:
                    stats["killed"] += 1
                else:
                    stats["survived"] += 1
                    print("SURVIVED", r["definition"], "|", r["edit"], flush=True)
                if r is not None:
                    with open(f"/tmp/automutate/{lang}.jsonl", "a") as f:
                        f.write(json.dumps(r) + "\n")
        shutil.rmtree(d, ignore_errors=True)

    ts = [threading.Thread(target=work, args=(n,)) for n in range(workers)]
    for t in ts:
        t.start()
    for t in ts:
        t.join()
    print(lang, stats, flush=True)


if __name__ == "__main__":
    main()
