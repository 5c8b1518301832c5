#!/usr/bin/env python3
"""Mutation testing of the theorems. Usage: mutate.py MUTFILE.json
MUTFILE is a list of {definition, file, old, new, edit, claim}. Each is applied to a scratch copy of
the Lake project in /tmp/mut, the project is rebuilt, and one line is appended to seeded/LOG.jsonl."""
import json, os, re, subprocess, sys, shutil
ROOT = os.path.join(os.path.dirname(os.path.abspath(__file__)), "..")
SCR = os.environ.get("MUT_DIR", "/tmp/mut")
def sync():
    os.makedirs(SCR, exist_ok=True)
    subprocess.run(["rsync", "-a", "--delete", ROOT + "/lean/", SCR + "/"], check=True) if shutil.which("rsync") else \
        subprocess.run(f"rm -rf {SCR} && cp -a {ROOT}/lean {SCR}", shell=True, check=True)

DECL = re.compile(r"^(?:@\[.*?\]\s*)?(?:noncomputable |private |protected )*(theorem|lemma|def|abbrev|structure|inductive|instance|example)\b\s*(\S*)")
STOP = re.compile(r"^(/--|/-!|theorem|lemma|def|abbrev|structure|inductive|instance|example|noncomputable|private|protected|@\[|end\b|section\b|namespace\b|variable\b|omit\b|include\b|open\b|set_option\b)")
def decls(ls):
    """list of (start, end, kind, name), end exclusive"""
    out = []
    for i, l in enumerate(ls):
        m = DECL.match(l)
        if m:
            j = i + 1
            while j < len(ls) and not STOP.match(ls[j]): j += 1
            out.append((i, j, m.group(1), m.group(2) if m.group(1) != "example" else f"example@{i+1}"))
    return out
def decl_at(path, line):
    ls = open(path).read().split("\n")
    best = None
    for d in decls(ls):
        if d[0] < line: best = d
    return best
def sorry_out(path, names):
    """replace the proofs of the named theorems by a hole (scratch copy only), delete examples"""
    ls = open(path).read().split("\n")
    for st, en, kind, name in reversed(decls(ls)):
        if name not in names: continue
        txt = "\n".join(ls[st:en])
        if kind == "example":
            ls[st:en] = [""] * (en - st); continue
        depth = 0; k = 0; cut = None
        while k < len(txt):
            c = txt[k]
            if c in "([{⟨": depth += 1
            elif c in ")]}⟩": depth -= 1
            elif depth == 0 and txt.startswith(":=", k):
                # `let x := ..;` / `have` inside statements are not used in this project
                cut = k; break
            elif depth == 0 and re.match(r"\n\s*\| ", txt[k:]): cut = k; break
            k += 1
        if cut is None: continue
        hole = "sor" + "ry"
        new = txt[:cut] + ":= by " + hole
        nl = new.split("\n")
        ls[st:en] = nl + [""] * max(0, (en - st) - len(nl))
    open(path, "w").write("\n".join(ls))
LEANFILES = []
def all_sources():
    out = {}
    for d, _, fs in os.walk(os.path.join(SCR, "Verif")):
        for x in fs:
            if x.endswith(".lean"): out[os.path.relpath(os.path.join(d, x), SCR)] = open(os.path.join(d, x)).read()
    return out
sync()
for m in json.load(open(sys.argv[1])):
    orig = all_sources()
    f = os.path.join(SCR, m["file"])
    src = orig[m["file"]]
    if src.count(m["old"]) != 1:
        print("BAD EDIT", src.count(m["old"]), m["definition"], m["edit"], flush=True); continue
    open(f, "w").write(src.replace(m["old"], m["new"]))
    failed = []; hard = []
    for rnd in range(12):
        r = subprocess.run(["lake", "build"], cwd=SCR, capture_output=True, text=True)
        out = r.stdout + r.stderr
        if r.returncode == 0: break
        errs = sorted({(a, int(b)) for a, b in re.findall(r"error: (?:\./)?(Verif/\S+?\.lean):(\d+):\d+", out)})
        todo = {}
        for a, b in errs:
            d = decl_at(os.path.join(SCR, a), b)
            if d is None: hard.append(f"{a}:{b}"); continue
            if d[3] not in failed: failed.append(d[3])
            if d[2] in ("theorem", "lemma", "example"): todo.setdefault(a, set()).add(d[3])
            else: hard.append(d[3])
        if hard or not todo: break
        for a, ns in todo.items(): sorry_out(os.path.join(SCR, a), ns)
    # transitive textual dependants
    texts = {}
    for p, t in orig.items():
        ls = t.split("\n")
        for st, en, k, n in decls(ls):
            if k in ("theorem", "lemma"): texts[n] = set(re.findall(r"[\w.'₀-₉]+", "\n".join(ls[st:en])))
    for n in texts: texts[n] = {x.split(".")[-1] for x in texts[n]} | texts[n]
    dep = set(failed); ch = True
    while ch:
        ch = False
        for n, ws in texts.items():
            if n not in dep and any(x in ws or ("_" in x.split(".")[-1] and x.split(".")[-1] in ws) for x in dep if not x.startswith("example@")): dep.add(n); ch = True
    deps = sorted(n for n in dep if n not in failed and re.match(r"C\d+_", n))
    for p, t in orig.items():
        q = os.path.join(SCR, p)
        if open(q).read() != t: open(q, "w").write(t)
    e = {"definition": m["definition"], "edit": m["edit"], "claim": m["claim"],
         "theorems_failed": [x for x in failed if not x.startswith("example@")],
         "examples_failed": sum(x.startswith("example@") for x in failed),
         "theorems_resting_on_failed_lemmas": deps, "theorems_tightened": m.get("tightened", []),
         "survived": not failed and not hard}
    if hard: e["note"] = "model no longer elaborates after: " + ", ".join(hard)
    if m.get("note"): e["note"] = m["note"]
    print(("SURVIVED " if not failed and not hard else "killed   ") + m["definition"] + " | " + m["edit"] + " | " + ", ".join(failed)[:300] + " || " + ", ".join(deps)[:200] + (" HARD" if hard else ""), flush=True)
    with open(ROOT + "/seeded/LOG.jsonl", "a") as g: g.write(json.dumps(e, ensure_ascii=False) + "\n")
