#!/usr/bin/env python3
"""Operator mutation of the model. Usage: automut.py SEED COUNT [FILE ...]
Draws edits of the kinds below at random places of definitions in lean/Verif/Model, applies each to a scratch copy, rebuilds, and appends
one line to seeded/LOG.jsonl: the theorems that failed in the first build, or that the edit survived."""
import json, os, random, re, subprocess, sys, shutil
ROOT = os.path.abspath(os.path.join(os.path.dirname(os.path.abspath(__file__)), ".."))
SCR = os.environ.get("MUT_DIR", "/tmp/autom")
OPS = [(" < ", " ≤ "), (" ≤ ", " < "), (" + ", " - "), (" - ", " + "), (" * ", " + "), (" / ", " * "), (" ∧ ", " ∨ "), (" && ", " || "),
       (" || ", " && "), (" ∨ ", " ∧ "), (" = ", " ≠ "), (" ≠ ", " = "), ("true", "false"), ("false", "true"), (" 0", " 1"), (" 1", " 0"),
       ("2 * ", "3 * "), ("max ", "min "), ("min ", "max "), ("some ", "none "), (" then ", " then-else-swap "), ("-(", "("), (".1", ".2"), (".2", ".1"),
       ("cos ", "sin "), ("sin ", "cos "), (" 2", " 3"), ("nx", "ny"), ("ny", "nx")]
DECL = re.compile(r"^(?:@\[.*?\]\s*)?(?:noncomputable |private |protected )*(theorem|lemma|def|abbrev|structure|inductive|instance|example)\b\s*(\S*)")
STOP = re.compile(r"^(/--|/-!|theorem|lemma|def|abbrev|structure|inductive|instance|example|noncomputable|private|protected|@\[|end\b|section\b|namespace\b|variable\b|omit\b|include\b|open\b|set_option\b)")
def decls(ls):
    out = []
    for i, l in enumerate(ls):
        m = DECL.match(l)
        if m:
            j = i + 1
            while j < len(ls) and not STOP.match(ls[j]): j += 1
            out.append((i, j, m.group(1), m.group(2)))
    return out
def candidates(path, rel):
    ls = open(path).read().split("\n")
    ns = ""
    for l in ls:
        m = re.match(r"namespace (\S+)", l)
        if m: ns = m.group(1); break
    out = []
    for st, en, kind, name in decls(ls):
        if kind not in ("def", "abbrev"): continue
        text = "\n".join(ls[st:en])
        # body after the first top-level := or |
        depth = 0; cut = None
        for k, c in enumerate(text):
            if c in "([{⟨": depth += 1
            elif c in ")]}⟩": depth -= 1
            elif depth == 0 and (text.startswith(":=", k) or text.startswith("where", k) or re.match(r"\n\s*\| ", text[k:k+20])): cut = k; break
        if cut is None: continue
        body = text[cut:]
        body_nc = re.sub(r"--[^\n]*|/-.*?-/", lambda m: " " * len(m.group(0)), body, flags=re.S)
        for a, b in OPS:
            for m in re.finditer(re.escape(a), body_nc):
                k = m.start()
                if a in (" 0", " 1", " 2") and re.match(r"[\d.]", body_nc[k+2:k+3] or " "): continue
                if a in (".1", ".2") and re.match(r"[\d.]", body_nc[k+2:k+3] or " "): continue
                if a in ("true", "false", "max ", "min ", "nx", "ny", "cos ", "sin ") and re.match(r"[\w.]", body_nc[k-1:k] or " "): continue
                if a in ("nx", "ny") and re.match(r"\w", body_nc[k+2:k+3] or " "): continue
                if a == " = " and body_nc[k-1:k+4].find(":") >= 0: continue
                if a == " then ":
                    mm = re.match(r" then ((?:(?!\bif\b|\bthen\b|\belse\b|\n).)*?) else ((?:(?!\bif\b|\bthen\b|\belse\b|\n).)*)", body_nc[k:])
                    if not mm: continue
                    new = body[:k] + " then " + mm.group(2).rstrip(")") + " else " + mm.group(1) + (")" * (len(mm.group(2)) - len(mm.group(2).rstrip(")")))) + body[k+mm.end():]
                    out.append((rel, ns + "." + name, text, text[:cut] + new, "branches of an if exchanged: " + body[max(0,k-30):k+mm.end()].strip().replace("\n", " ")))
                    continue
                if a == "some " : new = body[:k] + re.sub(r"^some (\w+|\([^()]*\)|⟨[^⟨⟩]*⟩)", "none", body[k:]); 
                else: new = body[:k] + b + body[k+len(a):]
                if new == body: continue
                ctx = body[max(0, k-40):k+len(a)+30].replace("\n", " ").strip()
                out.append((rel, ns + "." + name, text, text[:cut] + new, f"'{a.strip()}' replaced by '{b.strip() if a != 'some ' else 'none'}' in: … {ctx} …"))
    return out
def main():
    random.seed(int(sys.argv[1])); n = int(sys.argv[2]); only = sys.argv[3:]
    os.makedirs(SCR, exist_ok=True)
    subprocess.run(f"rm -rf {SCR} && cp -a {ROOT}/lean {SCR}", shell=True, check=True)
    cands = []
    md = os.path.join(SCR, "Verif/Model")
    for x in sorted(os.listdir(md)):
        if only and x[:-5] not in only: continue
        c = candidates(os.path.join(md, x), "Verif/Model/" + x)
        random.shuffle(c)
        # at most two per definition
        seen = {}
        for e in c:
            if seen.get(e[1], 0) < 2: seen[e[1]] = seen.get(e[1], 0) + 1; cands.append(e)
    random.shuffle(cands)
    done = 0
    for rel, name, old, new, edit in cands:
        if done >= n: break
        f = os.path.join(SCR, rel); src = open(f).read()
        if src.count(old) != 1: continue
        open(f, "w").write(src.replace(old, new))
        mod = rel[:-5].replace("/", ".")
        r = subprocess.run(["lake", "build", mod], cwd=SCR, capture_output=True, text=True)
        if r.returncode != 0:
            open(f, "w").write(src); continue      # ill-typed edit: not a mutant
        r = subprocess.run(["lake", "build"], cwd=SCR, capture_output=True, text=True)
        failed = []
        if r.returncode != 0:
            for a, b in sorted({(a, int(b)) for a, b in re.findall(r"error: (?:\./)?(Verif/\S+?\.lean):(\d+):\d+", r.stdout + r.stderr)}):
                best = None
                for d in decls(open(os.path.join(SCR, a)).read().split("\n")):
                    if d[0] < b: best = d
                nm = (best[3] if best and best[2] != "example" else f"example in {a}")
                if nm not in failed: failed.append(nm)
        open(f, "w").write(src)
        done += 1
        e = {"definition": name, "edit": edit, "claim": "drawn at random (tools/automut.py)", "theorems_failed": failed, "theorems_tightened": [], "survived": r.returncode == 0}
        print(("SURVIVED " if r.returncode == 0 else "killed   ") + name + " | " + edit + " | " + ", ".join(failed)[:120], flush=True)
        with open(os.environ.get("MUT_LOG", ROOT + "/seeded/LOG.jsonl"), "a") as g: g.write(json.dumps(e, ensure_ascii=False) + "\n")
main()
