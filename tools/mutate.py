#!/usr/bin/env python3
"""Seed a bug into a scratch copy of the model and report which theorems fail.

usage: mutate.py mutations.json out.jsonl [--dir /tmp/mut]
mutations.json: list of {"id","file","definition","old","new","edit","claim"}.

Proofs that fail are stubbed (in the scratch copy only) and the build is repeated, so that every
theorem is either checked against the edited model or reported: as failed (its own proof fails) or as
resting on a failed lemma.
"""
import json, os, re, shutil, subprocess, sys
SRC = os.environ.get("MUTSRC", "/verif/lean")
STUB = "so" + "rry"
START = re.compile(r"^(?:@\[[^\]]*\]\s*)?(?:private |protected |noncomputable |scoped |local |unsafe )*(theorem|lemma|def|abbrev|instance|example|structure|inductive|class)\b\s*([^\s:({\[]*)")
BREAK = re.compile(r"^(theorem|lemma|def|abbrev|instance|example|structure|inductive|class|noncomputable|private|protected|@\[|/--|/-!|end\b|namespace\b|section\b|open\b|variable\b|omit\b|mutual\b|attribute\b|set_option\b|include\b|local\b|scoped\b|macro\b|syntax\b|termination_by|decreasing_by|deriving)")

def decls(lines):
    out = []
    for i, l in enumerate(lines):
        m = START.match(l)
        if m:
            out.append([i, m.group(1), m.group(2) or f"example@{i+1}"])
    for k, d in enumerate(out):
        j = d[0] + 1
        while j < len(lines) and not (BREAK.match(lines[j]) and not lines[j].startswith(("termination_by", "decreasing_by", "deriving"))):
            j += 1
        d.append(j)
    return out

def blank(lines, i, j):
    """Remove a declaration and the doc comment before it."""
    k = i
    if k > 0 and lines[k-1].rstrip().endswith("-/"):
        k -= 1
        while k > 0 and not lines[k].startswith("/--"): k -= 1
    return lines[:k] + [""] * (j - k) + lines[j:]

def stub(lines, d):
    i, kind, name, j = d
    if kind == "example":
        return blank(lines, i, j)
    text = "\n".join(lines[i:j])
    depth = 0; k = 0; cut = None
    while k < len(text):
        c = text[k]
        if c in "([{⟨": depth += 1
        elif c in ")]}⟩": depth -= 1
        elif depth == 0 and text.startswith(":=", k):
            line = text[text.rfind("\n", 0, k) + 1:k]
            if not re.search(r"\blet\s+[^;]*$", line):
                cut = (k, ":= " + STUB); break
        elif depth == 0 and text[k] == "|" and re.search(r"\n\s*$", text[:k]) and "match " not in text[:k]:
            cut = (k, ":= " + STUB); break
        k += 1
    if cut is None:
        return None
    new = (text[:cut[0]] + cut[1]).split("\n")
    new += [""] * ((j - i) - len(new))
    return lines[:i] + new + lines[j:]

def run(mut, base):
    lean = os.path.join(base, "lean")
    shutil.rmtree(lean, ignore_errors=True)
    subprocess.run(["cp", "-a", SRC, lean], check=True)
    path = os.path.join(lean, mut["file"])
    s = open(path).read()
    if s.count(mut["old"]) != 1:
        return {"problem": f"old text occurs {s.count(mut['old'])} times"}
    open(path, "w").write(s.replace(mut["old"], mut["new"]))
    failed, stubbed = [], {}
    for rnd in range(12):
        p = subprocess.run(["nice", "lake", "build"] + mut.get("targets", []), cwd=lean, capture_output=True, text=True)
        out = p.stdout + p.stderr
        errs = {}
        for m in re.finditer(r"^error: (Verif[\w/]*\.lean):(\d+):(\d+): (.*)", out, re.M):
            errs.setdefault(m.group(1), []).append((int(m.group(2)), m.group(4)))
        if p.returncode == 0:
            break
        if not errs:
            return {"problem": "build failed without positions: " + out[-600:]}
        for f, es in errs.items():
            fp = os.path.join(lean, f)
            lines = open(fp).read().split("\n")
            ds = decls(lines)
            for ln, msg in sorted(es, reverse=True):
                d = [d for d in ds if d[0] <= ln - 1 < d[3]]
                if not d:
                    # doc comment or attribute before a declaration
                    d = [d for d in ds if d[0] >= ln - 1][:1]
                if not d:
                    return {"problem": f"no declaration at {f}:{ln} {msg}"}
                d = d[0]
                if d[1] in ("def", "abbrev", "instance", "structure", "inductive", "class") :
                    return {"problem": f"definition {d[2]} fails at {f}:{ln} {msg}", "failed": failed}
                key = (f, d[2])
                if stubbed.get(key) == rnd + 1000:
                    continue
                if key in stubbed and stubbed[key] < 1000 + rnd and stubbed[key] >= 1000:
                    # the statement itself no longer checks: remove it
                    lines = blank(lines, d[0], d[3])
                    failed.append(d[2] + " (statement)")
                    stubbed[key] = 1
                    continue
                if key not in stubbed:
                    failed.append(d[2])
                    new = stub(lines, d)
                    if new is None:
                        new = blank(lines, d[0], d[3])
                    lines = new
                    stubbed[key] = rnd + 1000
            open(fp, "w").write("\n".join(lines))
    else:
        return {"problem": "too many rounds", "failed": failed}
    names = []
    man = json.load(open("/verif/MANIFEST.json"))
    for c in man["claims"]:
        names += c["theorems"]
    props = "".join(open(os.path.join(SRC, "Verif/Props", f)).read() for f in os.listdir(os.path.join(SRC, "Verif/Props")))
    have = set(re.findall(r"^theorem (C\d{2,3}_\w+)", props, re.M))  # the copy may be older than the manifest
    names = [n for n in names if n.split(".")[-1] in have]
    imports = "import Lean.Elab.Command\nimport Lean.Util.CollectAxioms\n" + "".join(f"import {t}\n" for t in mut.get("targets", ["Verif"]))
    if "targets" in mut:
        src = "".join(open(os.path.join(SRC, t.replace(".", "/") + ".lean")).read() for t in mut["targets"])
        names = [n for n in names if re.search(r"theorem " + re.escape(n.split(".")[-1]) + r"\b", src)]
    chk = imports + "open Lean in\nrun_cmd do\n  let env ← getEnv\n"
    for n in names:
        chk += f"  if env.contains `{n} then do\n    let ax ← Lean.collectAxioms `{n}\n    if ax.contains ``{STUB}Ax then logInfo m!\"TAINT {n}\"\n  else logInfo m!\"GONE {n}\"\n"
    cf = os.path.join(base, "chk.lean")
    open(cf, "w").write(chk)
    p = subprocess.run(["lake", "env", "lean", cf], cwd=lean, capture_output=True, text=True)
    taint = re.findall(r"(?:TAINT|GONE) (\S+)", p.stdout)
    short = [t.split(".")[-1] for t in taint]
    direct = [f for f in failed]
    return {"failed": direct, "claims_failed": short, "chk": "" if "error" not in p.stdout else p.stdout[:300]}

def main():
    base = "/tmp/mut"
    muts = json.load(open(sys.argv[1]))
    if "--dir" in sys.argv: base = sys.argv[sys.argv.index("--dir") + 1]
    os.makedirs(base, exist_ok=True)
    done = set()
    if os.path.exists(sys.argv[2]):
        done = {json.loads(l)["id"] for l in open(sys.argv[2])}
    for m in muts:
        if m["id"] in done: continue
        r = run(m, base)
        r = {**{k: m[k] for k in ("id", "file", "definition", "edit", "claim")}, **r}
        open(sys.argv[2], "a").write(json.dumps(r, ensure_ascii=False) + "\n")
        print(m["id"], r.get("problem") or (r["failed"][:6], r["claims_failed"]), flush=True)
main()
