#!/usr/bin/env python3
"""Seeded-bug runner.  usage: mutate.py batch.py   (batch.py defines M = [(file, definition, old, new, edit, claim, ids), ...])
Works in a scratch copy (/tmp/mut); appends one line per attempt to seeded/LOG.jsonl."""
import json, os, re, subprocess, sys, shutil, datetime
HERE = os.path.dirname(os.path.abspath(__file__)); ROOT = os.path.dirname(HERE)
SCR = "/tmp/mut/lean"
def sync():
    os.makedirs("/tmp/mut", exist_ok=True)
    subprocess.run(["rm", "-rf", SCR]); subprocess.run(["cp", "-a", ROOT + "/lean", SCR], check=True)
def decls():
    D = {}; loc = {}
    for root, _, fs in os.walk(SCR + "/Verif"):
        for f in fs:
            if not f.endswith(".lean"): continue
            p = os.path.join(root, f); lines = open(p).read().split("\n")
            cur = None
            for i, l in enumerate(lines, 1):
                m = re.match(r"(?:@\[[^\]]*\] *)?(?:private |protected |noncomputable )*(theorem|lemma|def|structure|instance|abbrev|inductive|example)\b *([^\s:({\[]*)", l)
                if m:
                    cur = m.group(2) if m.group(1) != "example" and m.group(2) else "example@%s:%d" % (f, i)
                    D.setdefault(cur, [])
                if cur is not None: D[cur].append(l); loc[(os.path.relpath(p, SCR), i)] = cur
    return {k: "\n".join(v) for k, v in D.items()}, loc
DEPS = r"""import Verif
open Lean
/-- Prints, for every theorem of the project, the constants of the project its statement and proof use (for tools/mutate.py). -/
def main : IO Unit := do
  initSearchPath (← findSysroot) 
  let env ← importModules #[{module := `Verif}] {}
  for (n, ci) in env.constants.map₁.toList do
    if (`Yasl).isPrefixOf n then
      let used := (ci.getUsedConstantsAsSet.toList.filter fun c => (`Yasl).isPrefixOf c).map toString
      IO.println s!"{n}\t{" ".intercalate used}"
"""
def siblings():
    """theorems of one mutual block stand and fall together"""
    G = []
    for root, _, fs in os.walk(SCR + "/Verif"):
        for f in fs:
            if not f.endswith(".lean"): continue
            for b in re.findall(r"^mutual\n(.*?)^end\n", open(os.path.join(root, f)).read(), re.S | re.M):
                G.append(re.findall(r"^(?:theorem|def) ([^\s:({\[]*)", b, re.M))
    return G
def depgraph():
    """who uses whom, from the elaborated project (the scratch copy before any edit)"""
    open("/tmp/mut/deps.lean", "w").write(DEPS)
    out = subprocess.run(["lake", "env", "lean", "--run", "/tmp/mut/deps.lean"], cwd=SCR, capture_output=True, text=True).stdout
    users = {}
    for l in out.split("\n"):
        if "\t" not in l: continue
        n, us = l.split("\t")
        for u in us.split(): users.setdefault(u.replace("Yasl.", "", 1), set()).add(n.replace("Yasl.", "", 1))
    for g in siblings():
        for x in g:
            for y in g: users.setdefault(x, set()).add(y)
    return users
def closure(bad, users):
    res = set(bad); todo = list(bad)
    while todo:
        x = todo.pop()
        for y in users.get(x, ()):
            if y not in res: res.add(y); todo.append(y)
    return res
def leave_out(q, l, f, loc):
    """replace the proof of the declaration around line l (the number of lines is kept)"""
    lines = open(q).read().split("\n")
    d = loc[(f, l)]; a = l; b = l
    while loc.get((f, a - 1)) == d: a -= 1
    while loc.get((f, b + 1)) == d: b += 1
    text = "\n".join(lines[a - 1:b]); depth = 0; cut = None
    # keep what follows the declaration (comments, section ends)
    tail = re.search(r"\n(?=/--|/-|end\b|section\b|namespace\b|variable\b|open\b|set_option\b|mutual\b)", text)
    rest = text[tail.start():] if tail else ""
    body = text[:tail.start()] if tail else text
    for i, ch in enumerate(body):
        if ch in "([{⟨": depth += 1
        elif ch in ")]}⟩": depth -= 1
        elif depth == 0 and (body.startswith(":=", i) or body.startswith("\n  | ", i)): cut = i; break
    if cut is None: return
    new = body[:cut] + ":= " + "so" + "rry" + "\n" * body[cut:].count("\n") + rest
    lines[a - 1:b] = new.split("\n")
    open(q, "w").write("\n".join(lines))
def main():
    ns = {}; exec(open(sys.argv[1]).read(), ns)
    sync()
    D, loc = decls()
    U = depgraph()
    assert len(U) > 100
    for (file, definition, old, new, edit, claim, ids) in ns["M"]:
        p = SCR + "/Verif/" + file
        src = open(p).read()
        if src.count(old) < 1: print("NO MATCH", file, definition, old); continue
        open(p, "w").write(src.replace(old, new, 1))
        # build; leave the proofs that fail out and build again, so that what depends on them is checked as well
        direct = []; errs = []; saved = {}
        for attempt in range(7):
            try: out = subprocess.run(["lake", "build"], cwd=SCR, capture_output=True, text=True, timeout=1500).stdout
            except subprocess.TimeoutExpired: out = "error: Verif/timeout.lean:1:1: timeout"
            new_errs = [(m.group(1), int(m.group(2))) for m in re.finditer(r"error: (\S+?\.lean):(\d+):\d+", out)]
            if attempt == 0: _, loc = decls()
            fresh = [(f, l, loc.get((f, l))) for f, l in new_errs]
            errs += new_errs
            fresh = [(f, l, d) for f, l, d in fresh if d and d not in direct]
            if not fresh or any(f.startswith("Verif/Model") for f, _ in new_errs):
                direct += sorted(set(d for _, _, d in fresh)); break
            for f, l, d in fresh:
                if d in direct: continue
                direct.append(d)
                q = SCR + "/" + f
                if q not in saved and q != p: saved[q] = open(q).read()
                leave_out(q, l, f, loc)
        open(p, "w").write(src)
        for q, t in saved.items(): open(q, "w").write(t)
        D, loc = decls()
        model_broken = any(f.startswith("Verif/Model") for f, _ in errs)
        allf = closure(direct, U) if direct else set()
        claims = sorted(x for x in allf if re.match(r"C\d\d+_", x))
        hit = [i for i in ids if any(x.startswith(i + "_") for x in claims)]
        print(("MODEL-ERR " if model_broken else "") + ("ok  " if hit == ids else "SURVIVED " + str([i for i in ids if i not in hit])), definition, "|", edit, "| direct:", direct[:6], "| claims:", claims[:8], flush=True)
        if not model_broken:
            with open(ROOT + "/seeded/LOG.jsonl", "a") as g:
                g.write(json.dumps(dict(definition=definition, file="lean/Verif/" + file, edit=edit, claim_broken=claim,
                    theorems_failed=direct, claim_theorems_no_longer_proved=claims, survived=[i for i in ids if i not in hit], tightened=[])) + "\n")
main()
