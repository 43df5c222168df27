#!/usr/bin/env python3
"""Test theorems against wrong programs.

mutate.py ID...      run the wrong programs with these ids (files seeded/mutants/ID.json) in a scratch copy
mutate.py --log ID   append the results of the last run of ID to seeded/LOG.jsonl

A wrong program is a JSON object:
  definition  name of the edited definition
  edit        what was changed, in words
  breaks      list of property ids whose English claim is false for the edited program
  edits       list of {file, old, new}: applied to the scratch copy; `old` must occur exactly once (`count` overrides)
  refute      list of {theorem, proof, preamble?}: a proof that the statement of the theorem is false for the edited
              program (`h` is the statement); this shows that no proof whatsoever could go through
  build       modules to build (all if absent)
  tightened   theorems that had to be changed because of this attempt (filled in by hand)

Besides the edit of the model, `edits` may restate a helper lemma so that it holds for the edited program (its proof then
often is `sorry`, in the scratch copy only). What then fails is the theorem under test and not just a helper.

Declarations that fail to build are reported and replaced by `sorry`, so that the build goes on. At the end every theorem
of the manifest is classified: failed; depends on a failed declaration; unaffected.
"""
import fcntl, json, os, re, shutil, subprocess, sys
ROOT = os.path.join(os.path.dirname(os.path.abspath(__file__)), "..")
SCRATCH = os.environ.get("MUT_DIR", "/tmp/mut")
LEAN = os.path.join(SCRATCH, "lean")
DECL = re.compile(r"^(?:@\[[^\]]*\]\s*)?(?:private |protected |noncomputable )*(theorem|lemma|example|def|abbrev|instance|structure|inductive|mutual|end|namespace|section|open|variable)\b")


def sh(cmd, timeout=4000):
    return subprocess.run(cmd, shell=True, cwd=LEAN, capture_output=True, text=True, timeout=timeout)


def reset():
    os.makedirs(SCRATCH, exist_ok=True)
    subprocess.run(["rsync", "-a", "--checksum", "--delete", "--exclude=.lake", os.path.join(ROOT, "lean") + "/", LEAN + "/"], check=True) \
        if shutil.which("rsync") else pycopy()
    if not os.path.exists(os.path.join(LEAN, ".lake")):
        shutil.copytree(os.path.join(ROOT, "lean", ".lake"), os.path.join(LEAN, ".lake"))


def pycopy():
    src = os.path.join(ROOT, "lean")
    keep = set()
    for d, dirs, files in os.walk(src):
        if ".lake" in dirs:
            dirs.remove(".lake")
        for f in files:
            p = os.path.join(d, f)
            rel = os.path.relpath(p, src)
            keep.add(rel)
            q = os.path.join(LEAN, rel)
            os.makedirs(os.path.dirname(q), exist_ok=True)
            new = open(p).read()
            if not os.path.exists(q) or open(q).read() != new:
                open(q, "w").write(new)
    for d, dirs, files in os.walk(LEAN):
        if ".lake" in dirs:
            dirs.remove(".lake")
        for f in files:
            rel = os.path.relpath(os.path.join(d, f), LEAN)
            if rel not in keep:
                os.remove(os.path.join(d, f))


def enclosing(lines, n):
    """Start and end (exclusive) of the top-level declaration containing line index n."""
    i = n
    while i > 0 and not DECL.match(lines[i]):
        i -= 1
    j = i + 1
    while j < len(lines) and not DECL.match(lines[j]) and not lines[j].startswith("/--") and not lines[j].startswith("/-!"):
        j += 1
    return i, j


def proof_start(text):
    """Position of the top-level `:=` (or of the first alternative) of a theorem."""
    depth = 0
    k = 0
    while k < len(text):
        c = text[k]
        if c in "([{⟨":
            depth += 1
        elif c in ")]}⟩":
            depth -= 1
        elif depth == 0 and text.startswith(":=", k):
            line = text[text.rfind("\n", 0, k) + 1:k]
            if not re.search(r"\blet\b", line):
                return k
        elif depth == 0 and re.match(r"\n  \| ", text[k:]):
            return k
        elif depth == 0 and re.match(r" where\n", text[k:]):
            return k
        k += 1
    return None


def neutralise(path, n, failed):
    full = os.path.join(LEAN, path)
    lines = open(full).read().split("\n")
    i, j = enclosing(lines, n)
    kind = DECL.match(lines[i])
    kind = kind.group(1) if kind else "?"
    text = "\n".join(lines[i:j])
    m = re.search(r"(?:theorem|lemma|def|instance|abbrev)\s+(\S+)", text)
    name = m.group(1) if m else kind
    if kind in ("theorem", "lemma"):
        k = proof_start(text)
        if k is None or text[k:].strip() == ":= sorry":
            raise SystemExit(f"cannot neutralise {path}:{n+1} {name}\n{text}")
        lines[i:j] = (text[:k] + " := sorry\n").split("\n")
        failed.append(f"{os.path.basename(path)[:-5]}.{name}" if False else name)
    elif kind == "example":
        prev = [l for l in lines[:i] if re.match(r"^theorem ", l)]
        after = re.match(r"^theorem\s+(\S+)", prev[-1]).group(1) if prev else path
        lines[i:j] = ["example : True := trivial", ""]
        failed.append(f"example after {after}")
    else:
        raise SystemExit(f"error in {kind} {name} at {path}:{n+1}")
    open(full, "w").write("\n".join(lines))


def run(mid):
    mut = json.load(open(os.path.join(ROOT, "seeded", "mutants", mid + ".json")))
    reset()
    for e in mut["edits"]:
        p = os.path.join(LEAN, "Verif", e["file"])
        s = open(p).read()
        if s.count(e["old"]) != e.get("count", 1):
            raise SystemExit(f"{mid}: `{e['old']}` occurs {s.count(e['old'])} times in {e['file']}")
        open(p, "w").write(s.replace(e["old"], e["new"]))
    failed = []
    msgs = []
    while True:
        r = sh("lake build " + " ".join(mut.get("build", [])) + " 2>&1")
        errs = re.findall(r"^error: (Verif/\S+?\.lean):(\d+):(\d+): (.*)$", r.stdout, re.M)
        if not errs:
            if r.returncode != 0:
                raise SystemExit(r.stdout[-3000:])
            break
        spots = {}
        for f, l, c, msg in errs:
            lines = open(os.path.join(LEAN, f)).read().split("\n")
            i, _ = enclosing(lines, int(l) - 1)
            spots[(f, i)] = msg
        for (f, i) in sorted(spots, key=lambda x: (x[0], -x[1])):
            before = len(failed)
            neutralise(f, i, failed)
            msgs.append(f"{f}: {failed[-1]}: {spots[(f, i)][:150]}")
    man = json.load(open(os.path.join(ROOT, "MANIFEST.json")))
    thms = [(c["property"], t) for c in man["claims"] for t in c["theorems"]]
    with open(os.path.join(LEAN, "Check.lean"), "w") as f:
        f.write("".join(f"import {m}\n" for m in mut.get("build", ["Verif"])) + "".join(f"#print axioms {t}\n" for _, t in thms))
    out = sh("lake env lean -DmaxErrors=0 Check.lean 2>&1").stdout
    os.remove(os.path.join(LEAN, "Check.lean"))
    tainted = set(re.findall(r"'(\S+)' depends on axioms: \[[^\]]*sorryAx", out))
    direct, dep = [], []
    for p, t in thms:
        short = t.split(".")[-1]
        if short in [f.split(".")[-1] for f in failed]:
            direct.append(t)
        elif t in tainted:
            dep.append(t)
    aff = {p for p, t in thms if t in direct or t in dep}
    refuted = []
    for k, r in enumerate(mut.get("refute", [])):
        body = "".join(f"import {m}\n" for m in mut.get("build", ["Verif"])) + "namespace Hpl.Spec\nend Hpl.Spec\nopen Hpl Hpl.Spec\nnamespace Hpl\nset_option maxRecDepth 100000\n" + \
            r.get("preamble", "") + f"\ntheorem refute_{k} (h : type_of% @{r['theorem']}) : False := by\n" + \
            "\n".join("  " + l for l in r["proof"].strip("\n").split("\n")) + f"\n#print axioms refute_{k}\nend Hpl\n"
        open(os.path.join(LEAN, "Refute.lean"), "w").write(body)
        out = sh("lake env lean Refute.lean 2>&1").stdout
        os.remove(os.path.join(LEAN, "Refute.lean"))
        ax = re.search(r"refute_\d+' (depends on axioms: \[([^\]]*)\]|does not depend)", out)
        if "error" in out or ax is None or "sorryAx" in ax.group(0):
            if "error" in out:
                out = out[out.index("error"):]
            print(f"REFUTATION OF {r['theorem']} FAILED\n{out[:int(os.environ.get('CHARS', '700'))]}")
        else:
            refuted.append(r["theorem"])
    res = {"id": mid, "statements_refuted": refuted, "failed": failed, "manifest_failed": direct, "manifest_dependent": dep,
           "not_affected_but_claimed": [b for b in mut["breaks"] if b not in aff],
           "only_dependent": [b for b in mut["breaks"] if b in aff and not any(t in direct for p, t in thms if p == b)]}
    os.makedirs(os.path.join(SCRATCH, "results"), exist_ok=True)
    json.dump(res, open(os.path.join(SCRATCH, "results", mid + ".json"), "w"), indent=1)
    if os.environ.get("VERBOSE"):
        print("\n".join(msgs))
    print(mid, "| refuted:", " ".join(refuted), "| failed:", " ".join(direct), "| dependent:", len(dep),
          "| NOT AFFECTED: " + " ".join(res["not_affected_but_claimed"]) if res["not_affected_but_claimed"] else "")


def log(mid):
    mut = json.load(open(os.path.join(ROOT, "seeded", "mutants", mid + ".json")))
    res = json.load(open(os.path.join(SCRATCH, "results", mid + ".json")))
    line = {"id": mid, "definition": mut["definition"], "edit": mut["edit"], "claim_broken": mut["breaks"],
            "theorems_failed": res["manifest_failed"], "theorems_depending_on_failed_lemmas": res["manifest_dependent"],
            "statements_refuted": res["statements_refuted"],
            "other_declarations_failed": [f for f in res["failed"] if f.split(".")[-1] not in [t.split(".")[-1] for t in res["manifest_failed"]]],
            "tightened": mut.get("tightened", [])}
    if mut.get("remark"):
        line["remark"] = mut["remark"]
    path = os.path.join(ROOT, "seeded", "LOG.jsonl")
    lock = open("/tmp/mutate.lock", "w")
    fcntl.flock(lock, fcntl.LOCK_EX)
    old = [l for l in open(path) if l.strip()] if os.path.exists(path) else []
    old = [l for l in old if json.loads(l).get("id") != mid]
    new = sorted(old + [json.dumps(line, ensure_ascii=False) + "\n"], key=lambda l: json.loads(l)["id"])
    with open(path, "w") as f:
        f.write("".join(new))
    lock.close()


if __name__ == "__main__":
    if sys.argv[1] == "--log":
        for m in sys.argv[2:]:
            log(m)
    else:
        for m in sys.argv[1:]:
            run(m)
            log(m)
