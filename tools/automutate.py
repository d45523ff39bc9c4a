#!/usr/bin/env python3
"""Random single-token edits of the model.

Usage: automutate.py FILE COUNT [SEED]     (FILE relative to Verif/, e.g. Model/Eemd.lean)

The examples are removed from the scratch copy first, so that only theorems can notice an edit; theorems named
`_counterexample` are stubbed when they fail and do not count.  Prints SURVIVED lines for edits that no theorem notices.
One line per edit goes to $AUTOLOG (default /tmp/auto.jsonl).
"""
import json, os, random, re, subprocess, sys, shutil
sys.path.insert(0, os.path.dirname(__file__))
import mutlib as M

BASE = os.environ.get("AUTOBASE", "/tmp/auto_base")
DST = os.environ.get("AUTODIR", "/tmp/auto")
LOG = os.environ.get("AUTOLOG", "/tmp/auto.jsonl")

RULES = [
    (r" < ", [" ≤ ", " > "]), (r" ≤ ", [" < ", " ≥ "]), (r" > ", [" ≥ ", " < "]), (r" ≥ ", [" > ", " ≤ "]),
    (r" == ", [" != "]), (r" != ", [" == "]), (r" ∧ ", [" ∨ "]), (r" ∨ ", [" ∧ "]), (r" && ", [" || "]), (r" \|\| ", [" && "]),
    (r" \+ ", [" - "]), (r" - ", [" + "]), (r" \* ", [" + ", " / "]), (r" / ", [" * "]),
    (r"\btrue\b", ["false"]), (r"\bfalse\b", ["true"]), (r"\bvadd\b", ["vsub"]), (r"\bvsub\b", ["vadd"]),
    (r"\bnpMaxE\b", ["npMinE"]), (r"\bnpMinE\b", ["npMaxE"]), (r"maxPos", ["minPos"]), (r"minPos", ["maxPos"]),
    (r"maxVal", ["minVal"]), (r"minVal", ["maxVal"]), (r"\.take\b", [".drop"]), (r"\.drop\b", [".take"]),
    (r"\.valueError", [".indexError"]), (r"\.indexError", [".valueError"]), (r"\.nonFinite", [".valueError"]),
    (r"getLast\?", ["head?"]), (r"head\?", ["getLast?"]), (r"(?<![\w.])(\d+)(?![\w.])", None), (r" ≠ ", [" = "]),
    (r"(?<=if )(.+?)(?= then)", "neg"), (r"pyAbs ", ["id "]), (r"-(?=[a-z])", [""]),
]


def strip_comments_mask(s):
    """positions inside comments"""
    mask = bytearray(len(s))
    for m in re.finditer(r"/-.*?-/|--[^\n]*", s, re.S):
        for i in range(m.start(), m.end()):
            mask[i] = 1
    return mask


def mutants(s):
    mask = strip_comments_mask(s)
    out = []
    for m in re.finditer(r"^(?:@\[[^\]]*\]\s*)?(?:private |protected |noncomputable )*(?:def|instance)\b.*?(?=\n\n|\Z)", s, re.S | re.M):
        if mask[m.start()]:
            continue
        body = m.group(0)
        k = re.search(r":=|\n  \|", body)
        if not k:
            continue
        lo = m.start() + k.start()
        name = re.match(r".*?(?:def|instance)\s+(\S+)", body, re.S).group(1)
        for pat, reps in RULES:
            for x in re.finditer(pat, s[lo:m.end()]):
                a, b = lo + x.start(), lo + x.end()
                if mask[a]:
                    continue
                if reps is None:
                    new = [str(int(x.group(0)) + 1)] + ([str(int(x.group(0)) - 1)] if int(x.group(0)) > 0 else [])
                elif reps == "neg":
                    new = [f"¬ ({x.group(0)})"] if "let " not in x.group(0) and ":" not in x.group(0) else []
                else:
                    new = reps
                for r in new:
                    out.append((name, a, b, r))
    return out


def main():
    f, cnt = sys.argv[1], int(sys.argv[2])
    seed = int(sys.argv[3]) if len(sys.argv) > 3 else 0
    only = os.environ.get("ONLY")
    deps, mod = M.load_deps()
    clos = M.closure(deps)
    src = open(f"{BASE}/Verif/{f}").read()
    ms = mutants(src)
    if only:
        ms = [m for m in ms if re.search(only, m[0])]
    random.Random(seed).shuffle(ms)
    done = 0
    module = "Verif." + f[:-5].replace("/", ".")
    for name, a, b, r in ms:
        if done >= cnt:
            break
        subprocess.run(f"rm -rf {DST}; cp -a {BASE} {DST}", shell=True, check=True)
        open(f"{DST}/Verif/{f}", "w").write(src[:a] + r + src[b:])
        p = subprocess.run(["lake", "build", module], cwd=DST, capture_output=True, text=True)
        if p.returncode != 0:
            continue
        done += 1
        ls = src.rfind("\n", 0, a) + 1
        le = src.find("\n", b)
        edit = f"{src[ls:le].strip()}   ==>   {(src[ls:a] + r + src[b:le]).strip()}"
        hit, bad, ok = set(), [], True
        for rnd in range(6):
            out = M.build_until_error(DST, r"(theorem|lemma)")
            locs = M.locations(out)
            if not locs:
                break
            real = []
            for fl, l in reversed(locs):
                d = M.decl_at(f"{DST}/{fl}", l)
                bad.append(d)
                if d.endswith("counterexample"):
                    M.stub(f"{DST}/{fl}", l)
                else:
                    real.append((d, fl))
            if real:
                hit = set().union(*(M.depends(clos, mod, d, fl) for d, fl in real))
                ok = False
                break
        rec = {"definition": name, "file": f, "edit": edit, "failed": bad, "theorems": sorted(hit), "survived": ok}
        with open(LOG, "a") as g:
            g.write(json.dumps(rec, ensure_ascii=False) + "\n")
        print("SURVIVED" if ok else "killed", name, "|", edit, "|", bad[:3], flush=True)


main()
