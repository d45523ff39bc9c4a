#!/usr/bin/env python3
"""Seeded-bug testing.

Usage: mutate.py mutations.json   (a list of objects with keys
    definition, file, old, new, edit, claim, property)

Every mutation is applied to a scratch copy of the Lean project outside /verif, the copy is rebuilt, and the
declarations that fail are mapped to the property theorems that depend on them.  One line per mutation is appended to
/verif/seeded/LOG.jsonl.  The dependency table /tmp/deps.txt is dumped from the unmodified build.  The modules with the theorems
of the property are built first; the rest only if none of these theorems fails.
"""
import json, os, re, subprocess, sys, shutil
sys.path.insert(0, os.path.dirname(__file__))
from mutlib import load_deps, closure, decl_at, depends, stub

SRC = "/verif/lean"
DST = os.environ.get("MUTDIR", "/tmp/mut")
LOG = "/verif/seeded/LOG.jsonl"


def sync():
    shutil.rmtree(DST, ignore_errors=True)
    shutil.copytree(SRC, DST, symlinks=True)


def run(mut, clos, mod, props):
    """build; while some property is not yet hit, stub the failing theorems and build on, so that theorems further up
    are tested by themselves"""
    sync()
    edits = mut.get("edits") or [{"file": mut["file"], "old": mut["old"], "new": mut["new"]}]
    for e in edits:
        p = f"{DST}/Verif/{e['file']}"
        s = open(p).read()
        assert s.count(e["old"]) >= 1, ("pattern not found", e)
        s = s.replace(e["old"], e["new"], 1)
        open(p, "w").write(s)
    allbad, allhit, rc0, stuck = {}, set(), None, False
    scope = sorted({m for n, m in mod.items() if any(n.split(".")[-1].startswith(p + "_") for p in props)})
    for rnd in range(13):
        r = subprocess.run(["lake", "build"] + scope, cwd=DST, capture_output=True, text=True)
        out = r.stdout + r.stderr
        if rc0 is None:
            rc0 = r.returncode
        locs = sorted({(m.group(1), int(m.group(2))) for m in re.finditer(r"error: (Verif/\S+\.lean):(\d+):\d+", out)})
        bad = {}
        for f, l in locs:
            bad.setdefault(decl_at(f"{DST}/{f}", l), f)
        allbad.update(bad)
        names = [b for b in bad if not b.startswith("example")]
        for b in names:
            allhit |= depends(clos, mod, b, bad[b])
        if killed(props, allhit, allbad) == props:
            break
        if r.returncode == 0 or not locs:
            if not scope:
                break
            scope = []
            continue
        ok = False
        for f, l in reversed(locs):
            ok = stub(f"{DST}/{f}", l) or ok
        if not ok:
            stuck = True
            break
    return rc0, list(allbad), sorted(allhit), out, stuck


def killed(props, hit, bad):
    return [p for p in props if any(h.startswith(p + "_") for h in hit) or any(b.startswith(p + "_") for b in bad)]


def main():
    muts = json.load(open(sys.argv[1]))
    deps, mod = load_deps()
    clos = closure(deps)
    for mut in muts:
        prop = mut["property"]
        props = prop if isinstance(prop, list) else [prop]
        rc, bad, hit, out, stuck = run(mut, clos, mod, props)
        rec = {"definition": mut["definition"], "edit": mut["edit"], "breaks": mut["claim"], "property": prop,
               "first_failures": bad[:12], "theorems_failed": hit, "caught": killed(props, hit, bad) == props,
               "tightened": mut.get("tightened", [])}
        if "note" in mut:
            rec["note"] = mut["note"]
        print(json.dumps({k: rec[k] for k in ("edit", "property", "caught")}), ("builds" if rc == 0 else "") + (" STUCK" if stuck else ""), len(hit), bad[:6], flush=True)
        with open(os.environ.get("MUTLOG", LOG), "a") as f:
            f.write(json.dumps(rec) + "\n")
        open("/tmp/mut_last.txt", "w").write(out)


main()
