#!/usr/bin/env python3
"""Writes COVERAGE.md: every function of /repo/PyEMD with the model definitions that cite its lines."""
import ast
import glob
import os
import re

ROOT = os.path.dirname(os.path.dirname(os.path.abspath(__file__)))
REPO = "/repo"

NOTES = {
    "__call__": "delegates to the main method with the same arguments",
    "__getstate__": "part of the assumption on `multiprocessing.Pool`: a worker gets a copy of the attributes (without the pool)",
    "show": "not modelled (opens a window)",
}

CITE = re.compile(r"/repo/(\S+?\.py):(\d+(?:-\d+)?(?:(?:,\s*|, and | and )\d+(?:-\d+)?)*)")
DEF = re.compile(r"(?:@\[[^\]]*\]\s*)?(?:def|abbrev|structure|inductive|instance|class)\s+([^\s:({\[]+)")


def citations():
    """(file, first, last, definition) for every cited range; a module comment is attributed to the module."""
    out = []
    for path in sorted(glob.glob(ROOT + "/lean/Verif/Model/*.lean")):
        text = open(path).read()
        module = os.path.basename(path)[:-5]
        for com in re.finditer(r"/-[-!].*?-/", text, re.S):
            spaces = []
            for m in re.finditer(r"^(namespace|section|end)\b *(\S*)", text[:com.start()], re.M):
                if m.group(1) == "end":
                    spaces.pop()
                else:
                    spaces.append(m.group(2) if m.group(1) == "namespace" else "")
            d = DEF.match(text[com.end():].lstrip()) if com.group(0).startswith("/--") else None
            name = ".".join([x for x in spaces if x] + [d.group(1)])[len("PyEMD."):] if d else module + " (module comment)"
            for c in CITE.finditer(com.group(0)):
                for r in re.findall(r"\d+(?:-\d+)?", c.group(2)):
                    a, *b = r.split("-")
                    out.append((c.group(1), int(a), int(b[0]) if b else int(a), name))
    return out


def functions(path):
    tree = ast.parse(open(path).read())
    for node in tree.body:
        if isinstance(node, ast.FunctionDef):
            yield node.name, node
        elif isinstance(node, ast.ClassDef):
            for sub in node.body:
                if isinstance(sub, ast.FunctionDef):
                    yield node.name + "." + sub.name, sub


def main():
    cites = citations()
    lines = ["# Functions of PyEMD and the definitions that model them", "",
             "Generated by `tools/coverage.py` from the citations in `lean/Verif/Model`. Names are relative to the namespace `PyEMD`.",
             "Not listed: tests, examples, `__main__` demos.", ""]
    total = cited = 0
    for path in sorted(glob.glob(REPO + "/PyEMD/**/*.py", recursive=True)):
        rel = path[len(REPO) + 1:]
        if "test" in rel:
            continue
        rows = []
        for name, node in functions(path):
            first = min([node.lineno] + [d.lineno for d in node.decorator_list])
            names = []
            for f, a, b, d in cites:
                if f == rel and a <= node.end_lineno and b >= first and d not in names:
                    if a >= first - 3 and b <= node.end_lineno + 1:
                        names.append(d)
            total += 1
            if names:
                cited += 1
                what = ", ".join("`%s`" % n for n in names)
            else:
                what = "*" + NOTES.get(name.split(".")[-1], "not modelled") + "*"
            rows.append("| `%s` | %d-%d | %s |" % (name, first, node.end_lineno, what))
        if rows:
            lines += ["## " + rel, "", "| function | lines | model |", "|---|---|---|"] + rows + [""]
    lines += ["%d functions, %d of them cited." % (total, cited)]
    open(ROOT + "/COVERAGE.md", "w").write("\n".join(lines) + "\n")
    print(total, cited)


main()
