"""Shared parts of the seeded-bug tools."""
import os, re, signal, subprocess


def load_deps():
    deps, mod = {}, {}
    for line in open("/tmp/deps.txt"):
        head, _, used = line.partition(" : ")
        m, n = head.split(" ", 1)
        deps[n] = set(used.split())
        mod[n] = m
    return deps, mod


def closure(deps):
    """property theorem -> all project declarations it uses"""
    res = {}
    for n in deps:
        if re.search(r"(^|\.)C\d\d\d?_\w+$", n):
            seen, todo = set(), [n]
            while todo:
                x = todo.pop()
                if x in seen:
                    continue
                seen.add(x)
                todo.extend(deps.get(x, ()))
            res[n] = seen
    return res


def depends(clos, mod, name, path):
    """property theorems that use the declaration `name` of the file `path` (names repeat across files)"""
    m = path[path.index("Verif/"):-len(".lean")].replace("/", ".")
    full = {n for n in mod if mod[n] == m and (n == name or n.endswith("." + name))}
    return {thm.split(".")[-1] for thm, used in clos.items() if full & used}


def decl_at(path, line):
    """name of the declaration enclosing the line"""
    lines = open(path).read().split("\n")
    last_thm = None
    for i in range(min(line, len(lines)) - 1, -1, -1):
        m = re.match(r"\s*(?:@\[[^\]]*\]\s*)?(?:private |protected |noncomputable )*(theorem|lemma|def|abbrev|instance|example|structure|inductive)\b\s*(\S+)?", lines[i])
        if m:
            if m.group(1) == "example":
                for j in range(i - 1, -1, -1):
                    m2 = re.match(r"\s*theorem\s+(\S+)", lines[j])
                    if m2:
                        return "example after " + m2.group(1)
                return "example"
            return m.group(2) or m.group(1)
    return "?"


def is_start(line):
    return re.match(r"(theorem|lemma|def|abbrev|instance|example|structure|inductive|/--|section|end\b|namespace|variable|open|@\[)", line)


def stub(path, line):
    """replace the proof of the theorem or example enclosing the line; False if it is not one"""
    lines = open(path).read().split("\n")
    i = min(line, len(lines)) - 1
    while i >= 0 and not re.match(r"\s*(?:@\[[^\]]*\]\s*)?(?:private |protected |noncomputable )*(theorem|lemma|def|abbrev|instance|example|structure|inductive)\b", lines[i]):
        i -= 1
    if i < 0 or not re.match(r"\s*(?:@\[[^\]]*\]\s*)?(?:private |protected )*(theorem|lemma|example)\b", lines[i]):
        return False
    j = i + 1
    while j < len(lines) and not is_start(lines[j]):
        j += 1
    if lines[i].startswith("example"):
        # with its doc comment, which would otherwise be an error of its own
        k = i - 1
        if k >= 0 and lines[k].rstrip().endswith("-/"):
            while k >= 0 and not lines[k].startswith("/-"):
                k -= 1
            if k >= 0 and lines[k].startswith("/--"):
                i = k
        lines[i:j] = [""] * (j - i)
    else:
        body = "\n".join(lines[i:j])
        m = re.search(r":= by\b|:=\s*\n", body) or re.search(r"(?<!\w ):= (?!\w+\))", body)
        k = m.start() if m else body.rindex(":=")
        new = (body[:k] + ":= by sorry").split("\n")
        new += [""] * ((j - i) - len(new))
        lines[i:j] = new
    open(path, "w").write("\n".join(lines))
    return True


def locations(out):
    return sorted({(m.group(1), int(m.group(2))) for m in re.finditer(r"error: (Verif/\S+\.lean):(\d+):\d+", out)})


def build_until_error(dst, _pat=None):
    """`lake build`, stopped at the first error"""
    p = subprocess.Popen(["lake", "build"], cwd=dst, stdout=subprocess.PIPE, stderr=subprocess.STDOUT, text=True, start_new_session=True)
    out = ""
    for line in p.stdout:
        out += line
        if re.match(r"error: Verif/", line) and "counterexample" not in line:
            # let the rest of this module's messages through, then stop
            for _, l2 in zip(range(200), p.stdout):
                out += l2
                if l2.startswith("error: Lean exited") or l2.startswith("✖") or l2.startswith("✔"):
                    break
            os.killpg(p.pid, signal.SIGKILL)
            break
    p.wait()
    return out
