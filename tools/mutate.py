#!/usr/bin/env python3
"""Test the theorems against wrong programs.

mutate.py FILE.json [--log]: every entry {"file", "def", "old", "new", "claim", ["tightened"]} is applied to a scratch copy
of lean/, the copy is rebuilt, and the declarations that no longer check are reported (and appended to seeded/LOG.jsonl)."""
import json, os, re, shutil, subprocess, sys
root = os.path.dirname(os.path.dirname(os.path.abspath(__file__)))
scratch = "/tmp/mut/lean"

def decl_at(path, line):
    name = "?"
    for i, l in enumerate(open(path), 1):
        if i > line:
            break
        m = re.match(r"\s*(?:@\[[^\]]*\]\s*)?(?:private |protected |noncomputable )?(theorem|def|instance|example|abbrev|lemma)\s*(\S*)", l)
        if m:
            name = m.group(2) if m.group(1) in ("theorem", "def", "lemma", "abbrev") else "%s at line %d" % (m.group(1), i)
    return name

DECL = re.compile(r"^\s*(?:@\[[^\]]*\]\s*)?(?:private |protected |noncomputable )?(theorem|def|lemma)\s+(\S+)", re.M)

def dependents(failed):
    """Property theorems (named C<number>...) whose proof text reaches a failed declaration."""
    files, imports, decls = {}, {}, []
    for d, _, fs in os.walk(scratch + "/Verif"):
        for f in fs:
            if f.endswith(".lean"):
                path = os.path.join(d, f)
                mod = path[len(scratch) + 1:-5].replace("/", ".")
                t = open(path).read()
                imports[mod] = set(re.findall(r"^import (Verif\S*)", t, re.M))
                ms = list(DECL.finditer(t))
                for k, m in enumerate(ms):
                    decls.append((mod, m.group(2), t[m.start():ms[k + 1].start() if k + 1 < len(ms) else len(t)]))
    def reach(m, seen):
        for i in imports.get(m, ()):
            if i not in seen:
                seen.add(i); reach(i, seen)
        return seen
    up = {m: reach(m, {m}) for m in imports}
    bad = {tuple(n.split(":", 1)) for n in failed}
    bad = {("Verif." + a, b) for a, b in bad}
    todo = list(bad)
    while todo:
        m, n = todo.pop()
        if " at line " in n:
            continue
        pat = re.compile(r"(?<![\w'])" + re.escape(n.split(".")[-1]) + r"(?![\w'])")
        for (dm, dn, body) in decls:
            if (dm, dn) not in bad and m in up[dm] and pat.search(body):
                bad.add((dm, dn)); todo.append((dm, dn))
    return sorted({n for _, n in bad if re.match(r"C\d\d", n)})

def run(e):
    if not os.path.isdir(scratch):
        os.makedirs("/tmp/mut", exist_ok=True)
        shutil.copytree(root + "/lean", scratch)
    subprocess.run(["rsync", "-a", "--delete", "--exclude", ".lake", root + "/lean/", scratch + "/"], check=True) if shutil.which("rsync") else sync()
    p = scratch + "/" + e["file"]
    s = open(p).read()
    if s.count(e["old"]) < 1:
        print("NOT FOUND", e["def"], repr(e["old"])); return None
    if s.count(e["old"]) > 1 and "def" in e:
        i = s.index(e["anchor"]) if "anchor" in e else 0
        j = s.index(e["old"], i)
        s = s[:j] + e["new"] + s[j + len(e["old"]):]
    else:
        s = s.replace(e["old"], e["new"])
    open(p, "w").write(s)
    r = subprocess.run(["lake", "build"], cwd=scratch, capture_output=True, text=True)
    failed = []
    for m in re.finditer(r"error: (Verif/\S+?\.lean):(\d+):\d+", r.stdout + r.stderr):
        n = decl_at(scratch + "/" + m.group(1), int(m.group(2)))
        n = m.group(1)[6:-5].replace("/", ".") + ":" + n
        if n not in failed:
            failed.append(n)
    notbuilt = sorted(set(re.findall(r"^- (Verif\S*)", r.stdout + r.stderr, re.M)))
    return failed, notbuilt, r.returncode

def sync():
    for d, _, fs in os.walk(root + "/lean"):
        if ".lake" in d:
            continue
        for f in fs:
            src = os.path.join(d, f); dst = scratch + src[len(root + "/lean"):]
            os.makedirs(os.path.dirname(dst), exist_ok=True)
            if not os.path.exists(dst) or open(src, "rb").read() != open(dst, "rb").read():
                shutil.copy(src, dst)

entries = json.load(open(sys.argv[1]))
for e in entries:
    res = run(e)
    if res is None:
        continue
    failed, notbuilt, rc = res
    mod = e["file"][6:-5].replace("/", ".") + ":"
    own = [n[len(mod):] for n in failed if n.startswith(mod)]
    text = open(scratch + "/" + e["file"]).read()
    if any(re.search(r"(def|abbrev|instance|structure|inductive)\s+" + re.escape(n) + r"(?![\w'])", text) for n in own):
        print("DOES NOT COMPILE", e["def"], "|", e["claim"], "|", ", ".join(own)); continue
    props = dependents(failed)
    print(("KILLED " if rc else "SURVIVED ") + e["def"], "|", e["claim"], "|", ", ".join(failed[:6]), "|", ", ".join(props[:8]))
    if "--log" in sys.argv:
        with open(root + "/seeded/LOG.jsonl", "a") as f:
            f.write(json.dumps({"definition": e["def"], "edit": "%s: `%s` -> `%s`" % (e["file"], e["old"], e["new"]), "breaks": e["claim"],
                "failed": failed, "failed_properties": props, "tightened": e.get("tightened", [])}, ensure_ascii=False) + "\n")
