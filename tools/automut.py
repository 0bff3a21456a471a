#!/usr/bin/env python3
"""Systematic wrong programs: apply every small edit (operators, boundaries, constants, dropped updates, swapped outcomes) to the
definitions of the model files, rebuild a scratch copy, and report the edits under which everything still checks.

automut.py list FILE...            count the edits per file
automut.py run SCRATCH OUT FILE[:DEF,DEF...]... append one JSON line per edit to OUT (resumes if OUT exists)"""
import json, os, re, shutil, signal, subprocess, sys
root = os.path.dirname(os.path.dirname(os.path.abspath(__file__)))

RULES = [
    (r" < ", [" ≤ "]), (r" ≤ ", [" < "]), (r" > ", [" ≥ "]), (r" ≥ ", [" > "]),
    (r" = (?!>)", [" ≠ "]), (r" ≠ ", [" = "]), (r" == ", [" != "]), (r" != ", [" == "]),
    (r" \+ 1\b", [""]), (r" - 1\b", [""]), (r" \+ (?!1\b)", [" - "]), (r" - (?!1\b)", [" + "]),
    (r" \* ", [" + "]), (r" / ", [" * "]), (r" % ", [" / "]),
    (r" && ", [" || "]), (r" \|\| ", [" && "]), (r" ∧ ", [" ∨ "]), (r" ∨ ", [" ∧ "]),
    (r"\btrue\b", ["false"]), (r"\bfalse\b", ["true"]),
    (r"(?<![\w.^])0(?![\w.])", ["1"]), (r"(?<![\w.^])1(?![\w.])", ["0", "2"]), (r"(?<![\w.^])([2-9]|[1-9]\d+)(?![\w.])", ["INC"]),
    (r"\.ub\b", []), (r"\bnone\b", []),
    (r"\bif ", ["IFNEG"]), (r"\.take\b", [".drop"]), (r"\.drop\b", [".take"]), (r" \+\+ ", []),
]

def defs(text):
    """(start, end) of the bodies of definitions, comments blanked"""
    blank = re.sub(r"/-.*?-/", lambda m: re.sub(r"[^\n]", " ", m.group(0)), text, flags=re.S)
    blank = re.sub(r"--[^\n]*", lambda m: " " * len(m.group(0)), blank)
    heads = list(re.finditer(r"^(?:@\[[^\]]*\]\s*)?(?:private |protected |noncomputable )?(theorem|lemma|def|abbrev|instance|structure|inductive|example|namespace|end|open|section|variable|deriving|mutual|class|set_option)\b\s*(\S*)", blank, re.M))
    for k, m in enumerate(heads):
        if m.group(1) == "def":
            e = heads[k + 1].start() if k + 1 < len(heads) else len(blank)
            body = blank[m.start():e]
            j = re.search(r":=|\n\s*\|", body)
            if j:
                yield m.group(2), m.start() + j.start() + (2 if body[j.start()] == ":" else 0), e, blank

def mutants(text):
    out = []
    for name, s, e, blank in defs(text):
        body = blank[s:e]
        for pat, news in RULES:
            for m in re.finditer(pat, body):
                for new in news:
                    if new == "INC":
                        new = str(int(m.group(0)) + 1)
                    if new == "IFNEG":
                        t = re.search(r"\bthen\b", body[m.end():])
                        if not t:
                            continue
                        cond = body[m.end():m.end() + t.start()].strip()
                        if re.match(r"\w+ : |let ", cond):
                            continue
                        out.append((name, s + m.start(), s + m.end() + t.start(), "if ¬(" + cond + ") "))
                        continue
                    out.append((name, s + m.start(), s + m.end(), new))
        # dropped updates
        for m in re.finditer(r"\bwith ([^{}\n]*)\}", body):
            parts = re.split(r", (?=\w+ := )", m.group(1).strip())
            for k in range(len(parts)):
                rest = parts[:k] + parts[k + 1:]
                if rest:
                    out.append((name, s + m.start(), s + m.end(), "with " + ", ".join(rest) + " }"))
                else:
                    f = parts[k].split(" := ")[0].strip()
                    b = body.rfind("{", 0, m.start())
                    base = body[b + 1:m.start()].strip()
                    if "." not in f:
                        out.append((name, s + m.start(), s + m.end(), "with " + f + " := (" + base + ")." + f + " }"))
        # swapped arguments: f a b -> f b a for simple identifiers
        for m in re.finditer(r"(?<![\w.])([a-z]\w*(?:\.\w+)*) ([a-z]\w*(?:\.\w+)*) ([a-z]\w*(?:\.\w+)*)(?![\w.])", body):
            ws = m.groups()
            kw = {"if", "then", "else", "let", "match", "with", "fun", "do", "in", "for", "from", "by", "have", "return", "forall"}
            if ws[1] != ws[2] and not kw & set(ws):
                out.append((name, s + m.start(), s + m.end(), "%s %s %s" % (ws[0], ws[2], ws[1])))
    seen, res = set(), []
    for name, a, b, new in out:
        if (a, b, new) not in seen:
            seen.add((a, b, new)); res.append((name, a, b, new))
    return res

DECLK = re.compile(r"^\s*(?:@\[[^\]]*\]\s*)?(?:private |protected |noncomputable )?(theorem|def|instance|example|abbrev|lemma|structure|inductive)\s*(\S*)")
def decl_at(path, line):
    kind = name = "?"
    for i, l in enumerate(open(path), 1):
        if i > line:
            break
        m = DECLK.match(l)
        if m:
            kind, name = m.group(1), m.group(2)
    return kind, name

def run(scratch, out, files):
    if not os.path.isdir(scratch):
        shutil.copytree(root + "/lean", scratch, symlinks=True)
    done = set()
    if os.path.exists(out):
        for l in open(out):
            d = json.loads(l); done.add((d["file"], d["old"], d["new"], d["pos"]))
    for f in files:
        f, _, only = f.partition(":")
        p = scratch + "/" + f
        text = open(root + "/lean/" + f).read()
        for name, a, b, new in mutants(text):
            ln = text.count("\n", 0, a) + 1
            key = (f, text[a:b], new, a)
            if key in done or (only and name not in only.split(",")):
                continue
            open(p, "w").write(text[:a] + new + text[b:])
            pr = subprocess.Popen(["timeout", "900", "lake", "build"], cwd=scratch, stdout=subprocess.PIPE, stderr=subprocess.STDOUT, text=True, start_new_session=True)
            verdict, where = "SURVIVED", ""
            for l in pr.stdout:
                m = re.match(r"error: (Verif/\S+?\.lean):(\d+):\d+", l)
                if m:
                    kind, n = decl_at(scratch + "/" + m.group(1), int(m.group(2)))
                    where = m.group(1)[6:-5] + ":" + n
                    verdict = "INVALID" if m.group(1) == f and kind in ("def", "structure", "inductive", "abbrev", "instance") else "KILLED"
                    break
            if where:
                os.killpg(pr.pid, signal.SIGTERM)
            rc = pr.wait()
            if not where and rc != 0:
                verdict = "TIMEOUT"
            line = text[text.rfind("\n", 0, a) + 1:text.find("\n", b)]
            with open(out, "a") as o:
                o.write(json.dumps({"file": f, "def": name, "pos": a, "lineno": ln, "line": line.strip(), "old": text[a:b], "new": new, "verdict": verdict, "where": where}, ensure_ascii=False) + "\n")
        open(p, "w").write(text)

if sys.argv[1] == "list":
    tot = 0
    for f in sys.argv[2:]:
        n = len(mutants(open(root + "/lean/" + f).read())); tot += n
        print(n, f)
    print(tot)
else:
    run(sys.argv[2], sys.argv[3], sys.argv[4:])
