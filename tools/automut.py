"""Seed faults by rule: automut.py <seed> <per-definition> <out.jsonl> [file-regex].

For each definition of the model, picks edits at random (a flipped condition, a wrong boundary, a swapped constant, a changed
text), rebuilds a scratch copy without the concrete examples and counterexamples, and reports the theorems that fail.  A build
is stopped soon after the first failure.

automut.py <mutants.json> - <out.jsonl> does the same for edits from a list."""
import json, os, pathlib, random, re, signal, subprocess, sys, time

SRC = pathlib.Path("/verif/lean")
DST = pathlib.Path(os.environ.get("MUT_DIR", "/tmp/am/lean"))
GRACE = 15

def quotes(line):
    return re.sub(r"\\.|'\"'", "", line).count('"') % 2 == 1

STOP = r"(theorem|def|end|namespace|abbrev|/-|open|mutual|structure|inductive|instance|example)"

def strip(text):
    """Without examples, counterexamples and the namespaces that hold them."""
    lines = text.split("\n")
    out, i, ns = [], 0, None
    odd = False
    def dropdoc():
        if out and out[-1].rstrip().endswith("-/"):
            j = len(out) - 1
            while not out[j].startswith("/-"):
                j -= 1
            if out[j].startswith("/--"):
                del out[j:]
    skip = False
    for line in lines:
        if odd:
            odd ^= quotes(line)
            if not skip and ns is None:
                out.append(line)
            continue
        m = re.match(r"namespace (\w*Example\w*)$", line)
        if ns is None and m:
            ns = m.group(1)
        if ns is not None:
            odd ^= quotes(line)
            if line == "end " + ns:
                ns = None
            continue
        if re.match(r"example\b", line) or re.match(r"theorem \S*_violation\b", line):
            skip = True
            dropdoc()
            odd ^= quotes(line)
            continue
        if skip:
            if line == "" or re.match(STOP, line):
                skip = False
            else:
                odd ^= quotes(line)
                continue
        if not line.lstrip().startswith("--"):
            odd ^= quotes(line) if "/-" not in line and "-/" not in line and ":=" in line + ":=" else False
        out.append(line)
        odd = False if "/-" in line or "-/" in line else odd
    return "\n".join(out)

def strip_concrete(text, used):
    """Without theorems about the toy loader that nothing else uses."""
    parts = re.split(r"(?m)^(?=(?:/--|theorem |def |end |namespace |abbrev |/-!|open |mutual|structure |inductive |instance |private |variable))", text)
    out = []
    for x in parts:
        m = re.match(r"theorem (\S+)", x)
        if m and "Toy." in x and used[m.group(1)] <= 1:
            if out and out[-1].startswith("/--"):
                out.pop()
            continue
        out.append(x)
    return "".join(out)

def decl_at(text, line):
    lines = text.split("\n")
    for i in range(min(line, len(lines)) - 1, -1, -1):
        m = re.match(r"(?:@\[.*\]\s*)?(?:private )?(theorem|def|example|instance|abbrev|structure|inductive|mutual|lemma)\s*([^\s:({\[]*)", lines[i])
        if m:
            return m.group(1) + " " + m.group(2)
    return "?"

RULES = [
    (r"\bif (?!let\b)([^\n]*?) then", lambda m: "if ¬ (" + m.group(1) + ") then"),
    (r" && ", lambda m: " || "), (r" \|\| ", lambda m: " && "),
    (r" ∧ ", lambda m: " ∨ "), (r" ∨ ", lambda m: " ∧ "),
    (r" < ", lambda m: " ≤ "), (r" ≤ ", lambda m: " < "), (r" > ", lambda m: " ≥ "), (r" ≥ ", lambda m: " > "),
    (r" = (?!>)", lambda m: " ≠ "), (r" ≠ ", lambda m: " = "), (r" == ", lambda m: " != "), (r" != ", lambda m: " == "),
    (r" \+ 1\b", lambda m: " + 2"), (r" - 1\b", lambda m: " - 2"),
    (r"\btrue\b", lambda m: "false"), (r"\bfalse\b", lambda m: "true"),
    (r"\.any\b", lambda m: ".all"), (r"\.all\b", lambda m: ".any"),
    (r"\btakeWhile\b", lambda m: "dropWhile"), (r"\bdropWhile\b", lambda m: "takeWhile"),
    (r"§\"((?:[^\"\\]|\\.)+)\"", lambda m: "§\"" + m.group(1) + "_\""),
    (r"§\"((?:[^\"\\]|\\.)+)\"", lambda m: "§\"\""),
    (r"\bhead\?", lambda m: "getLast?"), (r"\bgetLast\?", lambda m: "head?"),
    (r"\[\]", lambda m: "[default]"),
    (r"\.none\b", lambda m: ".sentinel"),
    (r"(\.exit )(\d+)", lambda m: m.group(1) + str(int(m.group(2)) + 1)),
    (r"(ExitCode)\.(\w+)", lambda m: "ExitCode.success" if m.group(2) != "success" else "ExitCode.parseException"),
    (r"\b([a-z]\w*) \+\+ ([a-z]\w*)\b", lambda m: m.group(2) + " ++ " + m.group(1)),
    (r"\b([a-z]\w*) \+\+ ", lambda m: ""),
    (r"\.(keyError|valueError|typeError|indexError|fetchError|attributeError)\b", lambda m: ".runtimeError" if False else (".valueError" if m.group(1) != "valueError" else ".keyError")),
    (r"\b0\b", lambda m: "1"), (r"\b1\b", lambda m: "0"), (r"\b2\b", lambda m: "3"),
    (r"!(\w)", lambda m: m.group(1)),
    (r"\.v0\b", lambda m: ".v1"), (r"\.v1\b", lambda m: ".v0"),
    (r"\.reverse\b", lambda m: ""),
    (r"\.drop 1\b", lambda m: ".drop 2"), (r"\.filter\b", lambda m: ".partition' "),
    (r"'(.)'", lambda m: "'" + ("x" if m.group(1) != "x" else "y") + "'"),
]

def defs(text):
    """(name, start, end, doc) of each definition."""
    ms = list(re.finditer(r"^(?:private )?(?:def|abbrev)\s+(\S+)", text, re.M))
    tops = [m.start() for m in re.finditer(r"^(?:/-|private |def |abbrev |structure |inductive |instance |end |theorem |mutual|namespace |deriving |open |section )", text, re.M)]
    for m in ms:
        end = min([t for t in tops if t > m.start()] or [len(text)])
        j = text.rfind("/--", 0, m.start())
        doc = " ".join(text[j + 3:text.find("-/", j)].split()) if j >= 0 and "\ndef" not in text[j:m.start()] else ""
        yield m.group(1), m.start(), end, doc

def mutants(text, s, e):
    body = text[s:e]
    k = body.find(":=")
    bar = re.search(r"\n\s*\|", body)
    if bar and (k < 0 or bar.start() < k):
        k = bar.start()
    if k < 0:
        return
    for rx, f in RULES:
        for m in re.finditer(rx, body):
            if m.start() < k:
                continue
            line = body[body.rfind("\n", 0, m.start()) + 1:]
            if line.lstrip().startswith("--"):
                continue
            new = f(m)
            if new == m.group(0):
                continue
            yield s + m.start(), m.group(0), new

def run(target, timeout, grace=None):
    p = subprocess.Popen(["bash", "-c", "exec lake build --no-ansi %s 2>&1" % target], cwd=DST, stdout=subprocess.PIPE, text=True,
                         start_new_session=True)
    t0, first, log = time.time(), None, []
    os.set_blocking(p.stdout.fileno(), False)
    buf = ""
    while True:
        try:
            c = p.stdout.read()
        except Exception:
            c = None
        if c:
            buf += c
            if first is None and re.search(r"error: Verif/", buf):
                first = time.time()
        if p.poll() is not None:
            c = p.stdout.read()
            buf += c or ""
            return p.returncode, buf
        now = time.time()
        if now - t0 > timeout or (grace is not None and first and now - first > grace):
            os.killpg(p.pid, signal.SIGKILL)
            p.wait()
            return (1 if first else -1), buf
        time.sleep(0.3)

def main():
    given = json.load(open(sys.argv[1])) if sys.argv[1].endswith(".json") else None
    seed, per, outp = (0, 1, sys.argv[3]) if given is not None else (int(sys.argv[1]), int(sys.argv[2]), sys.argv[3])
    frx = sys.argv[4] if len(sys.argv) > 4 else "."
    rnd = random.Random(seed)
    DST.mkdir(parents=True, exist_ok=True)
    for f in ["lakefile.toml", "lean-toolchain", "lake-manifest.json"]:
        if (SRC / f).exists():
            t = (SRC / f).read_text()
            if f == "lakefile.toml" and "moreLeanArgs" not in t:
                t += 'moreLeanArgs = ["-M", "6000"]\n'
            (DST / f).write_text(t)
    want = {}
    for p in [SRC / "Verif.lean"] + sorted((SRC / "Verif").rglob("*.lean")):
        want[p.relative_to(SRC)] = strip(p.read_text())
    import collections
    used = collections.Counter(w for t in want.values() for w in re.findall(r"[\w.']+", t))
    for rel in want:
        if rel.as_posix().startswith("Verif/Props/"):
            want[rel] = strip_concrete(want[rel], used)
    for rel, t in want.items():
        q = DST / rel
        q.parent.mkdir(parents=True, exist_ok=True)
        if not q.exists() or q.read_text() != t:
            q.write_text(t)
    rc, log = run("", 3600)
    if rc != 0:
        print(log[-6000:])
        sys.exit("baseline does not build")
    if seed < 0:
        return
    build, kept = DST / ".lake/build", DST / ".lake/kept"
    def restore(src, dst):
        subprocess.run(["rm", "-rf", str(dst)], check=True)
        subprocess.run(["cp", "-a", str(src), str(dst)], check=True)
    restore(build, kept)
    out = open(outp, "a")
    def attempt(rel, text, mut):
        """The theorems that fail, or none if the model itself does not compile."""
        (DST / rel).write_text(mut)
        rc, log = run(rel.as_posix()[:-5].replace("/", "."), 300)
        if rc == 0:
            rc, log = run("", 2400, GRACE)
            failed = []
            for x in re.finditer(r"error: (Verif/[^:]*\.lean):(\d+):", log):
                p = pathlib.Path(x.group(1))
                d = decl_at(mut if p == rel else want[p], int(x.group(2)))
                e2 = p.as_posix()[6:] + "#" + d
                if e2 not in failed:
                    failed.append(e2)
        else:
            failed = None
        (DST / rel).write_text(text)
        restore(kept, build)
        return rc, failed
    for m in given or []:
        rel = pathlib.Path("Verif/Model") / m["file"]
        text = want[rel]
        if text.count(m["old"]) != m.get("count", 1):
            r = {"rc": 1, "failed": ["(the text to replace occurs %d times)" % text.count(m["old"])]}
        else:
            rc, failed = attempt(rel, text, text.replace(m["old"], m["new"]))
            r = {"rc": rc, "failed": ["(the model does not compile)"] if failed is None else failed}
        out.write(json.dumps({**m, **r}, ensure_ascii=False) + "\n")
        out.flush()
    if given is not None:
        return
    todo = []
    for rel in sorted(r for r in want if r.as_posix().startswith("Verif/Model/") and re.search(frx, r.name)):
        text = want[rel]
        for name, s, e, doc in defs(text):
            ms = list(mutants(text, s, e))
            rnd.shuffle(ms)
            todo.append((rel, name, doc, ms))
    rnd.shuffle(todo)
    # Definitions that were never edited come first.
    log = SRC.parent / "seeded/LOG.jsonl"
    seen = log.read_text() if log.exists() else ""
    todo.sort(key=lambda x: re.search(r"\b%s\b" % re.escape(x[1]), seen) is not None)
    for rel, name, doc, ms in todo:
        text, n = want[rel], 0
        for pos, old, new in ms[:6 * per]:
            if n >= per:
                break
            rc, failed = attempt(rel, text, text[:pos] + new + text[pos + len(old):])
            if failed is None:
                continue
            n += 1
            a = text.rfind("\n", 0, pos) + 1
            b = text.find("\n", pos)
            out.write(json.dumps({"file": rel.name, "definition": name, "old": text[a:b], "new": text[a:pos] + new + text[pos + len(old):b],
                                  "claim": doc, "rc": rc, "failed": failed}, ensure_ascii=False) + "\n")
            out.flush()

main()
