"""Run seeded-bug experiments: mutate.py <mutants.json> <out.jsonl>.

Copies lean/ to a scratch directory without its examples, applies one edit at a time to a model file, rebuilds, and
reports the theorems whose proofs fail."""
import json, pathlib, re, shutil, subprocess, sys, os

SRC = pathlib.Path("/verif/lean")
DST = pathlib.Path(os.environ.get("MUT_DIR", "/tmp/mut/lean"))

def quotes(line):
    return re.sub(r"\\.|'\"'", "", line).count('"') % 2 == 1

def strip_examples(text):
    out, skip, odd = [], False, False
    for line in text.split("\n"):
        if odd:  # inside a string that spans several lines
            odd ^= quotes(line)
            continue
        if line.startswith("example"):
            skip, odd = True, quotes(line)
            if out and out[-1].endswith("-/"):
                i = len(out) - 1
                while not out[i].startswith("/-"):
                    i -= 1
                if out[i].startswith("/--"):
                    del out[i:]
            continue
        if skip:
            if line == "" or re.match(r"(theorem|def|end|namespace|abbrev|/-|open|mutual|structure|inductive|instance)", line):
                skip = False
            else:
                odd = quotes(line)
                continue
        out.append(line)
    return "\n".join(out)

def sync():
    DST.mkdir(parents=True, exist_ok=True)
    for f in ["lakefile.toml", "lean-toolchain", "lake-manifest.json"]:
        if (SRC / f).exists():
            t = (SRC / f).read_text()
            if f == "lakefile.toml" and "moreLeanArgs" not in t:
                t += 'moreLeanArgs = ["-M", "7000"]\n'
            (DST / f).write_text(t)
    want = {}
    for p in [SRC / "Verif.lean"] + sorted((SRC / "Verif").rglob("*.lean")):
        want[p.relative_to(SRC)] = strip_examples(p.read_text())
    for rel, t in want.items():
        q = DST / rel
        q.parent.mkdir(parents=True, exist_ok=True)
        if not q.exists() or q.read_text() != t:
            q.write_text(t)
    return want

def decl_at(text, line):
    lines = text.split("\n")
    for i in range(min(line, len(lines)) - 1, -1, -1):
        m = re.match(r"(?:@\[.*\]\s*)?(?:private )?(theorem|def|example|instance|abbrev|structure|inductive|mutual|lemma)\s*([^\s:({\[]*)", lines[i])
        if m:
            return m.group(1) + " " + m.group(2)
    return "?"

def build(timeout=1500):
    cmd = "exec timeout %d lake build --no-ansi 2>&1" % timeout
    r = subprocess.run(["bash", "-c", cmd], cwd=DST, capture_output=True, text=True)
    return r.returncode, r.stdout

def main():
    muts = json.load(open(sys.argv[1]))
    out = open(sys.argv[2], "a")
    want = sync()
    rc, log = build(3600)
    if rc != 0:
        print(log[-3000:])
        sys.exit("baseline does not build")
    done = set()
    for m in muts:
        rel = pathlib.Path("Verif/Model") / m["file"]
        base = want[rel]
        if base.count(m["old"]) != m.get("count", 1):
            out.write(json.dumps({**m, "error": "old occurs %d times" % base.count(m["old"])}) + "\n"); out.flush()
            continue
        (DST / rel).write_text(base.replace(m["old"], m["new"]))
        rc, log = build()
        (DST / rel).write_text(base)
        failed = []
        for x in re.finditer(r"error: (Verif/[^:]*\.lean):(\d+):", log):
            p = pathlib.Path(x.group(1))
            t = base.replace(m["old"], m["new"]) if p == rel else want[p]
            d = decl_at(t, int(x.group(2)))
            e = p.as_posix()[6:] + "#" + d
            if e not in failed:
                failed.append(e)
        if rc != 0 and not failed:
            failed = ["(build failed) " + log[-300:]]
        out.write(json.dumps({**m, "rc": rc, "failed": failed}) + "\n"); out.flush()

main()
