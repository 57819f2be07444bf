"""Append mutation results to seeded/LOG.jsonl: log.py <out.jsonl> [tightened.json].

tightened.json maps a definition to the theorems that were added or tightened after its mutant survived."""
import json, pathlib, sys

LOG = pathlib.Path(__file__).resolve().parent.parent / "seeded" / "LOG.jsonl"
tight = json.load(open(sys.argv[2])) if len(sys.argv) > 2 else {}
with LOG.open("a") as f:
    for line in open(sys.argv[1]):
        d = json.loads(line)
        survived = d["rc"] == 0
        failed = [x if not x.startswith("(build failed)") else "(the prover ran out of memory on the proofs of "
                  + x.split("- ")[-1].split("\\n")[0].split("\n")[0] + ")" for x in d["failed"] or []]
        f.write(json.dumps({
            "definition": d["definition"], "file": d["file"],
            "edit": {"old": d["old"], "new": d["new"]}, "claim": d["claim"],
            "theorems_failed": failed, "survived": survived,
            "theorems_tightened": tight.get(d["definition"], []) if survived else [],
            **({"note": d["note"]} if "note" in d else {})}, ensure_ascii=False) + "\n")
