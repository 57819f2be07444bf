"""Set the manifest status and note of a property: note.py C05 proved "text"."""
import json, pathlib, sys
p = pathlib.Path(__file__).resolve().parent / "notes.json"
d = json.loads(p.read_text())
d[sys.argv[1]] = [sys.argv[2], sys.argv[3] if len(sys.argv) > 3 else ""]
p.write_text("{\n" + ",\n".join(f"{json.dumps(k)}: {json.dumps(d[k])}" for k in sorted(d)) + "\n}\n")
