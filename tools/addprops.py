"""Insert prop(...) lines (stdin) before the output section of gen_properties.py."""
import pathlib, sys
p = pathlib.Path(__file__).resolve().parent / "gen_properties.py"
s = p.read_text()
i = s.index("\nout = pathlib")
p.write_text(s[:i] + sys.stdin.read() + s[i:])
