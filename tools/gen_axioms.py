"""Writes AXIOMS.md: the output of `#print axioms` for every theorem named in MANIFEST.json.
Run after `lake build` in lean/ and after tools/gen_manifest.py."""
import json, os, re, subprocess, tempfile

ROOT = os.path.dirname(os.path.dirname(os.path.abspath(__file__)))
claims = json.load(open(os.path.join(ROOT, "MANIFEST.json")))["claims"]
names = []
for c in claims:
    for t in c["theorems"]:
        if t not in names:
            names.append(t)
with tempfile.NamedTemporaryFile("w", suffix=".lean", delete=False) as f:
    f.write("import Verif\n" + "".join(f"#print axioms {n}\n" for n in names))
out = subprocess.run(["lake", "env", "lean", f.name], cwd=os.path.join(ROOT, "lean"),
                     capture_output=True, text=True).stdout
os.unlink(f.name)
ax = {}
for m in re.finditer(r"'([^']+(?:'[^' ]*)?)' (does not depend on any axioms|depends on axioms:\s*\[([^\]]*)\])", out):
    ax[m.group(1)] = "none" if m.group(3) is None else ", ".join(m.group(3).replace("\n", " ").split(", "))
missing = [n for n in names if n not in ax]
assert not missing, (missing[:5], out[:500])
allowed = {"propext", "Classical.choice", "Quot.sound"}
for n in names:
    used = set() if ax[n] == "none" else set(x.strip() for x in ax[n].split(","))
    assert used <= allowed, (n, used)
with open(os.path.join(ROOT, "AXIOMS.md"), "w") as g:
    g.write("# Axioms used by each property theorem\n\n"
            "Generated by `tools/gen_axioms.py` from `#print axioms`.\n\n| theorem | axioms |\n|---|---|\n")
    for n in names:
        g.write(f"| `{n}` | {ax[n]} |\n")
print(len(names))
