"""Writes DESIGN.md: tools/design_head.md, one section per property, and the axioms of every claimed theorem."""
import json, os, re, subprocess, tempfile
root = os.path.dirname(os.path.dirname(os.path.abspath(__file__)))
props = [json.loads(l) for l in open(root + "/properties.jsonl")]
manifest = {c["property"]: c for c in json.load(open(root + "/MANIFEST.json"))["claims"]}
how = {}
for line in open(root + "/tools/design_how.txt"):
    k, _, v = line.strip().partition(": ")
    if v:
        how[k] = v
names = sorted({t for c in manifest.values() for t in c["theorems"]})
src = "import Verif\n" + "".join(f"#print axioms {n}\n" for n in names)
with tempfile.NamedTemporaryFile("w", suffix=".lean", delete=False) as f:
    f.write(src)
out = subprocess.run(["lake", "env", "lean", f.name], cwd=root + "/lean", capture_output=True, text=True).stdout
axioms = {}
for m in re.finditer(r"'([^']+(?:'[^' ]*)*)' (depends on axioms: \[([^\]]*)\]|does not depend on any axioms)", out):
    axioms[m.group(1)] = ", ".join(sorted(re.split(r",\s*", m.group(3).strip()))) if m.group(3) else "none"
missing = [n for n in names if n not in axioms]
assert not missing, (missing, out[:500])
res = [open(root + "/tools/design_head.md").read().rstrip(), "", "## Properties", ""]
for p in props:
    c = manifest.get(p["id"])
    res.append(f"### {p['id']} {p['title']}")
    res.append("")
    res.append(p["statement"])
    res.append("")
    if p["id"] in how:
        res.append("* Model and proof: " + how[p["id"]])
    if c:
        res.append(f"* Status: {c['status']}. {c['note']}".rstrip())
        res.append("* Theorems: " + ", ".join("`" + t.removeprefix("Fp.") + "`" for t in c["theorems"]))
    else:
        res.append("* Status: not proved yet.")
    res.append("")
res += ["## Axioms", "", "As printed by `#print axioms` for every claimed theorem.", ""]
groups = {}
for n in names:
    groups.setdefault(axioms[n], []).append(n.removeprefix("Fp."))
for k in sorted(groups):
    res += [f"* {k}: " + ", ".join(groups[k]), ""]
open(root + "/DESIGN.md", "w").write("\n".join(res).rstrip() + "\n")
missing_how = [p["id"] for p in props if p["id"] not in how]
print("no model note:", *missing_how)
