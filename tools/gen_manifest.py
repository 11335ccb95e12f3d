# Generates /verif/MANIFEST.json.  claim(property, status, theorems, note)
import json, pathlib
C = []
def claim(p, status, theorems, note=""):
    C.append(dict(property=p, status=status, theorems=["Fp."+t for t in theorems.split()], note=note))

exec((pathlib.Path(__file__).parent/"claims.py").read_text())
props=[json.loads(l)["id"] for l in (pathlib.Path(__file__).parent.parent/"properties.jsonl").read_text().splitlines()]
have={c["property"] for c in C}
missing=[p for p in props if p not in have]
if missing: print("no claim yet:", *missing)
order={p:i for i,p in enumerate(props)}
C.sort(key=lambda c: order[c["property"]])
(pathlib.Path(__file__).parent.parent/"MANIFEST.json").write_text(json.dumps({"claims":C},indent=1)+"\n")
