# Moves `private` helper declarations of a Props file into a Lemmas file.
# usage: split_private.py Props/X.lean Lemmas/Y.lean
import sys,re
src,dst=sys.argv[1],sys.argv[2]
s=open(src).read()
blocks=s.split("\n\n")
keep,moved=[],[]
for b in blocks:
    first=[l for l in b.strip().split("\n")]
    body=re.sub(r"^/--.*?-/\s*","",b.strip(),flags=re.S)
    if body.startswith("private ") or body.startswith("mutual\nprivate "):
        moved.append(b.replace("private theorem","theorem").replace("private def","def").replace("private noncomputable def","noncomputable def").replace("private structure","structure"))
    else: keep.append(b)
imports=[l for l in s.split("\n") if l.startswith("import ")]
mod=dst.replace("Verif/","").replace("/",".").replace(".lean","")
opens=[l for l in s.split("\n") if l.startswith("open ") or l.startswith("namespace ")]
head="\n".join(imports)+"\n\n/-! Helper lemmas for `"+src+"`. -/\n"+"\n".join(opens)
open(dst,"w").write(head+"\n\n"+"\n\n".join(m.strip("\n") for m in moved)+"\n\nend Fp\n")
new="\n\n".join(keep)
for l in imports: new=new.replace(l+"\n","",1)
new="import Verif."+mod+"\n"+new
open(src,"w").write(new)
