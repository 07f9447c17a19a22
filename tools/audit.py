"""Generates lean/Verif/Audit.lean: #print axioms for every property theorem."""
import json, pathlib
root = pathlib.Path(__file__).resolve().parent.parent
m = json.loads((root / "MANIFEST.json").read_text())
props = sorted((root / "lean/Verif/Props").glob("*.lean"))
out = ["import Verif.Props." + p.stem for p in props]
out += ["", "/-! Axioms of every property theorem (generated by tools/audit.py). The build log must show",
        "only `propext`, `Classical.choice`, `Quot.sound`. -/", ""]
for c in m["claims"]:
    for t in c["theorems"]:
        out.append("#print axioms " + t)
(root / "lean/Verif/Audit.lean").write_text("\n".join(out) + "\n")
