#!/usr/bin/env python3
"""Regenerate MANIFEST.json and lean/Verif/Audit.lean from the theorem names in lean/Verif/Props.

A theorem named Cnn_* belongs to property Cnn.  A property is "partial" when one of its theorems
carries the suffix _partial, and "proved" otherwise.  Notes come from tools/notes.json.
"""
import json, pathlib, re
root = pathlib.Path(__file__).resolve().parent.parent
props = [json.loads(l)["id"] for l in (root / "properties.jsonl").read_text().splitlines() if l.strip()]
notes = json.loads((root / "tools/notes.json").read_text())
names = {p: [] for p in props}
files = sorted((root / "lean/Verif/Props").glob("*.lean"))
for f in files:
    ns = "Verif"
    for m in re.finditer(r"^(?:protected )?theorem\s+(C(\d\d+)_\S+)", f.read_text(), re.M):
        names["C" + m.group(2)].append(f"{ns}.{m.group(1)}")
claims = []
for p in props:
    ths = names[p]
    if not ths:
        continue
    part = any(t.endswith("_partial") for t in ths)
    claims.append({"property": p, "status": "partial" if part else "proved",
                   "theorems": ths, "note": notes.get(p, "")})
(root / "MANIFEST.json").write_text(json.dumps({"claims": claims}, indent=1) + "\n")
out = ["".join(f"import Verif.Props.{f.stem}\n" for f in files),
       "/-!\n# Axioms of the claimed theorems\n\nGenerated by tools/gen_manifest.py.  The build log shows the axioms of every theorem named in\nMANIFEST.json; only `propext`, `Classical.choice` and `Quot.sound` may occur.\n-/\n"]
for c in claims:
    out += [f"#print axioms {t}\n" for t in c["theorems"]]
(root / "lean/Verif/Audit.lean").write_text("".join(out))
missing = [p for p in props if not names[p]]
print("claims", len(claims), "theorems", sum(len(c["theorems"]) for c in claims), "missing", missing)
