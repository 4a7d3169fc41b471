#!/usr/bin/env python3
"""Regenerate MANIFEST.json from the theorem names (prefix = property id) and tools/claims.json (status, note)."""
import json, re, pathlib
root = pathlib.Path(__file__).resolve().parent.parent
thms = {}
for f in sorted((root / "lean/Verif").rglob("*.lean")):
    for m in re.finditer(r"^theorem (C\d\d+)_(\S+)", f.read_text(), re.M):
        thms.setdefault(m.group(1), []).append("FinML.%s_%s" % (m.group(1), m.group(2)))
claims = json.loads((root / "tools/claims.json").read_text())
props = [json.loads(l) for l in (root / "properties.jsonl").read_text().splitlines() if l.strip()]
out = []
for p in props:
    c = claims.get(p["id"])
    if c is None:
        if p["id"] in thms: print("no claim entry for", p["id"])
        continue
    out.append({"property": p["id"], "status": c["status"], "theorems": thms.get(p["id"], []) + c.get("extra", []), "note": c["note"]})
(root / "MANIFEST.json").write_text(json.dumps({"claims": out}, indent=1, ensure_ascii=False) + "\n")
mods = sorted(str(f.relative_to(root / "lean"))[:-5].replace("/", ".") for f in (root / "lean/Verif").rglob("*.lean"))
(root / "lean/Verif.lean").write_text("".join("import %s\n" % m for m in mods))
missing = [p["id"] for p in props if p["id"] not in claims]
print(len(out), "claims; no claim yet:", missing)
