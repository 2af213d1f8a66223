#!/usr/bin/env python3
"""Regenerate lean/Verif.lean and MANIFEST.json.

Theorems are found in lean/Verif/Props by their Cnn_ prefix; statuses and notes
are in tools/notes.json: {"C01": {"status": "proved", "note": "..."}}.
"""
import json, re, pathlib
root = pathlib.Path(__file__).resolve().parent.parent
mods = sorted(str(p.relative_to(root / "lean").with_suffix("")).replace("/", ".")
              for p in (root / "lean/Verif").rglob("*.lean"))
(root / "lean/Verif.lean").write_text("".join(f"import {m}\n" for m in mods))
thms = {}
for p in sorted((root / "lean/Verif/Props").rglob("*.lean")):
    for m in re.finditer(r"^(?:private )?theorem (C(\d\d)_\w+'?)", p.read_text(), re.M):
        thms.setdefault("C" + m.group(2), []).append("MC.Props." + m.group(1))
notes = json.loads((root / "tools/notes.json").read_text())
ids = [json.loads(l)["id"] for l in (root / "properties.jsonl").read_text().splitlines() if l.strip()]
claims = []
for i in ids:
    n = notes.get(i, {})
    t = thms.get(i, [])
    status = n.get("status") or ("partial" if t else "not_applicable")
    if not t and status != "not_applicable":
        continue
    if not t and i not in notes:
        continue
    claims.append({"property": i, "status": status, "theorems": t, "note": n.get("note", "")})
(root / "MANIFEST.json").write_text(json.dumps({"claims": claims}, indent=1) + "\n")
print(len(claims), "claims;", sum(len(c["theorems"]) for c in claims), "theorems; missing:",
      [i for i in ids if i not in [c["property"] for c in claims]])
