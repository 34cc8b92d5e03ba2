#!/usr/bin/env python3
"""Regenerate MANIFEST.json, lean/Verif.lean and the table of DESIGN.md from the theorem names `cNN_*` in lean/Verif/Props and tools/notes.json."""
import json, re, pathlib
root = pathlib.Path(__file__).resolve().parent.parent
notes = json.loads((root / "tools/notes.json").read_text())
thms = {}
for f in sorted((root / "lean/Verif/Props").glob("*.lean")):
    ns = []
    for line in f.read_text().splitlines():
        m = re.match(r"namespace (\S+)", line)
        if m: ns.append(m.group(1))
        m = re.match(r"end (\S+)", line)
        if m and ns and ns[-1] == m.group(1): ns.pop()
        m = re.match(r"(?:noncomputable )?theorem (c(\d\d\d?)_\S+)", line)
        if m: thms.setdefault("C" + m.group(2), []).append(".".join(ns + [m.group(1)]))
claims = []
for l in (root / "properties.jsonl").read_text().splitlines():
    pid = json.loads(l)["id"]
    n = notes.get(pid, {})
    t = thms.get(pid, [])
    status = n.get("status") or ("proved" if t else "not_applicable")
    if status == "proved" and any(x.endswith("_partial") for x in t): status = "partial"
    claims.append({"property": pid, "status": status, "theorems": t,
                   "note": (n["scope"] + ": " + n["note"]) if "note" in n else ("" if t else "not yet proved")})
(root / "MANIFEST.json").write_text(json.dumps({"claims": claims}, indent=1) + "\n")
imports = sorted(str(p.relative_to(root / "lean").with_suffix("")).replace("/", ".")
                 for p in (root / "lean/Verif").rglob("*.lean"))
(root / "lean/Verif.lean").write_text("".join(f"import {i}\n" for i in imports))
where = {}
for f in sorted((root / "lean/Verif/Props").glob("*.lean")):
    for m in re.finditer(r"^theorem c(\d\d\d?)_", f.read_text(), re.M): where.setdefault("C" + m.group(1), set()).add(f.stem)
rows = ["| id | property | scope | module | proof |", "|----|----|----|----|----|"]
for l in (root / "properties.jsonl").read_text().splitlines():
    p = json.loads(l); n = notes.get(p["id"], {})
    rows.append(f"| {p['id']} | {p['title']} | {n.get('scope','')} | {', '.join(sorted(where.get(p['id'], [])))} | {n.get('note','')} |")
d = root / "DESIGN.md"
d.write_text(re.sub(r"<!-- rows -->.*<!-- /rows -->", lambda _: "<!-- rows -->\n" + "\n".join(rows) + "\n<!-- /rows -->", d.read_text(), flags=re.S))
print({c["property"]: (c["status"], len(c["theorems"])) for c in claims})
