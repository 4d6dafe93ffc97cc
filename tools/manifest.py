"""Regenerate MANIFEST.json from the theorem names in lean/Verif/Props and notes.json."""
import json, pathlib, re
root = pathlib.Path(__file__).parent.parent
props = [json.loads(l)["id"] for l in (root / "properties.jsonl").read_text().splitlines() if l.strip()]
notes = json.loads((root / "tools/notes.json").read_text())
thms = {p: [] for p in props}
for f in sorted((root / "lean/Verif/Props").glob("*.lean")):
    ns = []
    for line in f.read_text().splitlines():
        if m := re.match(r"namespace (\S+)", line):
            ns.append(m[1])
        elif m := re.match(r"end (\S+)", line):
            if ns and ns[-1] == m[1]:
                ns.pop()
        elif m := re.match(r"(?:private |protected )?theorem ((C\d\d\d?)_\S+)", line):
            thms[m[2]].append(".".join([*ns, m[1]]))
claims = []
for p in props:
    n = notes.get(p, {})
    if n.get("status") == "not_applicable":
        claims.append({"property": p, "status": "not_applicable", "theorems": [], "note": n["note"]})
        continue
    if not thms[p]:
        continue
    part = any(t.endswith("_partial") for t in thms[p])
    claims.append({"property": p, "status": n.get("status", "partial" if part else "proved"),
                   "theorems": thms[p], "note": n.get("note", "")})
(root / "MANIFEST.json").write_text(json.dumps({"claims": claims}, indent=1, ensure_ascii=False) + "\n")
print(len(claims), "claims of", len(props))
