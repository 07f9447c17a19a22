"""Generates MANIFEST.json from the list below and the theorem names in lean/Verif/Props.

usage: python3 tools/manifest.py > MANIFEST.json

A theorem belongs to property Cnn when its name starts with `Cnn_`.
"""
import json, pathlib, re

root = pathlib.Path(__file__).resolve().parent.parent
STATUS = {}
NOTE = {}
exec((root / "tools" / "status.py").read_text())

thms = {}
for f in sorted((root / "lean/Verif/Props").glob("*.lean")):
    ns = []
    for line in f.read_text().splitlines():
        m = re.match(r"namespace (\S+)", line)
        if m:
            ns.append(m.group(1))
        m = re.match(r"end (\S+)", line)
        if m and ns and ns[-1] == m.group(1):
            ns.pop()
        m = re.match(r"(?:private )?theorem (C\d\d)_(\S+)", line)
        if m:
            thms.setdefault(m.group(1), []).append(
                ".".join(ns) + "." + m.group(1) + "_" + m.group(2))

claims = []
for line in (root / "properties.jsonl").read_text().splitlines():
    pid = json.loads(line)["id"]
    if pid in STATUS:
        claims.append({"property": pid, "status": STATUS[pid],
                       "theorems": thms.get(pid, []), "note": NOTE.get(pid, "")})
print(json.dumps({"claims": claims}, indent=1))
