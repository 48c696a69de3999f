"""Regenerate MANIFEST.json and lean/Verif.lean from the theorem names in lean/Verif/Props.

Usage: python3 tools/manifest.py   (from /verif)
"""
import glob, json, os, re

root = os.path.dirname(os.path.dirname(os.path.abspath(__file__)))
os.chdir(root)
notes = json.load(open("tools/notes.json"))
thms = {}
for f in sorted(glob.glob("lean/Verif/Props/*.lean")):
    space = []
    for line in open(f):
        if m := re.match(r"namespace (\S+)", line):
            space.append(m.group(1))
        elif (m := re.match(r"end (\S+)", line)) and space and space[-1] == m.group(1):
            space.pop()
        elif m := re.match(r"(?:noncomputable )?theorem (C\d+)(\w*)", line):
            thms.setdefault(m.group(1), []).append(".".join(space + [m.group(1) + m.group(2)]))
claims = []
for line in open("properties.jsonl"):
    pid = json.loads(line)["id"]
    if pid not in thms and pid not in notes:
        continue
    n = notes.get(pid, {})
    names = thms.get(pid, []) + n.get("extra", [])
    status = n.get("status", "proved")
    claims.append({"property": pid, "status": status, "theorems": names, "note": n.get("note", "")})
json.dump({"claims": claims}, open("MANIFEST.json", "w"), indent=1, ensure_ascii=False)
mods = sorted(p[len("lean/"):-len(".lean")].replace("/", ".")
              for p in glob.glob("lean/Verif/**/*.lean", recursive=True))
open("lean/Verif.lean", "w").write("".join(f"import {m}\n" for m in mods))
print(len(claims), "claims,", sum(len(c["theorems"]) for c in claims), "theorems,", len(mods), "modules")
