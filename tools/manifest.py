#!/usr/bin/env python3
"""Regenerate MANIFEST.json: collects the theorems `Cnn_...` of lean/Verif/Props and adds status and note."""
import glob, json, os, re
root = os.path.dirname(os.path.dirname(os.path.abspath(__file__)))
STATUS = json.load(open(os.path.join(root, "tools", "status.json")))
thms = {}
for f in sorted(glob.glob(os.path.join(root, "lean/Verif/Props/*.lean"))):
    ns = ""
    for m in re.finditer(r"^namespace (\S+)|^end (\S+)|^theorem ((?:\w+\.)*)(C\d\d+)_(\S+)", open(f).read(), re.M):
        if m.group(1): ns = (ns + "." if ns else "") + m.group(1)
        elif m.group(2):
            if ns == m.group(2) or ns.endswith("." + m.group(2)): ns = ns[:-len(m.group(2))].rstrip(".")
        else: thms.setdefault(m.group(4), []).append(f"{ns}.{m.group(3)}{m.group(4)}_{m.group(5)}")
claims = []
for pid in sorted(set(thms) | set(STATUS), key=lambda x: int(x[1:])):
    st = STATUS.get(pid)
    assert st, f"no status for {pid}"
    claims.append({"property": pid, "status": st[0], "theorems": thms.get(pid, []), "note": st[1]})
ids = [json.loads(l)["id"] for l in open(os.path.join(root, "properties.jsonl"))]
for c in claims: assert c["property"] in ids, c["property"]
print("not claimed:", [i for i in ids if i not in {c["property"] for c in claims}])
with open(os.path.join(root, "MANIFEST.json"), "w") as f:
    f.write('{"claims": [\n' + ",\n".join(json.dumps(c, ensure_ascii=False) for c in claims) + "\n]}\n")
