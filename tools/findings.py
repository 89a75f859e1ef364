"""Rewrites the section "Findings" of DESIGN.md from the doc comments of the theorems Cnn_…_violated and Cnn_…_ub."""
import glob, os, re
root = os.path.dirname(os.path.dirname(os.path.abspath(__file__)))
found = []
for f in sorted(glob.glob(f"{root}/lean/Verif/Props/*.lean")):
    s = open(f).read()
    for m in re.finditer(r"/--((?:(?!-/).)*)-/\s*(?:omit[^\n]*in\s*)?theorem\s+(C(\d+)\w*(?:_violated|_ub)\w*)", s, re.S):
        if m.group(2) == "C31_no_ub":
            continue
        text = re.sub(r"^\*\*(.*?)\*\*", r"\1", " ".join(m.group(1).split()))
        found.append((int(m.group(3)), m.group(2), os.path.basename(f), text))
found.sort()
head = "## Findings\n"
design = open(f"{root}/DESIGN.md").read()
design = design[:design.index(head)] + head + "\n" + \
    "Places where the code does not satisfy the property, each a theorem with a witness or for every object described.\n\n" + \
    "".join(f"* `{n}` ({f}): {t}\n" for _, n, f, t in found)
open(f"{root}/DESIGN.md", "w").write(design)
