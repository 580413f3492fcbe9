"""Appends the generated tables to DESIGN.md (everything after the marker)."""
import re, glob, json, subprocess, os
ROOT = "/verif"
MARK = "<!-- generated -->"
src = open(f"{ROOT}/DESIGN.md").read().split(MARK)[0].rstrip() + "\n\n" + MARK + "\n"
out = [src, "\n## Definitions of the model and the code they cite\n"]
for f in sorted(glob.glob(f"{ROOT}/lean/Verif/Model/*.lean")):
    t = open(f).read()
    rows = []
    for m in re.finditer(r"/--(.*?)-/\s*(?:@\[[^\]]*\]\s*)?(?:open [^\n]* in\s*)?(?:noncomputable |private |protected )*(def|structure|inductive|abbrev|class)\s+(\S+)", t, re.S):
        cites = re.findall(r"`((?:nannos/)?[\w/]+\.py(?::[\d, -]+)?)`", m.group(1))
        rows.append((m.group(3), ", ".join(dict.fromkeys(cites))))
    out.append(f"\n`Model/{os.path.basename(f)}`: " + "; ".join(f"{n}" + (f" ({c})" if c else "") for n, c in rows) + "\n")
claims = json.load(open(f"{ROOT}/MANIFEST.json"))["claims"]
names = [t for c in claims for t in c["theorems"]]
open("/tmp/Ax.lean", "w").write("import Verif\n" + "".join(f"#print axioms {n}\n" for n in names))
o = subprocess.run(["lake", "env", "lean", "/tmp/Ax.lean"], cwd=f"{ROOT}/lean", capture_output=True, text=True).stdout
ax = {}
for m in re.finditer(r"'([^']+)' (?:depends on axioms: \[([^\]]*)\]|does not depend on any axioms)", o):
    ax.setdefault(frozenset(a.strip() for a in (m.group(2) or "").split(",") if a.strip()), []).append(m.group(1))
out.append("\n## Axioms of the property theorems (`#print axioms`)\n")
for k, v in sorted(ax.items(), key=lambda kv: len(kv[0])):
    out.append(f"\n* {', '.join(sorted(k)) or 'none'}: " + ", ".join(sorted(x.replace('Nannos.', '') for x in set(v))) + "\n")
missing = [n for n in names if not any(n in v for v in ax.values())]
assert not missing, missing
open(f"{ROOT}/DESIGN.md", "w").write("".join(out))
