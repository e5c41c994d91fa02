#!/usr/bin/env python3
"""Regenerate MANIFEST.json, lean/Verif.lean and lean/Verif/Axioms.lean from the Props files and tools/claims.json."""
import json, re, pathlib
root = pathlib.Path(__file__).resolve().parent.parent
claims = json.load(open(root / "tools" / "claims.json"))
thms, mods = {}, []
for f in sorted((root / "lean" / "Verif").rglob("*Props*.lean")):
    names, space = [], []
    for m in re.finditer(r"^(namespace|section|end|theorem)\b ?(\S*)", re.sub(r"/-.*?-/", "", f.read_text(), flags=re.S), re.M):
        if m[1] in ("namespace", "section"): space.append(m[2] if m[1] == "namespace" else "")
        elif m[1] == "end": space.pop()
        elif re.match(r"C\d\d+_", m[2]): names.append(".".join([*filter(None, space), m[2]]))
    if names:
        mods.append(".".join(f.relative_to(root / "lean").with_suffix("").parts))
    for n in names:
        thms.setdefault(re.match(r"C\d+", n.split(".")[-1])[0], []).append(n)
out = []
for cid in sorted(set(thms) | set(claims)):
    st, note = claims.get(cid, ["partial", "MISSING NOTE"])
    if cid not in claims: print("no claim entry for", cid)
    if cid not in thms and st != "not_applicable": print("no theorems for", cid)
    out.append({"property": cid, "status": st, "theorems": thms.get(cid, []), "note": note})
(root / "MANIFEST.json").write_text(json.dumps({"claims": out}, indent=1, ensure_ascii=False) + "\n")
ax = "".join(f"import {m}\n" for m in mods) + "\n/-! Axioms used by every property theorem. -/\n\n"
ax += "".join(f"#print axioms {t}\n" for c in sorted(thms) for t in thms[c])
(root / "lean" / "Verif" / "Axioms.lean").write_text(ax)
cases = [".".join(f.relative_to(root / "lean").with_suffix("").parts) for f in sorted((root / "lean" / "Verif").rglob("*Case.lean"))]
(root / "lean" / "Verif.lean").write_text("".join(f"import {m}\n" for m in mods + cases) + "import Verif.Axioms\n")
props = [json.loads(l)["id"] for l in open(root / "properties.jsonl")]
print(len(out), "claims,", sum(map(len, thms.values())), "theorems; properties without claim:", [p for p in props if p not in {o["property"] for o in out}])
