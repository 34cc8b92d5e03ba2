#!/usr/bin/env python3
"""Mutation tester.  Usage: mutate.py MUTATIONS.json OUT.jsonl

Works in a scratch copy (/tmp/mutw/lean) of a compiled snapshot (/tmp/mutw/base).  For each mutation the model is edited and the project
rebuilt; every declaration whose proof breaks has its proof replaced by `sorry` (scratch copy only) and the build is
repeated until it goes through.  The property theorems which then depend on `sorryAx` are the ones that
failed.  Entries of MUTATIONS.json: {"file","definition","old","new","edit","claim"}.
"""
import json, re, subprocess, sys, pathlib, shutil
ROOT = pathlib.Path("/verif")
BASE = pathlib.Path("/tmp/mutw/base")  # snapshot of /verif/lean, compiled
W = pathlib.Path("/tmp/mutw/lean")
DECL = re.compile(r"^(?:@\[[^\]]*\]\s*)?(?:private |protected |noncomputable |scoped |local )*(theorem|lemma|example|def|instance|structure|abbrev)\b\s*([^\s:({\[]*)")

def sync():
    subprocess.run(["rm", "-rf", str(W)], check=True)
    subprocess.run(["cp", "-a", str(BASE), str(W)], check=True)

def build():
    r = subprocess.run(["taskset", "-c", "0-2", "lake", "build"], cwd=W, capture_output=True, text=True)
    return r.returncode, r.stdout + r.stderr

def decl_of(lines, ln):
    """index of the start line of the declaration containing line number ln (1-based)"""
    i = min(ln - 1, len(lines) - 1)
    if re.match(r"/--|set_option|open .* in$", lines[i]):
        while i < len(lines) - 1 and not DECL.match(lines[i]): i += 1
    while i >= 0 and not DECL.match(lines[i]): i -= 1
    return i

def sorry_out(path, ln):
    lines = path.read_text().splitlines()
    i = decl_of(lines, ln)
    if i < 0: return None
    m = DECL.match(lines[i])
    j = i + 1
    while j < len(lines) and (lines[j].startswith(" ") or lines[j] == ""): j += 1
    while lines[j - 1] == "": j -= 1
    body = "\n".join(lines[i:j])
    if body.startswith("example :="):
        while i > 0 and lines[i - 1].endswith("-/") and "/--" in lines[i - 1]: i -= 1
        del lines[i:j]
        path.write_text("\n".join(lines) + "\n")
        return (m.group(1), m.group(2))
    if "sorry" in body: return ("stuck", m.group(2))
    depth, k = 0, None
    quoted = False
    for p, c in enumerate(body):
        if c == '"': quoted = not quoted
        if quoted: continue
        if c in "([{⟨": depth += 1
        elif c in ")]}⟩": depth -= 1
        elif depth == 0 and body.startswith(":=", p) and not body[:p].split("\n")[-1].lstrip().startswith("let "): k = p; break
        elif depth == 0 and m.group(1) == "theorem" and body.startswith(" where\n", p): k = p + 1; break
        elif depth == 0 and c == "|" and body[p-1] == " " and body[p+1] == " " and body[:p].rstrip(" ").endswith("\n") : k = p; break
    if k is None: return ("noproof", m.group(2))
    lines[i:j] = (body[:k] + ":= by sorry").split("\n")
    path.write_text("\n".join(lines) + "\n")
    return (m.group(1), m.group(2))

def run(mu):
    sync()
    f = W / "Verif" / mu["file"]
    s = f.read_text()
    n = s.count(mu["old"])
    if n == 0: return {"error": "old text not found"}
    s = s.replace(mu["old"], mu["new"]) if mu.get("all") else s.replace(mu["old"], mu["new"], 1)
    f.write_text(s)
    direct = []
    for it in range(40):
        rc, out = build()
        if rc == 0: break
        errs = sorted(set((m.group(1), int(m.group(2))) for m in re.finditer(r"error: (Verif/\S+\.lean):(\d+):\d+", out)), reverse=True)
        if not errs: return {"error": out[-2000:]}
        seen = set()
        for (p, ln) in errs:
            lines = (W / p).read_text().splitlines()
            i = decl_of(lines, ln)
            if (p, i) in seen: continue
            seen.add((p, i))
        for (p, i) in sorted(seen, reverse=True):
            r = sorry_out(W / p, i + 1)
            if r is None or r[0] in ("stuck", "noproof"):
                msg = [l for l in out.splitlines() if l.startswith("error") and p in l][:3]
                return {"error": f"cannot sorry out {p}:{i+1} {r} {msg}", "direct": direct}
            if "/Model/" in p: return {"error": f"model does not compile: {p}:{i+1}", "direct": direct}
            direct.append(r[1] or f"example@{p}")
    else:
        return {"error": "no fixpoint", "direct": direct}
    mf = BASE / "MANIFEST.json"  # the manifest of the snapshot, if it was copied along
    man = json.loads((mf if mf.exists() else ROOT / "MANIFEST.json").read_text())
    names = [t for c in man["claims"] for t in c["theorems"]]
    chk = "import Verif\nimport Lean.Util.CollectAxioms\nopen Lean\nrun_cmd do\n  for n in [" + ", ".join("`" + n for n in names) + "] do\n    let ax ← Lean.Elab.Command.liftCoreM (Lean.collectAxioms n)\n    if ax.contains ``sorryAx then Lean.logInfo m!\"FAILED {n}\"\n"
    (W / "Check.lean").write_text(chk)
    r = subprocess.run(["lake", "env", "lean", "Check.lean"], cwd=W, capture_output=True, text=True)
    failed = re.findall(r"FAILED (\S+)", r.stdout)
    (W / "Check.lean").unlink()
    if r.returncode != 0: return {"error": r.stdout[-1500:], "direct": direct}
    return {"failed": [x.split(".")[-1] for x in failed], "direct": direct}

def main():
    mus = json.loads(pathlib.Path(sys.argv[1]).read_text())
    out = pathlib.Path(sys.argv[2])
    done = set()
    if out.exists():
        done = {json.loads(l)["id"] for l in out.read_text().splitlines()}
    for mu in mus:
        if mu["id"] in done: continue
        r = run(mu)
        with out.open("a") as fh: fh.write(json.dumps({**mu, **r}) + "\n")
        print(mu["id"], mu["edit"], "->", r.get("error") or (len(r["failed"]), r["failed"]), flush=True)
main()
