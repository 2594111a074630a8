#!/usr/bin/env python3
"""Apply one textual mutation to a scratch copy of the Lean project and rebuild.

mutate.py FILE OLD NEW  -> prints failing modules / theorems. The scratch copy lives in
/tmp/mut (a copy of /verif/lean including its build products, so only dependants rebuild)."""
import subprocess, sys, pathlib, re, shutil
import os
src = pathlib.Path(os.environ.get("MUT_SRC", "/verif/lean")); dst = pathlib.Path(os.environ.get("MUT_DST", "/tmp/mut/lean"))
def sync():
    dst.mkdir(parents=True, exist_ok=True)
    subprocess.run(["rsync", "-a", "--delete", f"{src}/", f"{dst}/"], check=True) if shutil.which("rsync") else (
        shutil.rmtree(dst), shutil.copytree(src, dst, symlinks=True))
def run(f, old, new, targets=()):
    p = dst / f; t = p.read_text()
    assert t.count(old) >= 1, f"pattern not found in {f}"
    p.write_text(t.replace(old, new, 1))
    r = subprocess.run(["lake", "build", *targets], cwd=dst, capture_output=True, text=True)
    out = r.stdout + r.stderr
    errs = re.findall(r"error: (Verif/[^:]+):(\d+):\d+", out)
    names = []
    for file, line in errs:
        lines = (dst / file).read_text().splitlines()
        for i in range(int(line) - 1, -1, -1):
            m = re.match(r"(?:@\[[^\]]*\] )?(?:private |protected )?(theorem|lemma|example|def|noncomputable def|instance)\b\s*(\S*)", lines[i])
            if m:
                n = f"{file}:{m.group(2) or m.group(1)}"
                if n not in names: names.append(n)
                break
    print("rc", r.returncode); print("failed:", names)
    if r.returncode and not errs: print(out[-1500:])
    p.write_text(t)
    return r.returncode, names
if __name__ == "__main__":
    sync(); run(*sys.argv[1:4])
