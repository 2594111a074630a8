#!/usr/bin/env python3
"""Systematic mutation of the model: for every definition in lean/Verif/Model generate textual mutants, keep those that
still type-check in their own file, rebuild everything and record whether some theorem fails.

automut.py OUT.jsonl PER_DEF [FILE-REGEX]   (environment: MUT_SRC, MUT_DST as in mutate.py)
Results go to OUT.jsonl, one object per mutant; already recorded (definition, edit) pairs are skipped."""
import json, os, pathlib, random, re, signal, subprocess, sys
sys.path.insert(0, str(pathlib.Path(__file__).resolve().parent))
import mutate

PAIRS = [("x1", "x2"), ("J1", "J2"), ("J", "J'"), ("xLocs", "x"), ("minval", "maxval"), ("divNat", "modNat"),
         ("true", "false"), ("kernel1", "kernel2"), ("k1", "k2"), ("g0", "g1"), ("t0", "t1"), ("d0kj", "d1kj"),
         ("d0k", "d1k"), ("min", "max"), ("valueError", "typeError"), ("runtimeError", "valueError"),
         ("inl", "inr"), ("solveLower", "solve"), ("yd", "yd'"), ("head", "getLast"), ("forward", "backward")]
SUBST = [(r" \+ ", " - ", "+ to -"), (r" - ", " + ", "- to +"), (r" \* ", " + ", "* to +"), (r" / ", " * ", "/ to *"),
         (r"\^ 2\b", "^ 3", "square to cube"), (r"\.transpose\b", "", "drop transpose"), (r"\bif (?!h )(?!let )", "if ¬ ", "negate condition"),
         (r" < ", " ≤ ", "< to ≤"), (r" ≤ ", " < ", "≤ to <"), (r"(?<![\w.^])0(?![\w.])", "1", "0 to 1"),
         (r"(?<![\w.^])1(?![\w.])", "2", "1 to 2"), (r"(?<=\w)\.1\b", ".2", ".1 to .2"), (r"(?<=\w)\.2\b", ".1", ".2 to .1"),
         (r" && ", " || ", "&& to ||"), (r" \+\+ ", " ++ [] ++ ", None), (r"!", "", "drop negation"), (r":= -", ":= ", "drop minus"),
         (r"\.some\b", ".none", "some to none"), (r"\bid\b", "(fun z => z + z)", "identity to doubling"),
         (r"\.rpcRow\b", ".rpcDiag", None), (r"isSome", "isNone", "isSome to isNone"), (r"\.error \.\w+", ".error .keyError", "other exception"),
         (r" ∨ ", " ∧ ", "or to and"), (r" ∧ ", " ∨ ", "and to or"), (r"\(←[^()]*\)", None, None)]

def defs(path):
    s = path.read_text()
    out = []
    for m in re.finditer(r"^(?:@\[[^\]]*\] ?)?(?:noncomputable |private )?def ([\w.']+)", s, re.M):
        nxt = re.search(r"\n\n", s[m.start():])
        end = m.start() + (nxt.start() if nxt else len(s) - m.start())
        out.append((m.group(1), m.start(), end))
    return s, out

def candidates(body):
    i = body.find(":=")
    j = body.find("\n  |")
    k = min(x for x in (i + 2 if i >= 0 else 10**9, j if j >= 0 else 10**9, 10**9))
    if k >= 10**9: return
    head, tail = body[:k], body[k:]
    for a, b in PAIRS:
        ra = r"(?<![\w'])" + re.escape(a) + r"(?![\w'])"; rb = r"(?<![\w'])" + re.escape(b) + r"(?![\w'])"
        if re.search(ra, tail) and re.search(rb, tail):
            t = re.sub(ra, "\0", tail); t = re.sub(rb, a, t).replace("\0", b)
            yield f"swap {a} and {b}", head + t
        elif a not in ("x1", "J1", "J", "xLocs", "yd", "k1", "inl") and re.search(ra, tail):
            yield f"{a} to {b}", head + re.sub(ra, b, tail, count=1)
        elif b not in ("x", "J'", "x2", "J2", "yd'", "k2", "inr") and re.search(rb, tail):
            yield f"{b} to {a}", head + re.sub(rb, a, tail, count=1)
    for pat, rep, name in SUBST:
        if name is None: continue
        for n, m in enumerate(re.finditer(pat, tail)):
            if n >= 3: break
            yield f"{name} (occurrence {n + 1})", head + tail[:m.start()] + rep + tail[m.end():]

KW = {"if", "then", "else", "match", "with", "let", "fun", "do", "some", "pure", "by", "exact", "return", "in", "have", "from", "show", "for"}

def swaps(body):
    """Swap two neighbouring arguments, or change a string literal."""
    k = max(body.find(":=") + 2, 0) or body.find("\n  |")
    if k < 2: return
    head, tail = body[:k], body[k:]
    for m in re.finditer(r"(?<=[ (])([\w.']+) ([\w.']+)(?=[ )\n,⟩]|$)", tail):
        a, b = m.group(1), m.group(2)
        before = tail[:m.start()].rstrip()
        if a in KW or b in KW or a == b or a[0].isdigit() or b[0].isdigit(): continue
        if before.endswith(("(", ":=", "=>", "|", "←", "=", "then", "else", "let", "match")): continue
        yield f"swap the arguments {a} and {b}", head + tail[:m.start()] + f"{b} {a}" + tail[m.end():]
    for m in re.finditer(r'"([^"]+)"', tail):
        yield f'string {m.group(1)} misspelt', head + tail[:m.start()] + f'"{m.group(1)}_"' + tail[m.end():]
    for m in re.finditer(r"(?<=[ (])\.(leaf|node) ", tail): pass

def first_failures():
    """Build, stop at the first module that fails and return the theorems that failed in it (None: all builds)."""
    r = subprocess.Popen(["lake", "build"], cwd=mutate.dst, stdout=subprocess.PIPE, stderr=subprocess.STDOUT, text=True,
                         start_new_session=True)
    errs, seen = [], None
    for line in r.stdout:
        m = re.match(r"error: (Verif/[^:]+):(\d+):\d+", line)
        if m and (seen is None or m.group(1) == seen):
            seen = m.group(1); errs.append((m.group(1), int(m.group(2))))
        elif seen and line.startswith("error: Lean exited"): break
    if seen:
        os.killpg(r.pid, signal.SIGKILL)
    r.wait()
    if not seen: return None if r.returncode == 0 else ["build failed"]
    names = []
    for file, line in errs:
        lines = (mutate.dst / file).read_text().splitlines()
        for i in range(line - 1, -1, -1):
            m = re.match(r"(?:@\[[^\]]*\] )?(?:private |protected )?(theorem|lemma|example|def|noncomputable def|instance)\b\s*(\S*)", lines[i])
            if m:
                n = f"{file.split('/', 1)[1]}:{m.group(2) or m.group(1)}"
                if n not in names: names.append(n)
                break
    return names

def main():
    out = pathlib.Path(sys.argv[1]); per = int(sys.argv[2]); rx = re.compile(sys.argv[3] if len(sys.argv) > 3 else ".")
    done = {}
    if out.exists():
        for l in out.open():
            o = json.loads(l); done.setdefault(o["definition"], []).append(o)
    rng = random.Random(7)
    for f in sorted((mutate.src / "Verif/Model").glob("*.lean")):
        if not rx.search(f.name): continue
        rel = f.relative_to(mutate.src); mod = "Verif.Model." + f.stem
        s, ds = defs(f)
        for name, a, b in ds:
            if name.endswith("Key"): continue  # names of attributes: a consistent renaming
            prev = done.get(name, [])
            good = sum(1 for o in prev if o["result"] != "invalid")
            cs = [c for c in [*candidates(s[a:b]), *swaps(s[a:b])] if c[1] != s[a:b] and c[0] not in {o["edit"] for o in prev}]
            rng.shuffle(cs)
            tried = 0
            for edit, new in cs:
                if good >= per or tried >= 10: break
                tried += 1
                mutate.sync()
                p = mutate.dst / rel
                p.write_text(s[:a] + new + s[b:])
                r = subprocess.run(["lake", "build", mod], cwd=mutate.dst, capture_output=True, text=True)
                rec = {"file": str(rel), "definition": name, "edit": edit, "new": new}
                if r.returncode: rec["result"] = "invalid"
                else:
                    good += 1
                    names = first_failures()
                    rec["result"] = "SURVIVED" if names is None else "caught"; rec["failed"] = names or []
                with out.open("a") as g: g.write(json.dumps(rec, ensure_ascii=False) + "\n")
                print(rec["result"], name, edit, rec.get("failed", ""), flush=True)
main()
