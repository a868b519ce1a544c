"""Apply one edit at a time to a scratch copy of lean/ and record which theorems stop compiling.

usage: mutate.py BATCH.json
BATCH is a list of {"file", "definition", "old", "new", "claim"[, "tightened"]}.
One line per edit is appended to seeded/LOG.jsonl.  Modules whose compilation was stopped without an error in a
declaration (memory, threads) are listed as "not_built": they say nothing about the theorems in them.
"""
import json, os, re, resource, shutil, subprocess, sys

ROOT = os.path.dirname(os.path.dirname(os.path.abspath(__file__)))
BASE = "/tmp/mut/base"
SCRATCH = "/tmp/mut/lean"
LOG = os.path.join(ROOT, "seeded", "LOG.jsonl")
DECL = re.compile(r"^\s*(?:@\[[^\]]*\]\s*)?(?:private\s+|protected\s+|omit .* in\s+)*(theorem|lemma|def|abbrev|structure|inductive|instance|example)\b\s*([^\s:({\[]*)")


def enclosing(path, line):
    lines = open(path).read().split("\n")
    for i in range(min(line, len(lines)) - 1, -1, -1):
        m = DECL.match(lines[i])
        if m:
            return m.group(1) + (" " + m.group(2) if m.group(2) else ""), i + 1
    return "?", 0


def copy(src, dst):
    shutil.rmtree(dst, ignore_errors=True)
    os.makedirs(os.path.dirname(dst), exist_ok=True)
    subprocess.run(["cp", "-a", src, dst], check=True)


def limit():
    resource.setrlimit(resource.RLIMIT_AS, (64 << 30, 64 << 30))
    with open("/proc/self/oom_score_adj", "w") as f:
        f.write("1000")


def main():
    batch = json.load(open(sys.argv[1]))
    copy(os.path.join(ROOT, "lean"), BASE)
    for m in batch:
        copy(BASE, SCRATCH)
        path = os.path.join(SCRATCH, m["file"])
        src = open(path).read()
        if src.count(m["old"]) != 1:
            print("SKIP (occurrences %d): %s" % (src.count(m["old"]), m["definition"]), flush=True)
            continue
        open(path, "w").write(src.replace(m["old"], m["new"]))
        r = subprocess.run(["lake", "build"] + m.get("targets", []), cwd=SCRATCH, capture_output=True, text=True, preexec_fn=limit)
        out = r.stdout + r.stderr
        open("/tmp/mut/last.out", "w").write(out)
        failed, stopped = [], []
        for f, ln in re.findall(r"error: (Verif[^:]*\.lean):(\d+):\d+", out):
            name, at = enclosing(os.path.join(SCRATCH, f), int(ln))
            kind = name.split()[0]
            label = name.split()[-1] if " " in name else "example at %s:%d" % (f, at)
            if kind == "def":
                label = "def " + label
            if label not in failed:
                failed.append(label)
        for mod in re.findall(r"^- (Verif\S*)$", out, re.M):
            if "error: " + mod.replace(".", "/") + ".lean" not in out:
                stopped.append(mod)
        if r.returncode != 0 and not failed:
            print("INCONCLUSIVE, not recorded: " + m["definition"] + " " + out[-300:], flush=True)
            continue
        rec = {"definition": m["definition"], "edit": m["old"].strip() + "  ==>  " + m["new"].strip(),
               "claim": m["claim"], "failed": failed, "tightened": m.get("tightened", [])}
        if stopped:
            rec["not_built"] = stopped
        with open(LOG, "a") as f:
            f.write(json.dumps(rec, ensure_ascii=False) + "\n")
        print(("SURVIVED " if not failed else "caught   ") + m["definition"] + " :: " + ", ".join(failed)[:200], flush=True)


main()
