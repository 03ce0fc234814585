"""Check the citations of /repo in the comments of the model.

A citation is `path:lines` or `path:lines, lines`, maybe followed by other lines of the same file between backquotes.  For each
range: the lines are in the file, and the range does not start or end on a blank line.  If the comment names an identifier between
backquotes just before, then at least one of the ranges has to overlap a definition of this identifier in the file, when there
is one, and otherwise the identifier has to occur in a range or at most eighty lines before.  With --fix, ranges are trimmed.
"""
import os
import re
import sys

ROOT = "/repo"
FIX = "--fix" in sys.argv
files = {}
for d, _, fs in os.walk(ROOT):
    for f in fs:
        files.setdefault(f, []).append(os.path.join(d, f))

cite = re.compile(r"`([\w./-]+\.(?:cc|hh|h|c|json|tcc)):(\d[\d, \-]*)`((?:(?:,| and)\s+`\d[\d, \-]*`)*)")
rng = re.compile(r"(\d+)(?:-(\d+))?")


def candidates(path):
    name = os.path.basename(path)
    return [p for p in files.get(name, []) if p.endswith("/" + path.lstrip("/"))]


def extents(text, ident):
    """The lines of the definitions of an identifier."""
    out = []
    for m in re.finditer(r"\b" + re.escape(ident) + r"\b", text):
        before = text[text.rfind("\n", 0, m.start()) + 1:m.start()]
        if re.search(r"\b(class|struct|enum|namespace)\s+$", before) or re.match(r"\s*\(", text[m.end():m.end() + 4]):
            if "//" in before or "*" in before[:4] or "return" in before or "=" in before:
                continue
            i = m.end()
            depth = 0
            while i < len(text) and not (depth == 0 and text[i] in ";{"):
                if text[i] == "(":
                    depth += 1
                if text[i] == ")":
                    depth -= 1
                    if depth < 0:
                        break
                i += 1
            if i >= len(text) or depth < 0 or text[i] == ";":
                continue
            level = 0
            j = i
            while j < len(text):
                if text[j] == "{":
                    level += 1
                if text[j] == "}":
                    level -= 1
                    if level == 0:
                        break
                j += 1
            out.append((text.count("\n", 0, m.start()) + 1, text.count("\n", 0, j) + 1))
    return out


bad = 0
total = 0
for d, _, fs in os.walk("/verif/lean/Verif"):
    for f in sorted(fs):
        p = os.path.join(d, f)
        s = open(p).read()
        edits = []
        for m in cite.finditer(s):
            total += 1
            line = s.count("\n", 0, m.start()) + 1
            where = f"{os.path.relpath(p, '/verif/lean/Verif')}:{line}"
            cs = candidates(m.group(1))
            if not cs:
                print(where, m.group(0), "no such file")
                bad += 1
                continue
            before = s[max(0, m.start() - 200):m.start()]
            start = max(before.rfind("/--"), before.rfind("-/"))
            before = before[start:] if start >= 0 else before
            ids = [i for i in re.findall(r"`([^`\n]+)`", before) if not re.match(r"[\w./-]+:\d", i) and not i[0].isdigit()]
            ident = None
            if ids:
                w = re.findall(r"[A-Za-z_]\w*", ids[-1].split("(")[0])
                ident = w[-1] if w else None
            results = []
            for c in cs:
                raw = open(c, errors="replace").read()
                text = raw.split("\n")
                ext = extents(raw, ident) if ident else []
                out = []
                fixes = []
                seen = over = False
                pos = m.start(2)
                for r in rng.finditer(s, m.start(2), m.end()):
                    a = int(r.group(1))
                    b = int(r.group(2) or a)
                    if a < 1 or b > len(text) or a > b:
                        out.append(f"{a}-{b} out of the file")
                        continue
                    a2, b2 = a, b
                    while a2 < b and not text[a2 - 1].strip():
                        a2 += 1
                    while b2 > a2 and not text[b2 - 1].strip():
                        b2 -= 1
                    if (a2, b2) != (a, b) or not text[a2 - 1].strip():
                        out.append(f"{a}-{b} has blank ends")
                        fixes.append((r.start(), r.end(), f"{a2}-{b2}" if a2 < b2 else str(a2)))
                    if ident and any(ident in t for t in text[max(0, a - 81):b]):
                        seen = True
                    if any(a <= y + 1 and x - 1 <= b for x, y in ext):
                        over = True
                if ident and ext and not over:
                    out.append(f"{ident} is at {ext}")
                elif ident and not ext and not seen:
                    out.append(f"{ident} not there")
                results.append((out, fixes))
            best = min(results, key=lambda x: len(x[0]))
            if best[0]:
                print(where, m.group(0).replace("\n", " "), "; ".join(best[0]))
                bad += 1
                edits += best[1]
        if FIX and edits:
            for a, b, t in sorted(edits, reverse=True):
                s = s[:a] + t + s[b:]
            open(p, "w").write(s)
print(total, "citations,", bad, "to look at")
