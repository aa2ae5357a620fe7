#!/usr/bin/env python3
"""Prints the Lean form of a `switch (str[0])` whose cases return token types.

usage: gen_symbols.py HEADER MACRO SOURCE FIRST-LINE LAST-LINE

Each case is `case u8'c': return COND ? id : ... ;` where COND is `str.starts_with(u8"...")`.
"""
import re, sys

header, macro, source, first, last = sys.argv[1:6]
text = open(header, encoding="utf-8").read()
body = text[text.index("#define " + macro):]
lines = []
for line in body.split("\n"):
    lines.append(line.rstrip().rstrip("\\"))
    if not line.rstrip().endswith("\\"):
        break
codes = {}
for m in re.finditer(r'F\(\s*(\w+),\s*"((?:\\.|[^"\\])*)"', " ".join(lines)):
    codes[m.group(1)] = m.group(2)
src = "\n".join(open(source, encoding="utf-8").read().split("\n")[int(first) - 1:int(last)])
src = re.sub(r"//[^\n\"]*\n", "\n", src)
out = []
pending = []
for m in re.finditer(r"case u8'((?:\\.|[^'\\])+)':|return ([^;]*);|default:", src):
    if m.group(1) is not None:
        pending.append(m.group(1))
    elif m.group(2) is not None and pending:
        expr = " ".join(m.group(2).split())
        conds = re.findall(r'starts_with\(u8"((?:\\.|[^"\\])*)"\) \? (?:Token_Type::)?(\w+|\{\}|std::nullopt)', expr)
        tail = re.split(r":(?!:)", re.sub(r'"(?:\\.|[^"\\])*"', '""', expr))[-1].strip().replace("Token_Type::", "")
        def val(i):
            return f'some b!"{codes[i]}"' if i in codes else "none"
        e = "".join(f'if startsWith s b!"{c}" then {val(i)} else ' for c, i in conds) + val(tail)
        cond = " ∨ ".join('c = c!"' + {"\\'": "'", '"': '\\"'}.get(p, p) + '"' for p in pending)
        out.append(f"{cond} then {e}")
        pending = []
for i, o in enumerate(out):
    o = "    " + ("else " if i else "") + "if " + o
    while len(o) > 105 or o:
        if len(o) <= 105:
            print(o)
            break
        cut = o.rfind(" else ", 0, 104)
        print(o[:cut])
        o = "      " + o[cut + 1:]
print("    else none")
