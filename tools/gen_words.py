#!/usr/bin/env python3
"""Prints the words of a language, grouped by highlight type, for the specification.

usage: gen_words.py HEADER MACRO [COLUMNS]
The entries of MACRO are F(id, code, highlight, ...).  COLUMNS is the number of columns after the code
that are used for grouping (1 by default: only the highlight type).
"""
import re, sys

header, macro = sys.argv[1:3]
columns = int(sys.argv[3]) if len(sys.argv) > 3 else 1
text = open(header).read()
body = text[text.index("#define " + macro):]
body = body[:re.search(r"[^\\]\n", body).end()]
groups = {}
for m in re.finditer(r'F\(\s*(\w+),\s*"((?:[^"\\]|\\.)*)"((?:,\s*[\w:]+)+)\s*\)', body):
    key = tuple(x.strip() for x in m.group(3).split(",")[1:1 + columns])
    groups.setdefault(key, []).append(m.group(2))
for key in sorted(groups):
    line = ""
    head = ", ".join("." + k for k in key)
    if columns > 1:
        head = f"({head})"
    for w in groups[key] + [None]:
        if w is None or len(head) + len(line) + len(w) > 100:
            print(f'  ({head}, b!"{line}"),')
            line = ""
        if w is not None:
            line = line + " " + w if line else w
