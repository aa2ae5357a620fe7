#!/usr/bin/env python3
"""Prints the token table of a language header as Lean list entries.

usage: gen_tokens.py HEADER MACRO
The entries of MACRO are F(id, code, highlight, ...); further columns are ignored.
"""
import re, sys

header, macro = sys.argv[1:3]
text = open(header).read()
start = text.index("#define " + macro)
body = text[start:]
end = re.search(r"[^\\]\n", body).end()
body = body[:end]
for m in re.finditer(r'F\(\s*(\w+),\s*"((?:[^"\\]|\\.)*)",\s*(\w+)', body):
    name, code, ty = m.groups()
    print(f'  (b!"{code}", .{ty}),')
