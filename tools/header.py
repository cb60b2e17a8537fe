#!/usr/bin/env python3
"""Writes lean/Verif/Header/Text.lean from include/cxx.h.

usage: header.py /repo/include/cxx.h > lean/Verif/Header/Text.lean
"""
import re
import sys

lines = open(sys.argv[1]).read().split("\n")
assert lines.pop() == ""


def quote(s):
    return 'b!"' + s.replace("\\", "\\\\").replace('"', '\\"') + '"'


def lst(items, indent):
    return "[" + (",\n" + indent).join(items) + "]"


defs = []
chunks = []
i = 0
plain = []


def flush():
    global plain
    if plain:
        name = "text%d" % len(defs)
        defs.append((name, "List Chunk", lst([".text " + quote(p) for p in plain], "   "), i - len(plain) + 1, i))
        chunks.append(name)
        plain = []


while i < len(lines):
    m = re.fullmatch(r"#ifndef (CXXBRIDGE1_\w+)", lines[i])
    if m:
        flush()
        guard = m.group(1)
        j = lines.index("#endif // " + guard, i)
        name = "section%d" % len(defs)
        defs.append((name, "Chunk", ".guarded " + quote(guard) + "\n  " + lst([quote(p) for p in lines[i + 1 : j]], "   "), i + 1, j + 1))
        chunks.append("[" + name + "]")
        i = j + 1
    else:
        plain.append(lines[i])
        i += 1
flush()

print("import Verif.Header.Line")
print("/-!")
print("# include/cxx.h")
print("")
print("Written by tools/header.py.  The text of the file is `textOf layout`.")
print("-/")
print("namespace Verif.Header.Cxx")
print("")
print("open Verif.Header")
for name, ty, value, first, last in defs:
    print("")
    print("/-- include/cxx.h:%d-%d. -/" % (first, last))
    print("noncomputable def %s : %s :=\n  %s" % (name, ty, value))
print("")
print("/-- include/cxx.h:1-%d, the whole file. -/" % len(lines))
print("noncomputable def layout : List Chunk :=\n  " + " ++ ".join(chunks))
print("")
print("end Verif.Header.Cxx")
