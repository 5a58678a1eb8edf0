#!/usr/bin/env python3
"""Reads edwards25519.go as text and prints its recurring statement groups with line numbers, in the vocabulary of
lean/Verif/Ed25519/Machine.lean. Used to compare the model with the source by eye; it exits with status 1 on a line inside the
listed functions that fits no pattern."""
import re, sys
SRC = sys.argv[1] if len(sys.argv) > 1 else "/repo/crypto/edwards25519/edwards25519.go"
L = open(SRC).read().split("\n")
def find(pat, start=0):
    return next(i for i in range(start, len(L)) if re.match(pat, L[i]))
def ops(lo, hi):
    """statement groups between 0-based lines lo (inclusive) and hi (exclusive)"""
    lines = [(i + 1, re.sub(r"/\*.*?\*/|//.*", "", L[i]).strip()) for i in range(lo, hi)]
    lines = [(n, t) for n, t in lines if t and not t.startswith("var ")]
    out, i = [], 0
    v = r"(?:[a-z]+)\[?(\d+)\]?"
    while i < len(lines):
        n, t = lines[i]
        m = re.fullmatch(r"(?:carry\[|c)(\d+)\]? = (?:\(%s \+ \(1 << (\d+)\)\)|%s) >> (\d+)" % (v, v), t)
        if m:
            k = int(m[1]); src = int(m[2] or m[4]); r = 1 << int(m[3]) if m[3] else 0; sh = int(m[5])
            assert k == src, (n, t)
            t2 = lines[i + 1][1]
            m2 = re.fullmatch(r"%s \+= (?:carry\[|c)(\d+)\]?(?: \* (\d+))?" % v, t2)
            if m2:
                assert int(m2[2]) == k, (n, t2)
                dst, mul = int(m2[1]), int(m2[3] or 1); i += 1
            else:
                dst, mul = src + 1, 1   # the last carry of FeToBytes: h10
            m3 = re.fullmatch(r"%s -= (?:carry\[|c)(\d+)\]? << (\d+)" % v, lines[i + 1][1])
            assert m3 and int(m3[1]) == k and int(m3[2]) == k and int(m3[3]) == sh, (n, lines[i + 1])
            out.append((n, lines[i + 1][0], "carry", src, dst, sh, r, mul)); i += 2; continue
        m = re.fullmatch(r"s(\d+) ([+-])= s(\d+) \* (\d+)", t)
        if m:
            j = int(m[3]); l = []; n0 = n
            while True:
                m = re.fullmatch(r"s(\d+) ([+-])= s(\d+) \* (\d+)", lines[i][1])
                if not m: break
                assert int(m[3]) == j
                l.append((int(m[1]), int(m[2] + m[4]))); i += 1
            assert lines[i][1] == "s%d = 0" % j, lines[i]
            out.append((n0, lines[i][0], "fold", j, tuple(l))); i += 1; continue
        print("UNRECOGNISED", n, t); sys.exit(1)
    return out
RED = (666643, 470296, 654183, -997805, 136657, -683901)
def name(o):
    if o[2] == "fold":
        j = o[3]
        if o[4] == tuple((j - 12 + t, c) for t, c in enumerate(RED)): return "red %d" % j
    elif o[4] == o[3] + 1 and o[5] == 21 and o[7] == 1:
        if o[6] == 1 << 20: return "rd %d" % o[3]
        if o[6] == 0: return "fl %d" % o[3]
    return str(o[2:])
def show(title, lo, hi):
    print(title)
    os = ops(lo, hi); i = 0
    while i < len(os):
        j = i
        kind = name(os[i]).split()[0]
        while j + 1 < len(os) and name(os[j + 1]).split()[0] == kind: j += 1
        print("  %d-%d: %s" % (os[i][0], os[j][1], " ; ".join(name(o) for o in os[i:j + 1]))); i = j + 1
if __name__ == "__main__":
    a = find(r"func ScMulAdd"); b = find(r"\tcarry\[0\] =", a); c = find(r"\ts\[0\] =", b)
    show("ScMulAdd", b, c)
    a = find(r"func ScReduce"); b = find(r"\ts11 \+=", a); c = find(r"\tout\[0\] =", b)
    show("ScReduce", b, c)
    a = find(r"func FeCombine"); b = find(r"\tc0 =", a); c = find(r"\th\[0\] =", b)
    show("FeCombine", b, c)
    a = find(r"func FeToBytes"); b = find(r"\tcarry\[0\] =", a); c = find(r"\ts\[0\] =", b)
    show("FeToBytes", b, c)
