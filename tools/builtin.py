#!/usr/bin/env python3
"""Generates lean/Verif/Model/Builtin.lean from the byte arrays in /repo/src/controlframeboxingformat.c and
lean/Verif/Spec/Builtin.lean from /repo/conf/*.xml, read with Python's own XML parser (not with the model)."""
import re, xml.etree.ElementTree as ET
src = open('/repo/src/controlframeboxingformat.c').read()
lines = src.split('\n')
names = re.search(r'afs_control_frame_format\[AFS_FRAME_FORMAT_MAX\] = \{([^}]*)\}', src).group(1).replace(' ', '').split(',')
lens = re.search(r'afs_control_frame_format_len\[AFS_FRAME_FORMAT_MAX\] = \{([^}]*)\}', src).group(1).replace(' ', '').split(',')
lno = {i + 1: l for i, l in enumerate(lines)}
def lineof(t):
    return next(i for i, l in lno.items() if t in l)
def q(s):
    return '"' + s.replace('\\', '\\\\').replace('"', '\\"').replace('\n', '\\n').replace('\t', '\\t').replace('\r', '\\r') + '"'
out = ["import Verif.Model.Basic",
"/-!",
"# The boxing formats of control frames that are built into the library (src/controlframeboxingformat.c)",
"",
"Generated from the byte arrays by tools/builtin.py.  The arrays hold ASCII only; they are written here as text, line by line.",
"-/", "namespace Afs", ""]
spec = ["import Verif.Model.Basic",
"/-!",
"# What the built-in boxing formats say",
"",
"Generated by tools/builtin.py from conf/reel-4k-controlframe-v7.xml to -v3.xml with the XML parser of Python, not with the model:",
"the properties in the order of the document, as class, name, value; the version of a class counts as its first property.",
"-/", "namespace Afs.Spec", ""]
for k, (n, ln) in enumerate(zip(names, lens)):
    m = re.search(r'unsigned char ' + n + r'\[\] = \{([^}]*)\}', src)
    data = bytes(int(x, 16) for x in m.group(1).replace('\n', '').replace(' ', '').split(',') if x)
    first = lineof('unsigned char ' + n); last = lineof('#define ' + n + '_len')
    size = int(re.search(r'#define ' + ln + r' (\d+)', src).group(1))
    v = n[-2:]
    assert all(b < 128 for b in data)
    ls = data.decode('ascii').splitlines(keepends=True)
    out += [f"/-- `{n}` (src/controlframeboxingformat.c:{first}-{last - 1}). -/", f"def builtin{v.upper()} : List Bytes := ["]
    out += ["  " + ",\n  ".join("b! " + q(l) for l in ls) + "]", ""]
    xml = open(f'/repo/conf/reel-4k-controlframe-{v}.xml', 'rb').read()
    root = ET.fromstring(xml)
    assert root.tag == 'work'
    rows = []
    for c in root:
        assert c.tag == 'class' and set(c.attrib) <= {'key', 'version'} and c.attrib['key']
        if 'version' in c.attrib:
            rows.append((c.attrib['key'], 'version', c.attrib['version']))
        for p in c:
            assert p.tag == 'property' and p.attrib['key'] and p.attrib['value']
            rows.append((c.attrib['key'], p.attrib['key'], p.attrib['value']))
    spec += [f"/-- conf/reel-4k-controlframe-{v}.xml:1-{xml.count(10)}. -/", f"def saidBy{v.upper()} : List (Bytes × Bytes × Bytes) := ["]
    spec += ["  " + ",\n  ".join(f"(b! {q(a)}, b! {q(b)}, b! {q(d)})" for a, b, d in rows) + "]", ""]
    print(v, len(data), size, data == xml, len(rows), len(ls))
vs = [n[-2:].upper() for n in names]
l = lineof('unsigned char* afs_control_frame_format')
out += [f"/-- `afs_control_frame_format[i]` for `i < AFS_FRAME_FORMAT_MAX` (src/controlframeboxingformat.c:{l}, inc/controlframeboxingformat.h:5-10):",
"    the bytes of the array.  Nothing follows them in the array, in particular no NUL byte. -/",
"def builtinFormat (i : Fin 5) : Bytes := ([" + ", ".join("builtin" + v for v in vs) + "][i]).flatten", ""]
l = lineof('afs_control_frame_format_len[')
sizes = [re.search(r'#define ' + ln + r' (\d+)', src).group(1) for ln in lens]
out += [f"/-- `afs_control_frame_format_len[i]` (src/controlframeboxingformat.c:{l}). -/",
"def builtinFormatLen (i : Fin 5) : Nat := [" + ", ".join(sizes) + "][i]", "", "end Afs"]
spec += ["/-- What the built-in format `i` says. -/",
"def builtinSays (i : Fin 5) : List (Bytes × Bytes × Bytes) := [" + ", ".join("saidBy" + v for v in vs) + "][i]", "", "end Afs.Spec"]
open('/verif/lean/Verif/Model/Builtin.lean', 'w').write('\n'.join(out) + '\n')
open('/verif/lean/Verif/Spec/Builtin.lean', 'w').write('\n'.join(spec) + '\n')
