#!/usr/bin/env python3
"""List names declared in more than one module (namespaces tracked textually)."""
import glob, re, collections
seen = collections.defaultdict(list)
for f in sorted(glob.glob('lean/Verif/*/*.lean')):
    ns = []
    for line in open(f):
        m = re.match(r'namespace (\S+)', line)
        if m: ns.append(m.group(1)); continue
        m = re.match(r'end (\S+)', line)
        if m and ns and ns[-1] == m.group(1): ns.pop(); continue
        m = re.match(r'(?:@\[[^\]]*\]\s*)?(?:private |protected |noncomputable )*(?:theorem|lemma|def|abbrev|structure|inductive|class|instance) ([^\s:({\[]+)', line)
        if m: seen['.'.join(ns + [m.group(1)])].append(f)
for k, v in seen.items():
    if len(v) > 1: print(k, v)
