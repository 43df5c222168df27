#!/usr/bin/env python3
"""Print the statements of the property theorems and definitions in a file (without proofs)."""
import re, sys
for path in sys.argv[1:]:
    t = open(path).read()
    for m in re.finditer(r"(?:/--(?:(?!-/).)*-/\n)?(?:theorem|def) C\d\d\w*.*?(?=\n\n|\Z)", t, re.S):
        s = m.group(0)
        k = s.find(":= by")
        print(s if s.lstrip().startswith("def") or "\ndef " in s[:s.find("-/")+10] else s[:k] if k > 0 else s)
        print()
