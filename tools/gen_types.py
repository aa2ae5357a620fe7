#!/usr/bin/env python3
"""Regenerates lean/Verif/Types.lean from the tables in /repo (text processing only)."""
import re
hpp = open('/repo/include/ulight/ulight.hpp').read()
h = open('/repo/include/ulight/ulight.h').read()
vals = {m.group(1): int(m.group(2), 16) for m in re.finditer(r'(ULIGHT_HL_[A-Z0-9_]+)\s*=\s*(0x[0-9a-fA-F]+)', h)}
start = hpp.index('#define ULIGHT_HIGHLIGHT_TYPE_ENUM_DATA(F)')
end = hpp.index('// NOLINTNEXTLINE(bugprone-macro-parentheses)', start)
body = hpp[start:end].replace('\\\n', ' ')
rows = re.findall(r'F\((\w+),\s*"([^"]*)",\s*"([^"]*)",\s*(ULIGHT_HL_\w+)\)', body)
o = []
o.append('''import Verif.Basic

/-!
# Highlight types

Generated by `tools/gen_types.py` from the table `ULIGHT_HIGHLIGHT_TYPE_ENUM_DATA`
(include/ulight/ulight.hpp:122-307) and the values of `ulight_highlight_type`
(include/ulight/ulight.h:228-700).
-/

namespace Ulight

/-- `ulight::Highlight_Type` (include/ulight/ulight.hpp:122-330); the enumerators keep their names. -/
inductive HT where''')
for r in rows: o.append('  | %s' % r[0])
o.append('  deriving DecidableEq, Repr\n')
o.append('/-- The numeric value of an enumerator (include/ulight/ulight.h:228-700). -/')
o.append('def HT.val : HT → Nat')
for r in rows: o.append('  | .%s => 0x%02x' % (r[0], vals[r[3]]))
o.append('')
o.append('/-- All rows of the table: (type, identifier, long string, short string)')
o.append('(include/ulight/ulight.hpp:122-307). -/')
o.append('def hlTable : List (HT × Bytes × Bytes × Bytes) := [')
o.append(',\n'.join('  (.%s, b!"%s", b!"%s", b!"%s")' % (r[0], r[0], r[1], r[2]) for r in rows))
o.append(']\n\nend Ulight')
open('/verif/lean/Verif/Types.lean', 'w').write('\n'.join(o) + '\n')
print(len(rows), len(vals))
