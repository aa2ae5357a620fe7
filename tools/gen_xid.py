#!/usr/bin/env python3
"""Generate lean/Verif/Text/XidTables.lean from /repo/src/main/cpp/chars.cpp."""
import re
src = open('/repo/src/main/cpp/chars.cpp').read().split('\n')
def table(name):
    start = next(i for i, l in enumerate(src) if name + '[]' in l)
    end = next(i for i in range(start, len(src)) if src[i].startswith('};'))
    body = '\n'.join(src[start + 1:end])
    return start + 1, end + 1, [(int(a, 16), int(b, 16)) for a, b in
                                re.findall(r'\{\s*0x([0-9A-Fa-f]+),\s*0x([0-9A-Fa-f]+)\s*\}', body)]
out = ['/-!', '# Identifier tables', '', 'Generated by `tools/gen_xid.py` from src/main/cpp/chars.cpp.', '-/', '',
       'namespace Ulight', '']
for name, lean in [('XID_Start_Ranges', 'xidStartRanges'),
                   ('XID_Continue_Minus_XID_Start', 'xidContinueMinusStart')]:
    a, b, rows = table(name)
    out.append(f'/-- `{name}` (src/main/cpp/chars.cpp:{a}-{b}): inclusive ranges. -/')
    out.append(f'def {lean} : List (Nat × Nat) := [')
    lines = []
    for i in range(0, len(rows), 4):
        lines.append('  ' + ', '.join(f'(0x{x:04X}, 0x{y:04X})' for x, y in rows[i:i + 4]))
    out.append(',\n'.join(lines) + ']')
    out.append('')
out.append('end Ulight')
open('/verif/lean/Verif/Text/XidTables.lean', 'w').write('\n'.join(out) + '\n')
