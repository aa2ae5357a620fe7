#!/usr/bin/env python3
"""Regenerates lean/Verif/Langs.lean from the tables in /repo (text processing only)."""
import re
cpp = open('/repo/src/main/cpp/ulight.cpp').read()
h = open('/repo/include/ulight/ulight.h').read()
m = re.search(r'typedef enum ulight_lang[^{]*\{(.*?)\}\s*ulight_lang;', h, re.S)
enum = re.findall(r'ULIGHT_LANG_([A-Z0-9_]+)\s*=\s*(\d+)', m.group(1))
names = {k: int(v) for k, v in enum}
count = re.search(r'ULIGHT_LANG_COUNT\s*=?\s*(\d+)', h)
entries = re.findall(r'make_lang_entry\("([^"]*)", ULIGHT_LANG_([A-Z0-9_]+)\)', cpp)
disp = re.findall(r'make_sv\("([^"]*)"\)', cpp)
o = ['''import Verif.Search

/-!
# Languages: names, paths, display names

The tables are generated by `tools/gen_langs.py` from src/main/cpp/ulight.cpp:84-186 and
include/ulight/ulight.h (enum `ulight_lang`).  The functions below them are written by hand.
A language is a number (`ulight_lang` is an enum with `unsigned char` representation that comes
from foreign code, so every number has to be considered).
-/

namespace Ulight

namespace Lang
''']
for k, v in enum:
    if k == 'COUNT': continue
    o.append('/-- `ULIGHT_LANG_%s` (include/ulight/ulight.h). -/' % k)
    o.append('abbrev %s : Nat := %s' % (k.lower(), v))
o.append('''
end Lang

/-- `ULIGHT_LANG_COUNT` (include/ulight/ulight.h). -/
def langCount : Nat := %s

/-- `ulight_lang_list` (src/main/cpp/ulight.cpp:84-153). -/
def langList : List (Bytes × Nat) := [''' % (count.group(1)))
o.append(',\n'.join('  (b!"%s", Lang.%s)' % (a, b.lower()) for a, b in entries))
o.append(''']

/-- `ulight_lang_display_names` (src/main/cpp/ulight.cpp:159-186). -/
def langDisplayNames : List Bytes := [''')
o.append(',\n'.join('  b!"%s"' % d for d in disp))
o.append(''']

/-- `ulight_lang_display_name` (src/main/cpp/ulight.cpp:197-203). -/
def langDisplayName (lang : Nat) : Bytes :=
  if lang = Lang.none ∨ lang ≥ langCount then [] else langDisplayNames.getD lang []

/-- `ulight_get_lang` (src/main/cpp/ulight.cpp:226-235): `lower_bound` on the sorted list, then an
equality test.  (`ulight_get_lang_u8` at 238-241 is the same function.) -/
def getLang (name : Bytes) : Nat :=
  match lookupSorted Prod.fst langList name with
  | some e => e.2
  | none => Lang.none

/-- `std::string_view::find_last_of(c)`: offset of the last occurrence, `none` for `npos`. -/
def findLast (c : UInt8) : Bytes → Option Nat
  | [] => .none
  | x :: t =>
    match findLast c t with
    | some i => some (i + 1)
    | .none => if x = c then some 0 else .none

/-- `ulight_lang_from_path` (src/main/cpp/ulight.cpp:244-256). -/
def langFromPath (path : Bytes) : Nat :=
  match findLast c!"." path with
  | none => Lang.none
  | some lastDot => getLang (path.drop (lastDot + 1))

/-- `ulight_lang_from_path_u8` (src/main/cpp/ulight.cpp:259-262): the code forwards the *whole*
path to `ulight_get_lang`. -/
def langFromPathU8 (path : Bytes) : Nat := getLang path

/-- `ulight::highlight_type_long_string_u8` / `ulight_highlight_type_long_string`
(include/ulight/ulight.hpp:330-390, src/main/cpp/ulight.cpp:265-283): a `switch` over the table. -/
end Ulight''')
txt = '\n'.join(o) + '\n'
txt = txt[:txt.index('/-- `ulight::highlight_type_long_string_u8`')] + 'end Ulight\n'
open('/verif/lean/Verif/Langs.lean', 'w').write(txt)
print(len(enum), len(entries), len(disp), count.group(1))
