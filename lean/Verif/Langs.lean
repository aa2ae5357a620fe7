import Verif.Search

/-!
# Languages: names, paths, display names

The tables are generated by `tools/gen_langs.py` from src/main/cpp/ulight.cpp:84-186 and
include/ulight/ulight.h (enum `ulight_lang`).  The functions below them are written by hand.
A language is a number (`ulight_lang` is an enum with `unsigned char` representation that comes
from foreign code, so every number has to be considered).
-/

namespace Ulight

namespace Lang

/-- `ULIGHT_LANG_BASH` (include/ulight/ulight.h). -/
abbrev bash : Nat := 8
/-- `ULIGHT_LANG_C` (include/ulight/ulight.h). -/
abbrev c : Nat := 6
/-- `ULIGHT_LANG_COWEL` (include/ulight/ulight.h). -/
abbrev cowel : Nat := 1
/-- `ULIGHT_LANG_CPP` (include/ulight/ulight.h). -/
abbrev cpp : Nat := 2
/-- `ULIGHT_LANG_CSS` (include/ulight/ulight.h). -/
abbrev css : Nat := 5
/-- `ULIGHT_LANG_DIFF` (include/ulight/ulight.h). -/
abbrev diff : Nat := 9
/-- `ULIGHT_LANG_EBNF` (include/ulight/ulight.h). -/
abbrev ebnf : Nat := 17
/-- `ULIGHT_LANG_HTML` (include/ulight/ulight.h). -/
abbrev html : Nat := 4
/-- `ULIGHT_LANG_JAVA` (include/ulight/ulight.h). -/
abbrev java : Nat := 24
/-- `ULIGHT_LANG_JAVASCRIPT` (include/ulight/ulight.h). -/
abbrev javascript : Nat := 7
/-- `ULIGHT_LANG_JSON` (include/ulight/ulight.h). -/
abbrev json : Nat := 10
/-- `ULIGHT_LANG_JSONC` (include/ulight/ulight.h). -/
abbrev jsonc : Nat := 11
/-- `ULIGHT_LANG_KOTLIN` (include/ulight/ulight.h). -/
abbrev kotlin : Nat := 19
/-- `ULIGHT_LANG_LATEX` (include/ulight/ulight.h). -/
abbrev latex : Nat := 15
/-- `ULIGHT_LANG_LLVM` (include/ulight/ulight.h). -/
abbrev llvm : Nat := 22
/-- `ULIGHT_LANG_LUA` (include/ulight/ulight.h). -/
abbrev lua : Nat := 3
/-- `ULIGHT_LANG_MARKDOWN` (include/ulight/ulight.h). -/
abbrev markdown : Nat := 23
/-- `ULIGHT_LANG_NASM` (include/ulight/ulight.h). -/
abbrev nasm : Nat := 16
/-- `ULIGHT_LANG_NONE` (include/ulight/ulight.h). -/
abbrev none : Nat := 0
/-- `ULIGHT_LANG_PYTHON` (include/ulight/ulight.h). -/
abbrev python : Nat := 18
/-- `ULIGHT_LANG_RUST` (include/ulight/ulight.h). -/
abbrev rust : Nat := 21
/-- `ULIGHT_LANG_TEX` (include/ulight/ulight.h). -/
abbrev tex : Nat := 14
/-- `ULIGHT_LANG_TXT` (include/ulight/ulight.h). -/
abbrev txt : Nat := 13
/-- `ULIGHT_LANG_TYPESCRIPT` (include/ulight/ulight.h). -/
abbrev typescript : Nat := 20
/-- `ULIGHT_LANG_XML` (include/ulight/ulight.h). -/
abbrev xml : Nat := 12
/-- `ULIGHT_LANG_YAML` (include/ulight/ulight.h). -/
abbrev yaml : Nat := 25

end Lang

/-- `ULIGHT_LANG_COUNT` (include/ulight/ulight.h). -/
def langCount : Nat := 26

/-- `ulight_lang_list` (src/main/cpp/ulight.cpp:84-153). -/
def langList : List (Bytes × Nat) := [
  (b!"asm", Lang.nasm),
  (b!"assembler", Lang.nasm),
  (b!"assembly", Lang.nasm),
  (b!"atom", Lang.xml),
  (b!"bash", Lang.bash),
  (b!"c", Lang.c),
  (b!"c++", Lang.cpp),
  (b!"cc", Lang.cpp),
  (b!"cjs", Lang.javascript),
  (b!"cow", Lang.cowel),
  (b!"cowel", Lang.cowel),
  (b!"cplusplus", Lang.cpp),
  (b!"cpp", Lang.cpp),
  (b!"css", Lang.css),
  (b!"cxx", Lang.cpp),
  (b!"diff", Lang.diff),
  (b!"ebnf", Lang.ebnf),
  (b!"gyp", Lang.python),
  (b!"h", Lang.c),
  (b!"h++", Lang.cpp),
  (b!"hpp", Lang.cpp),
  (b!"htm", Lang.html),
  (b!"html", Lang.html),
  (b!"hxx", Lang.cpp),
  (b!"java", Lang.java),
  (b!"javascript", Lang.javascript),
  (b!"js", Lang.javascript),
  (b!"json", Lang.json),
  (b!"jsonc", Lang.jsonc),
  (b!"jsx", Lang.javascript),
  (b!"kotlin", Lang.kotlin),
  (b!"kt", Lang.kotlin),
  (b!"kts", Lang.kotlin),
  (b!"latex", Lang.latex),
  (b!"ll", Lang.llvm),
  (b!"llvm", Lang.llvm),
  (b!"lua", Lang.lua),
  (b!"markdown", Lang.markdown),
  (b!"mathml", Lang.xml),
  (b!"md", Lang.markdown),
  (b!"mjs", Lang.javascript),
  (b!"mml", Lang.xml),
  (b!"nasm", Lang.nasm),
  (b!"patch", Lang.diff),
  (b!"plaintext", Lang.txt),
  (b!"plist", Lang.xml),
  (b!"py", Lang.python),
  (b!"python", Lang.python),
  (b!"rs", Lang.rust),
  (b!"rss", Lang.xml),
  (b!"rust", Lang.rust),
  (b!"sh", Lang.bash),
  (b!"svg", Lang.xml),
  (b!"tex", Lang.tex),
  (b!"text", Lang.txt),
  (b!"ts", Lang.typescript),
  (b!"tsx", Lang.typescript),
  (b!"txt", Lang.txt),
  (b!"typescript", Lang.typescript),
  (b!"x86asm", Lang.nasm),
  (b!"xbj", Lang.xml),
  (b!"xhtml", Lang.xml),
  (b!"xml", Lang.xml),
  (b!"xsd", Lang.xml),
  (b!"xsl", Lang.xml),
  (b!"yaml", Lang.yaml),
  (b!"yml", Lang.yaml),
  (b!"zsh", Lang.bash)
]

/-- `ulight_lang_display_names` (src/main/cpp/ulight.cpp:159-186). -/
def langDisplayNames : List Bytes := [
  b!"N/A",
  b!"COWEL",
  b!"C++",
  b!"Lua",
  b!"HTML",
  b!"CSS",
  b!"C",
  b!"JavaScript",
  b!"Bash",
  b!"Diff",
  b!"JSON",
  b!"JSON with Comments",
  b!"XML",
  b!"Plaintext",
  b!"TeX",
  b!"LaTeX",
  b!"NASM",
  b!"EBNF",
  b!"Python",
  b!"Kotlin",
  b!"TypeScript",
  b!"Rust",
  b!"LLVM",
  b!"Markdown",
  b!"Java",
  b!"YAML"
]

/-- `ulight_lang_display_name` (src/main/cpp/ulight.cpp:197-203). -/
def langDisplayName (lang : Nat) : Bytes :=
  if lang = Lang.none ∨ lang ≥ langCount then [] else langDisplayNames.getD lang []

/-- `ulight_get_lang` (src/main/cpp/ulight.cpp:226-235): `lower_bound` on the sorted list, then an
equality test.  (`ulight_get_lang_u8` at 238-241 is the same function.) -/
def getLang (name : Bytes) : Nat :=
  match lookupSorted Prod.fst langList name with
  | some e => e.2
  | none => Lang.none

/-- `std::string_view::find_last_of(c)`: offset of the last occurrence, `none` for `npos`. -/
def findLast (c : UInt8) : Bytes → Option Nat
  | [] => .none
  | x :: t =>
    match findLast c t with
    | some i => some (i + 1)
    | .none => if x = c then some 0 else .none

/-- `ulight_lang_from_path` (src/main/cpp/ulight.cpp:244-256). -/
def langFromPath (path : Bytes) : Nat :=
  match findLast c!"." path with
  | none => Lang.none
  | some lastDot => getLang (path.drop (lastDot + 1))

/-- `ulight_lang_from_path_u8` (src/main/cpp/ulight.cpp:259-262): the code forwards the *whole*
path to `ulight_get_lang`. -/
def langFromPathU8 (path : Bytes) : Nat := getLang path

end Ulight
