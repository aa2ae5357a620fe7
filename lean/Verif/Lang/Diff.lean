import Verif.Hl.Base

/-!
# Diff (src/main/cpp/lang/diff.cpp)
-/

namespace Ulight.Diff

/-- `choose_line_highlight` (diff.cpp:13-36). -/
def chooseLineHighlight (line : Bytes) : Except Fault HT :=
  match line with
  | [] => .error .assert
  | c :: _ =>
    .ok (if c = c!"-" then
      if startsWith line b!"--- " then .diff_heading else .diff_deletion
    else if c = c!"+" then
      if startsWith line b!"+++ " then .diff_heading else .diff_insertion
    else if c = c!"*" then
      if startsWith line b!"*** " || (line.findIdx? (· ≠ c!"*")).isNone then .diff_heading
      else .diff_common
    else if c = c!"!" then .diff_modification
    else if c = c!"@" then
      if startsWith line b!"@@ " then .diff_heading_hunk else .diff_common
    else .diff_common)

/-- `highlight_line` (diff.cpp:64-71); `n` is the length of the line at the start of the
remainder. -/
def highlightLine (n : Nat) : HM Unit Unit := do
  let r ← HM.rem
  let line := r.take n
  if line.isEmpty then pure ()
  else do
    let ty ← HM.lift (chooseLineHighlight line)
    HM.emitAdv line.length ty

/-- The body of the loop in `operator()` (diff.cpp:54-60). -/
def step : HM Unit Unit := do
  let r ← HM.rem
  let line := matchCrlfLine r
  HM.hassert (line.content != 0 || line.terminator != 0)
  highlightLine line.content
  HM.advance line.terminator

/-- `operator()` (diff.cpp:52-62). -/
def run : HM Unit Bool := do
  let r ← HM.rem
  HM.whileNotEof (r.length + 1) step
  pure true

/-- `highlight_diff` (diff.cpp:77-85). -/
def highlight : Highlight := HM.run run ()

end Ulight.Diff
