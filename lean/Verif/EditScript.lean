import Verif.Buffer

/-!
# Edit scripts (include/ulight/impl/string_diff.hpp)
-/

namespace Ulight

/-- `Edit_Type` (string_diff.hpp:24-34). -/
inductive Edit where
  | del | common | ins
  deriving DecidableEq, Repr

/-- `std::size_t(-1)`, the cost of a mismatch (string_diff.hpp:67). -/
def mismatchCost : Nat := 2 ^ 64 - 1

/-- The inner loop of the table computation (string_diff.hpp:60-71) for the row of the element `a`
of `from`.  `left` is `F(i, j - 1)`, `diag` is `F(i - 1, j - 1)`, and the last argument is the rest
of row `i - 1`, whose head is `F(i - 1, j)`.  Additions do not wrap for sequences that fit into
memory and are modelled without wrapping. -/
def editRow (a : Bytes) : Nat → Nat → List Bytes → List Nat → List Nat
  | left, diag, b :: to, up :: prev =>
    let v := min (if a = b then diag else mismatchCost) (min (up + 1) (left + 1))
    v :: editRow a v up to prev
  | _, _, _, _ => []

/-- The table `F` row by row (string_diff.hpp:43-72): `i` is the row of the argument `row`; the
remaining rows are those for the elements of `from`.  The code keeps all rows in one vector. -/
def editRows (to : List Bytes) (i : Nat) (row : List Nat) : List Bytes → List (List Nat)
  | [] => [row]
  | a :: from_ =>
    row :: editRows to (i + 1) ((i + 1) :: editRow a (i + 1) (row.headD 0) to row.tail) from_

/-- The whole table; row 0 is 0, 1, ..., `to.size()`. -/
def editTable (from_ to : List Bytes) : List (List Nat) :=
  editRows to 0 (List.range (to.length + 1)) from_

/-- `F(i, j)` (string_diff.hpp:46-50). -/
def editEntry (table : List (List Nat)) (i j : Nat) : Except Fault Nat :=
  match table[i]? with
  | some row =>
    match row[j]? with
    | some v => .ok v
    | none => .error .outOfBounds
  | none => .error .outOfBounds

/-- The backtracking loop (string_diff.hpp:74-93); the result is in the order of the `push_back`
calls.  Every iteration decreases `i + j`, the initial fuel. -/
def editBacktrack (from_ to : List Bytes) (table : List (List Nat)) :
    Nat → Nat → Nat → Except Fault (List Edit)
  | 0, i, j => if i ≠ 0 ∨ j ≠ 0 then .error .outOfFuel else .ok []
  | fuel + 1, i, j =>
    if i ≠ 0 ∨ j ≠ 0 then
      if i ≠ 0 ∧ j ≠ 0 ∧ from_[i - 1]? = to[j - 1]? then do
        let out ← editBacktrack from_ to table fuel (i - 1) (j - 1)
        .ok (.common :: out)
      else if i ≠ 0 then do
        let here ← editEntry table i j
        let above ← editEntry table (i - 1) j
        if here = above + 1 then do
          let out ← editBacktrack from_ to table fuel (i - 1) j
          .ok (.del :: out)
        else if j = 0 then .error .outOfBounds
        else do
          let out ← editBacktrack from_ to table fuel i (j - 1)
          .ok (.ins :: out)
      else if j = 0 then .error .outOfBounds
      else do
        let out ← editBacktrack from_ to table fuel i (j - 1)
        .ok (.ins :: out)
    else .ok []

/-- `std::ranges::partition` of a block of changes (string_diff.hpp:103-105): the elements of a
class are indistinguishable, so the unstable partition has only one result. -/
def partitionEdits (block : List Edit) : List Edit :=
  block.filter (· = .del) ++ block.filter (· ≠ .del)

/-- The loop that moves deletions to the front of every block of changes
(string_diff.hpp:95-107); `block` is the part of the current block that has been seen. -/
def orderEdits (block : List Edit) : List Edit → List Edit
  | [] => partitionEdits block
  | .common :: es => partitionEdits block ++ .common :: orderEdits [] es
  | e :: es => orderEdits (block ++ [e]) es

/-- `shortest_edit_script` (string_diff.hpp:39-110). -/
def shortestEditScript (from_ to : List Bytes) : Except Fault (List Edit) := do
  let out ← editBacktrack from_ to (editTable from_ to) (from_.length + to.length) from_.length to.length
  .ok (orderEdits [] out.reverse)

/-- `split_lines` (string_diff.hpp:112-122): `line` is the part of the current line that has been
seen. -/
def splitLinesLoop (line : Bytes) : Bytes → List Bytes
  | [] => [line]
  | c :: s => if c = 0x0A then line :: splitLinesLoop [] s else splitLinesLoop (line ++ [c]) s

/-- `split_lines`, appended to an empty vector. -/
def splitLines (s : Bytes) : List Bytes := splitLinesLoop [] s

end Ulight
