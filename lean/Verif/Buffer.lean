import Verif.Basic

/-!
# `Non_Owning_Buffer` (include/ulight/impl/buffer.hpp)

The buffer owns nothing: it writes into caller-provided storage of `m_capacity` elements and calls
`m_flush(m_flush_data, m_buffer, m_size)` when the storage is full.  The model records the
arguments of these calls: `flushed` is the list of batches handed to the callback so far, oldest
first, and `data` is the current content `m_buffer[0 .. m_size)`.  The callback itself is user
code; it is assumed to return normally and not to modify the buffer object.
-/

namespace Ulight

/-- The ways in which the modelled C++ code can go wrong.  None of them is ever assumed away:
a function that could hit one returns `Except Fault _`. -/
inductive Fault where
  /-- a failing `ULIGHT_ASSERT` or `ULIGHT_DEBUG_ASSERT` -/
  | assert
  /-- an access outside of a string, array or buffer, or an index computation below zero -/
  | outOfBounds
  /-- a loop or recursion that exceeds the step bound of the model (non-termination) -/
  | outOfFuel
  /-- use of an object after the end of its lifetime -/
  | dangling
  /-- reaching `ULIGHT_ASSERT_UNREACHABLE`, `ULIGHT_DEBUG_ASSERT_UNREACHABLE` or the end of a
  non-void function -/
  | unreachable
  deriving DecidableEq, Repr

deriving instance DecidableEq for Except

/-- `Non_Owning_Buffer<T>` (include/ulight/impl/buffer.hpp:19-56). -/
structure Buf (α : Type) where
  /-- `m_capacity` -/
  cap : Nat
  /-- `m_buffer[0 .. m_size)` -/
  data : List α := []
  /-- batches passed to `m_flush`, oldest first -/
  flushed : List (List α) := []
  deriving DecidableEq, Repr

namespace Buf

/-- Constructor (buffer.hpp:31-46): asserts that the capacity is non-zero.  The two pointer
assertions are checked by the callers in the API model. -/
def new (cap : Nat) : Except Fault (Buf α) :=
  if cap = 0 then .error .assert else .ok { cap := cap }

/-- `full()` (buffer.hpp:82-85). -/
def full (b : Buf α) : Bool := b.data.length == b.cap

/-- `flush()` (buffer.hpp:184-190). -/
def flush (b : Buf α) : Buf α :=
  if b.data.length ≠ 0 then { b with data := [], flushed := b.flushed ++ [b.data] } else b

/-- `push_back` / `emplace_back` (buffer.hpp:102-129): flush when full, then write
`m_buffer[m_size++]`; the write is out of bounds if `m_size ≥ m_capacity` at that point. -/
def push (b : Buf α) (e : α) : Except Fault (Buf α) :=
  let b := if b.full then b.flush else b
  if b.data.length < b.cap then .ok { b with data := b.data ++ [e] } else .error .outOfBounds

/-- The loop of `append(begin, end)` for random access iterators (buffer.hpp:140-159): flush when
full, copy a chunk that fits.  Every iteration copies at least one element, so `xs.length`
iterations are enough. -/
def appendLoop (b : Buf α) : Nat → List α → Except Fault (Buf α)
  | _, [] => .ok b
  | 0, _ :: _ => .error .outOfFuel
  | fuel + 1, x :: xs =>
    let b := if b.full then b.flush else b
    let chunk := min (b.cap - b.data.length) (x :: xs).length
    if chunk = 0 then .error .assert
    else if b.data.length + chunk ≤ b.cap then
      appendLoop { b with data := b.data ++ (x :: xs).take chunk } fuel ((x :: xs).drop chunk)
    else .error .outOfBounds

/-- `append(begin, end)` / `append_range` (buffer.hpp:140-168). -/
def append (b : Buf α) (xs : List α) : Except Fault (Buf α) := b.appendLoop xs.length xs

/-! ## Representation invariant -/

/-- `b` is the state of a buffer of capacity `cap` into which exactly the elements `xs` have been
put since its construction (and which has not been flushed explicitly). -/
structure Holds (cap : Nat) (xs : List α) (b : Buf α) : Prop where
  cap_eq : b.cap = cap
  content : b.flushed.flatten ++ b.data = xs
  full_batches : ∀ c ∈ b.flushed, c.length = cap
  size_le : b.data.length ≤ cap
  nonempty : b.flushed ≠ [] → b.data ≠ []

theorem holds_new {cap : Nat} (h : 0 < cap) :
    ∃ b : Buf α, Buf.new cap = .ok b ∧ Holds cap [] b := by
  refine ⟨{ cap := cap }, by simp [Buf.new]; omega, ?_⟩
  constructor <;> simp

/-- Making room: after the `if (full()) flush();` prefix there is space for one element. -/
theorem Holds.makeRoom {cap : Nat} {xs : List α} {b : Buf α} (hc : 0 < cap) (h : Holds cap xs b) :
    let b' := if b.full then b.flush else b
    b'.cap = cap ∧ b'.flushed.flatten ++ b'.data = xs ∧ (∀ c ∈ b'.flushed, c.length = cap) ∧
      b'.data.length < cap := by
  have hcap := h.cap_eq
  have hsz := h.size_le
  by_cases hf : b.full = true
  · simp only [hf, if_true]
    simp only [full, beq_iff_eq] at hf
    have hne : b.data.length ≠ 0 := by omega
    simp only [flush, hne, ne_eq, not_false_eq_true, if_true]
    refine ⟨hcap, ?_, ?_, by simpa using hc⟩
    · simpa using h.content
    · intro c hc'
      simp only [List.mem_append, List.mem_singleton] at hc'
      rcases hc' with h1 | h1
      · exact h.full_batches c h1
      · subst h1; omega
  · simp only [hf]
    simp only [full, beq_iff_eq] at hf
    exact ⟨hcap, h.content, h.full_batches, by simp; omega⟩

theorem Holds.push {cap : Nat} {xs : List α} {b : Buf α} (hc : 0 < cap) (h : Holds cap xs b)
    (e : α) : ∃ b', b.push e = .ok b' ∧ Holds cap (xs ++ [e]) b' := by
  obtain ⟨h1, h2, h3, h4⟩ := h.makeRoom hc
  simp only [Buf.push]
  generalize (if b.full = true then b.flush else b) = b1 at *
  rw [h1, if_pos h4]
  refine ⟨_, rfl, ?_⟩
  constructor
  · rfl
  · simp [← h2]
  · exact h3
  · simp; omega
  · simp

theorem Holds.appendLoop {cap : Nat} (hc : 0 < cap) : ∀ (fuel : Nat) (ys : List α) (xs : List α)
    (b : Buf α), ys.length ≤ fuel → Holds cap xs b →
    ∃ b', b.appendLoop fuel ys = .ok b' ∧ Holds cap (xs ++ ys) b' := by
  intro fuel
  induction fuel with
  | zero =>
    intro ys xs b hl h
    have : ys = [] := List.length_eq_zero_iff.mp (by omega)
    subst this
    exact ⟨b, by simp [Buf.appendLoop], by simpa using h⟩
  | succ fuel ih =>
    intro ys xs b hl h
    cases ys with
    | nil => exact ⟨b, by simp [Buf.appendLoop], by simpa using h⟩
    | cons y ys =>
      obtain ⟨h1, h2, h3, h4⟩ := h.makeRoom hc
      simp only [Buf.appendLoop]
      generalize (if b.full = true then b.flush else b) = b1 at *
      generalize hk : min (b1.cap - b1.data.length) (y :: ys).length = k
      have hk0 : k ≠ 0 := by simp only [List.length_cons] at hk; omega
      have hkl : k ≤ (y :: ys).length := by omega
      rw [if_neg hk0, if_pos (by omega)]
      have hH : Holds cap (xs ++ (y :: ys).take k)
          { b1 with data := b1.data ++ (y :: ys).take k } := by
        constructor
        · exact h1
        · simp only [← h2, List.append_assoc]
        · exact h3
        · simp only [List.length_append, List.length_take]; omega
        · intro _ hcon
          have := congrArg List.length hcon
          simp only [List.length_append, List.length_take, List.length_nil] at this
          omega
      obtain ⟨b', e1, e2⟩ := ih ((y :: ys).drop k) _ _
        (by simp only [List.length_drop, List.length_cons] at *; omega) hH
      refine ⟨b', e1, ?_⟩
      rw [List.append_assoc, List.take_append_drop] at e2
      exact e2

theorem Holds.append {cap : Nat} {xs : List α} {b : Buf α} (hc : 0 < cap) (h : Holds cap xs b)
    (ys : List α) : ∃ b', b.append ys = .ok b' ∧ Holds cap (xs ++ ys) b' :=
  Holds.appendLoop hc ys.length ys xs b (Nat.le_refl _) h

/-- A buffer state is determined by what was put into it. -/
theorem Holds.flush_batches {cap : Nat} {xs : List α} {b : Buf α} (hc : 0 < cap)
    (h : Holds cap xs b) :
    b.flush.flushed.flatten = xs ∧ b.flush.data = [] ∧
    (∀ c ∈ b.flush.flushed, 0 < c.length ∧ c.length ≤ cap) ∧
    (∀ c ∈ b.flush.flushed.dropLast, c.length = cap) := by
  unfold Buf.flush
  split
  · rename_i hne
    refine ⟨by simpa using h.content, rfl, ?_, ?_⟩
    · intro c hc'
      simp only [List.mem_append, List.mem_singleton] at hc'
      rcases hc' with h1 | h1
      · have := h.full_batches c h1; omega
      · subst h1; have := h.size_le; omega
    · intro c hc'
      simp only [List.dropLast_concat] at hc'
      exact h.full_batches c hc'
  · rename_i hne
    have hd : b.data = [] := List.length_eq_zero_iff.mp (by omega)
    have hf : b.flushed = [] := by
      cases hfl : b.flushed with
      | nil => rfl
      | cons a t => exact absurd hd (h.nonempty (by simp [hfl]))
    have := h.content
    rw [hf, hd] at this
    simp only [List.flatten_nil, List.append_nil] at this
    refine ⟨by simp [hf, ← this], hd, by simp [hf], by simp [hf]⟩

end Buf
end Ulight
