import Verif.Hl.ProgramModes

/-!
# Highlighters whose state is the place in the program, for C58

Nested loops and calls remain to be done after an element, depending on the state of the description.  `At u s` says that
what remains to be done in the state `u` leads to the right tokens.
-/

namespace Ulight

open Spec

variable {σ τ : Type}

/-- What remains before the text `a` leads to what remains after it. -/
def Goes (At : τ → Bytes → Nat → List Emit → Prop) (L : Nat) (u : τ) (a : Bytes) (ts : List Token) (b : Bytes) (v : τ) : Prop :=
  ∃ es : List Emit, ts = es.map Emit.token ∧ ∀ i out, i + (a ++ b).length = L →
    At v b (i + a.length) (out ++ es.map (Emit.moved i)) → At u (a ++ b) i out

variable {At : τ → Bytes → Nat → List Emit → Prop} {L : Nat} {u v : τ} {a b : Bytes}

theorem goes_parts {ps : List (Bytes × HT)}
    (h : ∀ i out, i + (a ++ b).length = L → At v b (i + a.length) (out ++ partsEmit i ps) → At u (a ++ b) i out) :
    Goes At L u a (parts 0 ps) b v := by
  refine ⟨partsEmit 0 ps, (partsEmit_token 0 ps).symm, fun i out hi h' => h i out hi ?_⟩
  rwa [partsEmit_moved] at h'

theorem goes_none (h : ∀ i out, i + (a ++ b).length = L → At v b (i + a.length) out → At u (a ++ b) i out) :
    Goes At L u a [] b v := by
  refine ⟨[], rfl, fun i out hi h' => h i out hi ?_⟩
  simpa using h'

theorem goes_one {n : Nat} {ty : HT} {mode : Mode}
    (h : ∀ i out, i + (a ++ b).length = L → At v b (i + a.length) (out ++ [⟨i, n, ty, mode⟩]) → At u (a ++ b) i out) :
    Goes At L u a [⟨0, n, ty⟩] b v := by
  refine ⟨[⟨0, n, ty, mode⟩], rfl, fun i out hi h' => h i out hi ?_⟩
  simpa [Emit.moved] using h'

/-- In another state, the same remains to be done before the text. -/
theorem Goes.of {u' : τ} {ts : List Token} (h : Goes At L u a ts b v) (h' : ∀ i out, i + (a ++ b).length = L → At u (a ++ b) i out → At u' (a ++ b) i out) :
    Goes At L u' a ts b v := by
  obtain ⟨es, rfl, h⟩ := h
  exact ⟨es, rfl, fun i out hi h1 => h' i out hi (h i out hi h1)⟩

theorem at_program {E : τ → Bytes → List Token → Bytes → τ → Prop} {T : List Token}
    (h : ∀ u a ts b v, E u a ts b v → Goes At L u a ts b v)
    (h0 : ∀ u i out, i = L → out.map Emit.token = T → At u [] i out) {u : τ} {src : Bytes} {ts : List Token}
    (hp : ProgramIn E u src ts) :
    ∀ i out, i + src.length = L → out.map Emit.token ++ shift i ts = T → At u src i out := by
  induction hp with
  | nil =>
    intro i out hi ho
    exact h0 _ _ _ (by simpa using hi) (by simpa [shift] using ho)
  | @cons u a ts b v us he _ ih =>
    intro i out hi ho
    obtain ⟨es, rfl, hg⟩ := h _ _ _ _ _ he
    refine hg i out hi (ih _ _ (by simp at hi ⊢; omega) ?_)
    rw [← ho, List.map_append, moved_token, shift_append, shift_shift, List.append_assoc]

/-- One more iteration of a loop. -/
theorem wp_loop_more {body : β → HM σ (β ⊕ α)} {m : Nat} {c : β} {env : HEnv} {s : HS σ} {Q : α → HS σ → Prop} (hm : 0 < m)
    (h : wp (body c) (fun r s => match r with
      | .inl c' => wp (HM.loop (m - 1) body c') Q env s
      | .inr a => Q a s) env s) : wp (HM.loop m body c) Q env s := by
  obtain ⟨m, rfl⟩ : ∃ k, m = k + 1 := ⟨m - 1, by omega⟩
  unfold HM.loop
  rw [wp_bind]
  refine wp_mono h ?_
  intro r s h
  cases r with
  | inl c => exact h
  | inr a => exact (wp_pure _).2 h

/-- Several iterations of a loop that counts. -/
theorem wp_loop_counts {body : Nat → HM σ (Nat ⊕ α)} {Q : α → HS σ → Prop} {env : HEnv} {s : HS σ} (n : Nat)
    {fuel i : Nat} (hf : n ≤ fuel) (h : ∀ k, k < n → wp (body (i + k)) (fun r t => r = .inl (i + k + 1) ∧ t = s) env s)
    (hq : wp (HM.loop (fuel - n) body (i + n)) Q env s) : wp (HM.loop fuel body i) Q env s := by
  obtain ⟨f, rfl⟩ : ∃ f, fuel = f + n := ⟨fuel - n, by omega⟩
  exact wp_loop_count n h (by simpa using hq)

end Ulight
