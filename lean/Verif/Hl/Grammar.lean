import Verif.Hl.Reads

/-!
# Functions of highlighters that read phrases of a grammar, for C58

The functions may call each other recursively, with less text each time.  So the length of the text is bounded.
-/

namespace Ulight

open Spec Phrase

variable {σ α β : Type}

/-- In the state `x`, the function reads phrases of the kind `P`, if at most `L` bytes are left, and returns `v`.  The state
remains as it is. -/
def ReadsAll (x : σ) (L : Nat) (m : HM σ α) (P : Phrase) (v : α) : Prop :=
  ∀ env a ts b, (a ++ b).length ≤ L → P a ts b → Reads env m x a ts b v x

/-- The same, whatever the result is. -/
def ReadsAny (x : σ) (L : Nat) (m : HM σ α) (P : Phrase) : Prop :=
  ∀ env a ts b, (a ++ b).length ≤ L → P a ts b → ∃ v, Reads env m x a ts b v x

variable {x : σ} {L : Nat} {P Q : Phrase} {m : HM σ β} {f : β → HM σ α} {v : α} {w : β}

theorem ReadsAll.any {m : HM σ α} (h : ReadsAll x L m P v) : ReadsAny x L m P := fun env a ts b hl hp => ⟨v, h env a ts b hl hp⟩

theorem ReadsAll.seq (h : ReadsAll x L m P w) (h' : ReadsAll x L (f w) Q v) : ReadsAll x L (m >>= f) (P ⬝ Q) v := by
  rintro env _ _ b hl ⟨u, us, z, zs, rfl, rfl, h1, h2⟩
  exact (h _ _ _ _ (by simpa using hl) h1).bind (h' _ _ _ _ (by simp at hl ⊢; omega) h2)

theorem ReadsAny.seq (h : ReadsAny x L m P) (h' : ∀ w, ReadsAll x L (f w) Q v) : ReadsAll x L (m >>= f) (P ⬝ Q) v := by
  rintro env _ _ b hl ⟨u, us, z, zs, rfl, rfl, h1, h2⟩
  obtain ⟨w, h⟩ := h _ _ _ _ (by simpa using hl) h1
  exact h.bind (h' w _ _ _ _ (by simp at hl ⊢; omega) h2)

/-- The last part of a function. -/
theorem ReadsAny.last (h : ReadsAny x L m P) : ReadsAll x L (m >>= fun _ => pure v) P v := by
  intro env a ts b hl hp
  obtain ⟨w, h⟩ := h _ _ _ _ hl hp
  exact h.bind_last reads_pure

/-- If the first phrase is not empty, then less text is left for the second one. -/
theorem ReadsAll.less (h : ReadsAll x (L + 1) m P w) (h0 : ∀ a ts b, P a ts b → a ≠ []) (h' : ReadsAll x L (f w) Q v) :
    ReadsAll x (L + 1) (m >>= f) (P ⬝ Q) v := by
  rintro env _ _ b hl ⟨u, us, z, zs, rfl, rfl, h1, h2⟩
  have := List.length_pos_iff.2 (h0 _ _ _ h1)
  exact (h _ _ _ _ (by simpa using hl) h1).bind (h' _ _ _ _ (by simp at hl ⊢; omega) h2)

theorem ReadsAll.or {m : HM σ α} (h : ReadsAll x L m P v) (h' : ReadsAll x L m Q v) : ReadsAll x L m (or P Q) v :=
  fun _ _ _ _ hl hp => hp.elim (h _ _ _ _ hl) (h' _ _ _ _ hl)

theorem ReadsAny.or {m : HM σ α} (h : ReadsAny x L m P) (h' : ReadsAny x L m Q) : ReadsAny x L m (Phrase.or P Q) :=
  fun _ _ _ _ hl hp => hp.elim (h _ _ _ _ hl) (h' _ _ _ _ hl)

theorem ReadsAll.pure {C : Bytes → Prop} : ReadsAll x L (Pure.pure v) (before C) v := by
  rintro env _ _ b hl ⟨rfl, rfl, -⟩
  exact reads_pure

theorem ReadsAll.of {m : HM σ α} (h : ReadsAll x L m P v) (h' : ∀ a ts b, Q a ts b → P a ts b) : ReadsAll x L m Q v :=
  fun _ _ _ _ hl hq => h _ _ _ _ hl (h' _ _ _ hq)

theorem ReadsAll.mono {L' : Nat} {m : HM σ α} (h : ReadsAll x L' m P v) (hl : L ≤ L') : ReadsAll x L m P v :=
  fun _ _ _ _ h1 h2 => h _ _ _ _ (by omega) h2

/-- `before` something at the beginning changes nothing. -/
theorem before_seq {C : Bytes → Prop} {a b : Bytes} {ts : List Token} : (before C ⬝ P) a ts b ↔ C (a ++ b) ∧ P a ts b := by
  constructor
  · rintro ⟨_, _, v, vs, rfl, rfl, ⟨rfl, rfl, h⟩, h'⟩
    exact ⟨h, by simpa [shift] using h'⟩
  · rintro ⟨h, h'⟩
    exact ⟨[], [], a, ts, rfl, by simp [shift], ⟨rfl, rfl, h⟩, h'⟩

/-- A loop whose body reads phrases until it reads the last one. -/
theorem readsAll_loop {body : Unit → HM σ (Unit ⊕ α)} (hP : ReadsAll x L (body ()) P (.inl ())) (hQ : ReadsAll x L (body ()) Q (.inr v))
    {env : HEnv} {a b : Bytes} {ts : List Token} (hs : star P Q a ts b) (hl : (a ++ b).length ≤ L) (m : Nat) (hm : (a ++ b).length < m) :
    Reads env (HM.loop m body ()) x a ts b v x := by
  induction hs generalizing m with
  | last h => exact reads_loop_end (by omega) (hQ _ _ _ _ hl h)
  | @more a ts a' us b h h0 _ ih =>
    have hp := List.length_pos_iff.2 h0
    exact reads_loop (by omega) (hP _ _ _ _ (by simpa using hl) h) (ih (by simp at hl ⊢; omega) _ (by simp at hm ⊢; omega))

/-- The same, where the number of iterations is bounded by the length of the text. -/
theorem ReadsAll.star {body : Unit → HM σ (Unit ⊕ α)} (hP : ReadsAll x L (body ()) P (.inl ())) (hQ : ReadsAll x L (body ()) Q (.inr v)) :
    ReadsAll x L (HM.rem >>= fun r => HM.loop (r.length + 1) body ()) (star P Q) v :=
  fun _ _ _ _ hl hs => reads_rem (readsAll_loop hP hQ hs hl _ (by omega))

end Ulight
