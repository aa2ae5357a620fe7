import Verif.Hl.Compose

/-!
# Recursion with fuel, and pieces that take several steps

`Below m m'` says that `m'` does what `m` does unless `m` fails.  Programs with more fuel are above those with less.
-/

namespace Ulight

open Spec Utf8

variable {σ α β : Type}

/-- `m'` does what `m` does unless `m` fails. -/
def Below (m m' : HM σ α) : Prop := ∀ env s r, m env s = .ok r → m' env s = .ok r

theorem below_refl (m : HM σ α) : Below m m := fun _ _ _ h => h

theorem below_fault (f : Fault) (m : HM σ α) : Below (HM.fault f) m := fun _ _ _ h => nomatch h

theorem Below.trans {a b c : HM σ α} (h : Below a b) (h' : Below b c) : Below a c :=
  fun env s r he => h' env s r (h env s r he)

theorem below_bind {m m' : HM σ β} {f f' : β → HM σ α} (h : Below m m') (h' : ∀ b, Below (f b) (f' b)) :
    Below (m >>= f) (m' >>= f') := by
  intro env s r he
  rw [bind_ok] at he ⊢
  obtain ⟨b, s', h1, h2⟩ := he
  exact ⟨b, s', h _ _ _ h1, h' b _ _ _ h2⟩

theorem below_ite {c : Prop} [Decidable c] {a a' b b' : HM σ α} (h : Below a a') (h' : Below b b') :
    Below (if c then a else b) (if c then a' else b') := by
  split
  · exact h
  · exact h'

theorem below_or {a a' b b' : HM σ Bool} (h : Below a a') (h' : Below b b') : Below (HM.or a b) (HM.or a' b') := by
  unfold HM.or
  exact below_bind h fun _ => below_ite (below_refl _) h'

theorem below_loop {body body' : β → HM σ (β ⊕ α)} (h : ∀ b, Below (body b) (body' b)) (fuel : Nat) (b : β) :
    Below (HM.loop fuel body b) (HM.loop fuel body' b) := by
  induction fuel generalizing b with
  | zero => exact below_refl _
  | succ n ih =>
    unfold HM.loop
    refine below_bind (h b) fun r => ?_
    cases r with
    | inl b' => exact ih b'
    | inr a => exact below_refl _

/-- Find the parts of programs that differ in their fuel. -/
macro "below" : tactic => `(tactic| repeat' with_reducible first
  | assumption | exact below_refl _ | refine below_bind ?_ fun _ => ?_ | refine below_ite ?_ ?_ | refine below_or ?_ ?_
  | refine below_loop (fun _ => ?_) _ _ | split | dsimp only)

/-- The loop gets from one state to another in `k` iterations. -/
def Reach (body : β → HM σ (β ⊕ α)) (env : HEnv) : Nat → β → HS σ → β → HS σ → Prop
  | 0, c, s, c', s' => c = c' ∧ s = s'
  | k + 1, c, s, c', s' => ∃ c1 s1, body c env s = .ok (.inl c1, s1) ∧ Reach body env k c1 s1 c' s'

theorem loop_reach {body : β → HM σ (β ⊕ α)} {env : HEnv} {k n : Nat} {c c' : β} {s s' : HS σ} {r : α × HS σ}
    (h : Reach body env k c s c' s') (hl : HM.loop n body c' env s' = .ok r) : HM.loop (n + k) body c env s = .ok r := by
  induction k generalizing c s with
  | zero =>
    obtain ⟨rfl, rfl⟩ := h
    exact hl
  | succ k ih =>
    obtain ⟨c1, s1, h1, h2⟩ := h
    rw [← Nat.add_assoc]
    unfold HM.loop
    rw [bind_ok]
    exact ⟨_, _, h1, ih h2⟩

/-- It is enough to consider programs. -/
theorem piece_of_lifted {m : HM σ Bool} {x : σ} {a b : Bytes} {ts : List Emit}
    (h : ∀ debug opts s, m ⟨debug, opts, b⟩ ⟨b, 0, [], x⟩ = .ok (true, s) →
      m ⟨debug, opts, a ++ b⟩ ⟨a ++ b, 0, [], x⟩ = .ok (true, s.lifted a.length ts)) :
    Piece (HM.run m x) a (ts.map Emit.token) b := by
  intro debug opts es he
  unfold HM.run HM.runAll at he ⊢
  split at he
  · rename_i good s hr
    cases he
    rw [h _ _ _ hr]
    refine ⟨_, rfl, ?_⟩
    simp [HS.lifted, shift, Emit.moved, Emit.token, Nat.add_comm]
  · cases he

/-- If the first iterations of the main loop read `a` and emit `ts`, then the rest is highlighted as if it stood
alone. -/
theorem piece_of_reach {body : Nat → β → HM σ (β ⊕ Unit)} [hu : ∀ d b, Uniform (body d b)] {x : σ} {c : β} {a b : Bytes}
    {ts : List Emit} (k : Nat) (hk : k ≤ a.length) (hb : ∀ d d' b, d ≤ d' → Below (body d b) (body d' b))
    (h : ∀ debug opts, Reach (body (a ++ b).length) ⟨debug, opts, a ++ b⟩ k c ⟨a ++ b, 0, [], x⟩ c ⟨b, a.length, ts, x⟩) :
    Piece (HM.run (do let r ← HM.rem; HM.loop (r.length + 1) (body r.length) c; pure true) x) a (ts.map Emit.token) b := by
  refine piece_of_lifted fun debug opts s hr => ?_
  rw [bind_ok] at hr
  obtain ⟨_, _, h1, h2⟩ := hr
  cases h1
  rw [bind_ok] at h2
  obtain ⟨_, s1, h3, h4⟩ := h2
  cases h4
  rw [bind_ok]
  refine ⟨_, _, rfl, ?_⟩
  rw [bind_ok]
  refine ⟨(), s.lifted a.length ts, ?_, rfl⟩
  have key := (uniform_loop (h := hu b.length) (b.length + 1) c).rel a ts ⟨debug, opts, b⟩ ⟨b, 0, [], x⟩
  simp only [h3] at key
  have key := below_loop (fun c => hb b.length (a ++ b).length c (by simp)) (b.length + 1) c _ _ _ key
  have hl : (a ++ b).length + 1 = ((b.length + 1) + k) + (a.length - k) := by
    simp
    omega
  simp only [hl]
  refine loop_mono ?_ _
  refine loop_reach (h debug opts) ?_
  rw [show (⟨b, a.length, ts, x⟩ : HS σ) = HS.lifted ⟨b, 0, [], x⟩ a.length ts by simp [HS.lifted]]
  exact key

end Ulight
