import Verif.Hl.Program

/-!
# Sequences of lexical elements that depend on a state
-/

namespace Ulight

open Spec

variable {σ α β : Type}

/-- The loop gets from one state to another in at most `n` iterations, as far as the result is concerned. -/
def Leads (body : β → HM σ (β ⊕ α)) (env : HEnv) (n : Nat) (c : β) (s : HS σ) (c' : β) (s' : HS σ) : Prop :=
  ∀ m r, HM.loop m body c' env s' = .ok r → HM.loop (m + n) body c env s = .ok r

theorem leads_trans {body : β → HM σ (β ⊕ α)} {env : HEnv} {m n : Nat} {c c' c'' : β} {s s' s'' : HS σ}
    (h : Leads body env m c s c' s') (h' : Leads body env n c' s' c'' s'') : Leads body env (m + n) c s c'' s'' := by
  intro k r hr
  have := h _ _ (h' _ _ hr)
  rwa [Nat.add_assoc, Nat.add_comm n m] at this

theorem leads_of_reach {body : β → HM σ (β ⊕ α)} {env : HEnv} {k n : Nat} {c c' : β} {s s' : HS σ} (hk : k ≤ n)
    (h : Reach body env k c s c' s') : Leads body env n c s c' s' := by
  intro m r hr
  have := loop_mono (loop_reach h hr) (n - k)
  rwa [show m + k + (n - k) = m + n by omega] at this

/-- One iteration. -/
theorem leads_of_wp {body : β → HM σ (β ⊕ α)} {env : HEnv} {n : Nat} {c c' : β} {s s' : HS σ} (hn : 0 < n)
    (h : wp (body c) (fun r t => r = .inl c' ∧ t = s') env s) : Leads body env n c s c' s' :=
  leads_of_reach hn ⟨c', s', ok_of_wp h, rfl, rfl⟩

/-- Less than one iteration. -/
theorem leads_of_skip {body : β → HM σ (β ⊕ α)} {env : HEnv} {n : Nat} {c c' : β} {s s' : HS σ}
    (h : body c env s = body c' env s') : Leads body env n c s c' s' := by
  intro m r hr
  refine loop_mono (n := m) ?_ n
  cases m with
  | zero => cases hr
  | succ m =>
    unfold HM.loop at hr ⊢
    rwa [bind_left' h]
where
  bind_left' {f : β ⊕ α → HM σ α} (h : body c env s = body c' env s') :
      (body c >>= f) env s = (body c' >>= f) env s' := by
    show HM.bind (body c) f env s = HM.bind (body c') f env s'
    unfold HM.bind
    rw [h]

/-- In the loop, the text `a` before `b` gets the tokens `ts`, and the state changes from `c`, `x` to `c'`, `x'`. -/
def Steps (body : β → HM σ (β ⊕ α)) (opts : Opts) (c : β) (x : σ) (a : Bytes) (ts : List Emit) (b : Bytes) (c' : β) (x' : σ) :
    Prop :=
  ∀ debug src i out, i + (a ++ b).length = src.length →
    Leads body ⟨debug, opts, src⟩ a.length c ⟨a ++ b, i, out, x⟩ c' ⟨b, i + a.length, out ++ ts.map (Emit.moved i), x'⟩

theorem partsEmit_moved (i j : Nat) (ps : List (Bytes × HT)) : (partsEmit j ps).map (Emit.moved i) = partsEmit (i + j) ps := by
  induction ps generalizing j with
  | nil => rfl
  | cons p ps ih => simp [partsEmit, optEmit, ih, Nat.add_assoc]; split <;> simp [Emit.moved, Nat.add_comm]

theorem moved_token (i : Nat) (es : List Emit) : (es.map (Emit.moved i)).map Emit.token = shift i (es.map Emit.token) := by
  simp [shift, Emit.moved, Emit.token, Function.comp_def, Nat.add_comm]

theorem shift_append (i : Nat) (ts us : List Token) : shift i (ts ++ us) = shift i ts ++ shift i us := by simp [shift]

theorem shift_shift (i j : Nat) (ts : List Token) : shift i (shift j ts) = shift (i + j) ts := by
  simp [shift, Function.comp_def, Nat.add_assoc]

theorem exactIn_of_steps {body : β → HM σ (β ⊕ Unit)} {τ : Type} {R : τ → β → σ → Prop}
    {E : τ → Bytes → List Token → Bytes → τ → Prop} {opts : Opts}
    (h : ∀ u a ts b v c x, E u a ts b v → R u c x →
      ∃ es c' x', R v c' x' ∧ ts = es.map Emit.token ∧ Steps body opts c x a es b c' x')
    (h0 : ∀ u c x debug src i out, R u c x → i = src.length → ∃ x', body c ⟨debug, opts, src⟩ ⟨[], i, out, x⟩ = .ok (.inr (), ⟨[], i, out, x'⟩))
    {u : τ} {src : Bytes} {ts : List Token} (hp : ProgramIn E u src ts) {c : β} {x : σ} (hR : R u c x) (debug : Bool)
    (whole : Bytes) (i : Nat) (out : List Emit) (hi : i + src.length = whole.length) :
    ∃ s, HM.loop (src.length + 1) body c ⟨debug, opts, whole⟩ ⟨src, i, out, x⟩ = .ok ((), s) ∧
      s.out.map Emit.token = out.map Emit.token ++ shift i ts := by
  induction hp generalizing c x i out with
  | nil =>
    obtain ⟨x', h1⟩ := h0 _ _ _ debug whole i out hR (by simpa using hi)
    refine ⟨⟨[], i, out, x'⟩, ?_, by simp [shift]⟩
    show (body c >>= _) _ _ = _
    rw [bind_ok]
    exact ⟨_, _, h1, rfl⟩
  | @cons u a ts b v us he _ ih =>
    obtain ⟨es, c', x', hR', rfl, hs⟩ := h _ _ _ _ _ _ _ he hR
    obtain ⟨s, h1, h2⟩ := ih hR' (i + a.length) (out ++ es.map (Emit.moved i)) (by simp at hi ⊢; omega)
    refine ⟨s, ?_, ?_⟩
    · have := hs debug whole i out hi _ _ h1
      rwa [show b.length + 1 + a.length = (a ++ b).length + 1 by simp; omega] at this
    · rw [h2, List.map_append, moved_token, shift_append, shift_shift, List.append_assoc]

/-- An element before a sequence of elements. -/
theorem Spec.ProgramIn.before {E : σ → Bytes → List Token → Bytes → σ → Prop} {b : Bytes} {ts us : List Token} {x y : σ}
    (h' : ProgramIn E y b us) (a : Bytes) (h : E x a ts b y) : ProgramIn E x (a ++ b) (ts ++ shift a.length us) := .cons h h'

theorem Spec.ExactIn.of_program {hl : Highlight} {E : Opts → σ → Bytes → List Token → Bytes → σ → Prop} {x : σ}
    (h : ExactIn hl E x) {src : Bytes} {ts : List Token} {opts : Opts} (hp : ∃ us, ProgramIn (E opts) x src us ∧ us = ts)
    (debug : Bool) : ∃ es, hl debug opts src = .ok (true, es) ∧ es.map Emit.token = ts := by
  obtain ⟨us, h1, rfl⟩ := hp
  exact h _ _ _ h1 _

/-- One iteration highlights the text `a` before `b`. -/
def Does (m : HM σ α) (opts : Opts) (x : σ) (a : Bytes) (es : List Emit) (b : Bytes) (x' : σ) : Prop :=
  ∀ debug src i out, i + (a ++ b).length = src.length →
    wp m (fun _ s => s = ⟨b, i + a.length, out ++ es.map (Emit.moved i), x'⟩) ⟨debug, opts, src⟩ ⟨a ++ b, i, out, x⟩

/-- A loop that does one element at a time, and whose only state is the one of the highlighter. -/
theorem exactIn_of_step {body : HM σ Unit} {τ : Type} {R : τ → σ → Prop} {E : Opts → τ → Bytes → List Token → Bytes → τ → Prop}
    (hE : ∀ o, E o.seen = E o)
    (h : ∀ opts u a ts b v x, E opts u a ts b v → R u x →
      a ≠ [] ∧ ∃ es x', R v x' ∧ ts = es.map Emit.token ∧ Does body opts x a es b x') {u : τ} {x : σ} (hx : R u x) :
    ExactIn (HM.run (do let r ← HM.rem; HM.whileNotEof (r.length + 1) body; pure true) x) E u := by
  intro opts src ts hp debug
  rw [← hE] at hp
  obtain ⟨s, h1, h2⟩ := exactIn_of_steps (body := fun (_ : Unit) => (do
      if ← HM.eof then pure (.inr ())
      else do
        body
        pure (.inl ()) : HM σ (Unit ⊕ Unit))) (R := fun u _ x => R u x) (opts := opts.seen) (E := E opts.seen)
    (by
      intro u a ts b v c x he hR
      obtain ⟨ha, es, x', h1, h2, h3⟩ := h _ _ _ _ _ _ _ he hR
      refine ⟨es, (), x', h1, h2, fun debug src i out hi => leads_of_wp (by cases a <;> simp at ha ⊢) ?_⟩
      rw [wp_bind, wp_eof]
      simp [ha]
      refine wp_mono (h3 debug src i out hi) ?_
      rintro _ _ rfl
      rfl)
    (by
      intro u c x debug src i out _ _
      exact ⟨x, rfl⟩) hp hx debug src 0 [] (by simp)
  refine ⟨s.out, ?_, ?_⟩
  · have : (do let r ← HM.rem; HM.whileNotEof (r.length + 1) body; pure true : HM σ Bool) ⟨debug, opts.seen, src⟩
        ⟨src, 0, [], x⟩ = .ok (true, s) := by
      rw [bind_ok]
      refine ⟨_, _, rfl, ?_⟩
      rw [bind_ok]
      exact ⟨_, _, h1, rfl⟩
    simp only [HM.run, HM.runAll, this]
  · simpa [shift] using h2

end Ulight
