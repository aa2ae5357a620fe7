import Verif.Hl.ProgramStep

/-!
# Elements that are skipped before another one, and tokens with modes, for C58
-/

namespace Ulight

open Spec

variable {σ α : Type}

/-- The emissions for parts that follow each other. -/
def modesEmit (i : Nat) : List (Bytes × HT × Mode) → List Emit
  | [] => []
  | (p, ty, m) :: ps => (if p = [] then [] else [⟨i, p.length, ty, m⟩]) ++ modesEmit (i + p.length) ps

theorem modesEmit_token (i : Nat) (ps : List (Bytes × HT × Mode)) :
    (modesEmit i ps).map Emit.token = parts i (ps.map fun p => (p.1, p.2.1)) := by
  induction ps generalizing i with
  | nil => rfl
  | cons p ps ih =>
    simp only [modesEmit, List.map_append, List.map_cons, parts, ih, opt]
    split <;> simp [Emit.token]

theorem modesEmit_moved (i j : Nat) (ps : List (Bytes × HT × Mode)) :
    (modesEmit j ps).map (Emit.moved i) = modesEmit (i + j) ps := by
  induction ps generalizing j with
  | nil => rfl
  | cons p ps ih => simp [modesEmit, ih, Nat.add_assoc]; split <;> simp [Emit.moved, Nat.add_comm]

theorem modesEmit_append (i : Nat) (ps qs : List (Bytes × HT × Mode)) :
    modesEmit i (ps ++ qs) = modesEmit i ps ++ modesEmit (i + (ps.flatMap Prod.fst).length) qs := by
  induction ps generalizing i with
  | nil => simp [modesEmit]
  | cons p ps ih => simp [modesEmit, ih, Nat.add_assoc]

theorem found_modes {m : HM σ α} {opts : Opts} {x y : σ} {a b : Bytes} {ps : List (Bytes × HT × Mode)}
    (h : ∀ (env : HEnv) i out, env.opts = opts → i + (a ++ b).length = env.src.length →
      wp m (fun _ s => s = ⟨b, i + a.length, out ++ modesEmit i ps, y⟩) env ⟨a ++ b, i, out, x⟩) :
    Found m opts x a (parts 0 (ps.map fun p => (p.1, p.2.1))) b y := by
  rw [← modesEmit_token]
  refine found_of fun env i out h1 h2 => ?_
  rw [modesEmit_moved]
  simpa using h env i out h1 h2

/-- One token with a mode, if it is not empty. -/
theorem wp_emitMode {n i : Nat} {ty : HT} {mode : Mode} {out : List Emit} {Q : Unit → HS σ → Prop} {env : HEnv} {x : σ}
    {a b : Bytes} (hn : a.length = n) (hi : i + (a ++ b).length = env.src.length) :
    wp (HM.emitAdvIf n ty mode) Q env ⟨a ++ b, i, out, x⟩ ↔ Q () ⟨b, i + n, out ++ modesEmit i [(a, ty, mode)], x⟩ := by
  subst hn
  rw [wp_emitAdvIf_iff (by simpa using hi) (by simp)]
  simp [modesEmit]

/-- What is done for an element before which is another one, at the beginning of one iteration. -/
def Skipped (m : HM σ α) (opts : Opts) (x : σ) (a : Bytes) (ts : List Token) (b : Bytes) (y : σ) : Prop :=
  ∃ es : List Emit, ts = es.map Emit.token ∧ ∀ debug src i out, i + (a ++ b).length = src.length →
    m ⟨debug, opts, src⟩ ⟨a ++ b, i, out, x⟩ = m ⟨debug, opts, src⟩ ⟨b, i + a.length, out ++ es.map (Emit.moved i), y⟩

/-- A loop that does one element at a time, perhaps after others. -/
theorem exactIn_of_skipped {body : HM σ Unit} {τ : Type} {R : τ → σ} {E : Opts → τ → Bytes → List Token → Bytes → τ → Prop}
    (hE : ∀ o, E o.seen = E o)
    (h : ∀ opts u a ts b v, E opts u a ts b v →
      a ≠ [] ∧ (Found body opts (R u) a ts b (R v) ∨ b ≠ [] ∧ Skipped body opts (R u) a ts b (R v))) {u : τ} :
    ExactIn (HM.run (do let r ← HM.rem; HM.whileNotEof (r.length + 1) body; pure true) (R u)) E u := by
  intro opts src ts hp debug
  rw [← hE] at hp
  obtain ⟨s, h1, h2⟩ := exactIn_of_steps (body := fun (_ : Unit) => (do
      if ← HM.eof then pure (.inr ())
      else do
        body
        pure (.inl ()) : HM σ (Unit ⊕ Unit))) (R := fun u _ x => x = R u) (opts := opts.seen) (E := E opts.seen)
    (by
      rintro u a ts b v c _ he rfl
      obtain ⟨ha, ⟨es, h2, h3⟩ | ⟨hb, es, h2, h3⟩⟩ := h _ _ _ _ _ _ he
      · refine ⟨es, (), R v, rfl, h2, fun debug src i out hi => leads_of_wp (by cases a <;> simp at ha ⊢) ?_⟩
        rw [wp_bind, wp_eof]
        simp [ha]
        refine wp_mono (h3 debug src i out hi) ?_
        rintro _ _ rfl
        rfl
      · refine ⟨es, (), R v, rfl, h2, fun debug src i out hi => leads_of_skip ?_⟩
        have key : ∀ (env : HEnv) (r : Bytes) j o z, r ≠ [] → (do
            if ← HM.eof then pure (.inr ())
            else do
              body
              pure (.inl ()) : HM σ (Unit ⊕ Unit)) env ⟨r, j, o, z⟩ =
            (body >>= fun _ => pure (.inl ()) : HM σ (Unit ⊕ Unit)) env ⟨r, j, o, z⟩ := by
          intro env r j o z hr
          have he : HM.eof (σ := σ) env ⟨r, j, o, z⟩ = .ok (false, ⟨r, j, o, z⟩) := by
            cases r with
            | nil => exact absurd rfl hr
            | cons c r => rfl
          show HM.bind _ _ _ _ = _
          unfold HM.bind
          rw [he]
          rfl
        rw [key _ _ _ _ _ (by simp [ha]), key _ _ _ _ _ hb]
        show HM.bind _ _ _ _ = HM.bind _ _ _ _
        unfold HM.bind
        rw [h3 debug src i out hi])
    (by
      intro u c x debug src i out _ _
      exact ⟨x, rfl⟩) hp rfl debug src 0 [] (by simp)
  refine ⟨s.out, ?_, ?_⟩
  · have : (do let r ← HM.rem; HM.whileNotEof (r.length + 1) body; pure true : HM σ Bool) ⟨debug, opts.seen, src⟩
        ⟨src, 0, [], R u⟩ = .ok (true, s) := by
      rw [bind_ok]
      refine ⟨_, _, rfl, ?_⟩
      rw [bind_ok]
      exact ⟨_, _, h1, rfl⟩
    simp only [HM.run, HM.runAll, this]
  · simpa [shift] using h2

/-- Every text with a property that what follows an element has again is a sequence of elements. -/
theorem total_of_where {E : σ → Bytes → List Token → Bytes → σ → Prop} {P : Bytes → Prop}
    (h : ∀ x src, P src → src ≠ [] → ∃ a ts b y, src = a ++ b ∧ a ≠ [] ∧ P b ∧ E x a ts b y) (src : Bytes) (hp : P src) (x : σ) :
    ∃ ts, ProgramIn E x src ts := by
  induction hn : src.length using Nat.strongRecOn generalizing src x with
  | ind n ih =>
    by_cases he : src = []
    · subst he
      exact ⟨[], .nil⟩
    · obtain ⟨a, ts, b, y, rfl, ha, hb, hE⟩ := h x src hp he
      have := List.length_pos_iff.2 ha
      obtain ⟨us, hu⟩ := ih b.length (by simp at hn; omega) b hb y rfl
      exact ⟨_, .cons hE hu⟩

end Ulight
