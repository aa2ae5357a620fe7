import Verif.Hl.ProgramPlaces
import Verif.Spec.Grammar

/-!
# What a function of a highlighter reads, for C58
-/

namespace Ulight

open Spec

variable {σ α β : Type}

/-- In the state `x`, the function reads the text `a` before `b`, emits the tokens `ts`, and returns `v`; `y` is the state
after it. -/
def Reads (env : HEnv) (m : HM σ α) (x : σ) (a : Bytes) (ts : List Token) (b : Bytes) (v : α) (y : σ) : Prop :=
  ∃ es : List Emit, ts = es.map Emit.token ∧ ∀ i out, i + (a ++ b).length = env.src.length →
    m env ⟨a ++ b, i, out, x⟩ = .ok (v, ⟨b, i + a.length, out ++ es.map (Emit.moved i), y⟩)

variable {env : HEnv} {x y z : σ} {a a' b : Bytes} {ts us : List Token} {v : α}

theorem reads_pure : Reads env (pure v) x [] [] b v x := ⟨[], rfl, fun i out _ => by simp; rfl⟩

theorem Reads.bind {m : HM σ β} {f : β → HM σ α} {w : β} (h : Reads env m x a ts (a' ++ b) w y)
    (h' : Reads env (f w) y a' us b v z) : Reads env (m >>= f) x (a ++ a') (ts ++ shift a.length us) b v z := by
  obtain ⟨es, rfl, h⟩ := h
  obtain ⟨es', rfl, h'⟩ := h'
  refine ⟨es ++ es'.map (Emit.moved a.length), by rw [List.map_append, moved_token], fun i out hi => ?_⟩
  show HM.bind m f env _ = _
  unfold HM.bind
  rw [List.append_assoc, h i out (by simp at hi ⊢; omega)]
  dsimp only
  rw [h' (i + a.length) _ (by simp at hi ⊢; omega)]
  simp [Emit.moved, Function.comp_def, Nat.add_assoc, Nat.add_comm]
  intros
  omega

/-- A first part that reads nothing. -/
theorem Reads.bind_none {m : HM σ β} {f : β → HM σ α} {w : β} (h : Reads env m x [] [] (a ++ b) w y)
    (h' : Reads env (f w) y a ts b v z) : Reads env (m >>= f) x a ts b v z := by
  have := h.bind h'
  simpa [shift] using this

/-- A second part that reads nothing. -/
theorem Reads.bind_last {m : HM σ β} {f : β → HM σ α} {w : β} (h : Reads env m x a ts b w y)
    (h' : Reads env (f w) y [] [] b v z) : Reads env (m >>= f) x a ts b v z := by
  have := Reads.bind (a' := []) h h'
  simpa [shift] using this

theorem reads_rem {f : Bytes → HM σ α} (h : Reads env (f (a ++ b)) x a ts b v y) : Reads env (HM.rem >>= f) x a ts b v y := h

theorem reads_eof {f : Bool → HM σ α} (h : Reads env (f (a ++ b).isEmpty) x a ts b v y) : Reads env (HM.eof >>= f) x a ts b v y := h

theorem reads_get {f : σ → HM σ α} (h : Reads env (f x) x a ts b v y) : Reads env (HM.get >>= f) x a ts b v y := h

theorem reads_opts {f : Opts → HM σ α} (h : Reads env (f env.opts) x a ts b v y) : Reads env (HM.opts >>= f) x a ts b v y := h

theorem reads_set {f : Unit → HM σ α} (h : Reads env (f ()) y a ts b v z) : Reads env (HM.set y >>= f) x a ts b v z := h

theorem reads_lift {e : Except Fault β} {f : β → HM σ α} {w : β} (he : e = .ok w) (h : Reads env (f w) x a ts b v y) :
    Reads env (HM.lift e >>= f) x a ts b v y := by
  subst he
  exact h

theorem reads_this {c : Prop} [Decidable c] {m m' : HM σ α} (hc : c) (h : Reads env m x a ts b v y) :
    Reads env (if c then m else m') x a ts b v y := by rwa [if_pos hc]

theorem reads_else {c : Prop} [Decidable c] {m m' : HM σ α} (hc : ¬ c) (h : Reads env m' x a ts b v y) :
    Reads env (if c then m else m') x a ts b v y := by rwa [if_neg hc]

theorem reads_emit {n : Nat} {ty : HT} {mode : Mode} (hn : n = a.length) (h0 : a ≠ []) :
    Reads env (HM.emitAdv n ty mode) x a [⟨0, n, ty⟩] b () x := by
  refine ⟨[⟨0, n, ty, mode⟩], rfl, fun i out hi => ?_⟩
  have hp := List.length_pos_iff.2 h0
  subst hn
  simp only [HM.emitAdv, HM.index, HM.emit, HM.advance, bind, HM.bind]
  have : (env.debug && !(a.length != 0 && decide (i < env.src.length) && decide (i + a.length ≤ env.src.length))) = false := by
    simp at hi
    have h1 : i < env.src.length := by omega
    have h2 : i + a.length ≤ env.src.length := by omega
    simp [h1, h2, h0]
  rw [this]
  simp [Emit.moved]

theorem reads_emitIf {n : Nat} {ty : HT} (hn : n = a.length) : Reads env (HM.emitAdvIf n ty) x a (opt 0 a ty) b () x := by
  subst hn
  unfold HM.emitAdvIf opt
  by_cases h : a = []
  · subst h
    simpa using reads_pure
  · rw [if_neg h]
    exact reads_this (by simpa using h) (reads_emit rfl h)

theorem reads_advance {n : Nat} (hn : n = a.length) : Reads (σ := σ) env (HM.advance n) x a [] b () x := by
  subst hn
  refine ⟨[], rfl, fun i out hi => ?_⟩
  simp [HM.advance]

theorem reads_or {m m' : HM σ Bool} (h : Reads env m x a ts b true y) : Reads env (HM.or m m') x a ts b true y :=
  h.bind_last (reads_this rfl reads_pure)

theorem reads_or_else {m m' : HM σ Bool} {v : Bool} (h : Reads env m x [] [] (a ++ b) false x) (h' : Reads env m' x a ts b v y) :
    Reads env (HM.or m m') x a ts b v y :=
  h.bind_none (reads_else (by simp) h')

theorem reads_loop {body : β → HM σ (β ⊕ α)} {m : Nat} {c c' : β} (hm : 0 < m) (h : Reads env (body c) x a ts (a' ++ b) (.inl c') y)
    (h' : Reads env (HM.loop (m - 1) body c') y a' us b v z) :
    Reads env (HM.loop m body c) x (a ++ a') (ts ++ shift a.length us) b v z := by
  obtain ⟨m, rfl⟩ : ∃ k, m = k + 1 := ⟨m - 1, by omega⟩
  unfold HM.loop
  exact h.bind h'

theorem reads_loop_none {body : β → HM σ (β ⊕ α)} {m : Nat} {c c' : β} (hm : 0 < m) (h : Reads env (body c) x [] [] (a ++ b) (.inl c') y)
    (h' : Reads env (HM.loop (m - 1) body c') y a ts b v z) : Reads env (HM.loop m body c) x a ts b v z := by
  simpa [shift] using reads_loop hm h h'

theorem reads_loop_end {body : β → HM σ (β ⊕ α)} {m : Nat} {c : β} (hm : 0 < m) (h : Reads env (body c) x a ts b (.inr v) y) :
    Reads env (HM.loop m body c) x a ts b v y := by
  obtain ⟨m, rfl⟩ : ∃ k, m = k + 1 := ⟨m - 1, by omega⟩
  unfold HM.loop
  exact h.bind_last reads_pure

/-- One phrase after another. -/
theorem reads_seq {P Q : Phrase} {m : HM σ β} {f : β → HM σ α} (hPQ : (P ⬝ Q) a ts b)
    (h : ∀ a ts b, P a ts b → ∃ w, Reads env m x a ts b w x ∧ ∀ a ts b, Q a ts b → Reads env (f w) x a ts b v y) :
    Reads env (m >>= f) x a ts b v y := by
  obtain ⟨u, us, w, ws, rfl, rfl, h1, h2⟩ := hPQ
  obtain ⟨r, h3, h4⟩ := h _ _ _ h1
  exact h3.bind (h4 _ _ _ h2)

/-- A loop whose body reads phrases until it reads the last one. -/
theorem reads_star {P Q : Phrase} {body : Unit → HM σ (Unit ⊕ α)} (hs : Phrase.star P Q a ts b)
    (hP : ∀ a ts b, P a ts b → a ≠ [] → Reads env (body ()) x a ts b (.inl ()) x) (hQ : ∀ a ts b, Q a ts b → Reads env (body ()) x a ts b (.inr v) x)
    (m : Nat) (hm : (a ++ b).length < m) : Reads env (HM.loop m body ()) x a ts b v x := by
  induction hs generalizing m with
  | last h => exact reads_loop_end (by omega) (hQ _ _ _ h)
  | more h h0 _ ih =>
    have := List.length_pos_iff.2 h0
    exact reads_loop (by omega) (hP _ _ _ h h0) (ih _ (by simp at hm ⊢; omega))

theorem Reads.wp {m : HM σ α} {Q : α → HS σ → Prop} (h : Reads env m x a ts b v y) :
    ∃ es : List Emit, ts = es.map Emit.token ∧ ∀ i out, i + (a ++ b).length = env.src.length →
      Q v ⟨b, i + a.length, out ++ es.map (Emit.moved i), y⟩ → Ulight.wp m Q env ⟨a ++ b, i, out, x⟩ := by
  obtain ⟨es, rfl, h⟩ := h
  exact ⟨es, rfl, fun i out hi hq => ⟨_, _, h i out hi, hq⟩⟩

end Ulight
