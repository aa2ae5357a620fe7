import Verif.Hl.Lemmas
import Verif.Hl.Scan

/-!
# Highlighters that only move forward
-/

namespace Ulight

open Spec

variable {σ : Type} {α : Type} {R : Rules} {env : HEnv}

/-- A good state was reached by moving forward. -/
structure Moved (R : Rules) (env : HEnv) (s s' : HS σ) : Prop where
  good : Good R env s'
  le : s.idx ≤ s'.idx

theorem Moved.refl {s : HS σ} (g : Good R env s) : Moved R env s s := ⟨g, Nat.le_refl _⟩

theorem Moved.trans {s s' s'' : HS σ} (h : Moved R env s s') (h' : Moved R env s' s'') :
    Moved R env s s'' := ⟨h'.good, Nat.le_trans h.le h'.le⟩

theorem Moved.length {s s' : HS σ} (h : Moved R env s s') (g : Good R env s) :
    s'.rem.length ≤ s.rem.length := by
  have := g.len
  have := h.good.len
  have := h.le
  omega

theorem Consumes.moved {s s' : HS σ} {n : Nat} (h : Consumes R env s n s') : Moved R env s s' :=
  ⟨h.1, by have := h.2.2.1; omega⟩

/-- `m` keeps good states good and moves forward. -/
def Safe (R : Rules) (m : HM σ α) : Prop :=
  ∀ env s, Good R env s → wp m (fun _ s' => Moved R env s s') env s

/-- `m` moves forward by at least one byte if it succeeds, otherwise perhaps not. -/
def Expect (R : Rules) (m : HM σ Bool) : Prop :=
  ∀ env s, Good R env s → wp m (fun b s' => Moved R env s s' ∧ (b = true → s.idx < s'.idx)) env s

theorem Expect.safe {m : HM σ Bool} (h : Expect R m) : Safe R m :=
  fun env s g => wp_mono (h env s g) fun _ _ h => h.1

theorem Safe.bind {β : Type} {m : HM σ α} {f : α → HM σ β} (h : Safe R m) (hf : ∀ a, Safe R (f a)) :
    Safe R (m >>= f) := by
  intro env s g
  rw [wp_bind]
  refine wp_mono (h env s g) ?_
  intro a s1 m1
  exact wp_mono (hf a env s1 m1.good) fun _ _ h => m1.trans h

theorem Safe.pure (a : α) : Safe R (pure a : HM σ α) := by
  intro env s g
  rw [wp_pure]
  exact .refl g

theorem Safe.ite {c : Prop} [Decidable c] {a b : HM σ α} (h1 : c → Safe R a) (h2 : ¬ c → Safe R b) :
    Safe R (if c then a else b) := by
  split
  · exact h1 ‹_›
  · exact h2 ‹_›

theorem Expect.or {a b : HM σ Bool} (ha : Expect R a) (hb : Expect R b) : Expect R (HM.or a b) := by
  intro env s g
  unfold HM.or
  rw [wp_bind]
  refine wp_mono (ha env s g) ?_
  rintro r s1 ⟨m1, h1⟩
  cases r with
  | true => simpa using ⟨m1, h1 rfl⟩
  | false =>
    simp only [Bool.false_eq_true, if_false]
    refine wp_mono (hb env s1 m1.good) ?_
    rintro r s2 ⟨m2, h2⟩
    have := m1.le
    exact ⟨m1.trans m2, fun h => by have := h2 h; omega⟩

/-- A loop in which every iteration that continues moves forward. -/
theorem Safe.loop {β : Type} {body : β → HM σ (β ⊕ α)} {fuel : Nat} {b : β}
    (h : ∀ b env s, Good R env s → wp (body b) (fun r s' => Moved R env s s' ∧
      (r.isLeft = true → s.idx < s'.idx)) env s) {env : HEnv} {s : HS σ} (g : Good R env s)
    (hf : s.rem.length < fuel) :
    wp (HM.loop fuel body b) (fun _ s' => Moved R env s s') env s := by
  refine wp_loop (fun _ s' => Moved R env s s') (fun _ s' => s'.rem.length) ?_ fuel b s (.refl g) hf
  intro b s1 m1
  refine wp_mono (h b env s1 m1.good) ?_
  rintro r s2 ⟨m2, h2⟩
  match r with
  | .inl b' =>
    refine ⟨m1.trans m2, ?_⟩
    have := h2 rfl
    have := m1.good.len
    have := m2.good.len
    omega
  | .inr a => exact m1.trans m2

/-- The first byte. -/
theorem startsWith_one {s : Bytes} {c : UInt8} (h : startsWith s [c] = true) : ∃ t, s = c :: t :=
  startsWith_iff.1 h

/-- A highlighter that ends in a good state. -/
theorem run_of_wp_prefix {m : HM σ Bool} {ext : σ} {debug : Bool} {opts : Opts} {src : Bytes}
    {P : Bool → Prop}
    (h : ∀ s : HS σ, Good R ⟨debug, opts.seen, src⟩ s → s.rem = src → s.idx = 0 → s.ext = ext →
      wp m (fun b s' => Good R ⟨debug, opts.seen, src⟩ s' ∧ P b) ⟨debug, opts.seen, src⟩ s) :
    ∃ good es p, HM.run m ext debug opts src = .ok (good, es) ∧ P good ∧ p ≤ src.length ∧
      Tiles R src p (es.map Emit.token) := by
  obtain ⟨b, s', h1, h2, h3⟩ := h ⟨src, 0, [], ext⟩ ⟨by simp, by simp, .nil⟩ rfl rfl rfl
  exact ⟨b, s'.out, s'.idx, by simp [HM.run, HM.runAll, h1], h3, h2.le, h2.tiles⟩

end Ulight
