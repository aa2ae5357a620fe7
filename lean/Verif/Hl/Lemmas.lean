import Verif.Hl.Base
import Verif.Spec.Stream
import Verif.ApiLemmas

/-!
# Reasoning about highlighters

`wp m Q env s`: running `m` in state `s` does not fault, and `Q` holds of the result and the new
state.  `Good R env s`: the state is consistent with the source, and the emissions so far tile the
consumed part of the source according to the rules `R`.
-/

namespace Ulight

open Spec

variable {σ α β : Type}

/-- `m` does not fault, and `Q` holds of its result. -/
def wp (m : HM σ α) (Q : α → HS σ → Prop) (env : HEnv) (s : HS σ) : Prop :=
  ∃ a s', m env s = .ok (a, s') ∧ Q a s'

/-- The state is consistent, and the output tiles the consumed text up to `p`. -/
structure GoodAt (R : Rules) (env : HEnv) (p : Nat) (s : HS σ) : Prop where
  le : s.idx ≤ env.src.length
  rem : s.rem = env.src.drop s.idx
  tiles : Tiles R env.src p (s.out.map Emit.token)

/-- The state is consistent, and the output tiles the consumed text. -/
def Good (R : Rules) (env : HEnv) (s : HS σ) : Prop := GoodAt R env s.idx s

theorem GoodAt.good {R : Rules} {env : HEnv} {p : Nat} {s : HS σ} (h : GoodAt R env p s)
    (e : p = s.idx) : Good R env s := by
  subst e; exact h

theorem GoodAt.len {R : Rules} {env : HEnv} {p : Nat} {s : HS σ} (h : GoodAt R env p s) :
    s.idx + s.rem.length = env.src.length := by
  have := h.le
  rw [h.rem]
  simp
  omega

theorem Good.len {R : Rules} {env : HEnv} {s : HS σ} (h : Good R env s) :
    s.idx + s.rem.length = env.src.length := GoodAt.len h

section Simp

variable {Q : α → HS σ → Prop} {env : HEnv} {s : HS σ}

theorem wp_mono {m : HM σ α} {Q' : α → HS σ → Prop} (h : wp m Q env s)
    (hq : ∀ a s', Q a s' → Q' a s') : wp m Q' env s := by
  obtain ⟨a, s', h1, h2⟩ := h
  exact ⟨a, s', h1, hq a s' h2⟩

theorem wp_of_ok {m : HM σ α} {a : α} {s' : HS σ} (h : m env s = .ok (a, s')) :
    wp m Q env s ↔ Q a s' := by
  constructor
  · rintro ⟨b, s'', h', hq⟩
    rw [h] at h'
    cases h'
    exact hq
  · exact fun hq => ⟨a, s', h, hq⟩

@[simp] theorem wp_pure (a : α) : wp (pure a) Q env s ↔ Q a s := wp_of_ok rfl

@[simp] theorem wp_bind (m : HM σ β) (f : β → HM σ α) :
    wp (m >>= f) Q env s ↔ wp m (fun a s' => wp (f a) Q env s') env s := by
  show wp (HM.bind m f) Q env s ↔ _
  cases h : m env s with
  | error e =>
    constructor
    · rintro ⟨a, s', h', _⟩
      simp [HM.bind, h] at h'
    · rintro ⟨a, s', h', _⟩
      simp [h] at h'
  | ok r =>
    obtain ⟨a, s'⟩ := r
    rw [wp_of_ok h]
    unfold wp
    simp [HM.bind, h]

@[simp] theorem wp_rem {Q : Bytes → HS σ → Prop} : wp HM.rem Q env s ↔ Q s.rem s := wp_of_ok rfl

@[simp] theorem wp_index {Q : Nat → HS σ → Prop} : wp HM.index Q env s ↔ Q s.idx s := wp_of_ok rfl

@[simp] theorem wp_eof {Q : Bool → HS σ → Prop} : wp HM.eof Q env s ↔ Q s.rem.isEmpty s :=
  wp_of_ok rfl

@[simp] theorem wp_opts {Q : Opts → HS σ → Prop} : wp HM.opts Q env s ↔ Q env.opts s := wp_of_ok rfl

@[simp] theorem wp_get {Q : σ → HS σ → Prop} : wp HM.get Q env s ↔ Q s.ext s := wp_of_ok rfl

@[simp] theorem wp_hassert {c : Bool} {Q : Unit → HS σ → Prop} :
    wp (HM.hassert c) Q env s ↔ c = true ∧ Q () s := by
  cases c with
  | true => rw [wp_of_ok (a := ()) (s' := s) rfl]; simp
  | false => simp [wp, HM.hassert]

theorem wp_dassert {c : Bool} {Q : Unit → HS σ → Prop} (hc : c = true) (h : Q () s) :
    wp (HM.dassert c) Q env s := by
  subst hc
  exact ⟨(), s, by simp [HM.dassert], h⟩

@[simp] theorem wp_lift {x : Except Fault α} :
    wp (HM.lift x) Q env s ↔ ∃ a, x = .ok a ∧ Q a s := by
  cases x with
  | ok a => rw [wp_of_ok (a := a) (s' := s) rfl]; simp
  | error e => simp [wp, HM.lift]

theorem wp_ite {c : Prop} [Decidable c] {a b : HM σ α} (h1 : c → wp a Q env s)
    (h2 : ¬ c → wp b Q env s) : wp (if c then a else b) Q env s := by
  split
  · exact h1 ‹_›
  · exact h2 ‹_›

end Simp

section Rules

variable {R : Rules} {env : HEnv} {s : HS σ} {Q : Unit → HS σ → Prop}

theorem wp_set {x : σ} {p : Nat} (g : GoodAt R env p s)
    (k : ∀ s', GoodAt R env p s' → s'.rem = s.rem → s'.idx = s.idx → s'.ext = x → Q () s') :
    wp (HM.set x) Q env s :=
  ⟨(), _, rfl, k _ ⟨g.le, g.rem, g.tiles⟩ rfl rfl rfl⟩

/-- The state after an assignment to members of the derived class. -/
def HS.withExt (s : HS σ) (x : σ) : HS σ := ⟨s.rem, s.idx, s.out, x⟩

theorem wp_set_iff {x : σ} : wp (HM.set x) Q env s ↔ Q () (s.withExt x) := wp_of_ok rfl

theorem wp_modify {f : σ → σ} {p : Nat} (g : GoodAt R env p s)
    (k : ∀ s', GoodAt R env p s' → s'.rem = s.rem → s'.idx = s.idx → s'.ext = f s.ext → Q () s') :
    wp (HM.modify f) Q env s :=
  ⟨(), _, rfl, k _ ⟨g.le, g.rem, g.tiles⟩ rfl rfl rfl⟩

/-- Advancing without committing the text as a gap. -/
theorem wp_advanceAt {p n : Nat} (g : GoodAt R env p s) (hn : n ≤ s.rem.length)
    (k : ∀ s', GoodAt R env p s' → s'.rem = s.rem.drop n → s'.idx = s.idx + n → s'.ext = s.ext →
      Q () s') : wp (HM.advance n) Q env s := by
  have := g.len
  refine ⟨(), ⟨s.rem.drop n, s.idx + n, s.out, s.ext⟩, by simp [HM.advance, hn], k _ ?_ rfl rfl rfl⟩
  refine ⟨by simp only; omega, ?_, g.tiles⟩
  simp [g.rem]

/-- Emitting a token that starts where the committed text ends. -/
theorem wp_emitAt {p n : Nat} {ty : HT} {mode : Mode} (g : GoodAt R env p s) (h0 : 0 < n)
    (hn : p + n ≤ env.src.length) (ht : ty ≠ .none) (hR : R.tok (env.src.drop p) n ty)
    (k : ∀ s', GoodAt R env (p + n) s' → s'.rem = s.rem → s'.idx = s.idx → s'.ext = s.ext →
      Q () s') : wp (HM.emit p n ty mode) Q env s := by
  refine ⟨(), ⟨s.rem, s.idx, s.out ++ [⟨p, n, ty, mode⟩], s.ext⟩, ?_, k _ ?_ rfl rfl rfl⟩
  · have : (n != 0 && decide (p < env.src.length) && decide (p + n ≤ env.src.length)) = true := by
      simp
      omega
    simp [HM.emit, this]
  · refine ⟨g.le, g.rem, ?_⟩
    simp only [List.map_append, List.map_cons, List.map_nil]
    exact .tok n ty g.tiles h0 (by omega) ht hR

/-- The state after `advance`. -/
def HS.adv (s : HS σ) (n : Nat) : HS σ := ⟨s.rem.drop n, s.idx + n, s.out, s.ext⟩

/-- The state after `emit_and_advance`. -/
def HS.emitted (s : HS σ) (n : Nat) (ty : HT) (mode : Mode) : HS σ :=
  ⟨s.rem.drop n, s.idx + n, s.out ++ [⟨s.idx, n, ty, mode⟩], s.ext⟩

theorem wp_advance_iff {n : Nat} (hn : n ≤ s.rem.length) :
    wp (HM.advance n) Q env s ↔ Q () (s.adv n) :=
  wp_of_ok (by simp [HM.advance, hn, HS.adv])

theorem wp_emitAdv_iff {n : Nat} {ty : HT} {mode : Mode}
    (hl : s.idx + s.rem.length = env.src.length) (h0 : 0 < n) (hn : n ≤ s.rem.length) :
    wp (HM.emitAdv n ty mode) Q env s ↔ Q () (s.emitted n ty mode) := by
  apply wp_of_ok
  have : (n != 0 && decide (s.idx < env.src.length) && decide (s.idx + n ≤ env.src.length)) = true := by
    simp
    omega
  simp [HM.emitAdv, HM.bind, HM.index, bind, HM.emit, this, HM.advance, hn, HS.emitted]

theorem wp_advance {n : Nat} (g : Good R env s) (hn : n ≤ s.rem.length)
    (hR : R.gap s.rem n)
    (k : ∀ s', Good R env s' → s'.rem = s.rem.drop n → s'.idx = s.idx + n → s'.ext = s.ext →
      Q () s') : wp (HM.advance n) Q env s := by
  apply wp_advanceAt g hn
  intro s' g' h1 h2 h3
  have := g.len
  refine k s' ⟨g'.le, g'.rem, ?_⟩ h1 h2 h3
  rw [h2]
  refine .gap n g'.tiles (by omega) ?_
  rw [← g.rem]
  exact hR

theorem wp_emitAdv {n : Nat} {ty : HT} {mode : Mode} (g : Good R env s) (h0 : 0 < n)
    (hn : n ≤ s.rem.length) (ht : ty ≠ .none) (hR : R.tok s.rem n ty)
    (k : ∀ s', Good R env s' → s'.rem = s.rem.drop n → s'.idx = s.idx + n → s'.ext = s.ext →
      Q () s') : wp (HM.emitAdv n ty mode) Q env s := by
  have hlen := g.len
  refine ⟨(), ⟨s.rem.drop n, s.idx + n, s.out ++ [⟨s.idx, n, ty, mode⟩], s.ext⟩, ?_,
    k _ ⟨by simp only; omega, by simp [GoodAt.rem g], ?_⟩ rfl rfl rfl⟩
  · have : (n != 0 && decide (s.idx < env.src.length) && decide (s.idx + n ≤ env.src.length)) = true := by
      simp
      omega
    simp [HM.emitAdv, HM.bind, HM.index, bind, HM.emit, this, HM.advance, hn]
  · simp only [List.map_append, List.map_cons, List.map_nil]
    exact .tok n ty g.tiles h0 (by omega) ht (by rw [← g.rem]; exact hR)

end Rules

section Loops

variable {env : HEnv}

/-- Loops end if a measure decreases. -/
theorem wp_loop {body : β → HM σ (β ⊕ α)} {Q : α → HS σ → Prop} (I : β → HS σ → Prop)
    (μ : β → HS σ → Nat)
    (step : ∀ b s, I b s → wp (body b) (fun r s' =>
      match r with
      | .inl b' => I b' s' ∧ μ b' s' < μ b s
      | .inr a => Q a s') env s) :
    ∀ (fuel : Nat) (b : β) (s : HS σ), I b s → μ b s < fuel → wp (HM.loop fuel body b) Q env s
  | 0, _, _, _, h => by omega
  | fuel + 1, b, s, hi, h => by
    unfold HM.loop
    rw [wp_bind]
    refine wp_mono (step b s hi) ?_
    intro r s' hr
    match r with
    | .inl b' => exact wp_loop I μ step fuel b' s' hr.1 (by have := hr.2; omega)
    | .inr a => simpa using hr

theorem wp_whileNotEof {body : HM σ Unit} {Q : Unit → HS σ → Prop} (I : HS σ → Prop) {fuel : Nat}
    {s : HS σ} (h0 : I s) (hf : s.rem.length < fuel)
    (step : ∀ s, I s → s.rem ≠ [] → wp body (fun _ s' => I s' ∧ s'.rem.length < s.rem.length) env s)
    (post : ∀ s, I s → s.rem = [] → Q () s) : wp (HM.whileNotEof fuel body) Q env s := by
  unfold HM.whileNotEof
  refine wp_loop (fun _ s => I s) (fun _ s => s.rem.length) ?_ fuel () s h0 hf
  intro _ s hi
  simp only [wp_bind, wp_eof]
  split
  · rename_i he
    simp at he
    simpa using post s hi he
  · rename_i he
    simp at he
    rw [wp_bind]
    refine wp_mono (step s hi he) ?_
    intro _ s' h
    simpa using h

end Loops

/-! ## Numbers and enclosed text -/

section Parts

variable {R : Rules} {env : HEnv} {s : HS σ} {Q : Unit → HS σ → Prop}

/-- What a step that consumes exactly `n` bytes guarantees. -/
def Consumes (R : Rules) (env : HEnv) (s : HS σ) (n : Nat) (s' : HS σ) : Prop :=
  Good R env s' ∧ s'.rem = s.rem.drop n ∧ s'.idx = s.idx + n ∧ s'.ext = s.ext

theorem wp_emitAdvIf {n : Nat} {ty : HT} {mode : Mode} (g : Good R env s)
    (hn : n ≤ s.rem.length) (ht : ty ≠ .none) (hR : 0 < n → R.tok s.rem n ty)
    (k : ∀ s', Consumes R env s n s' → Q () s') : wp (HM.emitAdvIf n ty mode) Q env s := by
  unfold HM.emitAdvIf
  split
  · exact wp_emitAdv g (by omega) hn ht (hR (by omega)) fun s' a b c d => k s' ⟨a, b, c, d⟩
  · have : n = 0 := by omega
    subst this
    rw [wp_pure]
    exact k s ⟨g, by simp, by simp, rfl⟩

theorem wp_emitIf {p n : Nat} {ty : HT} (g : GoodAt R env p s)
    (hn : p + n ≤ env.src.length) (ht : ty ≠ .none) (hR : 0 < n → R.tok (env.src.drop p) n ty)
    (k : ∀ s', GoodAt R env (p + n) s' → s'.rem = s.rem → s'.idx = s.idx → s'.ext = s.ext →
      Q () s') : wp (HM.emitIf p n ty) Q env s := by
  unfold HM.emitIf
  split
  · exact wp_emitAt g (by omega) hn ht (hR (by omega)) k
  · have : n = 0 := by omega
    subst this
    rw [wp_pure]
    exact k s g rfl rfl rfl

theorem wp_digitsIgnoreSeparator {n : Nat} (g : Good R env s)
    (hn : n ≤ s.rem.length) (hR : 0 < n → R.tok s.rem n .number)
    (k : ∀ s', Consumes R env s n s' → Q () s') : wp (HM.digitsIgnoreSeparator n) Q env s :=
  wp_emitAdvIf g hn (by decide) hR k

theorem Consumes.trans {s1 s2 : HS σ} {n m : Nat} (h1 : Consumes R env s n s1)
    (h2 : Consumes R env s1 m s2) : Consumes R env s (n + m) s2 := by
  obtain ⟨_, a, b, c⟩ := h1
  obtain ⟨g, a', b', c'⟩ := h2
  exact ⟨g, by rw [a', a, List.drop_drop], by omega, by rw [c', c]⟩

theorem Consumes.length {s1 : HS σ} {n : Nat} (h1 : Consumes R env s n s1) :
    s1.rem.length = s.rem.length - n := by
  rw [h1.2.1]; simp

/-- `highlight_enclosed` consumes the enclosed text. -/
theorem wp_highlightEnclosed {e : Enclosed} {p q : Nat} {content delim : HT} (g : Good R env s)
    (hp : 0 < p) (hq : 0 < q) (hl : e.length ≤ s.rem.length) (hpl : p ≤ e.length)
    (hpq : e.terminated = true → p + q ≤ e.length) (hc : content ≠ .none) (hd : delim ≠ .none)
    (hP : R.tok s.rem p delim)
    (hC : ∀ n, n ≤ e.length - p → 0 < n →
      (n = if e.terminated then e.length - p - q else e.length - p) → R.tok (s.rem.drop p) n content)
    (hS : e.terminated = true → R.tok (s.rem.drop (e.length - q)) q delim)
    (k : ∀ s', Consumes R env s e.length s' → Q () s') :
    wp (HM.highlightEnclosed e p q content delim) Q env s := by
  have hlen := g.len
  unfold HM.highlightEnclosed
  simp only [wp_bind]
  refine wp_dassert (by simp; omega) (wp_dassert (by simpa using hpl) (wp_dassert ?_ ?_))
  · cases h : e.terminated <;> simp_all
  rw [wp_index]
  refine wp_emitAt g hp (by omega) hd (by rw [← g.rem]; exact hP) ?_
  intro s1 g1 r1 i1 e1
  have hdrop : ∀ m, env.src.drop (s.idx + m) = s.rem.drop m := by
    intro m; rw [g.rem, List.drop_drop]
  have hfin : ∀ (P : Nat) (s2 : HS σ), GoodAt R env P s2 → P = s.idx + e.length → s2.rem = s.rem →
      s2.idx = s.idx → s2.ext = s.ext → wp (HM.advance e.length) Q env s2 := by
    intro P s2 g2 hP r2 i2 e2
    refine wp_advanceAt g2 (by rw [r2]; exact hl) ?_
    intro s3 g3 r3 i3 e3
    exact k s3 ⟨g3.good (by omega), by rw [r3, r2], by omega, by rw [e3, e2]⟩
  cases ht : e.terminated with
  | true =>
    have hpq := hpq ht
    simp only [if_true, wp_bind]
    refine wp_emitIf g1 (by omega) hc ?_ ?_
    · intro h
      rw [hdrop]
      exact hC _ (by omega) (by omega) (by simp [ht])
    · intro s2 g2 r2 i2 e2
      refine wp_emitAt g2 hq (by omega) hd ?_ ?_
      · rw [show s.idx + p + (e.length - p - q) = s.idx + (e.length - q) by omega, hdrop]
        exact hS ht
      · intro s3 g3 r3 i3 e3
        exact hfin _ s3 g3 (by omega) (by rw [r3, r2, r1]) (by omega) (by rw [e3, e2, e1])
  | false =>
    simp only [Bool.false_eq_true, if_false, wp_bind]
    refine wp_emitIf g1 (by omega) hc ?_ ?_
    · intro h
      rw [hdrop]
      exact hC _ (by omega) (by omega) (by simp [ht])
    · intro s2 g2 r2 i2 e2
      exact hfin _ s2 g2 (by omega) (by rw [r2, r1]) (by omega) (by rw [e2, e1])

end Parts

/-! ## Running a whole highlighter -/

/-- A highlighter that ends in a good state at the end of the source. -/
theorem runAll_of_wp {m : HM σ Bool} {ext : σ} {R : Rules} {debug : Bool} {opts : Opts} {src : Bytes}
    {P : Bool → Prop}
    (h : ∀ s : HS σ, Good R ⟨debug, opts, src⟩ s → s.rem = src → s.idx = 0 → s.ext = ext →
      wp m (fun b s' => GoodAt R ⟨debug, opts, src⟩ s'.idx s' ∧ s'.rem = [] ∧ P b)
        ⟨debug, opts, src⟩ s) :
    ∃ good es, HM.runAll m ext debug opts src = .ok (good, es) ∧ P good ∧
      Tiles R src src.length (es.map Emit.token) := by
  obtain ⟨b, s', h1, h2, h3, h4⟩ := h ⟨src, 0, [], ext⟩ ⟨by simp, by simp, .nil⟩ rfl rfl rfl
  refine ⟨b, s'.out, by simp [HM.runAll, h1], h4, ?_⟩
  have hl := h2.len
  rw [h3] at hl
  simp at hl
  rw [← hl]
  exact h2.tiles

theorem run_of_wp {m : HM σ Bool} {ext : σ} {R : Rules} {debug : Bool} {opts : Opts} {src : Bytes}
    {P : Bool → Prop}
    (h : ∀ s : HS σ, Good R ⟨debug, opts.seen, src⟩ s → s.rem = src → s.idx = 0 → s.ext = ext →
      wp m (fun b s' => GoodAt R ⟨debug, opts.seen, src⟩ s'.idx s' ∧ s'.rem = [] ∧ P b)
        ⟨debug, opts.seen, src⟩ s) :
    ∃ good es, HM.run m ext debug opts src = .ok (good, es) ∧ P good ∧
      Tiles R src src.length (es.map Emit.token) := runAll_of_wp h

/-- A highlighter does not depend on coalescing. -/
theorem run_seen (m : HM σ Bool) (ext : σ) (debug : Bool) (o o' : Opts) (src : Bytes) (h : o.strict = o'.strict) :
    HM.run m ext debug o src = HM.run m ext debug o' src := by
  simp [HM.run, Opts.seen, h]

end Ulight
