import Verif.Hl.Parts
import Verif.Props.Utf8
import Verif.Spec.Compose

/-!
# Highlighting does not depend on what came before

`Uniform m` says that the program `m` does the same if the source has additional text in front of it, and if other
tokens have been emitted before.
-/

namespace Ulight

open Spec Utf8

variable {σ α β : Type}

/-- An emission that is moved by `d`. -/
def Emit.moved (d : Nat) (e : Emit) : Emit := { e with beg := e.beg + d }

/-- A state with more text in front of it. -/
def HS.lifted (s : HS σ) (d : Nat) (pre : List Emit) : HS σ :=
  ⟨s.rem, s.idx + d, pre ++ s.out.map (Emit.moved d), s.ext⟩

/-- A source with more text in front of it. -/
def HEnv.lifted (env : HEnv) (p : Bytes) : HEnv := { env with src := p ++ env.src }

/-- `m'` does with additional text what `m` does without. -/
def Rel (p : Bytes) (pre : List Emit) (m m' : HM σ α) : Prop :=
  ∀ env s, m' (env.lifted p) (s.lifted p.length pre) = (m env s).map fun r => (r.1, r.2.lifted p.length pre)

class Uniform (m : HM σ α) : Prop where
  rel : ∀ p pre, Rel p pre m m

variable {p : Bytes} {pre : List Emit}

theorem rel_bind {m m' : HM σ β} {f f' : β → HM σ α} (h : Rel p pre m m') (h' : ∀ b, Rel p pre (f b) (f' b)) :
    Rel p pre (m >>= f) (m' >>= f') := by
  intro env s
  show HM.bind m' f' _ _ = (HM.bind m f env s).map _
  unfold HM.bind
  rw [h env s]
  cases m env s with
  | error e => rfl
  | ok r => exact h' r.1 env r.2

/-- The position in the text is different. -/
theorem rel_index {f f' : Nat → HM σ α} (h : ∀ i, Rel p pre (f i) (f' (i + p.length))) :
    Rel p pre (HM.index >>= f) (HM.index >>= f') := by
  intro env s
  exact h s.idx env s

theorem rel_emit {b n : Nat} {ty : HT} {mode : Mode} :
    Rel (σ := σ) p pre (HM.emit b n ty mode) (HM.emit (b + p.length) n ty mode) := by
  intro env s
  unfold HM.emit
  have h1 : decide (b + p.length < (env.lifted p).src.length) = decide (b < env.src.length) := by
    simp [HEnv.lifted]; omega
  have h2 : decide (b + p.length + n ≤ (env.lifted p).src.length) = decide (b + n ≤ env.src.length) := by
    simp [HEnv.lifted]; omega
  rw [h1, h2]
  show (if (env.debug && _) = true then _ else _) = _
  split
  · rfl
  · simp [HS.lifted, Except.map, Emit.moved]

instance uniform_pure (a : α) : Uniform (σ := σ) (pure a) := ⟨fun _ _ _ _ => rfl⟩
instance uniform_rem : Uniform (σ := σ) HM.rem := ⟨fun _ _ _ _ => rfl⟩
instance uniform_eof : Uniform (σ := σ) HM.eof := ⟨fun _ _ _ _ => rfl⟩
instance uniform_opts : Uniform (σ := σ) HM.opts := ⟨fun _ _ _ _ => rfl⟩
instance uniform_get : Uniform (σ := σ) HM.get := ⟨fun _ _ _ _ => rfl⟩
instance uniform_set (x : σ) : Uniform (HM.set x) := ⟨fun _ _ _ _ => rfl⟩
instance uniform_modify (f : σ → σ) : Uniform (HM.modify f) := ⟨fun _ _ _ _ => rfl⟩
instance uniform_fault (f : Fault) : Uniform (σ := σ) (α := α) (HM.fault f) := ⟨fun _ _ _ _ => rfl⟩

instance uniform_hassert (c : Bool) : Uniform (σ := σ) (HM.hassert c) :=
  ⟨fun _ _ _ _ => by unfold HM.hassert; split <;> rfl⟩

instance uniform_dassert (c : Bool) : Uniform (σ := σ) (HM.dassert c) :=
  ⟨fun p _ env _ => by
    unfold HM.dassert
    show (if (c || !env.debug) = true then _ else _) = _
    split <;> rfl⟩

instance uniform_lift (x : Except Fault α) : Uniform (σ := σ) (HM.lift x) :=
  ⟨fun _ _ _ _ => by unfold HM.lift; split <;> rfl⟩

instance uniform_advance (n : Nat) : Uniform (σ := σ) (HM.advance n) :=
  ⟨fun p pre env s => by
    unfold HM.advance
    show (if n ≤ s.rem.length then _ else _) = _
    split
    · simp [HS.lifted, Except.map]
      omega
    · rfl⟩

instance uniform_bind {m : HM σ β} {f : β → HM σ α} [h : Uniform m] [h' : ∀ b, Uniform (f b)] : Uniform (m >>= f) :=
  ⟨fun p pre => rel_bind (h.rel p pre) fun b => (h' b).rel p pre⟩

instance uniform_ite {c : Prop} [Decidable c] {a b : HM σ α} [h : Uniform a] [h' : Uniform b] :
    Uniform (if c then a else b) := by
  split
  · exact h
  · exact h'

/-- Find the parts of a program that is uniform. -/
macro "uniform" : tactic => `(tactic| repeat' with_reducible first
  | assumption | infer_instance | refine @uniform_bind _ _ _ _ _ ?_ fun _ => ?_ | refine @uniform_ite _ _ _ _ _ _ ?_ ?_
  | split | dsimp only)

instance uniform_emitAdv (n : Nat) (ty : HT) (mode : Mode) : Uniform (σ := σ) (HM.emitAdv n ty mode) :=
  ⟨fun p pre => rel_index fun _ => rel_bind rel_emit fun _ => (uniform_advance n).rel p pre⟩

instance uniform_emitAdvIf (n : Nat) (ty : HT) (mode : Mode) : Uniform (σ := σ) (HM.emitAdvIf n ty mode) := by
  unfold HM.emitAdvIf
  infer_instance

instance uniform_loop {body : β → HM σ (β ⊕ α)} [h : ∀ b, Uniform (body b)] (fuel : Nat) (b : β) :
    Uniform (HM.loop fuel body b) := by
  induction fuel generalizing b with
  | zero => exact uniform_fault _
  | succ n ih =>
    unfold HM.loop
    refine @uniform_bind _ _ _ _ _ (h b) fun r => ?_
    cases r with
    | inl b' => exact ih b'
    | inr a => exact uniform_pure a

instance uniform_whileNotEof {body : HM σ Unit} [Uniform body] (fuel : Nat) : Uniform (HM.whileNotEof fuel body) := by
  unfold HM.whileNotEof
  infer_instance

instance uniform_or {a b : HM σ Bool} [Uniform a] [Uniform b] : Uniform (HM.or a b) := by
  unfold HM.or
  infer_instance

instance uniform_digitsIgnoreSeparator (n : Nat) : Uniform (σ := σ) (HM.digitsIgnoreSeparator n) := by
  unfold HM.digitsIgnoreSeparator
  infer_instance

instance uniform_digitsLoop (sep : UInt8) (n : Nat) (ds : Bytes) : Uniform (σ := σ) (HM.digitsLoop sep n ds) := by
  induction ds generalizing n with
  | nil => unfold HM.digitsLoop; infer_instance
  | cons c t ih =>
    unfold HM.digitsLoop
    have := ih 0
    have := ih (n + 1)
    infer_instance

instance uniform_highlightDigits (n : Nat) (sep : UInt8) : Uniform (σ := σ) (HM.highlightDigits n sep) := by
  unfold HM.highlightDigits
  infer_instance

instance uniform_numberDigits (n : Nat) (sep : Option UInt8) : Uniform (σ := σ) (HM.numberDigits n sep) := by
  unfold HM.numberDigits
  split <;> infer_instance

instance uniform_highlightNumber (r : NumberResult) (sep : Option UInt8) :
    Uniform (σ := σ) (HM.highlightNumber r sep) := by
  unfold HM.highlightNumber
  uniform

theorem rel_emitIf {b n : Nat} {ty : HT} :
    Rel (σ := σ) p pre (HM.emitIf b n ty) (HM.emitIf (b + p.length) n ty) := by
  unfold HM.emitIf
  split
  · exact rel_emit
  · exact (uniform_pure _).rel p pre

instance uniform_highlightEnclosed (e : Enclosed) (m n : Nat) (content delim : HT) :
    Uniform (σ := σ) (HM.highlightEnclosed e m n content delim) := by
  unfold HM.highlightEnclosed
  refine @uniform_bind _ _ _ _ _ inferInstance fun _ => @uniform_bind _ _ _ _ _ inferInstance fun _ =>
    @uniform_bind _ _ _ _ _ inferInstance fun _ => ⟨fun p pre => rel_index fun i => rel_bind rel_emit fun _ => ?_⟩
  split
  · refine rel_bind ?_ fun _ => rel_bind ?_ fun _ => (uniform_advance _).rel p pre
    · rw [Nat.add_right_comm]
      exact rel_emitIf
    · rw [Nat.add_right_comm i p.length, Nat.add_right_comm _ p.length]
      exact rel_emit
  · refine rel_bind ?_ fun _ => (uniform_advance _).rel p pre
    rw [Nat.add_right_comm]
    exact rel_emitIf

instance uniform_highlightEnclosedComment (e : Enclosed) (m n : Nat) :
    Uniform (σ := σ) (HM.highlightEnclosedComment e m n) := by
  unfold HM.highlightEnclosedComment
  infer_instance

/-! ## Loops -/

/-- More fuel makes no difference. -/
theorem loop_mono {body : β → HM σ (β ⊕ α)} {env : HEnv} {n : Nat} {b : β} {s : HS σ} {r : α × HS σ}
    (h : HM.loop n body b env s = .ok r) (k : Nat) : HM.loop (n + k) body b env s = .ok r := by
  induction n generalizing b s with
  | zero => cases h
  | succ n ih =>
    rw [Nat.add_right_comm]
    unfold HM.loop at h ⊢
    change HM.bind _ _ _ _ = _ at h
    change HM.bind _ _ _ _ = _
    unfold HM.bind at h ⊢
    cases hb : body b env s with
    | error e => rw [hb] at h; cases h
    | ok x =>
      rw [hb] at h
      obtain ⟨x, s'⟩ := x
      cases x with
      | inl b' => exact ih h
      | inr a => exact h

theorem bind_ok {m : HM σ β} {f : β → HM σ α} {env : HEnv} {s : HS σ} {r : α × HS σ} :
    (m >>= f) env s = .ok r ↔ ∃ b s', m env s = .ok (b, s') ∧ f b env s' = .ok r := by
  show HM.bind m f env s = _ ↔ _
  unfold HM.bind
  cases m env s with
  | error e => simp
  | ok x =>
    obtain ⟨b, s'⟩ := x
    simp only [Except.ok.injEq, Prod.mk.injEq]
    constructor
    · intro h
      exact ⟨_, _, ⟨rfl, rfl⟩, h⟩
    · rintro ⟨_, _, ⟨rfl, rfl⟩, h⟩
      exact h

theorem ok_of_wp {m : HM σ α} {env : HEnv} {s s' : HS σ} {a : α} (h : wp m (fun b t => b = a ∧ t = s') env s) :
    m env s = .ok (a, s') := by
  obtain ⟨b, t, h1, rfl, rfl⟩ := h
  exact h1

/-- A loop that counts and changes nothing else. -/
theorem wp_loop_count {body : Nat → HM σ (Nat ⊕ α)} {Q : α → HS σ → Prop} {env : HEnv} {s : HS σ} (n : Nat)
    {fuel i : Nat} (h : ∀ k, k < n → wp (body (i + k)) (fun r t => r = .inl (i + k + 1) ∧ t = s) env s)
    (hq : wp (HM.loop fuel body (i + n)) Q env s) : wp (HM.loop (fuel + n) body i) Q env s := by
  induction n generalizing i with
  | zero => exact hq
  | succ n ih =>
    unfold HM.loop
    rw [wp_bind]
    refine wp_mono (h 0 (by omega)) ?_
    rintro _ _ ⟨rfl, rfl⟩
    refine ih (fun k hk => ?_) ?_
    · have := h (k + 1) (by omega)
      rw [Nat.add_right_comm i 1 k] 
      exact this
    · rw [show i + 0 + 1 + n = i + (n + 1) by omega]
      exact hq

/-- The last iteration of a loop. -/
theorem wp_loop_last {body : β → HM σ (β ⊕ α)} {Q : α → HS σ → Prop} {env : HEnv} {s : HS σ} {fuel : Nat} {i : β}
    (h : wp (body i) (fun r t => ∃ a, r = .inr a ∧ Q a t) env s) : wp (HM.loop (fuel + 1) body i) Q env s := by
  unfold HM.loop
  rw [wp_bind]
  refine wp_mono h ?_
  rintro _ _ ⟨a, rfl, hq⟩
  exact (wp_pure _).2 hq

/-- If the first iteration of the main loop reads `a` and emits `ts`, then the rest is highlighted as if it stood
alone. -/
theorem piece_of_loop {body : β → HM σ (β ⊕ Unit)} [hu : ∀ b, Uniform (body b)] {x : σ} {c : β} {a b : Bytes}
    {ts : List Emit} (ha : a ≠ [])
    (h : ∀ debug opts, body c ⟨debug, opts, a ++ b⟩ ⟨a ++ b, 0, [], x⟩ = .ok (.inl c, ⟨b, a.length, ts, x⟩)) :
    Piece (HM.run (do let r ← HM.rem; HM.loop (r.length + 1) body c; pure true) x) a (ts.map Emit.token) b := by
  intro debug opts es he
  unfold HM.run HM.runAll at he ⊢
  split at he
  · rename_i good s hr
    cases he
    rw [bind_ok] at hr
    obtain ⟨_, _, h1, h2⟩ := hr
    cases h1
    rw [bind_ok] at h2
    obtain ⟨_, s1, h3, h4⟩ := h2
    cases h4
    have key := (uniform_loop (h := hu) (b.length + 1) c).rel a ts ⟨debug, opts.seen, b⟩ ⟨b, 0, [], x⟩
    simp only [h3] at key
    have hl : HM.loop ((a ++ b).length + 1) body c ⟨debug, opts.seen, a ++ b⟩ ⟨a ++ b, 0, [], x⟩ =
        .ok ((), s.lifted a.length ts) := by
      unfold HM.loop
      rw [bind_ok]
      refine ⟨_, _, h debug opts.seen, ?_⟩
      have hl : (a ++ b).length = (b.length + 1) + (a.length - 1) := by
        have := List.length_pos_iff.2 ha
        simp
        omega
      rw [hl]
      refine loop_mono ?_ _
      rw [show (⟨b, a.length, ts, x⟩ : HS σ) = HS.lifted ⟨b, 0, [], x⟩ a.length ts by simp [HS.lifted]]
      exact key
    have hr : (do let r ← HM.rem; HM.loop (r.length + 1) body c; pure true : HM σ Bool)
        ⟨debug, opts.seen, a ++ b⟩ ⟨a ++ b, 0, [], x⟩ = .ok (true, s.lifted a.length ts) := by
      rw [bind_ok]
      refine ⟨_, _, rfl, ?_⟩
      rw [bind_ok]
      exact ⟨_, _, hl, rfl⟩
    rw [hr]
    refine ⟨_, rfl, ?_⟩
    simp [HS.lifted, shift, Emit.moved, Emit.token, Nat.add_comm]
  · cases he

theorem piece_of_step {body : HM σ Unit} [Uniform body] {x : σ} {a b : Bytes} {ts : List Emit} (ha : a ≠ [])
    (h : ∀ debug opts, body ⟨debug, opts, a ++ b⟩ ⟨a ++ b, 0, [], x⟩ = .ok ((), ⟨b, a.length, ts, x⟩)) :
    Piece (HM.run (do let r ← HM.rem; HM.whileNotEof (r.length + 1) body; pure true) x) a (ts.map Emit.token) b := by
  refine piece_of_loop ha fun debug opts => ?_
  rw [bind_ok]
  refine ⟨_, _, rfl, ?_⟩
  have : (a ++ b).isEmpty = false := by cases a <;> simp_all
  simp only [this, Bool.false_eq_true, if_false]
  rw [bind_ok]
  exact ⟨_, _, h debug opts, rfl⟩

/-! ## Exact execution -/

theorem wp_emitAdvIf_iff {n : Nat} {ty : HT} {mode : Mode} {env : HEnv} {s : HS σ} {Q : Unit → HS σ → Prop}
    (hl : s.idx + s.rem.length = env.src.length) (hn : n ≤ s.rem.length) :
    wp (HM.emitAdvIf n ty mode) Q env s ↔
      Q () ⟨s.rem.drop n, s.idx + n, s.out ++ (if n = 0 then [] else [⟨s.idx, n, ty, mode⟩]), s.ext⟩ := by
  unfold HM.emitAdvIf
  split
  · rename_i h
    rw [wp_emitAdv_iff hl (by omega) hn]
    simp [HS.emitted]
  · rename_i h
    have : n = 0 := by omega
    subst this
    simp

theorem wp_emit_iff {b n : Nat} {ty : HT} {mode : Mode} {env : HEnv} {s : HS σ} {Q : Unit → HS σ → Prop}
    (h0 : 0 < n) (hn : b + n ≤ env.src.length) :
    wp (HM.emit b n ty mode) Q env s ↔ Q () { s with out := s.out ++ [⟨b, n, ty, mode⟩] } := by
  apply wp_of_ok
  have : (n != 0 && decide (b < env.src.length) && decide (b + n ≤ env.src.length)) = true := by
    simp
    omega
  simp [HM.emit, this]

theorem wp_emitIf_iff {b n : Nat} {ty : HT} {env : HEnv} {s : HS σ} {Q : Unit → HS σ → Prop}
    (hn : b + n ≤ env.src.length) :
    wp (HM.emitIf b n ty) Q env s ↔
      Q () { s with out := s.out ++ (if n = 0 then [] else [⟨b, n, ty, .normal⟩]) } := by
  unfold HM.emitIf
  split
  · rw [wp_emit_iff (by omega) hn]
  · rename_i h
    have : n = 0 := by omega
    subst this
    simp

@[simp] theorem wp_dassert_true {env : HEnv} {s : HS σ} {Q : Unit → HS σ → Prop} :
    wp (HM.dassert true) Q env s ↔ Q () s := by
  apply wp_of_ok
  unfold HM.dassert
  cases env.debug <;> rfl

@[simp] theorem wp_hassert_true {env : HEnv} {s : HS σ} {Q : Unit → HS σ → Prop} :
    wp (HM.hassert true) Q env s ↔ Q () s := by
  apply wp_of_ok
  rfl

/-- The emission of a text that may be empty. -/
def optEmit (p : Nat) (t : Bytes) (ty : HT) : List Emit := if t.length = 0 then [] else [⟨p, t.length, ty, .normal⟩]

theorem optEmit_token (p : Nat) (t : Bytes) (ty : HT) : (optEmit p t ty).map Emit.token = opt p t ty := by
  unfold optEmit opt
  cases t <;> simp [Emit.token]

/-- The emissions for a text between delimiters. -/
def enclosedEmit (o t c : Bytes) (delim content : HT) : List Emit :=
  ⟨0, o.length, delim, .normal⟩ :: optEmit o.length t content ++ [⟨o.length + t.length, c.length, delim, .normal⟩]

theorem enclosed_token (o t c : Bytes) (delim content : HT) :
    (enclosedEmit o t c delim content).map Emit.token =
      [⟨0, o.length, delim⟩] ++ opt o.length t content ++ [⟨o.length + t.length, c.length, delim⟩] := by
  simp [enclosedEmit, optEmit_token, Emit.token]

theorem Longest.unique {P : UInt8 → Prop} {s : Bytes} {m n : Nat} (hm : Longest P s m) (hn : Longest P s n)
    (hm' : m ≤ s.length) (hn' : n ≤ s.length) : m = n := by
  have key : ∀ {m n}, Longest P s m → Longest P s n → n ≤ s.length → ¬ m < n := by
    intro m n hm hn hn' h
    have hc : s[m]? = some s[m] := List.getElem?_eq_getElem (by omega)
    refine hm.2 _ hc (hn.1 _ ?_)
    rw [List.mem_iff_getElem?]
    exact ⟨m, by rw [List.getElem?_take_of_lt h, hc]⟩
  have h1 := key hm hn hn'
  have h2 := key hn hm hm'
  omega

theorem length_if_eq {p : UInt8 → Bool} {s : Bytes} {n : Nat} (h : Longest (fun c => p c = true) s n)
    (hn : n ≤ s.length) : Ascii.length_if s p = n :=
  Longest.unique (length_if_zero_longest s p _ fun _ => Iff.rfl) h (length_if_le s p 0 (by omega)).2 hn

theorem length_if_not_eq {p : UInt8 → Bool} {P : UInt8 → Prop} {s : Bytes} {n : Nat} (hP : ∀ c, p c = false ↔ P c)
    (h : Longest P s n) (hn : n ≤ s.length) : Ascii.length_if_not s p = n :=
  Longest.unique (length_if_not_zero_longest s p _ hP) h (length_if_not_le s p 0 (by omega)).2 hn

theorem length_if_cons_neg {p : UInt8 → Bool} {c : UInt8} {t : Bytes} (h : p c = false) :
    Ascii.length_if (c :: t) p = 0 :=
  length_if_eq ⟨by simp, by simp [h]⟩ (by simp)

theorem UpTo.unique {q s : Bytes} {m n : Nat} (hm : UpTo q s m) (hn : UpTo q s n) (hq : q ≠ []) : m = n := by
  have h1 := hm.1 n
  have h2 := hn.1 m
  have key : ∀ k, OccursAt q s k → k < s.length := by
    intro k hk
    have := (occursAt_iff.1 hk)
    obtain ⟨u, hu⟩ := startsWith_iff.1 this.2
    have := congrArg List.length hu
    have := List.length_pos_iff.2 hq
    simp at *
    omega
  rcases hm.2 with h3 | h3 <;> rcases hn.2 with h4 | h4
  · omega
  · have := key n h4; have := h1 h4; omega
  · have := key m h3; have := h2 h3; omega
  · have := h1 h4; have := h2 h3; omega

theorem UpTo.le {q s : Bytes} {n : Nat} (h : UpTo q s n) : n ≤ s.length := by
  rcases h.2 with h | h
  · omega
  · exact (occursAt_iff.1 h).1

theorem chars_unique {P : Nat → Prop} {s : Bytes} {n m : Nat} (h : LongestChars P s n) (h' : LongestChars P s m) :
    n = m := by
  obtain ⟨a, b, h1, rfl, h2, h3⟩ := h
  obtain ⟨a', b', h1', rfl, h2', h3'⟩ := h'
  obtain ⟨cs, _, hu⟩ := C14_chars_exist_unique s
  have e := (hu _ h1).trans (hu _ h1').symm
  rcases List.append_eq_append_iff.1 e with ⟨x, rfl, e2⟩ | ⟨x, rfl, e2⟩
  · cases x with
    | nil => simp
    | cons c x => exact absurd (h2' c (by simp)) (h3 c (by rw [e2]; rfl))
  · cases x with
    | nil => simp
    | cons c x => exact absurd (h2 c (by simp)) (h3' c (by rw [e2]; rfl))

theorem Identifier.unique {S C : Nat → Prop} {s : Bytes} {m n : Nat} (hm : Identifier S C s m)
    (hn : Identifier S C s n) : m = n := by
  obtain ⟨c, p, rest, rfl, h1, _, h3, h4⟩ := hm
  obtain ⟨c', p', rest', e, h1', _, h3', h4'⟩ := hn
  obtain ⟨_, rfl, rfl⟩ := firstChar_unique h1 h1' e
  have := chars_unique h4 h4'
  omega

/-- The first byte of an identifier. -/
theorem Identifier.first {S C : Nat → Prop} {s : Bytes} {n : Nat} (h : Identifier S C s n) :
    ∃ b r, s = b :: r ∧ 0 < n ∧ (b.toNat < 0x80 → S b.toNat) := by
  obtain ⟨c, p, rest, rfl, h1, h2, h3, _⟩ := h
  rcases h1 with ⟨hs, rfl⟩ | ⟨rfl, hp, hm⟩
  · have hn : 0 < n := by
      have : 0 < (utf8 c).length := by
        unfold utf8
        repeat' split
        all_goals simp
      omega
    clear h3
    unfold IsScalar at hs
    unfold utf8
    repeat' split
    all_goals refine ⟨_, _, rfl, hn, fun hb => ?_⟩
    · rw [UInt8.toNat_ofNat', Nat.mod_eq_of_lt (by omega)]
      exact h2
    all_goals
      rw [UInt8.toNat_ofNat', Nat.mod_eq_of_lt (by omega)] at hb
      omega
  · cases p with
    | nil => exact absurd rfl hp
    | cons b p =>
      refine ⟨_, _, rfl, ?_, fun hb => ?_⟩
      · simp at h3
        omega
      · refine absurd ⟨p ++ rest, ?_⟩ (hm.1 b.toNat (by unfold IsScalar; omega))
        unfold utf8
        simp [hb]

/-- The ASCII bytes of a character are the character. -/
theorem utf8_bytes {c : Nat} (hs : IsScalar c) : ∀ b ∈ utf8 c, b.toNat < 0x80 → b.toNat = c := by
  have he := enc_utf8 hs
  intro b hb hlt
  generalize utf8 c = p at he hb
  cases he with
  | one a h => simp at hb; subst hb; rfl
  | two a b' ha hb1 => simp at hb; rcases hb with rfl | rfl <;> omega
  | three a b' d ha hb1 hc =>
    have := isValidSecond_cont hb1
    simp at hb; rcases hb with rfl | rfl | rfl <;> omega
  | four a b' d e ha hb1 hc hd =>
    have := isValidSecond_cont hb1
    simp at hb; rcases hb with rfl | rfl | rfl | rfl <;> omega

theorem firstChar_bytes_all {c : Nat} {p rest : Bytes} (h : FirstChar c p rest) : ∀ b ∈ p, b.toNat < 0x80 → b.toNat = c := by
  rcases h with ⟨hs, rfl⟩ | ⟨rfl, hp, hm⟩
  · exact utf8_bytes hs
  · intro b hb hlt
    exfalso
    have key : p = [b] → False := by
      rintro rfl
      refine hm.1 b.toNat (by unfold IsScalar; omega) ⟨rest, ?_⟩
      unfold utf8
      simp [hlt]
    rcases hm.2.1 with h | ⟨_, c, hc, hp'⟩
    · obtain ⟨a, rfl⟩ := List.length_eq_one_iff.1 h
      simp at hb
      exact key (by rw [hb])
    · have := utf8_bytes hc b (hp'.subset hb) hlt
      subst this
      unfold utf8 at hp'
      simp only [hlt, if_true, UInt8.ofNat_toNat] at hp'
      obtain ⟨q, hq⟩ := hp'
      cases p with
      | nil => exact hp rfl
      | cons a p =>
        simp at hq
        exact key (by rw [hq.1, hq.2.1])

theorem longestChars_bytes {P : Nat → Prop} {s : Bytes} {n : Nat} (h : LongestChars P s n) :
    (∀ b ∈ s.take n, b.toNat < 0x80 → P b.toNat) ∧ (∀ b, s[n]? = some b → b.toNat < 0x80 → ¬ P b.toNat) := by
  obtain ⟨u, v, h1, rfl, h2, h3⟩ := h
  induction u generalizing s with
  | nil =>
    refine ⟨by simp, ?_⟩
    intro b hb hlt
    cases h1 with
    | nil => simp at hb
    | @cons c p rest cs hf hc =>
      have := h3 (c, p) rfl
      cases p with
      | nil =>
        rcases hf with ⟨_, hf⟩ | ⟨_, hf, _⟩
        · unfold utf8 at hf
          repeat' split at hf
          all_goals cases hf
        · exact absurd rfl hf
      | cons d p =>
        simp at hb
        subst hb
        rw [firstChar_bytes_all hf d (by simp) hlt]
        exact this
  | cons x u ih =>
    cases h1 with
    | @cons c p rest cs hf hc =>
      obtain ⟨i1, i2⟩ := ih hc (fun c hc => h2 c (by simp [hc]))
      constructor
      · intro b hb hlt
        simp [List.take_append] at hb
        rcases hb with hb | hb
        · rw [firstChar_bytes_all hf b (List.mem_of_mem_take hb) hlt]
          exact h2 (c, p) (by simp)
        · exact i1 b (by simpa using hb) hlt
      · intro b hb hlt
        refine i2 b ?_ hlt
        rw [List.flatMap_cons, List.length_append, List.getElem?_append_right (by simp)] at hb
        simpa using hb

theorem identifier_bytes {S C : Nat → Prop} {s : Bytes} {n : Nat} (h : Identifier S C s n) :
    (∀ b ∈ s.take n, b.toNat < 0x80 → S b.toNat ∨ C b.toNat) ∧
      (∀ b, s[n]? = some b → b.toNat < 0x80 → ¬ C b.toNat) := by
  obtain ⟨c, p, rest, rfl, h1, h2, h3, h4⟩ := h
  obtain ⟨i1, i2⟩ := longestChars_bytes h4
  constructor
  · intro b hb hlt
    rw [List.take_append, List.mem_append] at hb
    rcases hb with hb | hb
    · rw [firstChar_bytes_all h1 b (List.mem_of_mem_take hb) hlt]
      exact Or.inl h2
    · exact Or.inr (i1 b hb hlt)
  · intro b hb hlt
    refine i2 b ?_ hlt
    rwa [List.getElem?_append_right h3] at hb

/-- An identifier is not the prefix of something else. -/
theorem not_prefix {S C : Nat → Prop} {s u : Bytes} {q : UInt8} {n : Nat} (h : Identifier S C s n)
    (hu : ∀ b ∈ u, b.toNat < 0x80 ∧ C b.toNat) (hq : q.toNat < 0x80 ∧ ¬ S q.toNat ∧ ¬ C q.toNat)
    (hn : s[n]? ≠ some q) : startsWith s (u ++ [q]) = false := by
  obtain ⟨i1, i2⟩ := identifier_bytes h
  cases hs : startsWith s (u ++ [q]) with
  | false => rfl
  | true =>
    obtain ⟨v, hv⟩ := startsWith_iff.1 hs
    subst hv
    have hk : (u ++ [q] ++ v)[u.length]? = some q := by simp
    rcases Nat.lt_trichotomy u.length n with h1 | rfl | h1
    · rcases i1 q (List.mem_iff_getElem?.2 ⟨u.length, by rw [List.getElem?_take_of_lt h1, hk]⟩) hq.1 with h2 | h2
      · exact absurd h2 hq.2.1
      · exact absurd h2 hq.2.2
    · exact absurd hk hn
    · have hx : (u ++ [q] ++ v)[n]? = some u[n] := by
        rw [List.append_assoc, List.getElem?_append_left h1, List.getElem?_eq_getElem h1]
      have := hu _ (List.getElem_mem h1)
      exact absurd this.2 (i2 _ hx this.1)

theorem not_at {S C : Nat → Prop} {s : Bytes} {q : UInt8} {n k : Nat} (h : Identifier S C s n) (hk : k ≤ n)
    (hq : q.toNat < 0x80 ∧ ¬ S q.toNat ∧ ¬ C q.toNat) (hn : s[n]? ≠ some q) : s[k]? ≠ some q := by
  intro e
  obtain ⟨i1, _⟩ := identifier_bytes h
  rcases Nat.lt_or_eq_of_le hk with h1 | rfl
  · rcases i1 q (List.mem_iff_getElem?.2 ⟨k, by rw [List.getElem?_take_of_lt h1, e]⟩) hq.1 with h2 | h2
    · exact hq.2.1 h2
    · exact hq.2.2 h2
  · exact hn e

theorem startsWith_one_false {s : Bytes} {q : UInt8} (h : s[0]? ≠ some q) : startsWith s [q] = false := by
  cases s with
  | nil => rfl
  | cons c s =>
    simp at h
    simp [startsWith_cons_cons]
    exact fun e => h e.symm

theorem utf8_length_if_zero {p : Nat → Bool} {s : Bytes} (h : NoFirst (fun c => p c = true) s) :
    Utf8.length_if s p = .ok 0 := by
  obtain ⟨n, h1, _, h2⟩ := length_if_chars p (fun c => p c = true) (fun _ => Iff.rfl) s
  have h3 : LongestChars (fun c => p c = true) s 0 := by
    obtain ⟨cs, hc, _⟩ := C14_chars_exist_unique s
    refine ⟨[], cs, hc, rfl, by simp, ?_⟩
    intro c hcs
    cases hc with
    | nil => simp at hcs
    | @cons c p rest cs hf hc =>
      simp at hcs
      subst hcs
      exact h c p rest rfl hf
  rw [h1, chars_unique h2 h3]

theorem Identifier.noFirst {S C : Nat → Prop} {P : Nat → Prop} {s : Bytes} {n : Nat} (h : Identifier S C s n)
    (hp : ∀ c, P c → ¬ S c) : NoFirst P s := by
  obtain ⟨c, p, rest, rfl, h1, h2, _⟩ := h
  intro c' p' rest' e h1' hP
  obtain ⟨rfl, rfl, rfl⟩ := firstChar_unique h1 h1' e
  exact hp c hP h2

/-- No number begins here. -/
theorem matchCommonNumber_none {o : NumberOptions} {c : UInt8} {t : Bytes} (hs : o.plus = true → c ≠ c!"+")
    (hm : o.minus = true → c ≠ c!"-") (hp : ∀ p ∈ o.prefixes, startsWith (c :: t) p.str = false)
    (hd : isDigitBase c o.defaultBase = false) (h0 : c ≠ c!"0") (hc : c ≠ c!".") (he : c ≠ o.digitSeparator) :
    matchCommonNumber (c :: t) o = {} := by
  have h1 : numSign o (c :: t) = 0 := by
    unfold numSign
    simp [startsWith_cons_cons]
    grind
  have h2 : numPrefix o (c :: t) = (0, o.defaultBase, true) := by
    unfold numPrefix
    rw [List.find?_eq_none.2 (by simpa using hp)]
    simp [startsWith_cons_cons, h0.symm]
  have h3 : (matchSeparatedDigits (c :: t) o.defaultBase o.digitSeparator).length = 0 := by
    unfold matchSeparatedDigits matchDigits
    split
    · exact length_if_cons_neg hd
    · simp [sepLoop, he, hd]
  unfold matchCommonNumber
  simp [h1, h2, h3, numFraction, startsWith_cons_cons, hc.symm]

theorem cppStart_byte (b : UInt8) (h : b.toNat < 0x80 → CppId.Start b.toNat) :
    0x80 ≤ b.toNat ∨ isAlpha b = true ∨ b = c!"_" := by
  revert b
  unfold CppId.Start
  apply forall_byte
  decide +kernel

theorem find_none_of_head {ws : List Bytes} {c : UInt8} {t : Bytes} (h0 : ∀ w ∈ ws, w ≠ [])
    (h : ws.all (·.head? != some c) = true) : ws.reverse.find? (startsWith (c :: t) ·) = none := by
  rw [List.find?_eq_none]
  intro w hw
  have h1 := h0 w (List.mem_reverse.1 hw)
  have h2 := List.all_eq_true.1 h w (List.mem_reverse.1 hw)
  cases w with
  | nil => exact absurd rfl h1
  | cons d w =>
    simp at h2
    simp [startsWith_cons_cons, h2]

/-- It is enough to consider one type. -/
theorem identifiers_of {hl : Highlight} {word : Bytes → Nat → Prop} {words : List (Bytes × HT)} {other : HT}
    {lookup : Bytes → Option HT} (hw : ∀ w ty, lookup w = some ty ↔ (w, ty) ∈ words)
    (h : ∀ w b, word (w ++ b) w.length → Piece hl w [⟨0, w.length, (lookup w).getD other⟩] b) :
    Identifiers hl word words other := by
  intro w b hb
  have := h w b hb
  constructor
  · intro ty ht
    rwa [(hw w ty).2 ht] at this
  · intro hn
    cases e : lookup w with
    | none => rwa [e] at this
    | some ty => exact absurd ((hw w ty).1 e) (hn ty)

theorem Cpp.matchIdentifier_eq {s : Bytes} {n : Nat} (h : Identifier CppId.Start CppId.Continue s n) :
    Cpp.matchIdentifier s = n := by
  rcases Cpp.matchIdentifier_facts s with ⟨_, ⟨_, h2⟩ | ⟨_, h2⟩⟩
  · exact absurd h (not_identifier h2 n)
  · exact Identifier.unique h2 h

theorem Cpp.identifier_of_match {s : Bytes} {n : Nat} (h : Cpp.matchIdentifier s = n) (hn : 0 < n) :
    Identifier CppId.Start CppId.Continue s n := by
  subst h
  rcases Cpp.matchIdentifier_facts s with ⟨_, ⟨h1, _⟩ | ⟨_, h2⟩⟩
  · omega
  · exact h2

theorem not_piece {hl : Highlight} {a b : Bytes} {ts : List Token} (es es' : List Emit)
    (h : hl false {} b = .ok (true, es)) (h' : hl false {} (a ++ b) = .ok (true, es'))
    (hn : es'.map Emit.token ≠ ts ++ shift a.length (es.map Emit.token)) : ¬ Piece hl a ts b := by
  intro hp
  obtain ⟨es'', h1, h2⟩ := hp false {} es h
  rw [h'] at h1
  cases h1
  exact hn h2

theorem Js.matchLineComment_eq {t : Bytes} {n : Nat} (h : Spec.Js.Line t n) :
    Js.matchLineComment (b!"//" ++ t) = n + 2 := by
  have key : ∀ k, Spec.Js.LineTerminatorAt t k → k < t.length := by
    rintro k ⟨q, hq, hk⟩
    have hl : 0 < q.length := by
      have : ∀ q ∈ Spec.Js.lineTerminators, 0 < q.length := by decide
      exact this q hq
    have := (occursAt_iff.1 hk)
    obtain ⟨u, hu⟩ := startsWith_iff.1 this.2
    have := congrArg List.length hu
    simp at *
    omega
  rcases Js.matchLineComment_facts (b!"//" ++ t) with ⟨_, h2⟩ | ⟨h0, _, _, h2⟩
  · simp [startsWith_cons_cons] at h2
  · have h3 : Spec.Js.Line t (matchLineComment (b!"//" ++ t) - 2) := by simpa using h2
    have h1 := h.1
    have h4 := h3.1
    rcases h.2 with h5 | h5 <;> rcases h3.2 with h6 | h6
    · omega
    · have := key _ h6; have := h1 _ h6; omega
    · have := key _ h5; have := h4 _ h5; omega
    · have := h1 _ h6; have := h4 _ h5; omega

theorem findSub_at {q t b : Bytes} (h : UpTo q (t ++ q ++ b) t.length) :
    findSub q (t ++ q ++ b) = some t.length := by
  have key := findSub_spec q (t ++ q ++ b)
  have ho : OccursAt q (t ++ q ++ b) t.length := ⟨t, b, rfl, rfl⟩
  cases hf : findSub q (t ++ q ++ b) with
  | none =>
    rw [hf] at key
    exact absurd ho (key _)
  | some k =>
    rw [hf] at key
    have h1 := h.1 k key.1
    have h2 := key.2 t.length
    rcases Nat.lt_or_ge t.length k with h3 | h3
    · exact absurd ho (h2 h3)
    · rw [Nat.le_antisymm h3 h1]

theorem notMem_of_upTo {c : UInt8} {t b : Bytes} (h : UpTo [c] (t ++ [c] ++ b) t.length) : c ∉ t := by
  intro hc
  obtain ⟨u, v, rfl⟩ := List.append_of_mem hc
  have := h.1 u.length ⟨u, v ++ [c] ++ b, by simp, rfl⟩
  simp at this
  omega

theorem startsWith_before {q s : Bytes} {n k : Nat} (h : UpTo q s n) (hk : k < n) (hn : n ≤ s.length) :
    startsWith (s.drop k) q = false := by
  have h1 := h.1 k
  rw [occursAt_iff] at h1
  cases e : startsWith (s.drop k) q with
  | false => rfl
  | true => have := h1 ⟨by omega, e⟩; omega

/-- Three quotation marks are not an empty string and one more quotation mark. -/
theorem not_three {q : UInt8} {t b : Bytes} (hn : q ∉ t) (hb : t = [] → ¬ [q] <+: b) :
    startsWith (q :: (t ++ q :: b)) [q, q, q] = false := by
  cases t with
  | nil =>
    cases b with
    | nil => simp [startsWith]
    | cons x b =>
      have := hb rfl
      simp [startsWith_cons_cons]
      rintro rfl
      exact this ⟨b, rfl⟩
  | cons x t =>
    simp [startsWith_cons_cons]
    rintro rfl
    simp at hn

theorem getElem?_first {q t b : Bytes} (hq : q ≠ []) : ∃ x, (t ++ (q ++ b))[t.length]? = some x := by
  cases q with
  | nil => exact absurd rfl hq
  | cons x q => exact ⟨x, by simp⟩

theorem getElem?_plain {t b : Bytes} {k : Nat} (h : k < t.length) : ∃ x ∈ t, (t ++ b)[k]? = some x :=
  ⟨t[k], List.getElem_mem h, by rw [List.getElem?_append_left h, List.getElem?_eq_getElem h]⟩

theorem Cpp.matchBlockComment_at {t b : Bytes} (h : UpTo b!"*/" (t ++ b!"*/" ++ b) t.length) :
    Cpp.matchBlockComment (b!"/*" ++ t ++ b!"*/" ++ b) = ⟨t.length + 4, true⟩ := by
  have := findSub_at h
  unfold Cpp.matchBlockComment
  rw [show (b!"/*" ++ t ++ b!"*/" ++ b : Bytes).drop 2 = t ++ b!"*/" ++ b by simp, this]
  simp [startsWith_cons_cons]
  omega

theorem matchEnclosed_at {o c t b : Bytes} (h : UpTo c (t ++ c ++ b) t.length) :
    matchEnclosed (o ++ t ++ c ++ b) o c = ⟨o.length + t.length + c.length, true⟩ := by
  unfold matchEnclosed
  rw [show (o ++ t ++ c ++ b).drop o.length = t ++ c ++ b by simp, findSub_at h,
    startsWith_iff.2 ⟨t ++ c ++ b, by simp⟩]
  rfl

theorem FirstLine.unique {s c t r c' t' r' : Bytes} (h : FirstLine s c t r) (h' : FirstLine s c' t' r') :
    c = c' ∧ t = t' ∧ r = r' := by
  have key : ∀ {c t r}, FirstLine s c t r → Longest (fun c => c ≠ 0x0A ∧ c ≠ 0x0D) s c.length ∧ c.length ≤ s.length := by
    rintro c t r ⟨e, h1, h2⟩
    refine ⟨⟨?_, ?_⟩, by simp [e]⟩
    · rw [e, List.append_assoc, List.take_left]
      exact h1
    · intro x hx
      rw [e, List.append_assoc, List.getElem?_append_right (by omega), Nat.sub_self] at hx
      rcases h2 with rfl | rfl | ⟨rfl, _⟩ | ⟨rfl, rfl⟩ <;> simp at hx <;> grind
  have hl := Longest.unique (key h).1 (key h').1 (key h).2 (key h').2
  obtain ⟨e, h1, h2⟩ := h
  obtain ⟨e', h1', h2'⟩ := h'
  rw [e, List.append_assoc, List.append_assoc] at e'
  obtain ⟨rfl, e''⟩ := List.append_inj e' hl
  refine ⟨rfl, ?_⟩
  rcases h2 with rfl | rfl | ⟨rfl, h2⟩ | ⟨rfl, rfl⟩ <;> rcases h2' with rfl | rfl | ⟨rfl, h2'⟩ | ⟨rfl, rfl⟩ <;>
    simp at e'' <;> grind

theorem matchCrlfLine_at {t e b : Bytes} (h : FirstLine (t ++ e ++ b) t e b) :
    matchCrlfLine (t ++ e ++ b) = ⟨t.length, e.length⟩ := by
  obtain ⟨c, t', r, h1, h2, h3⟩ := C22_match_crlf_line (t ++ e ++ b)
  obtain ⟨rfl, rfl, rfl⟩ := FirstLine.unique h h1
  cases hm : matchCrlfLine (t ++ e ++ b)
  simp_all

theorem wp_highlightEnclosed_iff {o t c : Bytes} {content delim : HT} {env : HEnv} {s : HS σ} {Q : Unit → HS σ → Prop}
    (ho : o ≠ []) (hc : c ≠ []) (hl : s.idx + s.rem.length = env.src.length)
    (hn : o.length + t.length + c.length ≤ s.rem.length) :
    wp (HM.highlightEnclosed ⟨o.length + t.length + c.length, true⟩ o.length c.length content delim) Q env s ↔
      Q () ⟨s.rem.drop (o.length + t.length + c.length), s.idx + (o.length + t.length + c.length),
        s.out ++ [⟨s.idx, o.length, delim, .normal⟩] ++ optEmit (s.idx + o.length) t content ++
          [⟨s.idx + o.length + t.length, c.length, delim, .normal⟩], s.ext⟩ := by
  have h1 := List.length_pos_iff.2 ho
  have h2 := List.length_pos_iff.2 hc
  have e1 : (o.length + t.length + c.length != 0) = true := bne_iff_ne.2 (by omega)
  have e2 : decide (o.length ≤ o.length + t.length + c.length) = true := decide_eq_true (by omega)
  have e3 : decide (o.length + c.length ≤ o.length + t.length + c.length) = true := decide_eq_true (by omega)
  have e4 : o.length + t.length + c.length - o.length - c.length = t.length := by omega
  unfold HM.highlightEnclosed
  simp only [Bool.not_true, Bool.false_or, e1, e2, e3, e4, if_true, wp_bind, wp_dassert_true, wp_index]
  rw [wp_emit_iff h1 (by omega), wp_emitIf_iff (by omega), wp_emit_iff h2 (by omega), wp_advance_iff (by simpa using hn)]
  simp only [HS.adv, optEmit]

theorem wp_highlightEnclosed_iff' {o t c : Bytes} {n m k : Nat} {content delim : HT} {env : HEnv} {s : HS σ}
    {Q : Unit → HS σ → Prop} (hm : n = o.length + t.length + c.length) (ho : m = o.length ∧ 0 < m)
    (hc : k = c.length ∧ 0 < k) (hl : s.idx + s.rem.length = env.src.length)
    (hn : o.length + t.length + c.length ≤ s.rem.length) :
    wp (HM.highlightEnclosed ⟨n, true⟩ m k content delim) Q env s ↔
      Q () ⟨s.rem.drop n, s.idx + n, s.out ++ [⟨s.idx, m, delim, .normal⟩] ++ optEmit (s.idx + m) t content ++
          [⟨s.idx + m + t.length, k, delim, .normal⟩], s.ext⟩ := by
  obtain ⟨rfl, ho⟩ := ho
  obtain ⟨rfl, hc⟩ := hc
  subst hm
  exact wp_highlightEnclosed_iff (List.length_pos_iff.1 ho) (List.length_pos_iff.1 hc) hl hn

theorem Cpp.uniform_highlightBlockComment {b : Enclosed} (h : b.terminated = true → 2 ≤ b.length) :
    Uniform (σ := σ) (Cpp.highlightBlockComment b) := by
  unfold Cpp.highlightBlockComment
  refine ⟨fun p pre => rel_index fun i => rel_bind rel_emit fun _ => ?_⟩
  dsimp only
  refine rel_bind ?_ fun _ => rel_bind ?_ fun _ => (uniform_advance _).rel p pre
  · rw [Nat.add_right_comm]
    exact rel_emitIf
  · unfold Cpp.emitWhen
    split
    · rename_i ht
      have := h ht
      rw [show i + p.length + b.length - 2 = i + b.length - 2 + p.length by omega]
      exact rel_emit
    · exact (uniform_pure _).rel p pre

instance Cpp.uniform_blockComment (s : Bytes) :
    Uniform (σ := σ) (Cpp.highlightBlockComment (Cpp.matchBlockComment s)) := by
  refine Cpp.uniform_highlightBlockComment fun h => ?_
  unfold Cpp.matchBlockComment at h ⊢
  repeat' split at h
  all_goals first | cases h | skip
  simp_all

instance Js.uniform_blockComment (s : Bytes) :
    Uniform (σ := σ) (Cpp.highlightBlockComment (Js.matchBlockComment s)) := by
  rw [Js.matchBlockComment_eq]
  infer_instance

theorem Cpp.wp_highlightBlockComment_iff {t : Bytes} {env : HEnv} {s : HS σ} {Q : Unit → HS σ → Prop}
    (hl : s.idx + s.rem.length = env.src.length) (hn : t.length + 4 ≤ s.rem.length) :
    wp (Cpp.highlightBlockComment ⟨t.length + 4, true⟩) Q env s ↔
      Q () ⟨s.rem.drop (t.length + 4), s.idx + (t.length + 4), s.out ++ [⟨s.idx, 2, .comment_delim, .normal⟩] ++
        optEmit (s.idx + 2) t .comment ++ [⟨s.idx + 2 + t.length, 2, .comment_delim, .normal⟩], s.ext⟩ := by
  unfold Cpp.highlightBlockComment
  rw [wp_bind, wp_index, wp_bind, wp_emit_iff (by omega) (by omega), wp_bind]
  simp only [if_true]
  rw [wp_emitIf_iff (by omega), wp_bind, Cpp.emitWhen, if_pos rfl, wp_emit_iff (by omega) (by omega),
    wp_advance_iff (by simpa using hn)]
  have h1 : t.length + 4 - 2 - 2 = t.length := by omega
  have h2 : s.idx + (t.length + 4) - 2 = s.idx + 2 + t.length := by omega
  simp only [HS.adv, h1, h2, optEmit, List.append_assoc]

theorem upTo_of_find {q s : Bytes} {n : Nat} (h : findSub q s = some n) : UpTo q s n := by
  have key := findSub_spec q s
  rw [h] at key
  exact ⟨fun k hk => Nat.le_of_not_lt fun hlt => key.2 k hlt hk, .inr key.1⟩

theorem line_of_match {s : Bytes} {n : Nat} (h : Js.matchLineComment (b!"//" ++ s) = n + 2) : Spec.Js.Line s n := by
  rcases Js.matchLineComment_facts (b!"//" ++ s) with ⟨h1, _⟩ | ⟨_, _, _, h2⟩
  · omega
  · simp at h h2; simpa [h] using h2

theorem notWord {ws : List (Bytes × HT)} {w : Bytes} (h : ws.any (·.1 == w) = false) (ty : HT) : (w, ty) ∉ ws := by
  intro hm
  simp at h
  exact h _ _ hm rfl

end Ulight
