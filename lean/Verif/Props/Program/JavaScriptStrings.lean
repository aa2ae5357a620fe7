import Verif.Hl.Grammar
import Verif.Spec.Elements.JavaScript
import Verif.Props.Lang.Js

/-!
# C58: strings of JavaScript and TypeScript
-/

namespace Ulight.Js

open Spec Spec.JavaScript

variable {α β : Type}

/-! ## Text that has been read, but has no token yet -/

/-- In the state `x`, the function reads the text `a` before `b`, after the text `p`, which has no tokens yet.  It emits the
tokens `ts` for both. -/
def After (env : HEnv) (m : HM Elem α) (x : Elem) (p a : Bytes) (ts : List Token) (b : Bytes) (v : α) (y : Elem) : Prop :=
  ∃ es : List Emit, ts = es.map Emit.token ∧ ∀ i out, i + (p ++ (a ++ b)).length = env.src.length →
    m env ⟨a ++ b, i + p.length, out, x⟩ = .ok (v, ⟨b, i + p.length + a.length, out ++ es.map (Emit.moved i), y⟩)

variable {env : HEnv} {x y z : Elem} {p a a' b : Bytes} {ts us : List Token} {v : α}

theorem after_nil {m : HM Elem α} : After env m x [] a ts b v y ↔ Reads env m x a ts b v y := by
  simp [After, Reads]

/-- A function that reads more of the text that has no token yet. -/
theorem After.skip {m : HM Elem β} {f : β → HM Elem α} {w : β} (h : Reads env m x a [] (a' ++ b) w y)
    (h' : After env (f w) y (p ++ a) a' ts b v z) : After env (m >>= f) x p (a ++ a') ts b v z := by
  obtain ⟨es, h0, h⟩ := h
  have : es = [] := by simpa using h0.symm
  subst this
  obtain ⟨es', rfl, h'⟩ := h'
  refine ⟨es', rfl, fun i out hi => ?_⟩
  show HM.bind m f env _ = _
  unfold HM.bind
  rw [List.append_assoc, h (i + p.length) out (by simp at hi ⊢; omega)]
  dsimp only
  have := h' i out (by simp at hi ⊢; omega)
  simp only [List.length_append, ← Nat.add_assoc] at this
  rw [List.map_nil, List.append_nil, this]
  simp [Nat.add_assoc]

/-- A function that emits the tokens. -/
theorem After.bind {m : HM Elem β} {f : β → HM Elem α} {w : β} (h : After env m x p a ts (a' ++ b) w y)
    (h' : Reads env (f w) y a' us b v z) : After env (m >>= f) x p (a ++ a') (ts ++ shift (p ++ a).length us) b v z := by
  obtain ⟨es, rfl, h⟩ := h
  obtain ⟨es', rfl, h'⟩ := h'
  refine ⟨es ++ es'.map (Emit.moved (p ++ a).length), by rw [List.map_append, moved_token], fun i out hi => ?_⟩
  show HM.bind m f env _ = _
  unfold HM.bind
  rw [List.append_assoc, h i out (by simp at hi ⊢; omega)]
  dsimp only
  rw [h' (i + p.length + a.length) _ (by simp at hi ⊢; omega)]
  simp [Emit.moved, Function.comp_def, Nat.add_assoc, Nat.add_comm]
  intros
  omega

theorem flushChars_after {n : Nat} (hn : n = p.length) : After env (flushChars n) x p [] (opt 0 p .string) b () x := by
  subst hn
  unfold flushChars opt
  by_cases h : p = []
  · subst h
    exact ⟨[], by simp, fun i out _ => by simp; rfl⟩
  · have hp := List.length_pos_iff.2 h
    refine ⟨[⟨0, p.length, .string, .normal⟩], by simp [h, Emit.token], fun i out hi => ?_⟩
    simp at hi
    rw [if_pos (by omega)]
    simp only [HM.index, HM.emit, bind, HM.bind]
    simp [Emit.moved]
    intro _
    refine ⟨⟨h, ?_⟩, ?_⟩ <;> omega

/-- The text gets its token, and then the function reads more. -/
theorem After.flush {n : Nat} {f : Unit → HM Elem α} (hn : n = p.length) (h : Reads env (f ()) x a ts b v y) :
    After env (flushChars n >>= f) x p a (opt 0 p .string ++ shift p.length ts) b v y := by
  have := (flushChars_after (b := a ++ b) hn).bind h
  simpa using this

theorem After.this {c : Prop} [Decidable c] {m m' : HM Elem α} (hc : c) (h : After env m x p a ts b v y) :
    After env (if c then m else m') x p a ts b v y := by rwa [if_pos hc]

theorem After.else {c : Prop} [Decidable c] {m m' : HM Elem α} (hc : ¬ c) (h : After env m' x p a ts b v y) :
    After env (if c then m else m') x p a ts b v y := by rwa [if_neg hc]

theorem After.rem {f : Bytes → HM Elem α} (h : After env (f (a ++ b)) x p a ts b v y) : After env (HM.rem >>= f) x p a ts b v y := h

theorem loop_bind {γ : Type} (m : Nat) (body : β → HM Elem (β ⊕ γ)) (c : β) (k : γ → HM Elem α) :
    (HM.loop (m + 1) body c >>= k) = (body c >>= fun r => match r with
      | .inl c' => HM.loop m body c' >>= k
      | .inr w => k w) := by
  funext env s
  show HM.bind _ _ env s = HM.bind _ _ env s
  conv => lhs; unfold HM.loop
  show HM.bind (HM.bind _ _) _ env s = HM.bind _ _ env s
  unfold HM.bind
  cases body c env s with
  | error e => rfl
  | ok r =>
    obtain ⟨r, s'⟩ := r
    cases r <;> rfl

/-! ## Escape sequences -/

theorem braced_open {w : Bytes} (h0 : w ≠ []) (h : ∀ c ∈ w, Hex c) :
    (matchEscape (b!"\\u{" ++ w)).erroneous = false := by
  have hb : Ascii.length_before (c!"{" :: w) c!"}" 1 = w.length + 1 := by
    have := Ascii.findLoop_eq (· == c!"}") true 1 (c!"{" :: w).length w (by simp; omega)
    unfold Ascii.length_before
    have hx : ∀ c, Hex c → c ≠ c!"}" := by
      intro c
      rw [← isHexDigit_iff]
      rintro h rfl
      revert h
      decide
    have hw : w.takeWhile (fun c => (c == c!"}") != true) = w := by
      clear this h0
      induction w with
      | nil => rfl
      | cons c w ih =>
        rw [List.takeWhile_cons, if_pos (by simp [hx c (h c (by simp))]), ih fun d hd => h d (by simp [hd])]
    rw [List.drop_succ_cons, List.drop_zero, this, hw]
    omega
  have h1 : ∀ c ∈ w, isHexDigit c = true := fun c hc => (isHexDigit_iff c).2 (h c hc)
  simp [matchEscape, matchCommonEscapeAt, matchCommonEscape, matchBracedEscape, startsWith_cons_cons, hb, h0]
  exact h1

theorem good_erroneous {c : UInt8} {t : Bytes} {n : Nat} (h : GoodEsc (c!"\\" :: c :: t) n) :
    (matchEscape (c!"\\" :: c :: t)).erroneous = false := by
  have f := matchEscape_facts c t
  cases he : (matchEscape (c!"\\" :: c :: t)).erroneous with
  | false => rfl
  | true =>
    rcases h.2.1 with h1 | ⟨_, h1⟩
    · exact absurd h1 ((f.bad he).2 n)
    · exfalso
      generalize hz : c!"\\" :: c :: t ++ b!"}" = z at h1
      have hl : ∀ w : Bytes, (∀ c ∈ w, Hex c) → t ++ b!"}" = w → False := by
        rintro w hw rfl
        have := hw c!"}" (by simp)
        revert this
        rw [← isHexDigit_iff]
        decide
      cases h1 with
      | hex _ h2 =>
        simp at hz
        exact hl _ h2 hz.2
      | unicode _ h2 =>
        simp at hz
        exact hl _ h2 hz.2
      | @codePoint w h0 h2 =>
        simp at hz
        obtain ⟨rfl, hz⟩ := hz
        cases t with
        | nil => simp at hz
        | cons d t =>
          simp at hz
          obtain ⟨rfl, hz⟩ := hz
          subst hz
          have := braced_open h0 h2
          simp at this
          simp [this] at he
      | octal h2 _ =>
        simp at hz
        obtain ⟨rfl, rfl⟩ := hz
        have := h2 c!"}" (by simp)
        revert this
        unfold Octal
        decide
      | simple => simp at hz

theorem escape_ne {e b : Bytes} {ty : HT} (h : Spec.JavaScript.Escape e b ty) : ∃ c t, e = c!"\\" :: c :: t := by
  obtain ⟨c, t, he⟩ := extent_backslash h.1
  have f := matchEscape_facts c t
  rw [← he] at f
  have := extent_unique h.1 f.extent
  have h2 := f.two
  rw [← this] at h2
  match e, h2 with
  | d :: d' :: t', _ =>
    simp at he
    exact ⟨d', t', by rw [he.1]⟩

theorem escape_eq' {e b : Bytes} {ty : HT} (h : Spec.JavaScript.Escape e b ty) :
    (matchEscape (e ++ b)).length = e.length ∧ (if (matchEscape (e ++ b)).erroneous then .error else .string_escape) = ty := by
  obtain ⟨c, t, he⟩ := extent_backslash h.1
  have f := matchEscape_facts c t
  rw [← he] at f
  have hl := extent_unique h.1 f.extent
  refine ⟨hl.symm, ?_⟩
  rcases h.2 with ⟨h1, rfl⟩ | ⟨h1, rfl⟩
  · rw [he] at h1 ⊢
    rw [good_erroneous h1]
    rfl
  · cases hh : (matchEscape (e ++ b)).erroneous with
    | true => rfl
    | false => exact absurd (by rw [hl]; exact f.good hh) h1

/-! ## Strings -/

/-- What follows the content of a string. -/
structure Ends (q : UInt8) (z b : Bytes) : Prop where
  quote : z = [q] ∨ z = [] ∧ (b = [] ∨ b.head? = some 0x0A)

theorem literal_chars {q : UInt8} {t s : Bytes} {n : Nat} (h : ∀ c ∈ t, c ≠ q ∧ c ≠ 0x0A ∧ c ≠ c!"\\") (hl : Literal q s n) :
    Literal q (t ++ s) (t.length + n) := by
  induction t with
  | nil => simpa using hl
  | cons c t ih =>
    have := Literal.char (h c (by simp)) (ih fun d hd => h d (by simp [hd]))
    rwa [show (c :: t).length + n = t.length + n + 1 by simp; omega]

theorem text_split {q : UInt8} {t r : Bytes} (h : Text q (t ++ r) t.length) :
    (∀ c ∈ t, c ≠ q ∧ c ≠ 0x0A ∧ c ≠ c!"\\") ∨ ∃ u, t = u ++ b!"\\" ∧ r = [] ∧ ∀ c ∈ u, c ≠ q ∧ c ≠ 0x0A ∧ c ≠ c!"\\" := by
  have hp : ∀ c ∈ t, c ≠ q ∧ c ≠ 0x0A := by simpa using h.plain
  by_cases hb : c!"\\" ∈ t
  · right
    obtain ⟨k, hk⟩ := List.mem_iff_getElem?.1 hb
    have hk' : k < t.length := (List.getElem?_eq_some_iff.1 hk).1
    have h1 := h.backslash k hk' (by rwa [List.getElem?_append_left hk'])
    simp at h1
    have hr : r = [] := List.length_eq_zero_iff.1 (by omega)
    have e : t = t.take k ++ b!"\\" := by
      conv => lhs; rw [← List.take_append_drop k t]
      rw [List.drop_eq_getElem_cons hk', List.drop_eq_nil_of_le (by omega)]
      have := (List.getElem?_eq_some_iff.1 hk).2
      rw [this]
    refine ⟨t.take k, e, hr, fun c hc => ?_⟩
    have hm := List.mem_of_mem_take hc
    refine ⟨(hp c hm).1, (hp c hm).2, ?_⟩
    rintro rfl
    obtain ⟨j, hj⟩ := List.mem_iff_getElem?.1 hc
    have hj' := (List.getElem?_eq_some_iff.1 hj).1
    rw [List.length_take] at hj'
    have := h.backslash j (by omega) (by
      rw [List.getElem?_append_left (by omega)]
      rwa [List.getElem?_take_of_lt (by omega)] at hj)
    simp at this
    omega
  · left
    intro c hc
    exact ⟨(hp c hc).1, (hp c hc).2, by rintro rfl; exact hb hc⟩

/-- The next byte is not the text of a string. -/
def NoText (q : UInt8) (s : Bytes) : Prop := s = [] ∨ s.head? = some q ∨ s.head? = some 0x0A ∨ ∃ c t, s = c!"\\" :: c :: t

theorem NoText.after {q : UInt8} {t r : Bytes} (h : Text q (t ++ r) t.length) (h1 : r ≠ b!"\\") : NoText q r := by
  rcases h.until_ with h | ⟨c, h2, h⟩
  · simp at h
    exact Or.inl h
  · rw [List.getElem?_append_right (by omega)] at h2
    simp at h2
    cases r with
    | nil => exact Or.inl rfl
    | cons d r =>
      simp at h2
      subst h2
      rcases h with rfl | rfl | rfl
      · exact Or.inr (Or.inl rfl)
      · exact Or.inr (Or.inr (Or.inl rfl))
      · cases r with
        | nil => exact absurd rfl h1
        | cons e r => exact Or.inr (Or.inr (Or.inr ⟨_, _, rfl⟩))

/-- What comes after the loop over a string. -/
def finish (n : Nat) (chars : Nat) : HM Elem Unit := do
  flushChars chars
  HM.emitAdvIf n .string_delim
  HM.set .div

theorem backslash_find {u r : Bytes} (h : ∀ c ∈ u, c ≠ c!"\\") (h0 : u ≠ []) (n : Nat) (hn : u.length ≤ n)
    (he : n = u.length ∨ r.head? = some c!"\\") : 0 < min n (findBackslash (u ++ r)) ∧ min n (findBackslash (u ++ r)) ≤ u.length := by
  have hp := List.length_pos_iff.2 h0
  have h1 : 0 < findBackslash (u ++ r) := by
    cases u with
    | nil => exact absurd rfl h0
    | cons c u =>
      unfold findBackslash
      rw [List.cons_append, findSub]
      simp only [startsWith]
      cases findSub b!"\\" (u ++ r) <;> simp [Ne.symm (h c (by simp))]
  refine ⟨by omega, ?_⟩
  rcases he with rfl | he
  · omega
  · cases r with
    | nil => cases he
    | cons d r =>
      cases he
      have : findSub b!"\\" (u ++ c!"\\" :: r) = some u.length := by
        clear hp h1 hn h0
        induction u with
        | nil => simp [findSub, startsWith_cons_cons]
        | cons c u ih =>
          rw [List.cons_append, findSub, ih fun d hd => h d (by simp [hd])]
          simp [startsWith_cons_cons, Ne.symm (h c (by simp))]
      simp [findBackslash, this]
      omega

/-- The loop reads text without backslashes. -/
theorem string_text {t r : Bytes} {n k fuel z : Nat} (h : ∀ c ∈ t, c ≠ c!"\\") (hn : n = t.length + k)
    (he : k = 0 ∨ r.head? = some c!"\\") (hr : r = a ++ b) (hf : (t ++ r).length < fuel)
    (h' : ∀ fuel, r.length < fuel → After env (HM.loop fuel stringStep (k, p.length + t.length) >>= finish z) x (p ++ t) a ts b () y) :
    After env (HM.loop fuel stringStep (n, p.length) >>= finish z) x p (t ++ a) ts b () y := by
  generalize hm : t.length = m
  induction m using Nat.strongRecOn generalizing t n p fuel with
  | ind m ih =>
    by_cases h0 : t = []
    · subst h0
      have := h' fuel (by simpa using hf)
      simp at hn
      simpa [hn] using this
    · obtain ⟨fuel, rfl⟩ : ∃ f, fuel = f + 1 := ⟨fuel - 1, by omega⟩
      rw [loop_bind]
      obtain ⟨h1, h2⟩ := backslash_find (r := r) h h0 n (by omega) (by rcases he with rfl | he; exact Or.inl hn; exact Or.inr he)
      generalize hk : min n (findBackslash (t ++ r)) = j at h1 h2
      obtain ⟨u, v, rfl, hu, -⟩ := split_at h2
      have hu0 : u ≠ [] := by rintro rfl; simp at hu; omega
      rw [List.append_assoc]
      have hs : startsWith (u ++ (v ++ r)) b!"\\" = false := by
        cases u with
        | nil => exact absurd rfl hu0
        | cons c u => simp [startsWith_cons_cons, Ne.symm (h c (by simp))]
      refine After.skip (w := .inl (n - j, p.length + j)) (y := x) ?_ ?_
      · unfold stringStep
        refine reads_else (by have := List.length_pos_iff.2 hu0; simp at hn; dsimp only; omega) (reads_rem ?_)
        rw [List.append_assoc, ← hr]
        refine reads_else (by simp [hs]) ?_
        dsimp only
        rw [← List.append_assoc, hk]
        exact reads_this h1 ((reads_advance hu.symm).bind_last reads_pure)
      · have := ih v.length (by simp at hm hu; have := List.length_pos_iff.2 hu0; omega) (p := p ++ u) (t := v) (n := n - j) (fuel := fuel)
          (fun c hc => h c (by simp [hc])) (by rw [hn]; simp; omega)
          (by have := List.length_pos_iff.2 hu0; simp at hf ⊢; omega) (fun f hf' => by
            have := h' f hf'
            simpa [Nat.add_assoc] using this) rfl
        simpa [hu] using this

theorem finish_reads {z : Bytes} : Reads env (do
    HM.emitAdvIf z.length .string_delim
    HM.set .div : HM Elem Unit) x z (opt 0 z .string_delim) b () .div :=
  (reads_emitIf rfl).bind_last (reads_set reads_pure)

theorem finish_after {z : Bytes} {fuel : Nat} (hf : 0 < fuel) :
    After env (HM.loop fuel stringStep (0, p.length) >>= finish z.length) x p z
      (opt 0 p .string ++ shift p.length (opt 0 z .string_delim)) b () .div := by
  obtain ⟨fuel, rfl⟩ : ∃ f, fuel = f + 1 := ⟨fuel - 1, by omega⟩
  rw [loop_bind]
  have : After env (finish z.length p.length) x p z (opt 0 p .string ++ shift p.length (opt 0 z .string_delim)) b () .div :=
    After.flush rfl finish_reads
  exact this

theorem quoted_nil {q : UInt8} (h : Quoted q [] ts []) : ts = [] := by
  generalize ha : ([] : Bytes) = a at h
  cases h with
  | source => rfl
  | close => cases ha
  | text h0 => simp at ha; exact absurd ha.1.symm (by simpa using h0)
  | escape h =>
    obtain ⟨c, t, rfl⟩ := escape_ne h
    simp at ha

theorem quoted_loop {q : UInt8} (hq : q ∈ b!"'\"") (h : Quoted q a ts b) : ∃ d z, a = d ++ z ∧ (z = [q] ∨ z = [] ∧ (b = [] ∨ b.head? = some 0x0A)) ∧
    Literal q (a ++ b) d.length ∧
    (∀ x fuel, (a ++ b).length < fuel →
      Reads env (HM.loop fuel stringStep (d.length, 0) >>= finish z.length) x a ts b () .div) ∧
    (NoText q (a ++ b) → ∀ x p fuel, (a ++ b).length < fuel →
      After env (HM.loop fuel stringStep (d.length, p.length) >>= finish z.length) x p a (opt 0 p .string ++ shift p.length ts) b () .div) := by
  have both {a b : Bytes} {ts : List Token} {d z : Bytes} (h : ∀ x p fuel, (a ++ b).length < fuel →
      After env (HM.loop fuel stringStep (d.length, p.length) >>= finish z.length) x p a (opt 0 p .string ++ shift p.length ts) b () .div) :
      (∀ x fuel, (a ++ b).length < fuel →
        Reads env (HM.loop fuel stringStep (d.length, 0) >>= finish z.length) x a ts b () .div) ∧
      (NoText q (a ++ b) → ∀ x p fuel, (a ++ b).length < fuel →
        After env (HM.loop fuel stringStep (d.length, p.length) >>= finish z.length) x p a (opt 0 p .string ++ shift p.length ts) b () .div) := by
    refine ⟨fun x fuel hf => ?_, fun _ => h⟩
    have := h x [] fuel hf
    rw [after_nil] at this
    simpa [opt, shift] using this
  induction h with
  | source =>
    refine ⟨[], [], rfl, Or.inr ⟨rfl, Or.inl rfl⟩, .done, both fun x p fuel hf => ?_⟩
    simpa [opt] using finish_after (env := env) (x := x) (p := p) (b := []) (z := [])  (fuel := fuel) (by omega)
  | @line b =>
    refine ⟨[], [], rfl, Or.inr ⟨rfl, Or.inr rfl⟩, .stop (Or.inr rfl), both fun x p fuel hf => ?_⟩
    simpa [opt] using finish_after (env := env) (x := x) (p := p) (b := 0x0A :: b) (z := [])  (fuel := fuel) (by omega)
  | @close b =>
    refine ⟨[], [q], rfl, Or.inl rfl, .stop (Or.inl rfl), both fun x p fuel hf => ?_⟩
    simpa [opt] using finish_after (env := env) (x := x) (p := p) (b := b) (z := [q])  (fuel := fuel) (by omega)
  | @text t a ts b h0 h h1 _ ih =>
    obtain ⟨d, z, rfl, hz, hl, h2, h3⟩ := ih
    obtain ⟨c, t', rfl⟩ := List.exists_cons_of_ne_nil h0
    have hno : ¬ NoText q (c :: t' ++ (d ++ z) ++ b) := by
      have hp := h.plain c (by simp)
      rintro (h4 | h4 | h4 | ⟨c', u, h4⟩)
      · simp at h4
      · simp at h4; exact hp.1 h4
      · simp at h4; exact hp.2 h4
      · simp at h4
        have := h.backslash 0 (by simp) (by simp [h4.1])
        have h5 := congrArg List.length h4.2
        simp only [List.length_append, List.length_cons] at this h5
        omega
    generalize c :: t' = t at *
    rcases text_split h with hp | ⟨u, rfl, hr, hu⟩
    · refine ⟨t ++ d, z, by simp, hz, ?_, fun x fuel hf => ?_, fun h => absurd h hno⟩
      · have := literal_chars hp hl
        simpa using this
      · have hn := NoText.after h h1
        rw [← after_nil]
        have := string_text (env := env) (x := x) (p := []) (y := .div) (ts := ⟨0, t.length, .string⟩ :: shift t.length ts) (t := t)
          (r := d ++ z ++ b) (n := t.length + d.length) (k := d.length) (z := z.length) (a := d ++ z) (b := b) (fuel := fuel)
          (fun c hc => (hp c hc).2.2) rfl ?_ rfl (by simpa using hf) (fun fuel hf => ?_)
        · simpa using this
        · rcases hn with h4 | h4 | h4 | ⟨c', u, h4⟩
          · simp at h4
            simp [h4.1]
          · left
            generalize d ++ z ++ b = r at h4 hl
            cases r with
            | nil => cases h4
            | cons e r => exact literal_stop hq hl (Or.inl (by simpa using h4))
          · left
            generalize d ++ z ++ b = r at h4 hl
            cases r with
            | nil => cases h4
            | cons e r => exact literal_stop hq hl (Or.inr (by simpa using h4))
          · right
            rw [h4]
            rfl
        · have := h3 hn x t fuel hf
          simpa [opt, h0] using this
    · simp at hr
      obtain ⟨rfl, rfl, rfl⟩ := hr
      rename_i hq'
      have := quoted_nil (by simpa using hq')
      subst this
      refine ⟨u ++ b!"\\", [], by simp, Or.inr ⟨rfl, Or.inl rfl⟩, ?_, fun x fuel hf => ?_, fun h => absurd h hno⟩
      · have := literal_chars hu (Literal.backslash (q := q))
        simpa using this
      · rw [← after_nil]
        have := string_text (env := env) (x := x) (p := []) (y := .div) (ts := [⟨0, u.length + 1, .string⟩]) (t := u)
          (r := b!"\\") (n := u.length + 1) (k := 1) (z := 0) (a := b!"\\") (b := []) (fuel := fuel)
          (fun c hc => (hu c hc).2.2) rfl (Or.inr rfl) rfl (by simpa using hf) (fun fuel hf => ?_)
        · simpa [shift] using this
        · simp at hf
          obtain ⟨fuel, rfl⟩ : ∃ f, fuel = f + 1 := ⟨fuel - 1, by omega⟩
          rw [loop_bind]
          refine After.skip (a := b!"\\") (a' := []) (w := .inl (0, u.length + 1)) (y := x) ?_ ?_
          · unfold stringStep
            refine reads_else (by simp) (reads_rem (reads_this rfl (reads_else (by decide) ?_)))
            exact (reads_advance rfl).bind_last (by simpa using reads_pure)
          · have := finish_after (env := env) (x := x) (p := u ++ b!"\\") (b := []) (z := []) (fuel := fuel) (by omega)
            simpa [opt, shift] using this
  | @escape e ty a ts b h i _ ih =>
    obtain ⟨d, z, rfl, hz, hl, h2, h3⟩ := ih
    obtain ⟨c, t, rfl⟩ := escape_ne h
    obtain ⟨e1, e2⟩ := escape_eq' h
    refine ⟨c!"\\" :: c :: t ++ d, z, by simp, hz, ?_, both fun x p fuel hf => ?_⟩
    · have := Literal.escape (c := c) (literal_chars i hl)
      simp at this ⊢
      rwa [show t.length + d.length + 1 + 1 = t.length + d.length + 2 by omega]
    · simp only [List.length_append, List.length_cons] at hf
      obtain ⟨fuel, rfl⟩ : ∃ f, fuel = f + 1 := ⟨fuel - 1, by omega⟩
      rw [loop_bind]
      have hs : After env (stringStep ((c!"\\" :: c :: t ++ d).length, p.length)) x p (c!"\\" :: c :: t)
          (opt 0 p .string ++ shift p.length [⟨0, (c!"\\" :: c :: t).length, ty⟩]) (d ++ z ++ b) (.inl (d.length, 0)) x := by
        unfold stringStep
        refine After.else (by simp) (After.rem (After.this (by simp [startsWith_cons_cons]) ?_))
        dsimp only
        refine After.this (by rw [e1]; simp) (After.flush rfl ?_)
        rw [e1, e2]
        refine (reads_emit rfl (by simp)).bind_last ?_
        have : sub64 (c!"\\" :: c :: t ++ d).length (c!"\\" :: c :: t).length = d.length := by
          unfold sub64
          rw [if_pos (by simp)]
          simp
        rw [this]
        exact reads_pure
      have he : opt 0 p .string ++ shift p.length (⟨0, (c!"\\" :: c :: t).length, ty⟩ :: shift (c!"\\" :: c :: t).length ts) =
          (opt 0 p .string ++ shift p.length [⟨0, (c!"\\" :: c :: t).length, ty⟩]) ++ shift (p ++ c!"\\" :: c :: t).length ts := by
        simp [shift, Nat.add_comm, Nat.add_left_comm]
      rw [he]
      exact hs.bind (h2 x fuel (by simp; omega))


theorem reads_hassert {c : Bool} {f : Unit → HM Elem α} (hc : c = true) (h : Reads env (f ()) x a ts b v y) :
    Reads env (HM.hassert c >>= f) x a ts b v y := by
  subst hc
  exact h

theorem string_reads {q : UInt8} (hq : q ∈ b!"'\"") (h : Quoted q a ts b) :
    Reads env expectStringLiteral x (q :: a) (⟨0, 1, .string_delim⟩ :: shift 1 ts) b true .div := by
  obtain ⟨d, z, rfl, hz, hl, h1, -⟩ := quoted_loop (env := env) hq h
  obtain ⟨n, h2, -, h3⟩ := stringLiteral_facts (t := d ++ z ++ b) hq
  have hn := literal_unique hq hl h2
  subst hn
  have hg : (d ++ z ++ b)[d.length]? = (z ++ b).head? := by
    rw [List.append_assoc, List.getElem?_append_right (by omega)]
    simp [List.head?_eq_getElem?]
  have hm : matchStringLiteral (q :: (d ++ z ++ b)) = ⟨d.length + 1 + z.length, z.length != 0⟩ := by
    have hq' : q ≠ 0x0A := by rintro rfl; revert hq; decide
    rw [hg] at h3
    rcases hz with rfl | ⟨rfl, rfl | hb⟩
    · rcases h3 with ⟨h3, -⟩ | ⟨-, h3⟩
      · rw [h3]; rfl
      · simp [hq'] at h3
    · rcases h3 with ⟨-, h3⟩ | ⟨h3, -⟩
      · simp at h3
      · simp at h3; simp [h3]
    · rcases h3 with ⟨-, h3⟩ | ⟨h3, -⟩
      · rw [List.nil_append, hb] at h3
        exact absurd (Option.some.inj h3).symm hq'
      · simp at h3; simp [h3]
  unfold expectStringLiteral
  refine reads_rem (reads_this (by rw [List.cons_append, hm]; simp) ?_)
  rw [List.cons_append, hm]
  refine Reads.bind_last (w := ()) (y := .div) ?_ reads_pure
  unfold highlightStringLiteral
  refine reads_hassert (by simp) ?_
  have := Reads.bind (env := env) (x := x) (a := [q]) (a' := d ++ z) (b := b)
    (f := fun _ => HM.rem >>= fun r => HM.loop (r.length + 2) stringStep (d.length, 0) >>= finish z.length) (reads_emit (ty := .string_delim) (mode := .normal) rfl (by simp))
    (reads_rem (h1 x _ (by omega)))
  have e1 : (⟨d.length + 1 + z.length, z.length != 0⟩ : Enclosed).length -
      (if (⟨d.length + 1 + z.length, z.length != 0⟩ : Enclosed).terminated then 2 else 1) = d.length ∧
      (if (⟨d.length + 1 + z.length, z.length != 0⟩ : Enclosed).terminated then 1 else 0) = z.length := by
    rcases hz with rfl | ⟨rfl, -⟩ <;> simp
  rw [e1.1, e1.2]
  exact this

theorem string_fail (h : ∀ q, b.head? = some q → q ∉ b!"'\"") : Reads env expectStringLiteral x [] [] b false x := by
  unfold expectStringLiteral
  refine reads_rem (reads_else ?_ reads_pure)
  rw [List.nil_append, stringLiteral_none (by simpa [List.head?_eq_getElem?] using h)]
  simp

/-! ## Templates -/

theorem after_loop {body : β → HM Elem (β ⊕ α)} {m : Nat} {c c' : β} (hm : 0 < m) (h : After env (body c) x p a ts (a' ++ b) (.inl c') y)
    (h' : Reads env (HM.loop (m - 1) body c') y a' us b v z) :
    After env (HM.loop m body c) x p (a ++ a') (ts ++ shift (p ++ a).length us) b v z := by
  obtain ⟨m, rfl⟩ : ∃ k, m = k + 1 := ⟨m - 1, by omega⟩
  unfold HM.loop
  exact h.bind h'

theorem After.bind_last {m : HM Elem β} {f : β → HM Elem α} {w : β} (h : After env m x p a ts b w y)
    (h' : Reads env (f w) y [] [] b v z) : After env (m >>= f) x p a ts b v z := by
  have := After.bind (a' := []) h h'
  simpa [shift] using this

theorem after_loop_end {body : β → HM Elem (β ⊕ α)} {m : Nat} {c : β} (hm : 0 < m) (h : After env (body c) x p a ts b (.inr v) y) :
    After env (HM.loop m body c) x p a ts b v y := by
  obtain ⟨m, rfl⟩ : ∃ k, m = k + 1 := ⟨m - 1, by omega⟩
  unfold HM.loop
  exact h.bind_last reads_pure

theorem after_loop_skip {body : β → HM Elem (β ⊕ α)} {m : Nat} {c c' : β} (hm : 0 < m) (h : Reads env (body c) x a [] (a' ++ b) (.inl c') y)
    (h' : After env (HM.loop (m - 1) body c') y (p ++ a) a' ts b v z) : After env (HM.loop m body c) x p (a ++ a') ts b v z := by
  obtain ⟨m, rfl⟩ : ∃ k, m = k + 1 := ⟨m - 1, by omega⟩
  unfold HM.loop
  exact After.skip h h'

/-- A function that emits the tokens of a part of the text that it reads. -/
theorem After.part {m : HM Elem β} {f : β → HM Elem α} {w : β} {l : Bytes} (h : After env m x p (a ++ l) ts (a' ++ b) w y)
    (h' : After env (f w) y l a' us b v z) : After env (m >>= f) x p (a ++ (l ++ a')) (ts ++ shift (p ++ a).length us) b v z := by
  obtain ⟨es, rfl, h⟩ := h
  obtain ⟨es', rfl, h'⟩ := h'
  refine ⟨es ++ es'.map (Emit.moved (p ++ a).length), by rw [List.map_append, moved_token], fun i out hi => ?_⟩
  show HM.bind m f env _ = _
  unfold HM.bind
  have h1 := h i out (by simp at hi ⊢; omega)
  simp only [List.append_assoc] at h1 ⊢
  rw [h1]
  dsimp only
  have h2 := h' (i + p.length + a.length) (out ++ es.map (Emit.moved i)) (by simp at hi ⊢; omega)
  rw [show i + p.length + (a ++ l).length = i + p.length + a.length + l.length by simp; omega, h2]
  simp [Emit.moved, Function.comp_def, Nat.add_assoc, Nat.add_comm]
  constructor <;> (intros; omega)

theorem after_loop_part {body : β → HM Elem (β ⊕ α)} {m : Nat} {c c' : β} {l : Bytes} (hm : 0 < m)
    (h : After env (body c) x p (a ++ l) ts (a' ++ b) (.inl c') y) (h' : After env (HM.loop (m - 1) body c') y l a' us b v z) :
    After env (HM.loop m body c) x p (a ++ (l ++ a')) (ts ++ shift (p ++ a).length us) b v z := by
  obtain ⟨m, rfl⟩ : ∃ k, m = k + 1 := ⟨m - 1, by omega⟩
  unfold HM.loop
  exact h.part h'

/-- The text of a template ends here. -/
def Stop (s : Bytes) : Prop := s.head? = some c!"`" ∨ b!"${" <+: s ∨ ∃ c t, s = c!"\\" :: c :: t

theorem template_skip {again : HM Elem Unit} {c : UInt8} {n : Nat} (h : ¬ Stop (c :: b)) :
    Reads env (templateStep again n) x [c] [] b (.inl (n + 1)) x := by
  have skip : Reads env (do HM.advance 1; pure (.inl (n + 1)) : HM Elem (Nat ⊕ Unit)) x [c] [] b (.inl (n + 1)) x :=
    (reads_advance rfl).bind_last reads_pure
  unfold templateStep
  refine reads_rem ?_
  simp only [List.cons_append, List.nil_append]
  refine reads_else (fun hc => h (Or.inl (by simp [hc]))) ?_
  by_cases hd : c = c!"$"
  · refine reads_this hd (reads_else ?_ skip)
    rw [startsWith_iff]
    rintro ⟨t, ht⟩
    exact h (Or.inr (Or.inl ⟨t, ht.symm⟩))
  · refine reads_else hd ?_
    by_cases hb : c = c!"\\"
    · subst hb
      have : b = [] := by
        cases b with
        | nil => rfl
        | cons d t => exact absurd (Or.inr (Or.inr ⟨d, t, rfl⟩)) h
      subst this
      refine reads_this rfl (reads_else (by decide) (reads_else (by decide) skip))
    · exact reads_else hb skip

theorem template_text {again : HM Elem Unit} {t : Bytes} {fuel : Nat} (h : ∀ k < t.length, ¬ Stop ((t ++ (a ++ b)).drop k))
    (hf : (t ++ (a ++ b)).length < fuel)
    (h' : ∀ fuel, (a ++ b).length < fuel → After env (HM.loop fuel (templateStep again) (p ++ t).length) x (p ++ t) a ts b () y) :
    After env (HM.loop fuel (templateStep again) p.length) x p (t ++ a) ts b () y := by
  induction t generalizing p fuel with
  | nil => simpa using h' fuel (by simpa using hf)
  | cons c t ih =>
    have := after_loop_skip (m := fuel) (p := p) (a := [c]) (a' := t ++ a) (b := b) (ts := ts) (z := y) (v := ()) (by omega)
      (template_skip (again := again) (n := p.length) (env := env) (x := x) (b := t ++ a ++ b) (by simpa using h 0 (by simp)))
      (by
        have := ih (p := p ++ [c]) (fuel := fuel - 1) (fun k hk => by simpa using h (k + 1) (by simpa using hk)) (by simp at hf ⊢; omega)
          (by simpa using h')
        simpa using this)
    simpa using this


theorem templateText_split {t r : Bytes} (h : TemplateText (t ++ r) t.length) (h1 : r ≠ b!"\\") :
    (∀ k < t.length, ¬ Stop ((t ++ r).drop k)) ∧ (r = [] ∨ Stop r) := by
  constructor
  · rintro k hk (h2 | ⟨u, h2⟩ | ⟨c, u, h2⟩)
    · rw [List.head?_drop] at h2
      refine h.plain c!"`" ?_ rfl
      rw [List.take_left]
      rw [List.getElem?_append_left hk] at h2
      exact List.mem_of_getElem? h2
    · refine h.noSubstitution k hk ⟨(t ++ r).take k, u, ?_, by simp; omega⟩
      rw [List.append_assoc, h2, List.take_append_drop]
    · have h3 : (t ++ r)[k]? = some c!"\\" := by
        rw [← List.head?_drop, h2]
        rfl
      have := h.backslash k hk h3
      have h4 := congrArg List.length h2
      simp only [List.length_drop, List.length_cons] at h4
      omega
  · rcases h.until_ with h2 | h2 | h2 | ⟨u, w, h2, h3⟩
    · left
      simpa using h2
    · right; left
      rw [List.getElem?_append_right (by omega)] at h2
      simpa [List.head?_eq_getElem?] using h2
    · right; right; right
      rw [List.getElem?_append_right (by omega)] at h2
      simp at h2
      match r, h2, h1 with
      | [c], h2, h1 => simp at h2; exact absurd (by rw [h2]) h1
      | c :: d :: r, h2, _ => simp at h2; exact ⟨d, r, by rw [h2]⟩
    · right; right; left
      rw [List.append_assoc] at h2
      exact ⟨w, (List.append_inj h2 h3.symm).2.symm⟩

theorem continuation_eq {l s : Bytes} (hl : l ∈ terminators) (h : l <+: s) : matchLineContinuation (c!"\\" :: s) = l.length + 1 ∧ l ≠ [] := by
  obtain ⟨t, rfl⟩ := h
  have : ∀ l ∈ terminators, ∀ t, matchLineContinuation (c!"\\" :: (l ++ t)) = l.length + 1 ∧ l ≠ [] := by
    intro l hl t
    simp only [terminators, List.mem_cons, List.not_mem_nil, or_false] at hl
    rcases hl with rfl | rfl | rfl | rfl <;> refine ⟨?_, by decide⟩ <;>
      simp [matchLineContinuation, matchLineTerminator, startsWith]
  exact this l hl t

theorem continuation_none {s : Bytes} (h : ∀ t ∈ terminators, ¬ c!"\\" :: t <+: c!"\\" :: s) :
    matchLineContinuation (c!"\\" :: s) = 0 := by
  have h' : ∀ t ∈ terminators, startsWith s t = false := by
    intro t ht
    rw [Bool.eq_false_iff, ne_eq, startsWith_iff]
    rintro ⟨u, rfl⟩
    exact h t ht ⟨u, rfl⟩
  simp only [terminators, List.forall_mem_cons] at h'
  simp [matchLineContinuation, matchLineTerminator, h']

theorem closeSubstitution_reads : Reads env closeSubstitution x b!"}" [⟨0, 1, .string_interpolation_delim⟩] b () x := by
  unfold closeSubstitution
  exact reads_rem (reads_this (by simp) (reads_hassert (by simp [startsWith]) (reads_emit rfl (by simp))))

theorem closeSubstitution_end : Reads env closeSubstitution x [] [] [] () x := by
  unfold closeSubstitution
  exact reads_rem (reads_else (by simp) reads_pure)

/-- Text at the beginning is not the beginning of anything else in a template. -/
theorem not_stop {u s : Bytes} (h : ∀ c ∈ u, c ∉ b!"`\\$") (h' : Stop (u ++ s)) : u = [] := by
  cases u with
  | nil => rfl
  | cons c u =>
    have := h c (by simp)
    rcases h' with h | ⟨t, h⟩ | ⟨d, t, h⟩ <;> simp at h
    · exact absurd h (by rintro rfl; revert this; decide)
    · exact absurd h.1 (by rintro rfl; revert this; decide)
    · exact absurd h.1 (by rintro rfl; revert this; decide)


/-- What the loop over a template does with text that it has read (`u`), and at the end of text (`p`). -/
def Loops (env : HEnv) (again : HM Elem Unit) (x : Elem) (a : Bytes) (ts : List Token) (b : Bytes) (y : Elem) : Prop :=
  (∀ u a', a = u ++ a' → (∀ c ∈ u, c ∉ b!"`\\$") → ∀ fuel, (a' ++ b).length < fuel →
    After env (HM.loop fuel (templateStep again) u.length) x u a' ts b () y) ∧
  ((a ++ b = [] ∨ Stop (a ++ b)) → ∀ p fuel, (a ++ b).length < fuel →
    After env (HM.loop fuel (templateStep again) p.length) x p a (opt 0 p .string ++ shift p.length ts) b () y)

theorem Loops.of {again : HM Elem Unit} (hs : a ++ b = [] ∨ Stop (a ++ b)) (h : ∀ p fuel, (a ++ b).length < fuel →
    After env (HM.loop fuel (templateStep again) p.length) x p a (opt 0 p .string ++ shift p.length ts) b () y) :
    Loops env again x a ts b y := by
  refine ⟨?_, fun _ => h⟩
  rintro u a' rfl hu fuel hf
  have : u = [] := by
    rcases hs with hs | hs
    · simp at hs; exact hs.1
    · exact not_stop hu (by simpa using hs)
  subst this
  have := h [] fuel (by simpa using hf)
  simpa [opt, shift] using this

theorem Loops.reads {again : HM Elem Unit} (h : Loops env again x a ts b y) {fuel : Nat} (hf : (a ++ b).length < fuel) :
    Reads env (HM.loop fuel (templateStep again) 0) x a ts b () y :=
  after_nil.1 (h.1 [] a rfl (by simp) fuel hf)

theorem Loops.text {again : HM Elem Unit} {t : Bytes} (h0 : t ≠ []) (h : TemplateText (t ++ (a ++ b)) t.length) (h1 : a ++ b ≠ b!"\\")
    (h' : Loops env again x a ts b y) : Loops env again x (t ++ a) (⟨0, t.length, .string⟩ :: shift t.length ts) b y := by
  obtain ⟨h2, h3⟩ := templateText_split h h1
  refine ⟨?_, fun hs => ?_⟩
  · rintro u a' ha hu fuel hf
    have ht : ∃ t', t = u ++ t' ∧ a' = t' ++ a := by
      rcases List.append_eq_append_iff.1 ha with ⟨w, rfl, rfl⟩ | ⟨w, rfl, rfl⟩
      · have : w = [] := by
          rcases h3 with h3 | h3
          · simp at h3; exact h3.1
          · exact not_stop (fun c hc => hu c (by simp [hc])) (by simpa using h3)
        subst this
        exact ⟨[], by simp, rfl⟩
      · exact ⟨w, rfl, rfl⟩
    obtain ⟨t', rfl, rfl⟩ := ht
    have := h'.2 h3 (u ++ t')
    refine template_text (fun k hk => ?_) (by simpa using hf) (fun fuel hf => ?_)
    · have := h2 (u.length + k) (by simp; omega)
      rwa [← List.drop_drop, List.append_assoc, List.drop_left] at this
    · have := h'.2 h3 (u ++ t') fuel hf
      simpa [opt, h0] using this
  · exfalso
    rcases hs with hs | hs
    · simp at hs; exact h0 hs.1
    · exact h2 0 (List.length_pos_iff.2 h0) (by simpa using hs)

theorem template_loop {N : Bytes → List Token → Bytes → Elem → Prop} {again : HM Elem Unit} {L : Nat}
    (hN : ∀ x c us d z, (c ++ d).length < L → N c us d z → Reads env again x c us d () z) (h : Template N x a ts b y)
    (hL : (a ++ b).length ≤ L) : Loops env again x a ts b y := by
  induction h with
  | @source x =>
    refine Loops.of (Or.inl rfl) fun p fuel hf => after_loop_end (by omega) ?_
    unfold templateStep
    exact After.rem (After.flush rfl reads_pure)
  | @close x b =>
    refine Loops.of (Or.inr (Or.inl rfl)) fun p fuel hf => after_loop_end (by omega) ?_
    unfold templateStep
    refine After.rem (After.this rfl (After.flush rfl ?_))
    exact (reads_emit (a := b!"`") rfl (by simp)).bind_last (reads_set reads_pure)
  | text h0 h h1 _ ih => exact Loops.text h0 h h1 (ih (by simp at hL ⊢; omega))
  | @escape x e ty a ts b y h hc _ ih =>
    have ih := ih (by simp at hL ⊢; omega)
    obtain ⟨e1, e2⟩ := escape_eq' h
    obtain ⟨c, t, rfl⟩ := escape_ne h
    refine Loops.of (Or.inr (Or.inr (Or.inr ⟨c, t ++ a ++ b, by simp⟩))) fun p fuel hf => ?_
    have h1 : After env (templateStep again p.length) x p (c!"\\" :: c :: t)
        (opt 0 p .string ++ shift p.length [⟨0, (c!"\\" :: c :: t).length, ty⟩]) (a ++ b) (.inl 0) x := by
      unfold templateStep
      refine After.rem (After.else (by decide) (After.else (by decide) (After.this rfl ?_)))
      dsimp only
      refine After.else (by rw [List.cons_append, continuation_none (by simpa using hc)]; simp) ?_
      refine After.this (by rw [e1]; simp) (After.flush rfl ?_)
      rw [e1, e2]
      exact (reads_emit rfl (by simp)).bind_last reads_pure
    have := after_loop (by omega) h1 (ih.reads (fuel := fuel - 1) (by simp at hf ⊢; omega))
    simpa [shift, Nat.add_comm, Nat.add_left_comm, Nat.add_assoc, Function.comp_def] using this
  | @continuation x l a ts b y hl h h' ih =>
    have ih := ih (by simp at hL ⊢; omega)
    obtain ⟨a, rfl⟩ := h
    obtain ⟨h1, h2⟩ := continuation_eq (s := l ++ (a ++ b)) hl ⟨_, rfl⟩
    have hp := List.length_pos_iff.2 h2
    have hd : ∀ l ∈ terminators, ∀ c ∈ l, c ∉ b!"`\\$" := by decide
    refine Loops.of (Or.inr (Or.inr (Or.inr ?_))) fun p fuel hf => ?_
    · obtain ⟨c, l, rfl⟩ := List.exists_cons_of_ne_nil h2
      exact ⟨c, l ++ a ++ b, by simp⟩
    have hs : After env (templateStep again p.length) x p (b!"\\" ++ l)
        (opt 0 p .string ++ shift p.length [⟨0, 1, .string_escape⟩]) (a ++ b) (.inl l.length) x := by
      unfold templateStep
      refine After.rem (After.else (by decide) (After.else (by decide) (After.this rfl ?_)))
      have h1 : matchLineContinuation (b!"\\" ++ l ++ (a ++ b)) = l.length + 1 := by simpa using h1
      simp only [h1]
      refine After.this (by simp) ?_
      simp only [show decide (l.length + 1 > 1) = true by simp; omega]
      refine After.flush (f := fun _ => _) rfl ?_
      have h3 : [⟨0, 1, .string_escape⟩] = ([⟨0, 1, .string_escape⟩] : List Token) ++ shift (b!"\\").length [] := rfl
      rw [h3]
      exact Reads.bind (w := ()) (y := x) (reads_emit (a := b!"\\") rfl (by simp)) ((reads_advance rfl).bind_last reads_pure)
    have := after_loop_part (by omega) hs (ih.1 l a rfl (hd l hl) (fuel - 1) (by simp at hf ⊢; omega))
    simpa [shift, Nat.add_comm, Nat.add_left_comm, Nat.add_assoc, Function.comp_def] using this
  | @substitution x s ss a ts b y z h _ ih =>
    have ih := ih (by simp at hL ⊢; omega)
    refine Loops.of (Or.inr (Or.inr (Or.inl ⟨s ++ b!"}" ++ a ++ b, by simp⟩))) fun p fuel hf => ?_
    have hs : After env (templateStep again p.length) x p (b!"${" ++ (s ++ b!"}"))
        (opt 0 p .string ++ shift p.length ([⟨0, 2, .string_interpolation_delim⟩] ++ shift 2 (ss ++ shift s.length
          [⟨0, 1, .string_interpolation_delim⟩]))) (a ++ b) (.inl 0) y := by
      unfold templateStep
      refine After.rem (After.else (by decide) (After.this rfl (After.this ?_ (After.flush rfl ?_))))
      · simp [startsWith]
      refine Reads.bind (w := ()) (y := x) (reads_emit rfl (by simp)) ?_
      refine Reads.bind (w := ()) (y := y) (hN x s ss _ y ?_ (by simpa using h)) (closeSubstitution_reads.bind_last reads_pure)
      simp at hL ⊢
      omega
    have := after_loop (by omega) hs (ih.reads (fuel := fuel - 1) (by simp at hf ⊢; omega))
    simpa [shift, Nat.add_comm, Nat.add_left_comm, Nat.add_assoc, Function.comp_def] using this
  | @openSubstitution x s ss y h =>
    refine Loops.of (Or.inr (Or.inr (Or.inl ⟨s, by simp⟩))) fun p fuel hf => ?_
    have hs : After env (templateStep again p.length) x p (b!"${" ++ s)
        (opt 0 p .string ++ shift p.length ([⟨0, 2, .string_interpolation_delim⟩] ++ shift 2 ss)) ([] ++ []) (.inl 0) y := by
      unfold templateStep
      refine After.rem (After.else (by decide) (After.this rfl (After.this ?_ (After.flush rfl ?_))))
      · simp [startsWith]
      refine Reads.bind (w := ()) (y := x) (reads_emit rfl (by simp)) ?_
      refine Reads.bind_last (w := ()) (y := y) (hN x s ss _ y ?_ (by simpa using h)) (closeSubstitution_end.bind_last reads_pure)
      simp at hL ⊢
      omega
    have := after_loop (m := fuel) (by omega) hs (us := []) (z := y) (v := ()) (reads_loop_end (by simp at hf; omega) (by
      unfold templateStep
      refine reads_rem ?_
      exact Reads.bind_last (w := ()) (y := y) (reads_else (by simp) reads_pure) reads_pure))
    simpa [shift] using this


theorem template_reads {N : Bytes → List Token → Bytes → Elem → Prop} {again : HM Elem Unit} {L : Nat}
    (hN : ∀ x c us d z, (c ++ d).length < L → N c us d z → Reads env again x c us d () z) (h : Template N x a ts b y)
    (hL : (a ++ b).length ≤ L) :
    Reads env (expectTemplate again) x (c!"`" :: a) (⟨0, 1, .string_delim⟩ :: shift 1 ts) b true y := by
  unfold expectTemplate
  refine reads_rem (reads_this (by simp [startsWith]) ?_)
  refine Reads.bind_last (w := ()) (y := y) ?_ reads_pure
  unfold consumeTemplate
  refine reads_rem (reads_hassert (by simp [startsWith]) ?_)
  exact Reads.bind (w := ()) (y := x) (a := b!"`") (a' := a) (reads_emit rfl (by simp)) ((template_loop hN h hL).reads (by simp; omega))

theorem template_fail {again : HM Elem Unit} (h : b.head? ≠ some c!"`") : Reads env (expectTemplate again) x [] [] b false x := by
  unfold expectTemplate
  refine reads_rem (reads_else ?_ reads_pure)
  rw [List.nil_append, startsWith_iff]
  rintro ⟨t, rfl⟩
  exact h rfl

end Ulight.Js
