import Verif.Spec.Program
import Verif.Hl.Fits
import Verif.Hl.Fuel
import Verif.Hl.Words

/-!
# Sequences of lexical elements
-/

namespace Ulight

open Spec

theorem exact_of_pieces {hl : Highlight} {E : Bytes → List Token → Bytes → Prop} (h : ∀ a ts b, E a ts b → Piece hl a ts b)
    (h0 : ∀ debug opts, hl debug opts [] = .ok (true, [])) : Exact hl E := by
  intro src ts hp debug opts
  induction hp with
  | nil => exact ⟨_, h0 _ _, rfl⟩
  | cons he _ ih =>
    obtain ⟨es, h1, h2⟩ := ih
    obtain ⟨es', h3, h4⟩ := h _ _ _ he _ _ _ h1
    exact ⟨es', h3, by rw [h4, h2]⟩

/-- If reading `a` makes no difference to the first iteration of the main loop, then `a` gets no tokens. -/
theorem piece_of_skip {body : Nat → β → HM σ (β ⊕ Unit)} [hu : ∀ d b, Uniform (body d b)] {x : σ} {c : β} {a b : Bytes}
    (hb : ∀ d d' b, d ≤ d' → Below (body d b) (body d' b))
    (h : ∀ debug opts, body (a ++ b).length c ⟨debug, opts, a ++ b⟩ ⟨a ++ b, 0, [], x⟩ =
      body (a ++ b).length c ⟨debug, opts, a ++ b⟩ ⟨b, a.length, [], x⟩) :
    Piece (HM.run (do let r ← HM.rem; HM.loop (r.length + 1) (body r.length) c; pure true) x) a [] b := by
  refine piece_of_lifted (ts := []) fun debug opts s hr => ?_
  rw [bind_ok] at hr
  obtain ⟨_, _, h1, h2⟩ := hr
  cases h1
  rw [bind_ok] at h2
  obtain ⟨_, s1, h3, h4⟩ := h2
  cases h4
  rw [bind_ok]
  refine ⟨_, _, rfl, ?_⟩
  rw [bind_ok]
  refine ⟨(), s.lifted a.length [], ?_, rfl⟩
  have key := (uniform_loop (h := hu b.length) (b.length + 1) c).rel a [] ⟨debug, opts, b⟩ ⟨b, 0, [], x⟩
  simp only [h3] at key
  have key := below_loop (fun c => hb b.length (a ++ b).length c (by simp)) (b.length + 1) c _ _ _ key
  have hl : (a ++ b).length + 1 = (b.length + 1) + a.length := by
    simp
    omega
  have key := loop_mono key a.length
  rw [← hl] at key
  unfold HM.loop at key ⊢
  rw [bind_ok] at key ⊢
  obtain ⟨y, t, h5, h6⟩ := key
  refine ⟨y, t, ?_, h6⟩
  rw [h debug opts]
  simpa [HS.lifted, HEnv.lifted] using h5

theorem piece_of_skip_step {body : HM σ Unit} [Uniform body] {x : σ} {a b : Bytes} (hb : b ≠ [])
    (h : ∀ debug opts, body ⟨debug, opts, a ++ b⟩ ⟨a ++ b, 0, [], x⟩ = body ⟨debug, opts, a ++ b⟩ ⟨b, a.length, [], x⟩) :
    Piece (HM.run (do let r ← HM.rem; HM.whileNotEof (r.length + 1) body; pure true) x) a [] b := by
  refine piece_of_skip (body := fun _ _ => do
    if ← HM.eof then pure (.inr ())
    else do
      body
      pure (.inl ())) (fun _ _ _ _ => below_refl _) fun debug opts => ?_
  have e : (a ++ b).isEmpty = b.isEmpty := by cases b <;> simp_all
  simp only [HM.eof, bind, HM.bind, e]
  cases hbe : b.isEmpty with
  | true => simp_all
  | false =>
    simp
    unfold HM.bind
    rw [h debug opts]

theorem bind_left {m : HM σ α} {f : α → HM σ β} {env : HEnv} {s t : HS σ} (h : m env s = m env t) :
    (m >>= f) env s = (m >>= f) env t := by
  show HM.bind m f env s = HM.bind m f env t
  unfold HM.bind
  rw [h]

/-- Whitespace at the beginning of a text. -/
theorem advance_space {p : UInt8 → Bool} {w b : Bytes} {debug : Bool} {opts : Opts} {x : σ}
    (h : Longest (fun c => p c = true) (w ++ b) w.length) :
    (do let r ← HM.rem; HM.advance (Ascii.length_if r p) : HM σ Unit) ⟨debug, opts, w ++ b⟩ ⟨w ++ b, 0, [], x⟩ =
        .ok ((), ⟨b, w.length, [], x⟩) ∧
      (do let r ← HM.rem; HM.advance (Ascii.length_if r p) : HM σ Unit) ⟨debug, opts, w ++ b⟩ ⟨b, w.length, [], x⟩ =
        .ok ((), ⟨b, w.length, [], x⟩) := by
  have h1 : Ascii.length_if (w ++ b) p = w.length := length_if_eq h (by simp)
  have h2 : Ascii.length_if b p = 0 := by
    cases b with
    | nil => rfl
    | cons c t =>
      refine length_if_cons_neg ?_
      have := h.2 c
      simpa using this
  constructor
  · refine ok_of_wp ?_
    simp [h1]
    rw [wp_advance_iff (by simp)]
    simp [HS.adv]
  · refine ok_of_wp ?_
    simp [h2]
    rw [wp_advance_iff (by simp)]
    simp [HS.adv]

theorem longestIn_unique {ws : List Bytes} {s : Bytes} {m n : Nat} (hm : LongestIn ws s m) (hn : LongestIn ws s n)
    (hm' : m ≤ s.length) (hn' : n ≤ s.length) : m = n := by
  rcases Nat.lt_trichotomy m n with h | h | h
  · exact absurd hn.1 (hm.2 n h hn')
  · exact h
  · exact absurd hm.1 (hn.2 m h hm')

/-! ## Strings -/

/-- What the body of a loop over a string does. -/
structure StringLoop (body : Nat → HM σ (Nat ⊕ Unit)) (q : Bytes) (P : Bytes → Prop) (esc : Bytes → Bytes → Prop)
    (ty : HT := .string_escape) : Prop where
  plain : ∀ (k : Nat) (env : HEnv) (s : HS σ) (Q : Nat ⊕ Unit → HS σ → Prop), k < s.rem.length → P (s.rem.drop k) →
    Q (.inl (k + 1)) s → wp (body k) Q env s
  escape : ∀ (t w r : Bytes) (i : Nat) (out : List Emit) (ext : σ) (env : HEnv) (Q : Nat ⊕ Unit → HS σ → Prop), esc w r →
    i + (t ++ (w ++ r)).length = env.src.length →
    Q (.inl 0) ⟨r, i + t.length + w.length,
      out ++ optEmit i t .string ++ optEmit (i + t.length) w ty, ext⟩ →
    wp (body t.length) Q env ⟨t ++ (w ++ r), i, out, ext⟩
  close : ∀ (t r : Bytes) (i : Nat) (out : List Emit) (ext : σ) (env : HEnv) (Q : Nat ⊕ Unit → HS σ → Prop),
    i + (t ++ (q ++ r)).length = env.src.length →
    Q (.inr ()) ⟨r, i + t.length + q.length,
      out ++ optEmit i t .string ++ optEmit (i + t.length) q .string_delim, ext⟩ →
    wp (body t.length) Q env ⟨t ++ (q ++ r), i, out, ext⟩
  nonempty : ∀ w r, esc w r → w ≠ []

/-- The text of a string does not depend on the type of escapes. -/
theorem content_text (es : List (Bytes × Bytes)) (t : Bytes) (ty : HT) :
    (content es t ty).flatMap Prod.fst = (content es t).flatMap Prod.fst := by
  induction es with
  | nil => rfl
  | cons x es ih => simp [content, ih]

theorem wp_string_loop {body : Nat → HM σ (Nat ⊕ Unit)} {q : Bytes} {P : Bytes → Prop} {esc : Bytes → Bytes → Prop}
    {ty : HT} (h : StringLoop body q P esc ty) {b : Bytes} {es : List (Bytes × Bytes)} {t : Bytes} {i : Nat} {out : List Emit} {ext : σ}
    {env : HEnv} {Q : Unit → HS σ → Prop} {fuel : Nat} (hc : StringContent P esc (q ++ b) es t)
    (hl : i + ((content es t ty).flatMap Prod.fst ++ (q ++ b)).length = env.src.length)
    (hf : ((content es t ty).flatMap Prod.fst).length < fuel)
    (hQ : Q () ⟨b, i + ((content es t ty).flatMap Prod.fst).length + q.length,
      out ++ partsEmit i (content es t ty ++ [(q, .string_delim)]), ext⟩) :
    wp (HM.loop fuel body 0) Q env ⟨(content es t ty).flatMap Prod.fst ++ (q ++ b), i, out, ext⟩ := by
  induction es generalizing i out fuel with
  | nil =>
    simp only [content, List.flatMap_cons, List.flatMap_nil, List.append_nil] at hl hf hQ ⊢
    obtain ⟨f, rfl⟩ : ∃ f, fuel = f + 1 + t.length := ⟨fuel - 1 - t.length, by omega⟩
    refine wp_loop_count t.length (fun k hk => ?_) (wp_loop_last ?_)
    · rw [Nat.zero_add]
      exact h.plain k _ _ _ (by simp; omega) (hc k hk) ⟨rfl, rfl⟩
    · rw [Nat.zero_add]
      refine h.close t b i out ext env _ hl ⟨_, rfl, ?_⟩
      simpa [partsEmit] using hQ
  | cons x es ih =>
    obtain ⟨u, w⟩ := x
    obtain ⟨h1, h2, h3⟩ := hc
    rw [← content_text es t ty] at h1 h2
    have hw := List.length_pos_iff.2 (h.nonempty _ _ h2)
    simp only [content, List.flatMap_cons] at hl hf hQ ⊢
    obtain ⟨f, rfl⟩ : ∃ f, fuel = f + 1 + u.length := ⟨fuel - 1 - u.length, by simp at hf; omega⟩
    rw [List.append_assoc, List.append_assoc]
    refine wp_loop_count u.length (fun k hk => ?_) ?_
    · rw [Nat.zero_add]
      exact h.plain k _ _ _ (by simp; omega) (h1 k hk) ⟨rfl, rfl⟩
    · rw [Nat.zero_add]
      unfold HM.loop
      rw [wp_bind]
      refine h.escape u w _ i out ext env _ h2 (by simp at hl ⊢; omega) ?_
      refine ih h3 (by simp at hl ⊢; omega) (by simp at hf ⊢; omega) ?_
      simpa [partsEmit, Nat.add_assoc] using hQ

theorem notFirst_cons {xs : Bytes} {c : UInt8} {t : Bytes} : NotFirst xs (c :: t) ↔ c ∉ xs := by
  simp [NotFirst]

/-- The first character of a string. -/
theorem content_first {P : Bytes → Prop} {esc : Bytes → Bytes → Prop} {b : Bytes} {es : List (Bytes × Bytes)} {t : Bytes}
    {x : UInt8} (h : StringContent P esc b es t) (hP : ∀ t, ¬ P (x :: t)) (he : ∀ w r, esc w r → w ≠ [] ∧ w.head? ≠ some x) :
    ((content es t).flatMap Prod.fst).head? ≠ some x := by
  cases es with
  | nil =>
    intro hx
    simp [content] at hx
    cases t with
    | nil => cases hx
    | cons c t =>
      cases hx
      exact hP _ (h 0 (by simp))
  | cons y es =>
    obtain ⟨u, w⟩ := y
    obtain ⟨h1, h2, _⟩ := h
    obtain ⟨h3, h4⟩ := he _ _ h2
    intro hx
    simp only [content, List.flatMap_cons] at hx
    cases u with
    | nil =>
      obtain ⟨c, v, rfl⟩ := List.exists_cons_of_ne_nil h3
      exact h4 (by simpa using hx)
    | cons c v =>
      cases hx
      exact hP _ (h1 0 (by simp))

theorem not_three' {q : UInt8} {T b : Bytes} (h : T.head? ≠ some q) (hb : T = [] → ¬ [q] <+: b) :
    startsWith (q :: (T ++ ([q] ++ b))) [q, q, q] = false := by
  rw [Bool.eq_false_iff]
  intro hs
  obtain ⟨r, hr⟩ := startsWith_iff.1 hs
  cases T with
  | nil =>
    simp at hr
    exact hb rfl ⟨r, by simp [hr]⟩
  | cons c v =>
    simp at hr h
    exact h hr.1

/-- The forms of escapes have no braces. -/
def Spec.EscapeForms.Unbraced (F : EscapeForms) : Prop :=
  ∀ e ∈ F, ∀ k, (e.2 = .own k ∨ e.2 = .after k) → ¬ Braced k

theorem is_of_accepted {F : EscapeForms} (hF : F.Unbraced) {w : Bytes} (h : F.Is Accepted w) : F.Is IsEscape w := by
  obtain ⟨c, t, e1, e, he, hc, hi⟩ := h
  refine ⟨c, t, e1, e, he, hc, ?_⟩
  have := hF e he
  cases hf : e.2 with
  | simple => rw [hf] at hi; exact hi
  | own k =>
    rw [hf] at hi
    have := this k (.inl hf)
    cases k <;> first | exact hi | exact absurd (by simp [Braced]) this
  | after k =>
    rw [hf] at hi
    have := this k (.inr hf)
    cases k <;> first | exact hi | exact absurd (by simp [Braced]) this

theorem isEscape_append {k : EscapeKind} {t r : Bytes} (h : IsEscape k t) (h' : Accepted k (t ++ r)) :
    IsEscape k (t ++ r) := by
  have key : ∀ (A : UInt8 → Prop) {ds : Bytes}, t = b!"{" ++ ds ++ b!"}" → ds ≠ [] → ¬ A c!"}" →
      (∃ ds, ds ≠ [] ∧ (∀ c ∈ ds, A c) ∧ (t ++ r = b!"{" ++ ds ∨ t ++ r = b!"{" ++ ds ++ b!"}")) →
      ∃ ds, t ++ r = b!"{" ++ ds ++ b!"}" ∧ ds ≠ [] ∧ ∀ c ∈ ds, A c := by
    rintro A ds rfl hd hA ⟨ds', h1, h2, h3 | h3⟩
    · refine absurd (h2 c!"}" ?_) hA
      simp at h3
      simp [← h3]
    · exact ⟨ds', h3, h1, h2⟩
  cases k with
  | octal_braced =>
    obtain ⟨ds, h1, h2, h3⟩ := h
    exact key Octal h1 h2 (by simp [Octal]) h'
  | hex_braced =>
    obtain ⟨ds, h1, h2, h3⟩ := h
    exact key Hex h1 h2 (by simp [Hex]) h'
  | nonempty_braced =>
    obtain ⟨ds, rfl, h2, h3⟩ := h
    obtain ⟨ds', h4, h5⟩ := h'
    refine ⟨ds', h4, ?_, h5⟩
    rintro rfl
    obtain ⟨c, u, rfl⟩ := List.exists_cons_of_ne_nil h2
    simp at h4
  | _ => exact h'

theorem is_append {F : EscapeForms} (hF : FormsDisjoint F) {w r : Bytes} (h : F.Is IsEscape w) (h' : F.Is Accepted (w ++ r)) :
    F.Is IsEscape (w ++ r) := by
  obtain ⟨c, t, rfl, e, he, hc, hi⟩ := h
  obtain ⟨c', t', e', f, hf, hc', hi'⟩ := h'
  simp at e'
  obtain ⟨rfl, rfl⟩ := e'
  obtain rfl := hF.unique he hf hc hc'
  refine ⟨c, t ++ r, rfl, e, he, hc, ?_⟩
  cases hk : e.2 with
  | simple => rw [hk] at hi'; exact hi'
  | own k =>
    rw [hk] at hi hi'
    exact isEscape_append (t := c :: t) hi hi'
  | after k =>
    rw [hk] at hi hi'
    exact isEscape_append hi hi'

/-- The matcher of escapes finds what is an escape. -/
theorem escape_eq {F : EscapeForms} (hF : FormsDisjoint F) {w b : Bytes} {e : Escape} (h : EscapeFacts F (w ++ b) e)
    (hw : F.Ends w b) : e = ⟨w.length, false⟩ := by
  obtain ⟨n, err⟩ := e
  have hx : F.Is IsEscape ((w ++ b).take w.length) := by simpa using hw.1
  cases err with
  | true => exact absurd hx ((h.bad rfl).2 _)
  | false =>
    obtain ⟨h1, h2⟩ := h.good rfl
    have hle := h.le
    simp only at h1 h2 hle
    rcases Nat.lt_trichotomy w.length n with h | h | h
    · refine absurd ?_ (hw.2 n h hle)
      have e : (w ++ b).take n = w ++ b.take (n - w.length) := by
        rw [List.take_append, List.take_of_length_le (by omega)]
      rw [e] at h1 ⊢
      exact is_append hF hw.1 h1
    · rw [h]
    · exact absurd hx (h2 _ h (by simp))

/-- What the matcher of escapes finds is an escape. -/
theorem ends_of_match {F : EscapeForms} {w b : Bytes} {e : Escape} (h : EscapeFacts F (w ++ b) e) (he : e = ⟨w.length, false⟩)
    (hF : F.Unbraced) : F.Ends w b := by
  subst he
  obtain ⟨h1, h2⟩ := h.good rfl
  exact ⟨is_of_accepted hF (by simpa using h1), h2⟩

/-- No number begins here: the first character is neither a digit nor a point before a digit. -/
theorem matchCommonNumber_none' {o : NumberOptions} {c : UInt8} {t : Bytes} (hs : o.plus = true → c ≠ c!"+")
    (hm : o.minus = true → c ≠ c!"-") (hp : ∀ p ∈ o.prefixes, startsWith (c :: t) p.str = false)
    (hd : isDigitBase c o.defaultBase = false) (h0 : c ≠ c!"0") (hc : c = c!"." → t.head?.any isDigit = false)
    (he : c ≠ o.digitSeparator) : matchCommonNumber (c :: t) o = {} := by
  by_cases h : c = c!"."
  · have h1 : numSign o (c :: t) = 0 := by
      unfold numSign
      simp [startsWith_cons_cons]
      grind
    have h2 : numPrefix o (c :: t) = (0, o.defaultBase, true) := by
      unfold numPrefix
      rw [List.find?_eq_none.2 (by simpa using hp)]
      simp [startsWith_cons_cons, h0.symm]
    have h3 : (matchSeparatedDigits (c :: t) o.defaultBase o.digitSeparator).length = 0 := by
      unfold matchSeparatedDigits matchDigits
      split
      · exact length_if_cons_neg hd
      · simp [sepLoop, he, hd]
    have := hc h
    unfold matchCommonNumber
    simp [h1, h2, h3]
    simp [numFraction, h, this, startsWith_cons_cons]
  · exact matchCommonNumber_none hs hm hp hd h0 h he

/-- The longest symbol of the table is found. -/
theorem symbol_eq {α : Type} {tokens : List (Bytes × α)} {symbols symbols' : List Bytes}
    (hs : symbols.Pairwise (fun a b => bytesLt a b = true)) (hw : ∀ w ∈ symbols, ∃ a, (w, a) ∈ tokens)
    (hi : ∀ w, w ∈ symbols ↔ w ∈ symbols') {w b : Bytes} (h : LongestIn symbols' (w ++ b) w.length) :
    symbols.reverse.find? (startsWith (w ++ b) ·) = some w := by
  rcases symbol_facts hs hw (w ++ b) with ⟨v, _, h1, _, _, _, h5, h6, h7⟩ | ⟨_, h1⟩
  · have := longestIn_unique (longestIn_congr hi h7) h h5 (by simp)
    rw [this] at h6
    rw [h1, ← h6]
    simp
  · have := h1 w ((hi w).2 (by simpa using h.1))
    rw [startsWith_iff.2 ⟨b, rfl⟩] at this
    cases this

theorem not_startsWith {s p : Bytes} (h : ¬ p <+: s) : startsWith s p = false := by
  rw [Bool.eq_false_iff]
  intro hs
  obtain ⟨r, hr⟩ := startsWith_iff.1 hs
  exact h ⟨r, hr.symm⟩

theorem line_parts {m t : Bytes} (hm : m ≠ []) :
    parts 0 [(m, .comment_delim), (t, .comment)] = ⟨0, m.length, .comment_delim⟩ :: opt m.length t .comment := by
  simp [parts, opt, hm]

theorem enclosed_parts {o t c : Bytes} {delim ty : HT} (ho : o ≠ []) (hc : c ≠ []) :
    parts 0 [(o, delim), (t, ty), (c, delim)] =
      [⟨0, o.length, delim⟩] ++ opt o.length t ty ++ [⟨o.length + t.length, c.length, delim⟩] := by
  simp [parts, opt, ho, hc]

theorem wp_loop_next {σ α β : Type} {body : β → HM σ (β ⊕ α)} {Q : α → HS σ → Prop} {env : HEnv} {s : HS σ} {fuel : Nat}
    {i : β} (h : wp (body i) (fun r t => ∃ j, r = .inl j ∧ wp (HM.loop fuel body j) Q env t) env s) :
    wp (HM.loop (fuel + 1) body i) Q env s := by
  unfold HM.loop
  rw [wp_bind]
  refine wp_mono h ?_
  rintro _ _ ⟨a, rfl, hq⟩
  exact hq

theorem Cpp.matchIdentifier_start {c : UInt8} (h : c.toNat < 0x80) (h' : Cpp.isIdStart c.toNat = false) (r : Bytes) :
    Cpp.matchIdentifier (c :: r) = 0 := by
  rw [Bool.eq_false_iff, ne_eq, cppStart_iff] at h'
  rcases Cpp.matchIdentifier_facts (c :: r) with ⟨_, ⟨h1, _⟩ | ⟨_, h2⟩⟩
  · exact h1
  · exact absurd h2 (not_identifier (fun _ => (noFirst_ascii h).2 h') _)

/-! For the examples. -/

/-- An element before a sequence of elements. -/
theorem Spec.Program.before {E : Bytes → List Token → Bytes → Prop} {b : Bytes} {ts us : List Token} (h' : Program E b us)
    (a : Bytes) (h : E a ts b) : Program E (a ++ b) (ts ++ shift a.length us) := .cons h h'

theorem Spec.Exact.of_program {hl : Highlight} {E : Bytes → List Token → Bytes → Prop} (h : Exact hl E) {src : Bytes}
    {ts : List Token} (hp : ∃ us, Program E src us ∧ us = ts) (debug : Bool) (opts : Opts) :
    ∃ es, hl debug opts src = .ok (true, es) ∧ es.map Emit.token = ts := by
  obtain ⟨us, h1, rfl⟩ := hp
  exact h _ _ h1 _ _

theorem Spec.Program.next {E : Bytes → List Token → Bytes → Prop} {src : Bytes} {vs : List Token} (a b : Bytes) (ts us : List Token)
    (h' : Program E b us) (h : E a ts b) (hs : src = a ++ b) (hv : vs = ts ++ shift a.length us) : Program E src vs :=
  hs ▸ hv ▸ .cons h h'

theorem longestIn_of_all {ws : List Bytes} {s : Bytes} {n : Nat} (h : s.take n ∈ ws)
    (h' : ws.all (fun w => decide (w.length ≤ n) || !startsWith s w) = true) : LongestIn ws s n := by
  refine ⟨h, fun m hm hm' hw => ?_⟩
  have := List.all_eq_true.1 h' _ hw
  simp at this
  rcases this with h | h
  · omega
  · rw [startsWith_iff.2 ⟨s.drop m, by simp⟩] at h
    cases h

theorem longest_of {p : UInt8 → Prop} {q : UInt8 → Bool} (hq : ∀ c, q c = true ↔ p c) {s : Bytes} {n : Nat}
    (h : ((s.take n).all q && s[n]?.all (fun c => !q c)) = true) : Longest p s n := by
  simp only [Bool.and_eq_true] at h
  refine ⟨fun c hc => (hq c).1 (List.all_eq_true.1 h.1 c hc), fun c hc hp => ?_⟩
  have := h.2
  rw [hc, ← hq] at *
  simp [hp] at this

end Ulight
