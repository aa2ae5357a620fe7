import Verif.Hl.ProgramModes
import Verif.Props.Program.KotlinCode

/-!
# C58 for Kotlin
-/

namespace Ulight.Kotlin

open Spec Spec.Kotlin

variable {env : HEnv} {rec : HM Unit Unit}

/-! ## Literals -/

/-- The quotation marks. -/
abbrev quotes : List Bytes := [b!"'", b!"\"", b!"\"\"\""]

theorem textEnd_iff {q : Bytes} (hq : q ∈ quotes) (c : UInt8) (s : Bytes) : TextEnd q (c :: s) ↔
    startsWith (c :: s) q = true ∨ (q ≠ b!"\"\"\"" && (c = 0x0D || c = 0x0A)) = true ∨
      (q ≠ b!"'" && c = c!"$") = true ∨ (q ≠ b!"\"\"\"" && c = c!"\\") = true := by
  unfold TextEnd Stop
  rw [startsWith_iff]
  have e : (∃ t, c :: s = q ++ t) ↔ q <+: c :: s := ⟨fun ⟨t, h⟩ => ⟨t, h.symm⟩, fun ⟨t, h⟩ => ⟨t, h.symm⟩⟩
  simp at hq
  rcases hq with rfl | rfl | rfl <;> simp <;> grind

/-- One more character of plain text. -/
theorem string_more {q : Bytes} (hq : q ∈ quotes) {c : UInt8} {w s : Bytes} {i : Nat} {out : List Emit} (h : ¬ TextEnd q (c :: s)) :
    stringStep rec q w.length env ⟨w ++ c :: s, i, out, ()⟩ = .ok (.inl (w.length + 1), ⟨w ++ c :: s, i, out, ()⟩) := by
  rw [textEnd_iff hq] at h
  simp only [not_or] at h
  have e : (w ++ c :: s)[w.length]? = some c := by simp
  show (match (w ++ c :: s)[w.length]? with | none => _ | some c => _ : HM Unit (Nat ⊕ Unit)) env _ = _
  simp only [e, List.drop_left, if_neg h.1, if_neg h.2.1, if_neg h.2.2.1, if_neg h.2.2.2]
  rfl

theorem string_text {q : Bytes} (hq : q ∈ quotes) {t : Bytes} {w b : Bytes} {i m : Nat} {out : List Emit} {Q : Unit → HS Unit → Prop}
    (h : Plain (fun s => ¬ TextEnd q s) t b)
    (hQ : wp (HM.loop m (stringStep rec q) (w ++ t).length) Q env ⟨w ++ t ++ b, i, out, ()⟩) :
    wp (HM.loop (m + t.length) (stringStep rec q) w.length) Q env ⟨w ++ t ++ b, i, out, ()⟩ := by
  induction t generalizing w with
  | nil => simpa using hQ
  | cons c t ih =>
    have h0 := h 0 (by simp)
    rw [List.length_cons, ← Nat.add_assoc]
    have e : w ++ c :: t ++ b = w ++ c :: (t ++ b) := by simp
    rw [e]
    refine wp_loop_next ((wp_of_ok (string_more hq h0)).2 ⟨_, rfl, ?_⟩)
    have := ih (w := w ++ [c]) (fun k hk => h (k + 1) (by simpa using hk)) (by simpa using hQ)
    simpa using this

/-- What the loop does at the end of plain text. -/
theorem string_stop {q : Bytes} (hq : q ∈ quotes) {w b : Bytes} {i : Nat} {out : List Emit} {Q : Nat ⊕ Unit → HS Unit → Prop}
    (hi : i + (w ++ b).length = env.src.length)
    (hQ : wp (stringStep rec q 0) Q env ⟨b, i + w.length, out ++ optEmit i w .string, ()⟩)
    (hb : TextEnd q b) : wp (stringStep rec q w.length) Q env ⟨w ++ b, i, out, ()⟩ := by
  unfold stringStep at hQ ⊢
  rw [wp_bind, wp_rem] at hQ ⊢
  have e0 : (w ++ b)[w.length]? = b[0]? := by rw [List.getElem?_append_right (Nat.le_refl _), Nat.sub_self]
  have em : ∀ {α : Type} (m : HM Unit α) (Q : α → HS Unit → Prop),
      wp m Q env ⟨b, i + w.length, out ++ optEmit i w .string, ()⟩ →
      wp (do HM.emitAdvIf w.length .string; m) Q env ⟨w ++ b, i, out, ()⟩ := by
    intro α m Q h
    rw [wp_bind, wp_emitAdvIf_iff (by simpa using hi) (by simp)]
    simpa [optEmit] using h
  have ez : ∀ {α : Type} (m : HM Unit α) (Q : α → HS Unit → Prop) s, wp (do HM.emitAdvIf 0 .string; m) Q env s → wp m Q env s := by
    intro α m Q s h
    rw [wp_bind] at h
    exact (wp_of_ok (a := ()) (s' := s) rfl).1 h
  simp only [e0, List.drop_left, List.drop_zero] at hQ ⊢
  cases b with
  | nil => exact em _ _ (ez _ _ _ hQ)
  | cons c b =>
    rw [textEnd_iff hq] at hb
    simp only [List.getElem?_cons_zero] at hQ ⊢
    by_cases h1 : startsWith (c :: b) q = true
    · rw [if_pos h1] at hQ ⊢
      exact em _ _ (ez _ _ _ hQ)
    rw [if_neg h1] at hQ ⊢
    by_cases h2 : (q ≠ b!"\"\"\"" && (c = 0x0D || c = 0x0A)) = true
    · rw [if_pos h2] at hQ ⊢
      exact em _ _ (ez _ _ _ hQ)
    rw [if_neg h2] at hQ ⊢
    by_cases h3 : (q ≠ b!"'" && c = c!"$") = true
    · rw [if_pos h3] at hQ ⊢
      exact em _ _ (ez _ _ _ hQ)
    rw [if_neg h3] at hQ ⊢
    have h4 : (q ≠ b!"\"\"\"" && c = c!"\\") = true := by grind
    rw [if_pos h4] at hQ ⊢
    exact em _ _ (ez _ _ _ hQ)

/-- A backslash. -/
theorem escape_gives {q a b : Bytes} {n : Nat} {err : Bool} (hq : q ∈ quotes) (hq' : q.length = 1) {r : Bytes} (e : a ++ b = c!"\\" :: r)
    (hn : a.length = n) (h0 : 0 < n) (hm : matchEscape (a ++ b) = ⟨n, err⟩) :
    TextEnd q (a ++ b) ∧ Gives (stringStep rec q 0) a [⟨0, n, if err then .error else .string_escape, .normal⟩] b (.inl 0) := by
  refine ⟨.inr (.inr ⟨_, r, e, .inl ⟨hq', .inr (.inr rfl)⟩⟩), gives_one fun env i out hi => ?_⟩
  have h1 : startsWith (c!"\\" :: r) q = false ∧ q ≠ b!"\"\"\"" := by
    simp at hq
    rcases hq with rfl | rfl | rfl
    · simp [startsWith_cons_cons]
    · simp [startsWith_cons_cons]
    · simp at hq'
  unfold stringStep
  rw [wp_bind, wp_rem]
  simp only [e, List.getElem?_cons_zero, List.drop_zero, h1.1]
  simp only [Bool.false_eq_true, if_false, h1.2, ne_eq, not_false_eq_true, decide_true, Bool.true_and]
  rw [if_neg (by decide), if_neg (by simp), if_pos (by simp), wp_bind]
  refine (wp_of_ok (a := ()) rfl).2 ?_
  rw [wp_bind]
  unfold consumeEscape
  rw [wp_bind, wp_rem, ← e, hm]
  dsimp only
  rw [wp_bind, wp_hassert]
  refine ⟨by simpa using Nat.ne_of_gt h0, ?_⟩
  rw [wp_emit hn h0 hi]
  exact (wp_of_ok rfl).2 ⟨rfl, by rw [hn]⟩

/-- `$` that does not begin an expression. -/
theorem dollar_step {q a b : Bytes} {es : List Emit} (hq : q ∈ quotes) (hq' : q ≠ b!"'") {r : Bytes} (e : a ++ b = c!"$" :: r) {rec : HM Unit Unit}
    (h : Gives (consumeDollar rec) a es b true) :
    TextEnd q (a ++ b) ∧ Gives (stringStep rec q 0) a es b (.inl 0) := by
  refine ⟨.inr (.inr ⟨_, r, e, .inr ⟨hq', rfl⟩⟩), fun env i out hi => ?_⟩
  have h1 : startsWith (c!"$" :: r) q = false := by
    simp at hq
    rcases hq with rfl | rfl | rfl <;> simp [startsWith_cons_cons]
  unfold stringStep
  rw [wp_bind, wp_rem]
  simp only [e, List.getElem?_cons_zero, List.drop_zero, h1]
  simp only [Bool.false_eq_true, if_false]
  rw [if_neg (by simp), if_pos (by simp [hq']), wp_bind]
  refine (wp_of_ok (a := ()) rfl).2 ?_
  rw [wp_bind, ← e]
  refine wp_mono (h env i out hi) ?_
  rintro _ _ ⟨rfl, rfl⟩
  exact (wp_of_ok rfl).2 ⟨rfl, rfl⟩

theorem content_gives {q a b : Bytes} {ts : List Token} (hq : q ∈ quotes) (h : Content q a ts b) (he : TextEnd q (a ++ b)) :
    a ≠ [] ∧ ∃ es : List Emit, ts = es.map Emit.token ∧ ∀ rec, Gives (stringStep rec q 0) a es b (.inl 0) := by
  cases h with
  | text h h' h'' =>
    exfalso
    exact h' 0 (List.length_pos_iff.2 h) (by simpa using he)
  | escape hq' h =>
    obtain ⟨c, t, e, _⟩ := h.1
    have hm := escape_eq (by decide) (matchEscape_facts (t := a ++ b) (by simp [e])).1 h
    exact ⟨by simp [e], _, tokens_one', fun rec =>
      (escape_gives (r := c :: t ++ b) hq hq' (by simp [e]) rfl (by simp [e]) hm).2⟩
  | backslash hq' h =>
    have hm : matchEscape (b!"\\" ++ b) = ⟨1, true⟩ := by
      cases b with
      | nil => rfl
      | cons c b =>
        rw [notFirst_cons] at h
        simp at h
        simp [matchEscape, h]
    exact ⟨by simp, _, tokens_one', fun rec => (escape_gives hq hq' (by rfl) (by rfl) (by simp) hm).2⟩
  | @badEscape d _ hq' h h' =>
    have hm : matchEscape (b!"\\u" ++ d ++ b) = ⟨2 + d.length, true⟩ := by
      have e : matchEscape (b!"\\u" ++ d ++ b) = matchCommonEscapeAt .hex_4 (b!"\\u" ++ d ++ b) 2 := rfl
      have ed : (b!"\\u" ++ d ++ b).drop 2 = d ++ b := rfl
      rw [e]
      unfold matchCommonEscapeAt matchCommonEscape matchCommonEscape.fixed
      rw [ed]
      rcases h with h | ⟨h, rfl⟩
      · have et : (d ++ b).take 4 = d := by rw [← h, List.take_left]
        have ha : d.all isHexDigit = false := by
          rw [← Bool.not_eq_true, List.all_eq_true]
          exact fun hd => h' ⟨h, fun c hc => (isHexDigit_iff c).1 (hd c hc)⟩
        simp [et, h, ha]
      · have et : (d ++ []).take 4 = d := by rw [List.append_nil, List.take_of_length_le (by omega)]
        simp only [et, if_pos h]
        simp [Nat.add_comm]
    exact ⟨by simp, _, tokens_one', fun rec => (escape_gives hq hq' (by rfl) (by simp; omega) (by omega) hm).2⟩
  | @reference w _ hq' h =>
    obtain ⟨_, _, _, h0, _⟩ := Identifier.first h
    refine ⟨by simp, _, tokens_one' (mode := .normal), fun rec => (dollar_step hq hq' (by rfl) (gives_one fun env i out hi => ?_)).2⟩
    have h1 : startsWith (b!"$" ++ w ++ b) b!"${" = false := by
      obtain ⟨c, r, e, _, hc⟩ := Identifier.first h
      refine not_startsWith fun ⟨r', e'⟩ => ?_
      rw [List.append_assoc, e] at e'
      simp at e'
      obtain ⟨rfl, -⟩ := e'
      exact absurd (cppStart_byte _ hc) (by decide)
    unfold consumeDollar
    rw [wp_bind, wp_rem, if_neg (by rw [h1]; decide), show (b!"$" ++ w ++ b).drop 1 = w ++ b from rfl, Cpp.matchIdentifier_eq h]
    dsimp only
    rw [if_pos (by omega), wp_bind, wp_emit (by simp; omega) (by omega) hi]
    exact (wp_of_ok rfl).2 ⟨rfl, by simp; omega⟩
  | badDollar hq' h h' =>
    refine ⟨by simp, _, tokens_one' (mode := .normal), fun rec => (dollar_step hq hq' (by rfl) (gives_one fun env i out hi => ?_)).2⟩
    have h1 : startsWith (b!"$" ++ b) b!"${" = false := by
      refine not_startsWith fun ⟨r, e⟩ => h' ?_
      simp at e
      simp [← e]
    unfold consumeDollar
    rw [wp_bind, wp_rem, if_neg (by rw [h1]; decide), show (b!"$" ++ b).drop 1 = b from rfl, not_word h]
    dsimp only
    rw [if_neg (by simp), wp_bind, wp_emit (by rfl) (by simp) hi]
    exact (wp_of_ok rfl).2 ⟨rfl, rfl⟩

/-! ## Lists of annotations -/

/-- After this state, there is only text whose tokens are known.  All tokens are `T`. -/
def At (env : HEnv) (n : Nat) (os : List Open) (T : List Token) (s : HS Unit) : Prop :=
  ∃ us, s.idx + s.rem.length = env.src.length ∧ ProgramIn Element os s.rem us ∧ s.rem.length ≤ n ∧
    s.out.map Emit.token ++ shift s.idx us = T

theorem At.mono {n m : Nat} {os : List Open} {T : List Token} {s : HS Unit} (h : At env n os T s) (hn : n ≤ m) :
    At env m os T s := by
  obtain ⟨us, h1, h2, h3, h4⟩ := h
  exact ⟨us, h1, h2, by omega, h4⟩

/-- The same, at the end of the text or before a closing bracket with the type `ty`. -/
def Ends (env : HEnv) (n : Nat) (c : UInt8) (ty : HT) (os : List Open) (T : List Token) (s : HS Unit) : Prop :=
  s.idx + s.rem.length = env.src.length ∧ s.rem.length ≤ n ∧ (s.rem = [] ∧ s.out.map Emit.token = T ∨
    ∃ b us, s.rem = [c] ++ b ∧ ProgramIn Element os b us ∧ s.out.map Emit.token ++ shift s.idx ([⟨0, 1, ty⟩] ++ shift 1 us) = T)

theorem Ends.mono {n m : Nat} {c : UInt8} {ty : HT} {os : List Open} {T : List Token} {s : HS Unit} (h : Ends env n c ty os T s)
    (hn : n ≤ m) : Ends env m c ty os T s := ⟨h.1, by have := h.2.1; omega, h.2.2⟩

theorem tokens_next {i : Nat} {a : Bytes} {out es : List Emit} {us T : List Token}
    (h : out.map Emit.token ++ shift i (es.map Emit.token ++ shift a.length us) = T) :
    (out ++ es.map (Emit.moved i)).map Emit.token ++ shift (i + a.length) us = T := by
  rw [← h, List.map_append, moved_token, shift_append, shift_shift, List.append_assoc]

theorem tokens_parts {i : Nat} {a : Bytes} {out : List Emit} {ps : List (Bytes × HT)} {us T : List Token}
    (h : out.map Emit.token ++ shift i (parts 0 ps ++ shift a.length us) = T) :
    (out ++ partsEmit i ps).map Emit.token ++ shift (i + a.length) us = T := by
  rw [← partsEmit_token] at h
  have := tokens_next h
  rwa [partsEmit_moved] at this

theorem tokens_more {i n : Nat} {ty : HT} {mode : Mode} {out : List Emit} {us T : List Token}
    (h : out.map Emit.token ++ shift i ([⟨0, n, ty⟩] ++ shift n us) = T) :
    (out ++ [(⟨i, n, ty, mode⟩ : Emit)]).map Emit.token ++ shift (i + n) us = T := by
  have := tokens_next (a := List.replicate n 0) (es := [⟨0, n, ty, mode⟩]) (by simpa [Emit.token] using h)
  simpa [Emit.moved] using this

/-- The bracket is emitted. -/
theorem ends_close {n : Nat} {c : UInt8} {ty : HT} {os : List Open} {T : List Token} {s : HS Unit} (h : Ends env n c ty os T s)
    (h0 : s.rem ≠ []) : s.rem.head? = some c ∧ wp (HM.emitAdv 1 ty) (fun _ s' => At env n os T s') env s := by
  obtain ⟨h1, h2, ⟨h3, _⟩ | ⟨b, us, h3, h4, h5⟩⟩ := h
  · exact absurd h3 h0
  obtain ⟨r, i, out, ⟨⟩⟩ := s
  dsimp only at *
  subst h3
  refine ⟨rfl, ?_⟩
  rw [wp_emit (by rfl) (by simp) h1]
  exact ⟨us, by simp at h1 ⊢; omega, h4, by simp at h2 ⊢; omega, tokens_more h5⟩

theorem loop_skip {body : β → HM σ (β ⊕ α)} {c : β} {s s' : HS σ} (h : body c env s = body c env s') (m : Nat) {Q : α → HS σ → Prop}
    (hQ : wp (HM.loop m body c) Q env s') : wp (HM.loop m body c) Q env s := by
  obtain ⟨a, t, h1, h2⟩ := hQ
  exact ⟨a, t, leads_of_skip (n := 0) h m _ h1, h2⟩

theorem whitespace_skip {w b : Bytes} (h : Longest Space (w ++ b) w.length) (i : Nat) (out : List Emit) :
    consumeWhitespace env ⟨w ++ b, i, out, ()⟩ = .ok ((), ⟨b, i + w.length, out, ()⟩) ∧
      consumeWhitespace env ⟨b, i + w.length, out, ()⟩ = .ok ((), ⟨b, i + w.length, out, ()⟩) := by
  have h' : Longest (fun c => Python.isWhitespace c = true) (w ++ b) w.length := by
    simpa only [space_iff] using h
  have h1 : Ascii.length_if (w ++ b) Python.isWhitespace = w.length := length_if_eq h' (by simp)
  have h2 : Ascii.length_if b Python.isWhitespace = 0 := by
    refine length_if_eq ⟨by simp, fun c hc => ?_⟩ (by simp)
    refine h'.2 c ?_
    rw [List.getElem?_append_right (Nat.le_refl _), Nat.sub_self]
    exact hc
  constructor
  · refine ok_of_wp ?_
    unfold consumeWhitespace
    rw [wp_bind, wp_rem, h1, wp_advance_iff (by simp)]
    simp [HS.adv]
  · refine ok_of_wp ?_
    unfold consumeWhitespace
    rw [wp_bind, wp_rem, h2, wp_advance_iff (by simp)]
    simp [HS.adv]

theorem multi_skip {w b : Bytes} (h : w ≠ []) (h' : Longest Space (w ++ b) w.length) (i : Nat) (out : List Emit) :
    multiStep () env ⟨w ++ b, i, out, ()⟩ = multiStep () env ⟨b, i + w.length, out, ()⟩ := by
  obtain ⟨h1, h2⟩ := whitespace_skip (env := env) h' i out
  have h3 : ¬ (w ++ b = [] ∨ startsWith (w ++ b) b!"]" = true) := by
    obtain ⟨c, t, rfl⟩ := List.exists_cons_of_ne_nil h
    have := h'.1 c (by simp)
    have : c ≠ c!"]" := by rintro rfl; simp [Space] at this
    simp [startsWith_cons_cons, Ne.symm this]
  let m : HM Unit (Unit ⊕ Unit) := do
    let r ← HM.rem
    if r = [] ∨ startsWith r b!"]" then pure (.inr ())
    else if Cpp.matchIdentifier r ≠ 0 then do
      consumeDotted
      pure (.inl ())
    else do
      HM.emitAdv 1 .error
      pure (.inl ())
  show (if w ++ b = [] ∨ startsWith (w ++ b) b!"]" = true then pure (.inr ()) else do consumeWhitespace; m : HM Unit (Unit ⊕ Unit)) env _ =
    (if b = [] ∨ startsWith b b!"]" = true then pure (.inr ()) else do consumeWhitespace; m : HM Unit (Unit ⊕ Unit)) env _
  rw [if_neg h3]
  have e1 : (do consumeWhitespace; m : HM Unit (Unit ⊕ Unit)) env ⟨w ++ b, i, out, ()⟩ = m env ⟨b, i + w.length, out, ()⟩ := by
    show HM.bind _ _ _ _ = _
    unfold HM.bind
    rw [h1]
  have e2 : (do consumeWhitespace; m : HM Unit (Unit ⊕ Unit)) env ⟨b, i + w.length, out, ()⟩ = m env ⟨b, i + w.length, out, ()⟩ := by
    show HM.bind _ _ _ _ = _
    unfold HM.bind
    rw [h2]
  rw [e1]
  by_cases hb : b = [] ∨ startsWith b b!"]" = true
  · rw [if_pos hb]
    show (if b = [] ∨ startsWith b b!"]" = true then _ else _ : HM Unit (Unit ⊕ Unit)) env _ = _
    rw [if_pos hb]
  · rw [if_neg hb, e2]

theorem multi_enter {c : UInt8} {s r : Bytes} {i : Nat} {out : List Emit} {Q : Unit ⊕ Unit → HS Unit → Prop} (e : s = c :: r)
    (hc : Python.isWhitespace c = false ∧ c ≠ c!"]")
    (hQ : wp (if Cpp.matchIdentifier s ≠ 0 then do
      consumeDotted
      pure (.inl ())
    else do
      HM.emitAdv 1 .error
      pure (.inl ()) : HM Unit (Unit ⊕ Unit)) Q env ⟨s, i, out, ()⟩) : wp (multiStep ()) Q env ⟨s, i, out, ()⟩ := by
  have h3 : ¬ (s = [] ∨ startsWith s b!"]" = true) := by simp [e, startsWith_cons_cons, Ne.symm hc.2]
  unfold multiStep
  rw [wp_bind, wp_rem, if_neg h3, wp_bind]
  subst e
  refine wp_nospace hc.1 ?_
  rw [wp_bind, wp_rem, if_neg h3]
  exact hQ

theorem start_byte : ∀ c : UInt8, (0x80 ≤ c.toNat ∨ isAlpha c = true ∨ c = c!"_") → Python.isWhitespace c = false ∧ c ≠ c!"]" := by
  apply forall_byte; decide +kernel

theorem list_loop {x os : List Open} {src : Bytes} {ts : List Token} (hp : ProgramIn Element x src ts) (hx : x = .annotations :: os)
    {m : Nat} (hm : src.length < m) {i : Nat} {out : List Emit} {T : List Token} (hi : i + src.length = env.src.length)
    (hT : out.map Emit.token ++ shift i ts = T) :
    wp (HM.loop m multiStep ()) (fun _ => Ends env src.length c!"]" .symbol_square os T) env ⟨src, i, out, ()⟩ := by
  induction hp generalizing m i out with
  | nil =>
    obtain ⟨m, rfl⟩ : ∃ k, m = k + 1 := ⟨m - 1, by omega⟩
    refine wp_loop_last ((wp_of_ok rfl).2 ⟨(), rfl, hi, by simp, .inl ⟨rfl, by simpa [shift] using hT⟩⟩)
  | @cons x a ts b y us he hp ih =>
    subst hx
    have hl : (a ++ b).length = a.length + b.length := by simp
    cases he with
    | space h => rcases h _ rfl with h | h <;> cases h
    | code h => rcases h _ rfl with h | h <;> cases h
    | openBrace h => rcases h _ rfl with h | h <;> cases h
    | openList h => rcases h _ rfl with h | h <;> cases h
    | openLiteral h => rcases h _ rfl with h | h <;> cases h
    | closeList =>
      obtain ⟨m, rfl⟩ : ∃ k, m = k + 1 := ⟨m - 1, by omega⟩
      refine wp_loop_last ((wp_of_ok rfl).2 ⟨(), rfl, hi, by simp, .inr ⟨b, us, rfl, hp, hT⟩⟩)
    | list h =>
      cases h with
      | space h h' =>
        have ha := List.length_pos_iff.2 h
        refine loop_skip (multi_skip h h' i out) m ?_
        refine wp_mono (ih rfl (by omega) (by omega) ?_) fun _ s hs => hs.mono (by omega)
        rw [← hT, List.nil_append, shift_shift]
      | @name ps _ h h0 =>
        obtain ⟨m, rfl⟩ : ∃ k, m = k + 1 := ⟨m - 1, by omega⟩
        have hw := Dotted.word h h0
        obtain ⟨c, r, e, -, hc⟩ := Identifier.first (Cpp.identifier_of_match rfl (Nat.pos_of_ne_zero hw))
        have hc' : Python.isWhitespace c = false ∧ c ≠ c!"]" := start_byte c (cppStart_byte c hc)
        have hps : 0 < (text ps).length := by
          have := Dotted.length h
          have := List.length_pos_iff.2 h0
          omega
        refine wp_loop_next (multi_enter e hc' ?_)
        rw [if_pos hw, wp_bind]
        refine wp_mono (wp_consumeDotted h hi) ?_
        rintro _ _ rfl
        refine (wp_of_ok rfl).2 ⟨(), rfl, ?_⟩
        refine wp_mono (ih rfl (by omega) (by omega) (tokens_parts hT)) fun _ s hs => hs.mono (by omega)
      | @bad c _ h h' =>
        obtain ⟨m, rfl⟩ : ∃ k, m = k + 1 := ⟨m - 1, by omega⟩
        have hc' : Python.isWhitespace c = false := by simpa [← space_iff] using h.1
        refine wp_loop_next (multi_enter rfl ⟨hc', h.2⟩ ?_)
        rw [if_neg (by simpa using not_word h'), wp_bind, wp_emit (by rfl) (by simp) hi]
        refine (wp_of_ok rfl).2 ⟨(), rfl, ?_⟩
        rw [List.length_singleton] at hl
        exact wp_mono (ih rfl (by omega) (by omega) (tokens_more hT)) fun _ s hs => hs.mono (by omega)

theorem wp_first {m m' : HM Unit Bool} {P : HS Unit → Prop} {s : HS Unit} (h : wp m (fun r s => r = true ∧ P s) env s) :
    wp (HM.or m m') (fun r s => r = true ∧ P s) env s := by
  unfold HM.or
  rw [wp_bind]
  refine wp_mono h ?_
  rintro _ s ⟨rfl, h⟩
  exact (wp_of_ok rfl).2 ⟨rfl, h⟩

theorem wp_consumeMulti {os : List Open} {b : Bytes} {us : List Token} (hp : ProgramIn Element (.annotations :: os) b us)
    {i : Nat} {out : List Emit} {T : List Token} (hi : i + (b!"[" ++ b).length = env.src.length)
    (hT : out.map Emit.token ++ shift i ([⟨0, 1, .symbol_square⟩] ++ shift 1 us) = T) :
    wp consumeMulti (fun _ => At env b.length os T) env ⟨b!"[" ++ b, i, out, ()⟩ := by
  unfold consumeMulti
  rw [wp_bind, wp_rem, wp_bind, wp_hassert]
  refine ⟨by simp [startsWith_cons_cons], ?_⟩
  rw [wp_bind, wp_emit (by rfl) (by simp) hi, wp_bind]
  refine wp_mono (list_loop hp rfl (by simp; omega) (by simp at hi ⊢; omega) (tokens_more hT)) ?_
  intro _ s hs
  rw [wp_bind, wp_rem]
  by_cases h0 : s.rem = []
  · rw [h0, if_neg (by decide)]
    refine (wp_of_ok rfl).2 ?_
    obtain ⟨h1, h2, ⟨h3, h4⟩ | ⟨_, _, h3, _⟩⟩ := hs
    · exact ⟨[], h1, h0 ▸ .nil, h2, by simpa [shift] using h4⟩
    · simp [h3] at h0
  · obtain ⟨h1, h2⟩ := ends_close hs h0
    rw [if_pos, ]
    · exact h2
    · obtain ⟨c, r, e⟩ := List.exists_cons_of_ne_nil h0
      rw [e] at h1 ⊢
      cases h1
      simp [startsWith_cons_cons]

/-- The beginning of a list, and the list. -/
theorem listing_gives {a b : Bytes} {ts us : List Token} {os : List Open} {T : List Token} {string : Bool} {level : Nat} (h : Listing a ts b)
    (hp : ProgramIn Element (.annotations :: os) b us) {i : Nat} {out : List Emit} (hi : i + (a ++ b).length = env.src.length)
    (hT : out.map Emit.token ++ shift i (ts ++ shift a.length us) = T) :
    a ≠ [] ∧ wp (tokensStep rec string level) (fun r s => r = .inl level ∧ At env b.length os T s) env ⟨a ++ b, i, out, ()⟩ := by
  have key : ∀ {r : Bytes}, a ++ b = c!"@" :: r →
      wp expectAnnotation (fun r s => r = true ∧ At env b.length os T s) env ⟨a ++ b, i, out, ()⟩ →
      wp (tokensStep rec string level) (fun r s => r = .inl level ∧ At env b.length os T s) env ⟨a ++ b, i, out, ()⟩ := by
    intro r e hw
    obtain ⟨o1, o2, o3, o4⟩ := annotation_other e
    unfold tokensStep
    rw [wp_bind]
    rw [e]
    refine wp_nospace (by decide) ?_
    rw [wp_bind, wp_rem]
    simp only [← e]
    rw [if_neg (by decide), if_neg (by decide), wp_bind]
    refine wp_mono (Q := fun r s => r = true ∧ At env b.length os T s) ?_ ?_
    · exact wp_else (line_fails o1 _ _ _) (wp_else (block_fails o2 _ _ _) (wp_else (literal_fails o3 _ _ _)
        (wp_else (number_fails o4 _ _ _) (wp_first hw))))
    · rintro _ s ⟨rfl, hs⟩
      exact (wp_of_ok rfl).2 ⟨rfl, hs⟩
  cases h with
  | plain =>
    refine ⟨by simp, key rfl ?_⟩
    unfold expectAnnotation
    have e : b!"@[" ++ b = b!"@" ++ (b!"[" ++ b) := rfl
    rw [e] at hi ⊢
    rw [wp_bind, wp_rem, if_neg (by simp), show (b!"@" ++ (b!"[" ++ b)).drop 1 = b!"[" ++ b from rfl,
      if_pos (by simp [startsWith_cons_cons]), wp_bind, wp_emit (by rfl) (by simp) hi, wp_bind]
    refine wp_mono (wp_consumeMulti hp (T := T) (by simp at hi ⊢; omega) ?_) ?_
    · refine tokens_more ?_
      rw [← hT]
      simp [shift, Function.comp_def]
      intros
      omega
    · intro _ s hs
      exact (wp_of_ok rfl).2 ⟨rfl, hs⟩
  | @target ps _ h h0 =>
    have e : b!"@" ++ text ps ++ b!":[" ++ b = b!"@" ++ text ps ++ (b!":" ++ (b!"[" ++ b)) := by simp
    refine ⟨by simp, key (by simp only [List.append_assoc]; rfl) ?_⟩
    rw [e] at hi ⊢
    refine annotation_wp (b := b!":" ++ (b!"[" ++ b)) h h0 hi ?_
    rw [if_pos (by simp [startsWith_cons_cons]), wp_bind, wp_emit (by rfl) (by simp) (by simp at hi ⊢; omega), wp_bind, wp_rem,
      if_pos (by simp [startsWith_cons_cons]), wp_bind]
    refine wp_mono (wp_consumeMulti hp (T := T) (by simp at hi ⊢; omega) ?_) ?_
    · refine tokens_more ?_
      have e2 : i + (((b!"@", HT.name_attr_delim) :: ps).flatMap Prod.fst).length = i + (1 + (text ps).length) := by
        simp [text]; omega
      rw [← tokens_parts hT, partsEmit_append, e2]
      simp [partsEmit, optEmit, shift, Emit.token]
      omega
    · intro _ s hs
      exact (wp_of_ok rfl).2 ⟨rfl, hs⟩

/-! ## The loops -/

theorem tokens_skip {w b : Bytes} (h : Longest Space (w ++ b) w.length) (string : Bool) (level i : Nat) (out : List Emit) :
    tokensStep rec string level env ⟨w ++ b, i, out, ()⟩ = tokensStep rec string level env ⟨b, i + w.length, out, ()⟩ := by
  obtain ⟨h1, h2⟩ := whitespace_skip (env := env) h i out
  unfold tokensStep
  show HM.bind _ _ _ _ = HM.bind _ _ _ _
  unfold HM.bind
  rw [h1, h2]

/-- The loop for tokens has ended at this state, with `rest` as the constructs that were open before it. -/
def End (env : HEnv) (n : Nat) (rest : List Open) (T : List Token) (s : HS Unit) : Prop :=
  match rest with
  | .expression :: os => Ends env n c!"}" .string_interpolation_delim os T s
  | _ => s.out.map Emit.token = T

theorem End.mono {n m : Nat} {rest : List Open} {T : List Token} {s : HS Unit} (h : End env n rest T s) (hn : n ≤ m) :
    End env m rest T s := by
  unfold End at *
  split at h
  · exact Ends.mono h hn
  · exact h

/-- The constructs that can be open before a loop for tokens. -/
def Outer (rest : List Open) : Prop := rest = [] ∨ ∃ os, rest = .expression :: os

theorem innermost {o : Open} {os rest : List Open} {level : Nat} (h : o :: os = List.replicate level .brace ++ rest) (hr : Outer rest) :
    (o = .brace ∧ ∃ k, level = k + 1 ∧ os = List.replicate k .brace ++ rest) ∨
      (o = .expression ∧ level = 0 ∧ rest = .expression :: os) := by
  cases level with
  | zero =>
    rcases hr with rfl | ⟨os', rfl⟩
    · simp at h
    · simp at h
      exact .inr ⟨h.1, rfl, by rw [h.2]⟩
  | succ k =>
    simp [List.replicate_succ] at h
    exact .inl ⟨h.1, k, rfl, h.2⟩

/-- What holds for the loop for tokens. -/
def Codes (env : HEnv) (src : Bytes) (ts : List Token) (os : List Open) : Prop :=
  ∀ level rest, os = List.replicate level .brace ++ rest → Outer rest → ∀ fuel m, src.length ≤ fuel → src.length < m →
    ∀ i out T, i + src.length = env.src.length → out.map Emit.token ++ shift i ts = T →
    wp (HM.loop m (tokensStep (consumeTokens fuel true) (!rest.isEmpty)) level) (fun _ => End env src.length rest T) env
      ⟨src, i, out, ()⟩

/-- What holds for the loop for literals. -/
def Literals (env : HEnv) (src : Bytes) (ts : List Token) (os : List Open) : Prop :=
  ∀ q os', os = .literal q :: os' → InCode os' → q ∈ quotes → ∀ fuel m w, src.length ≤ fuel → src.length < m →
    (w = [] ∨ TextEnd q src) → ∀ i out T, i + (w ++ src).length = env.src.length →
    out.map Emit.token ++ opt i w .string ++ shift (i + w.length) ts = T →
    wp (HM.loop m (stringStep (consumeTokens fuel true) q) w.length) (fun _ => At env src.length os' T) env
      ⟨w ++ src, i, out, ()⟩

/-- Both hold for all texts that are shorter than `n`. -/
def Shorter (env : HEnv) (n : Nat) : Prop :=
  ∀ src ts os, src.length < n → ProgramIn Element os src ts → Codes env src ts os ∧ Literals env src ts os

theorem resume_codes {n fuel m k level : Nat} {rest : List Open} {T : List Token} {s : HS Unit} (ih : Shorter env n)
    (h : At env k (List.replicate level .brace ++ rest) T s) (hr : Outer rest) (hk : k < n) (hf : k ≤ fuel) (hm : k < m) :
    wp (HM.loop m (tokensStep (consumeTokens fuel true) (!rest.isEmpty)) level) (fun _ => End env k rest T) env s := by
  obtain ⟨us, h1, h2, h3, h4⟩ := h
  obtain ⟨r, i, out, ⟨⟩⟩ := s
  dsimp only at *
  exact wp_mono ((ih r us _ (by omega) h2).1 level rest rfl hr fuel m (by omega) (by omega) i out T h1 h4)
    fun _ s hs => hs.mono h3

theorem resume_literals {n fuel m k : Nat} {q : Bytes} {os : List Open} {T : List Token} {s : HS Unit} (ih : Shorter env n)
    (h : At env k (.literal q :: os) T s) (hos : InCode os) (hq : q ∈ quotes) (hk : k < n) (hf : k ≤ fuel) (hm : k < m) :
    wp (HM.loop m (stringStep (consumeTokens fuel true) q) 0) (fun _ => At env k os T) env s := by
  obtain ⟨us, h1, h2, h3, h4⟩ := h
  obtain ⟨r, i, out, ⟨⟩⟩ := s
  dsimp only at *
  exact wp_mono ((ih r us _ (by omega) h2).2 q os rfl hos hq fuel m [] (by omega) (by omega) (.inl rfl) i out T h1
    (by simpa [opt] using h4)) fun _ s hs => hs.mono h3

theorem literal_terminator {q b : Bytes} (hq : q ∈ quotes) (h' : q = b!"\"" → ¬ b!"\"\"" <+: b) : terminator (q ++ b) = q := by
  unfold terminator
  simp at hq
  rcases hq with rfl | rfl | rfl
  · simp [startsWith_cons_cons]
  · have : startsWith b b!"\"\"" = false := not_startsWith (h' rfl)
    simp [startsWith_cons_cons, this]
  · simp [startsWith_cons_cons]

theorem codes_of {n : Nat} (ih : Shorter env n) {src : Bytes} {ts : List Token} {os : List Open}
    (hn : src.length = n) (hp : ProgramIn Element os src ts) : Codes env src ts os := by
  intro level rest hos hr fuel m hf hm i out T hi hT
  obtain ⟨m, rfl⟩ : ∃ k, m = k + 1 := ⟨m - 1, by omega⟩
  cases hp with
  | nil =>
    refine wp_loop_last ((wp_of_ok rfl).2 ⟨(), rfl, ?_⟩)
    have hT' : out.map Emit.token = T := by simpa [shift] using hT
    rcases hr with rfl | ⟨os', rfl⟩
    · exact hT'
    · exact ⟨hi, by simp, .inl ⟨rfl, hT'⟩⟩
  | @cons _ a t1 b y us he hp =>
    have hl : (a ++ b).length = a.length + b.length := by simp
    have hin : InCode os := by
      intro o ho
      cases os with
      | nil => simp at ho
      | cons o' os =>
        simp at ho
        subst ho
        rcases innermost hos hr with h | h
        · exact .inl h.1
        · exact .inr h.1
    cases he with
    | space h h' h'' =>
      have ha := List.length_pos_iff.2 h'
      refine loop_skip (tokens_skip h'' _ level i out) _ ?_
      refine wp_mono ((ih b us _ (by omega) hp).1 level rest hos hr fuel _ (by omega) (by omega) _ _ T (by omega) ?_)
        fun _ s hs => hs.mono (by omega)
      rw [← hT, List.nil_append, shift_shift]
    | code h h' =>
      obtain ⟨ha, es, rfl, hg⟩ := code_gives h'
      have ha := List.length_pos_iff.2 ha
      refine wp_loop_next (wp_mono (hg _ _ _ env i out hi) ?_)
      rintro _ _ ⟨rfl, rfl⟩
      refine ⟨_, rfl, ?_⟩
      exact wp_mono ((ih b us _ (by omega) hp).1 level rest hos hr fuel _ (by omega) (by omega) _ _ T (by omega) (tokens_next hT))
        fun _ s hs => hs.mono (by omega)
    | openBrace h =>
      have hw : tokensStep (consumeTokens fuel true) (!rest.isEmpty) level env ⟨b!"{" ++ b, i, out, ()⟩ =
        (do HM.emitAdv 1 .symbol_brace; pure (.inl (level + 1)) : HM Unit (Nat ⊕ Unit)) env ⟨b!"{" ++ b, i, out, ()⟩ := rfl
      refine wp_loop_next ?_
      unfold wp
      rw [hw]
      show wp _ _ _ _
      rw [wp_bind, wp_emit (by rfl) (by simp) hi]
      refine (wp_of_ok rfl).2 ⟨_, rfl, ?_⟩
      rw [List.length_singleton] at hl
      exact wp_mono ((ih b us _ (by omega) hp).1 (level + 1) rest (by rw [hos, List.replicate_succ]; rfl) hr fuel _ (by omega) (by omega)
        _ _ T (by omega) (tokens_more hT)) fun _ s hs => hs.mono (by omega)
    | @closeBrace _ os =>
      rcases innermost hos hr with ⟨-, k, rfl, hos'⟩ | h
      · have hw : tokensStep (consumeTokens fuel true) (!rest.isEmpty) (k + 1) env ⟨b!"}" ++ b, i, out, ()⟩ =
          (do HM.emitAdv 1 .symbol_brace; pure (.inl k) : HM Unit (Nat ⊕ Unit)) env ⟨b!"}" ++ b, i, out, ()⟩ := rfl
        refine wp_loop_next ?_
        unfold wp
        rw [hw]
        show wp _ _ _ _
        rw [wp_bind, wp_emit (by rfl) (by simp) hi]
        refine (wp_of_ok rfl).2 ⟨_, rfl, ?_⟩
        rw [List.length_singleton] at hl
        exact wp_mono ((ih b us _ (by omega) hp).1 k rest hos' hr fuel _ (by omega) (by omega)
          _ _ T (by omega) (tokens_more hT)) fun _ s hs => hs.mono (by omega)
      · cases h.1
    | unmatched =>
      obtain ⟨h1, rfl⟩ := List.append_eq_nil_iff.1 hos.symm
      obtain rfl : level = 0 := by simpa using h1
      have hw : tokensStep (consumeTokens fuel true) false 0 env ⟨b!"}" ++ b, i, out, ()⟩ =
        (do HM.emitAdv 1 .error; pure (.inl 0) : HM Unit (Nat ⊕ Unit)) env ⟨b!"}" ++ b, i, out, ()⟩ := rfl
      refine wp_loop_next ?_
      unfold wp
      rw [List.isEmpty_nil, Bool.not_true, hw]
      show wp _ _ _ _
      rw [wp_bind, wp_emit (by rfl) (by simp) hi]
      refine (wp_of_ok rfl).2 ⟨_, rfl, ?_⟩
      rw [List.length_singleton] at hl
      exact wp_mono ((ih b us _ (by omega) hp).1 0 [] hos hr fuel _ (by omega) (by omega)
        _ _ T (by omega) (tokens_more hT)) fun _ s hs => hs.mono (by omega)
    | openList h h' =>
      obtain ⟨ha, hg⟩ := listing_gives (rec := consumeTokens fuel true) (string := !rest.isEmpty) (level := level) h' hp hi hT
      have ha := List.length_pos_iff.2 ha
      refine wp_loop_next (wp_mono hg ?_)
      rintro _ s ⟨rfl, hs⟩
      refine ⟨_, rfl, ?_⟩
      exact wp_mono (resume_codes ih (hos ▸ hs) hr (by omega) (by omega) (by omega)) fun _ s hs => hs.mono (by omega)
    | list h => rcases innermost hos hr with h | h <;> cases h.1
    | closeList => rcases innermost hos hr with h | h <;> cases h.1
    | openLiteral h hq h' =>
      have ha : 0 < a.length := by simp at hq; rcases hq with rfl | rfl | rfl <;> simp
      obtain ⟨c, r, e, hc⟩ : ∃ c r, a ++ b = c :: r ∧ (c = c!"'" ∨ c = c!"\"") := by
        simp at hq
        rcases hq with rfl | rfl | rfl
        · exact ⟨_, _, rfl, .inl rfl⟩
        · exact ⟨_, _, rfl, .inr rfl⟩
        · exact ⟨_, _, rfl, .inr rfl⟩
      have hc' : Python.isWhitespace c = false ∧ c ≠ c!"{" ∧ c ≠ c!"}" ∧ c ≠ c!"/" := by rcases hc with rfl | rfl <;> decide
      refine wp_loop_next ?_
      unfold tokensStep
      rw [wp_bind, e]
      refine wp_nospace hc'.1 ?_
      rw [wp_bind, wp_rem]
      simp only [if_neg hc'.2.1, if_neg hc'.2.2.1]
      rw [wp_bind]
      refine wp_mono (Q := fun r s => r = true ∧ At env b.length os T s) ?_ ?_
      · unfold expectToken
        refine wp_else (line_fails ?_ _ _ _) (wp_else (block_fails ?_ _ _ _) (wp_first ?_))
        · simp [startsWith_cons_cons, Ne.symm hc'.2.2.2]
        · simp [startsWith_cons_cons, Ne.symm hc'.2.2.2]
        · unfold expectStringOrCharacter
          rw [wp_bind, wp_rem, ← e]
          simp only [literal_terminator hq h']
          rw [if_neg (by intro h; simp [h] at ha), wp_bind]
          refine wp_dassert (startsWith_iff.2 ⟨b, rfl⟩) ?_
          rw [wp_bind, wp_emit rfl ha hi, wp_bind]
          refine wp_mono ((ih b us _ (by omega) hp).2 a os rfl h hq fuel _ [] (by omega) (by omega) (.inl rfl) _ _ T
            (by simp at hi ⊢; omega) ?_) ?_
          · rw [show opt (i + a.length) [] HT.string = [] by simp [opt], List.append_nil]
            exact tokens_more hT
          · intro _ s hs
            exact (wp_of_ok rfl).2 ⟨rfl, hs⟩
      · rintro _ s ⟨rfl, hs⟩
        refine (wp_of_ok rfl).2 ⟨_, rfl, ?_⟩
        rw [← e]
        exact wp_mono (resume_codes ih (hos ▸ hs) hr (by omega) (by omega) (by omega)) fun _ s hs => hs.mono (by omega)
    | content h => rcases innermost hos hr with h | h <;> cases h.1
    | openExpression h => rcases innermost hos hr with h | h <;> cases h.1
    | closeExpression =>
      rcases innermost hos hr with h | ⟨-, rfl, rfl⟩
      · cases h.1
      · exact wp_loop_last ((wp_of_ok rfl).2 ⟨(), rfl, hi, by simp, .inr ⟨b, us, rfl, hp, hT⟩⟩)
    | closeLiteral h => rcases innermost hos hr with h | h <;> cases h.1
    | closeLiterals h => rcases innermost hos hr with h | h <;> cases h.1
    | lineEnd h => rcases innermost hos hr with h | h <;> cases h.1

theorem wp_loop_step {body : β → HM σ (β ⊕ α)} {m : Nat} {c : β} {s : HS σ} {Q : α → HS σ → Prop}
    (h : wp (body c) (fun r s => match r with
      | .inl c' => wp (HM.loop m body c') Q env s
      | .inr a => Q a s) env s) : wp (HM.loop (m + 1) body c) Q env s := by
  unfold HM.loop
  rw [wp_bind]
  refine wp_mono h ?_
  intro r s h
  cases r with
  | inl c' => exact h
  | inr a => exact (wp_of_ok rfl).2 h

/-- The end of a literal. -/
theorem close_literal {q b : Bytes} (hq : q ∈ quotes) (hq' : q.length = 1) {us T : List Token} {os : List Open}
    (hp : ProgramIn Element os b us) {i : Nat} {out : List Emit} (hi : i + (q ++ b).length = env.src.length)
    (hT : out.map Emit.token ++ shift i ([⟨0, 1, .string_delim⟩] ++ shift q.length us) = T) :
    wp (stringStep rec q 0) (fun r s => r = .inr () ∧ At env b.length os T s) env ⟨q ++ b, i, out, ()⟩ := by
  have h1 : q ≠ b!"\"\"\"" := by rintro rfl; simp at hq'
  obtain ⟨c, rfl⟩ := List.length_eq_one_iff.1 hq'
  unfold stringStep
  rw [wp_bind, wp_rem]
  simp only [List.cons_append, List.nil_append, List.getElem?_cons_zero, List.drop_zero]
  rw [if_pos (by simp [startsWith_cons_cons]), wp_bind]
  refine (wp_of_ok (a := ()) rfl).2 ?_
  rw [if_neg h1, wp_bind]
  refine (wp_emit (a := [c]) (b := b) (by rfl) (by simp) hi).2 ?_
  refine (wp_of_ok rfl).2 ⟨rfl, us, by simp at hi ⊢; omega, hp, by simp, tokens_more hT⟩

theorem close_literals {k : Nat} {b : Bytes} (hb : b.head? ≠ some c!"\"") {us T : List Token} {os : List Open}
    (hp : ProgramIn Element os b us) {i : Nat} {out : List Emit}
    (hi : i + (List.replicate k c!"\"" ++ b!"\"\"\"" ++ b).length = env.src.length)
    (hT : out.map Emit.token ++ shift i (parts 0 [(List.replicate k c!"\"", .string), (b!"\"\"\"", .string_delim)] ++
      shift (List.replicate k c!"\"" ++ b!"\"\"\"").length us) = T) :
    wp (stringStep rec b!"\"\"\"" 0) (fun r s => r = .inr () ∧ At env b.length os T s) env
      ⟨List.replicate k c!"\"" ++ b!"\"\"\"" ++ b, i, out, ()⟩ := by
  have hs : startsWith (List.replicate k c!"\"" ++ b!"\"\"\"" ++ b) b!"\"\"\"" = true := by
    rcases k with _ | _ | _ | k <;> simp [List.replicate_succ, startsWith_cons_cons]
  obtain ⟨c, r, e⟩ : ∃ c r, List.replicate k c!"\"" ++ b!"\"\"\"" ++ b = c :: r := by cases k <;> exact ⟨_, _, rfl⟩
  have hq : Ascii.length_before_not (List.replicate k c!"\"" ++ b!"\"\"\"" ++ b) c!"\"" = k + 3 := by
    have hl : (List.replicate k c!"\"" ++ b!"\"\"\"").length = k + 3 := by simp
    rw [← hl]
    refine length_if_eq ⟨?_, ?_⟩ (by simp)
    · rw [List.take_left]
      intro c hc
      simp at hc
      simp
      grind
    · intro c hc
      rw [List.getElem?_append_right (Nat.le_refl _), Nat.sub_self, ← List.head?_eq_getElem?] at hc
      rintro h
      simp at h
      rw [hc, h] at hb
      exact hb rfl
  unfold stringStep
  rw [wp_bind, wp_rem]
  rw [e] at hs hq
  simp only [e, List.getElem?_cons_zero, List.drop_zero, hs, if_true]
  rw [wp_bind]
  refine (wp_of_ok (a := ()) rfl).2 ?_
  rw [wp_bind]
  unfold closeMultiline
  rw [wp_bind, wp_rem, hq]
  dsimp only
  rw [wp_bind]
  refine wp_dassert (by simp) ?_
  rw [← e]
  rw [List.append_assoc] at hi ⊢
  rw [Nat.add_sub_cancel, wp_bind, wp_emitMode (by simp) hi, wp_emit (by rfl) (by simp) (by simp at hi ⊢; omega)]
  refine (wp_of_ok rfl).2 ⟨rfl, us, by simp at hi ⊢; omega, hp, by simp, ?_⟩
  rw [← tokens_parts hT]
  cases k <;> simp [partsEmit, optEmit, modesEmit, Emit.token, Nat.add_assoc]

/-- An expression in a literal. -/
theorem open_expression {n : Nat} (ih : Shorter env n) {q b : Bytes} {us : List Token} {os' : List Open}
    (hn : (b!"${" ++ b).length = n) (hp : ProgramIn Element (.expression :: .literal q :: os') b us) (hin : InCode os') (hq : q ∈ quotes)
    (hq' : q ≠ b!"'") {fuel m : Nat} (hf : (b!"${" ++ b).length ≤ fuel) {i : Nat} {out : List Emit} {T : List Token}
    (hi : i + (b!"${" ++ b).length = env.src.length)
    (hT : out.map Emit.token ++ shift i ([⟨0, 2, .string_interpolation_delim⟩] ++ shift 2 us) = T)
    (hm : (b!"${" ++ b).length ≤ m) :
    wp (stringStep (consumeTokens fuel true) q 0) (fun r s => match r with
      | .inl c' => wp (HM.loop m (stringStep (consumeTokens fuel true) q) c') (fun _ => At env (b!"${" ++ b).length os' T) env s
      | .inr _ => At env (b!"${" ++ b).length os' T s) env ⟨b!"${" ++ b, i, out, ()⟩ := by
  have h1 : startsWith (b!"${" ++ b) q = false := by
    simp at hq
    rcases hq with rfl | rfl | rfl <;> simp [startsWith_cons_cons]
  have hl2 : (b!"${" ++ b).length = b.length + 2 := by simp
  obtain ⟨fuel, rfl⟩ : ∃ k, fuel = k + 1 := ⟨fuel - 1, by omega⟩
  have inner : wp (consumeTokens (fuel + 1) true) (fun _ => Ends env b.length c!"}" .string_interpolation_delim (.literal q :: os') T) env
      ⟨b, i + 2, out ++ [⟨i, 2, .string_interpolation_delim, .normal⟩], ()⟩ := by
    unfold consumeTokens
    rw [wp_bind, wp_rem]
    exact (ih b us _ (by omega) hp).1 0 (.expression :: .literal q :: os') rfl (.inr ⟨_, rfl⟩) fuel _ (by omega)
      (Nat.lt_succ_self _) _ _ T (by omega) (tokens_more hT)
  have hw : stringStep (consumeTokens (fuel + 1) true) q 0 env ⟨b!"${" ++ b, i, out, ()⟩ = (do
      if ← consumeDollar (consumeTokens (fuel + 1) true) then pure (.inl 0) else pure (.inr ()) : HM Unit (Nat ⊕ Unit)) env
      ⟨b!"${" ++ b, i, out, ()⟩ := by
    show (if startsWith (b!"${" ++ b) q = true then _ else if _ then _ else if (q ≠ b!"'" && _) = true then _ else _ :
      HM Unit (Nat ⊕ Unit)) env _ = _
    rw [if_neg (by rw [h1]; decide), if_neg (by simp), if_pos (by simp [hq'])]
    rfl
  unfold wp
  rw [hw]
  show wp _ _ _ _
  rw [wp_bind]
  unfold consumeDollar
  rw [wp_bind, wp_rem, if_pos (by simp [startsWith_cons_cons]), wp_bind, wp_emit (by rfl) (by simp) hi, wp_bind]
  refine wp_mono inner ?_
  intro _ s hs
  rw [wp_bind, wp_eof]
  by_cases h0 : s.rem = []
  · rw [if_pos (by simp [h0]), wp_pure, if_neg (by decide), wp_pure]
    obtain ⟨h1, h2, ⟨h3, h4⟩ | ⟨_, _, h3, _⟩⟩ := hs
    · exact ⟨[], h1, h0 ▸ .nil, by omega, by simpa [shift] using h4⟩
    · simp [h3] at h0
  · obtain ⟨h1, h2⟩ := ends_close hs h0
    rw [if_neg (by simp [h0]), wp_bind, wp_rem, wp_bind, wp_hassert]
    refine ⟨?_, ?_⟩
    · obtain ⟨c, r, e⟩ := List.exists_cons_of_ne_nil h0
      rw [e] at h1 ⊢
      cases h1
      simp [startsWith_cons_cons]
    rw [wp_bind]
    refine wp_mono h2 fun _ s hs => ?_
    rw [wp_pure, if_pos rfl, wp_pure]
    exact wp_mono (resume_literals ih hs hin hq (by omega) (by omega) (by omega)) fun _ s hs => hs.mono (by omega)

theorem line_end {q t b : Bytes} {c : UInt8} (hq : q ∈ quotes) (hq' : q.length = 1) (hc : c = 0x0A ∨ c = 0x0D) {i : Nat} {out : List Emit} :
    stringStep rec q 0 env ⟨c :: t ++ b, i, out, ()⟩ = .ok (.inr (), ⟨c :: t ++ b, i, out, ()⟩) := by
  have h1 : startsWith (c :: t ++ b) q = false ∧ q ≠ b!"\"\"\"" := by
    simp at hq
    rcases hq with rfl | rfl | rfl
    · rcases hc with rfl | rfl <;> simp [startsWith_cons_cons]
    · rcases hc with rfl | rfl <;> simp [startsWith_cons_cons]
    · simp at hq'
  show (if startsWith (c :: t ++ b) q = true then _ else if (q ≠ b!"\"\"\"" && (c = 0x0D || c = 0x0A)) = true then _ else _ :
    HM Unit (Nat ⊕ Unit)) env _ = _
  rw [if_neg (by rw [h1.1]; decide), if_pos (by rcases hc with rfl | rfl <;> simp [h1.2])]
  rfl

theorem literals_of {n : Nat} (ih : Shorter env n) {src : Bytes} {ts : List Token} {os : List Open}
    (hn : src.length = n) (hp : ProgramIn Element os src ts) : Literals env src ts os := by
  intro q os' hos hin hq fuel m w hf hm hw i out T hi hT
  subst hos
  -- plain text that is followed by something else
  have stop : TextEnd q src → ∀ {i out}, i + src.length = env.src.length → out.map Emit.token ++ shift i ts = T →
      ∀ m, src.length ≤ m → wp (stringStep (consumeTokens fuel true) q 0) (fun r s => match r with
        | .inl c' => wp (HM.loop m (stringStep (consumeTokens fuel true) q) c') (fun _ => At env src.length os' T) env s
        | .inr _ => At env src.length os' T s) env ⟨src, i, out, ()⟩ := by
    intro he i out hi hT m hm
    cases hp with
    | nil =>
      refine (wp_of_ok rfl).2 ?_
      exact ⟨[], by simpa using hi, .nil, by simp, by simpa [shift] using hT⟩
    | @cons _ a t1 b y us he' hp =>
      have hl : (a ++ b).length = a.length + b.length := by simp
      cases he' with
      | space h => rcases h _ rfl with h | h <;> cases h
      | code h => rcases h _ rfl with h | h <;> cases h
      | openBrace h => rcases h _ rfl with h | h <;> cases h
      | openList h => rcases h _ rfl with h | h <;> cases h
      | openLiteral h => rcases h _ rfl with h | h <;> cases h
      | content h =>
        obtain ⟨ha, es, rfl, hg⟩ := content_gives hq h he
        have ha := List.length_pos_iff.2 ha
        refine wp_mono (hg _ env i out hi) ?_
        rintro _ _ ⟨rfl, rfl⟩
        refine wp_mono ((ih b us _ (by omega) hp).2 q os' rfl hin hq fuel m [] (by omega) (by omega) (.inl rfl) _ _ T
          (by simp at hi ⊢; omega) ?_) fun _ s hs => hs.mono (by omega)
        rw [show opt (i + a.length) [] HT.string = [] by simp [opt], List.append_nil]
        exact tokens_next hT
      | openExpression hq' => exact open_expression ih hn hp hin hq hq' hf hi hT hm
      | closeLiteral hq' =>
        refine wp_mono (close_literal hq hq' hp hi hT) ?_
        rintro _ s ⟨rfl, hs⟩
        exact hs.mono (by omega)
      | closeLiterals h =>
        refine wp_mono (close_literals h hp hi hT) ?_
        rintro _ s ⟨rfl, hs⟩
        exact hs.mono (by omega)
      | lineEnd hq' h h' =>
        obtain ⟨c, t, rfl, hc⟩ := h
        refine (wp_of_ok (line_end hq hq' hc)).2 ?_
        exact ⟨_, hi, .cons (.space hin (by simp) h') hp, Nat.le_refl _, hT⟩
  by_cases he : TextEnd q src
  · obtain ⟨m, rfl⟩ : ∃ k, m = k + 1 := ⟨m - 1, by omega⟩
    refine wp_loop_step (string_stop hq hi (wp_mono (stop he (i := i + w.length) (out := out ++ optEmit i w .string)
      (by simp at hi ⊢; omega) ?_ m (by omega)) (fun r s h => by cases r <;> exact h)) he)
    rw [List.map_append, optEmit_token]
    exact hT
  · obtain rfl := hw.resolve_right he
    clear stop
    rw [List.nil_append] at hi
    rw [show opt i [] HT.string = [] by simp [opt], List.append_nil] at hT
    cases hp with
    | nil => exact absurd (.inl rfl) he
    | @cons _ a t1 b y us he' hp =>
      have stop : ∀ {c r}, a ++ b = c :: r → Stop q c → False := fun e hc => he (.inr (.inr ⟨_, _, e, hc⟩))
      cases he' with
      | space h => rcases h _ rfl with h | h <;> cases h
      | code h => rcases h _ rfl with h | h <;> cases h
      | openBrace h => rcases h _ rfl with h | h <;> cases h
      | openList h => rcases h _ rfl with h | h <;> cases h
      | openLiteral h => rcases h _ rfl with h | h <;> cases h
      | content h =>
        cases h with
        | text h h' h'' =>
          have hl : (a ++ b).length = a.length + b.length := by simp
          have ha := List.length_pos_iff.2 h
          obtain ⟨m, rfl⟩ : ∃ k, m = k + a.length := ⟨m - a.length, by omega⟩
          have := string_text (rec := consumeTokens fuel true) hq (w := []) (b := b) (i := i) (m := m) (out := out)
            (env := env) (Q := fun _ => At env (a ++ b).length os' T) h'
          rw [List.nil_append] at this
          refine this ?_
          refine wp_mono ((ih b us _ (by omega) hp).2 q os' rfl hin hq fuel m a (by omega) (by omega) (.inr h'') i out T hi ?_)
            fun _ s hs => hs.mono (by omega)
          rw [← hT, opt, if_neg h, shift_append, shift_shift, List.append_assoc]
          simp [shift]
        | escape hq' h =>
          obtain ⟨c, t, e, _⟩ := h.1
          exact absurd (.inl ⟨hq', .inr (.inr rfl)⟩) (stop (c := c!"\\") (r := c :: t ++ b) (by rw [e]; rfl))
        | backslash hq' h => exact absurd (.inl ⟨hq', .inr (.inr rfl)⟩) (stop rfl)
        | badEscape hq' h h' => exact absurd (.inl ⟨hq', .inr (.inr rfl)⟩) (stop rfl)
        | reference hq' h => exact absurd (.inr ⟨hq', rfl⟩) (stop rfl)
        | badDollar hq' h h' => exact absurd (.inr ⟨hq', rfl⟩) (stop rfl)
      | openExpression hq' => exact absurd (.inr ⟨hq', rfl⟩) (stop rfl)
      | closeLiteral hq' => exact absurd (.inr (.inl ⟨b, rfl⟩)) he
      | @closeLiterals k _ _ h =>
        refine absurd (.inr (.inl ?_)) he
        rcases k with _ | _ | _ | k
        · exact ⟨b, rfl⟩
        · exact ⟨b!"\"" ++ b, rfl⟩
        · exact ⟨b!"\"\"" ++ b, rfl⟩
        · exact ⟨List.replicate k c!"\"" ++ b!"\"\"\"" ++ b, by simp [List.replicate_succ]⟩
      | lineEnd hq' h h' =>
        obtain ⟨c, t, rfl, hc⟩ := h
        refine absurd (.inl ⟨hq', ?_⟩) (stop rfl)
        rcases hc with hc | hc
        · exact .inl hc
        · exact .inr (.inl hc)

theorem programs (n : Nat) : Shorter env n := by
  induction n with
  | zero => intro _ _ _ h; simp at h
  | succ n ih =>
    intro src ts os h hp
    by_cases hn : src.length = n
    · exact ⟨codes_of ih hn hp, literals_of ih hn hp⟩
    · exact ih src ts os (by omega) hp

/-- Kotlin programs get exactly the tokens of their lexical elements. -/
theorem C58_kotlin : ExactIn highlight (fun _ => Element) [] := by
  intro opts src ts hp debug
  have key : wp run (fun r s => r = true ∧ s.out.map Emit.token = ts) ⟨debug, opts.seen, src⟩ ⟨src, 0, [], ()⟩ := by
    unfold run
    rw [wp_bind, wp_rem, wp_bind]
    unfold consumeTokens
    rw [wp_bind, wp_rem]
    refine wp_mono ((programs (src.length + 1) src ts [] (by simp) hp).1 0 [] rfl (.inl rfl) src.length _ (by simp)
      (by simp) 0 [] ts (by simp) (by simp [shift])) ?_
    intro _ s h
    exact (wp_of_ok rfl).2 ⟨rfl, h⟩
  obtain ⟨r, s, h1, rfl, h2⟩ := key
  exact ⟨s.out, by simp [highlight, HM.run, HM.runAll, h1], h2⟩

/-- The program `@A.B val x = "a ${y}\n"`. -/
example : ∃ es, highlight true {} b!"@A.B val x = \"a ${y}\\n\"" = .ok (true, es) ∧ es.map Emit.token =
    [⟨0, 1, .name_attr_delim⟩, ⟨1, 1, .name_attr⟩, ⟨2, 1, .name_attr_delim⟩, ⟨3, 1, .name_attr⟩, ⟨5, 3, .keyword⟩,
     ⟨9, 1, .name⟩, ⟨11, 1, .symbol_punc⟩, ⟨13, 1, .string_delim⟩, ⟨14, 2, .string⟩,
     ⟨16, 2, .string_interpolation_delim⟩, ⟨18, 1, .name⟩, ⟨19, 1, .string_interpolation_delim⟩,
     ⟨20, 2, .string_escape⟩, ⟨22, 1, .string_delim⟩] := by
  have outside : InCode [] := by simp [InCode]
  have hp : ProgramIn Element [] [] [] := .nil
  have hp := hp.before b!"\"" (.closeLiteral (q := b!"\"") rfl)
  have hp := hp.before b!"\\n" (.content (.escape rfl (ends_of_match (matchEscape_facts (by decide)).1 (by decide +kernel)
    (by simp [escapes, EscapeForms.Unbraced, Braced]))))
  have hp := hp.before b!"}" .closeExpression
  have hp := hp.before b!"y" (.code (by simp [InCode]) (.name (Cpp.identifier_of_match (by decide +kernel) (by decide))
    (notWord (by decide +kernel)) (by decide) (by unfold NoSymbol; decide +kernel)))
  have hp := hp.before b!"${" (.openExpression (by decide))
  have hp := hp.before b!"a " (.content (.text (by decide) (by
    intro k hk he
    have : k = 0 ∨ k = 1 := by simp at hk; omega
    rcases this with rfl | rfl <;> rcases he with he | he | ⟨c, t, he, h⟩
    all_goals first | exact absurd he (by decide) | (obtain ⟨rfl, -⟩ := List.cons.inj he; simp [Stop] at h))
    (.inr (.inr ⟨_, _, rfl, by simp [Stop]⟩))))
  have hp := hp.before b!"\"" (.openLiteral outside (by decide) (by decide))
  have hp := hp.before b!" " (.space outside (by decide) (longest_of space_iff (by decide +kernel)))
  have hp := hp.before b!"=" (.code outside (.symbol (ty := .symbol_punc) (longestIn_of (by decide) (by decide) (by decide +kernel))
    (by decide +kernel) (by decide) (by simp [NotFirst]) (by simp) (by simp)))
  have hp := hp.before b!" " (.space outside (by decide) (longest_of space_iff (by decide +kernel)))
  have hp := hp.before b!"x" (.code outside (.name (Cpp.identifier_of_match (by decide +kernel) (by decide))
    (notWord (by decide +kernel)) (by decide) (by unfold NoSymbol; decide +kernel)))
  have hp := hp.before b!" " (.space outside (by decide) (longest_of space_iff (by decide +kernel)))
  have hp := hp.before b!"val" (.code outside (.keyword (ty := .keyword) (Cpp.identifier_of_match (by decide +kernel) (by decide))
    (by decide +kernel) (by unfold NoSymbol; decide +kernel)))
  have hp := hp.before b!" " (.space outside (by decide) (longest_of space_iff (by decide +kernel)))
  have hp := hp.before b!"@A.B" (.code outside (.annotation
    (.more (w := b!"A") (Cpp.identifier_of_match (by decide +kernel) (by decide))
      (.last (w := b!"B") (Cpp.identifier_of_match (by decide +kernel) (by decide)) (by decide))) (by decide) (by decide)))
  exact C58_kotlin.of_program ⟨_, hp, rfl⟩ _

end Ulight.Kotlin
