import Verif.Hl.ProgramStep
import Verif.Hl.Compose
import Verif.Props.Lang.Lua
import Verif.Spec.Elements.Lua

/-!
# Lua: the tokens are exactly those of the lexical elements

Every text is a sequence of lexical elements.
-/

namespace Ulight.Lua

open Spec Spec.Lua Utf8

/-! ## Numbers -/

theorem Fraction.unique {D : UInt8 → Prop} {s : Bytes} {m n : Nat} (hm : Fraction D s m) (hn : Fraction D s n) : m = n := by
  unfold Fraction at hm hn
  split at hm
  · rw [if_pos (by assumption)] at hn
    have := Digits.unique hm.2 hn.2
    omega
  · rw [if_neg (by assumption)] at hn
    omega

theorem Exponent.unique {l : Bytes} {k : Nat} {s : Bytes} {m n : Nat} (hm : Exponent l k s m) (hn : Exponent l k s n) : m = n := by
  obtain ⟨c, x, y, _, _, h3, h4, _, rfl⟩ := hm
  obtain ⟨c', x', y', _, _, h3', h4', _, rfl⟩ := hn
  obtain rfl := Sign.unique h3 h3'
  obtain rfl := Digits.unique h4 h4'
  rfl

theorem MaybeExponent.unique {l : Bytes} {k : Nat} {s : Bytes} {m n : Nat} (hm : MaybeExponent l k s m)
    (hn : MaybeExponent l k s n) : m = n := by
  rcases hm with hm | ⟨rfl, hm⟩ <;> rcases hn with hn | ⟨rfl, hn⟩
  · exact Exponent.unique hm hn
  · exact absurd hm (hn _)
  · exact absurd hn (hm _)
  · rfl

theorem number_unique {s : Bytes} {m n : Nat} (hm : Hex s m ∨ Decimal s m) (hn : Hex s n ∨ Decimal s n) : m = n := by
  rcases hm with ⟨h, a, f, e, h1, h2, h3, rfl⟩ | ⟨h, a, f, e, h1, h2, h3, _, rfl⟩ <;>
    rcases hn with ⟨h', a', f', e', h1', h2', h3', rfl⟩ | ⟨h', a', f', e', h1', h2', h3', _, rfl⟩
  · obtain rfl := Digits.unique h1 h1'
    obtain rfl := Fraction.unique h2 h2'
    obtain rfl := MaybeExponent.unique h3 h3'
    rfl
  · exact absurd h h'
  · exact absurd h' h
  · obtain rfl := Digits.unique h1 h1'
    obtain rfl := Fraction.unique h2 h2'
    obtain rfl := MaybeExponent.unique h3 h3'
    rfl

theorem number_first {s : Bytes} {n : Nat} (h : Hex s n ∨ Decimal s n) : ∃ c t, s = c :: t ∧ (DecDigit c ∨ c = c!".") := by
  rcases h with ⟨h, _⟩ | ⟨_, a, f, e, h1, h2, _, h4, _⟩
  · rcases s with _ | ⟨c, t⟩
    · simp at h
    · refine ⟨c, t, rfl, Or.inl ?_⟩
      rcases t with _ | ⟨d, t⟩ <;> simp at h
      have : c = c!"0" := by grind
      subst this
      exact (isDigit_iff _).1 rfl
  · by_cases ha : 0 < a
    · rcases s with _ | ⟨c, t⟩
      · have := h1.1; simp at this; omega
      · refine ⟨c, t, rfl, Or.inl (h1.2.1 c ?_)⟩
        cases a with
        | zero => omega
        | succ a => simp
    · have : a = 0 := by omega
      subst this
      unfold Fraction at h2
      rcases s with _ | ⟨c, t⟩
      · simp at h2; omega
      · refine ⟨c, t, rfl, Or.inr ?_⟩
        split at h2
        · rename_i hd
          simpa using hd
        · omega

theorem matchNumber_at {s : Bytes} {n : Nat} (h : Hex s n ∨ Decimal s n) : matchNumber s = n := by
  obtain ⟨_, ⟨_, h2⟩ | ⟨_, h2⟩⟩ := matchNumber_facts s
  · exact number_unique h2 h
  · rcases h with h | h
    · exact absurd h (h2 n).1
    · exact absurd h (h2 n).2

theorem matchNumber_no {s : Bytes} (h : ∀ n, ¬ Hex s n ∧ ¬ Decimal s n) : matchNumber s = 0 := by
  obtain ⟨_, ⟨_, h2 | h2⟩ | ⟨h1, _⟩⟩ := matchNumber_facts s
  · exact absurd h2 (h _).1
  · exact absurd h2 (h _).2
  · exact h1

theorem not_number {c : UInt8} {t : Bytes} (h : ¬ DecDigit c) (h' : c ≠ c!".") (n : Nat) :
    ¬ Hex (c :: t) n ∧ ¬ Decimal (c :: t) n := by
  constructor
  · intro hn
    obtain ⟨d, u, e, hd⟩ := number_first (Or.inl hn)
    cases e
    exact hd.elim h h'
  · intro hn
    obtain ⟨d, u, e, hd⟩ := number_first (Or.inr hn)
    cases e
    exact hd.elim h h'

/-! ## Strings -/

theorem Quoted.unique {q : UInt8} {s : Bytes} {m n : Nat} (hq : q = c!"\"" ∨ q = c!"'") (hm : Quoted q s m) (hn : Quoted q s n) :
    m = n := by
  induction hm generalizing n with
  | atEnd => cases hn; rfl
  | lineEnd =>
    cases hn with
    | lineEnd => rfl
    | closed => rcases hq with h | h <;> cases h
    | plain hc _ => simp at hc
  | closed =>
    cases hn with
    | lineEnd => rcases hq with h | h <;> cases h
    | closed => rfl
    | escape _ => rcases hq with h | h <;> cases h
    | lastBackslash => rfl
    | plain hc _ => simp at hc
  | escape _ ih =>
    cases hn with
    | closed => rcases hq with h | h <;> cases h
    | escape h => rw [ih h]
    | plain hc _ => simp at hc
  | lastBackslash =>
    cases hn with
    | closed => rfl
    | lastBackslash => rfl
    | plain hc _ => simp at hc
  | plain hc _ ih =>
    cases hn with
    | lineEnd => simp at hc
    | closed => simp at hc
    | escape _ => simp at hc
    | lastBackslash => simp at hc
    | plain _ h => rw [ih h]

theorem close_ne (k : Nat) : close k ≠ [] := by simp [close]

theorem close_length (k : Nat) : (close k).length = k + 2 := by simp [close]

theorem open_length (k : Nat) : (open_ k).length = k + 2 := by simp [open_]

theorem body_upTo {k : Nat} {t : Bytes} (h : Body k t) (b : Bytes) : UpTo (close k) (t ++ (close k ++ b)) t.length := by
  refine ⟨?_, Or.inr ⟨t, b, by simp, rfl⟩⟩
  rintro j ⟨x, y, e, rfl⟩
  refine Nat.le_of_not_lt fun hlt => h x.length hlt ?_
  rw [← List.append_assoc] at e
  refine ⟨x, (y.take (y.length - b.length)), ?_, rfl⟩
  have hl := congrArg List.length e
  simp only [List.length_append] at hl
  have e2 : (t ++ close k ++ b).take (t ++ close k).length = t ++ close k := List.take_left
  rw [e, List.take_append, List.take_of_length_le (by simp; omega)] at e2
  rw [← e2]
  congr 2
  simp only [List.length_append]
  omega

theorem bracketed_closed {pre t b : Bytes} {k : Nat} {r : Enclosed} (h : Body k t)
    (hb : Bracketed (pre ++ t ++ close k ++ b) pre k r) : r = ⟨(pre ++ t ++ close k).length, true⟩ := by
  have hu := body_upTo h b
  cases hb with
  | closed body rest e u hb =>
    have e' : t ++ (close k ++ b) = body ++ (close k ++ rest) := by simpa using e
    rw [← e'] at u
    rw [hb, UpTo.unique u hu (close_ne k)]
    simp [Nat.add_assoc]
  | unclosed body e u hb =>
    have e' : t ++ (close k ++ b) = body := by simpa using e
    rw [← e'] at u
    have := UpTo.unique u hu (close_ne k)
    simp [close_length] at this

theorem bracketed_open {pre t : Bytes} {k : Nat} {r : Enclosed} (h : ∀ j, ¬ OccursAt (close k) t j)
    (hb : Bracketed (pre ++ t) pre k r) : r = ⟨(pre ++ t).length, false⟩ := by
  cases hb with
  | closed body rest e u hb =>
    have e' : t = body ++ (close k ++ rest) := by simpa using e
    exact absurd ⟨body, rest, by simpa using e', rfl⟩ (h body.length)
  | unclosed body e u hb => exact hb

theorem open_inj {s : Bytes} {i k k' : Nat} (h : OccursAt (open_ k) s i) (h' : OccursAt (open_ k') s i) : k = k' := by
  rw [occurs_open] at h h'
  exact h.2.1.symm.trans h'.2.1

/-! ## One step -/

theorem not_dashes {s : Bytes} (h : s[0]? ≠ some c!"-") : startsWith s b!"--" = false := by
  rcases s with _ | ⟨c, t⟩
  · rfl
  · simp at h
    simp [startsWith_cons_cons]
    grind

theorem not_attr {s : Bytes} (h : s[0]? ≠ some c!"<") : startsWith s b!"<const>" = false := by
  rcases s with _ | ⟨c, t⟩
  · rfl
  · simp at h
    simp [startsWith_cons_cons]
    grind

theorem ws_zero {s : Bytes} (h : ∀ c, s[0]? = some c → ¬ Space c) : matchWhitespace s = 0 := by
  have h2 := length_if_zero_longest s isWhitespace Space space_iff
  rcases s with _ | ⟨c, t⟩
  · have := (length_if_le [] isWhitespace 0 (by omega)).2
    simpa [matchWhitespace] using this
  · exact length_if_cons_neg (by rw [Bool.eq_false_iff, ne_eq, space_iff]; exact h c rfl)

theorem step_comment {s : Bytes} {i : Nat} (h : startsWith s b!"--" = true)
    (h' : matchLineComment s ≠ 0 ∨ (matchBlockComment s).length ≠ 0) : step s i =
    if matchLineComment s ≠ 0 then
      .ok ([⟨i, 2, .comment_delim, .normal⟩, ⟨i + 2, matchLineComment s - 2, .comment, .normal⟩], matchLineComment s)
    else
      (long i (matchBlockComment s).length (commentPrefix s) (commentClose s (matchBlockComment s).terminated)
        (matchBlockComment s).terminated .comment_delim .comment).map (·, (matchBlockComment s).length) := by
  obtain ⟨u, rfl⟩ := startsWith_iff.1 h
  unfold step stepRest
  rw [if_neg (by simp [startsWith_cons_cons]), if_neg (by rw [ws_zero (by simp [Space])]; simp)]
  split
  · rfl
  · rw [if_pos (h'.resolve_left ‹_›)]

theorem step_late {s : Bytes} {i : Nat} (h1 : startsWith s b!"<const>" = false) (h2 : ∀ c, s[0]? = some c → ¬ Space c)
    (h3 : startsWith s b!"--" = false) : step s i =
    if (matchString s).length ≠ 0 then
      if (matchString s).long then
        (long i (matchString s).length (stringOpen s) (stringClose s (matchString s).terminated)
          (matchString s).terminated .string .string).map (·, (matchString s).length)
      else .ok ([⟨i, (matchString s).length, .string, .normal⟩], (matchString s).length)
    else if matchNumber s ≠ 0 then .ok ([⟨i, matchNumber s, .number, .normal⟩], matchNumber s)
    else if matchIdentifier s ≠ 0 then
      .ok ([⟨i, matchIdentifier s, (highlightByCode (s.take (matchIdentifier s))).getD .name, .normal⟩], matchIdentifier s)
    else
      match matchOperator s with
      | some op =>
        match highlightByCode op with
        | some ty => .ok ([⟨i, op.length, ty, .normal⟩], op.length)
        | none => .error .outOfBounds
      | none => .ok ([⟨i, 1, .symbol, .normal⟩], 1) := by
  have hl : matchLineComment s = 0 := by simp [matchLineComment, h3]
  unfold step stepRest
  rw [if_neg (by simp [h1]), if_neg (by simp [ws_zero h2]), if_neg (by simp [hl]), if_neg (by simp [matchBlockComment_none h3])]
  rfl

theorem step_afterString {s : Bytes} {i : Nat} (h1 : startsWith s b!"<const>" = false)
    (h2 : ∀ c, s[0]? = some c → ¬ Space c) (h3 : startsWith s b!"--" = false) (h4 : ∀ k, ¬ OccursAt (open_ k) s 0)
    (h5 : ∀ c, s[0]? = some c → c ≠ c!"\"" ∧ c ≠ c!"'") : step s i =
    if matchNumber s ≠ 0 then .ok ([⟨i, matchNumber s, .number, .normal⟩], matchNumber s)
    else if matchIdentifier s ≠ 0 then
      .ok ([⟨i, matchIdentifier s, (highlightByCode (s.take (matchIdentifier s))).getD .name, .normal⟩], matchIdentifier s)
    else
      match matchOperator s with
      | some op =>
        match highlightByCode op with
        | some ty => .ok ([⟨i, op.length, ty, .normal⟩], op.length)
        | none => .error .outOfBounds
      | none => .ok ([⟨i, 1, .symbol, .normal⟩], 1) := by
  rw [step_late h1 h2 h3, if_neg]
  rcases matchString_facts s with ⟨q, t, rfl, q1, _⟩ | ⟨k, k1, _⟩ | ⟨n1, _⟩
  · have := h5 q rfl
    grind
  · exact absurd k1 (h4 k)
  · simp [n1]

/-- What a step is for an element. -/
def Steps (a : Bytes) (ts : List Token) (b : Bytes) : Prop :=
  ∀ i, ∃ es, step (a ++ b) i = .ok (es, a.length) ∧ es.map Emit.token = shift i ts

theorem open_first {s : Bytes} {k : Nat} (h : OccursAt (open_ k) s 0) : s[0]? = some c!"[" := ((occurs_open s 0 k).1 h).1

theorem steps_lineComment {t b : Bytes} (h : Longest (· ≠ c!"\n") (t ++ b) t.length)
    (h' : ∀ k, ¬ OccursAt (open_ k) (t ++ b) 0) :
    Steps (b!"--" ++ t) [⟨0, 2, .comment_delim⟩, ⟨2, t.length, .comment⟩] b := by
  intro i
  have hd : startsWith (b!"--" ++ t ++ b) b!"--" = true := startsWith_iff.2 ⟨t ++ b, by simp⟩
  rcases matchLineComment_facts (b!"--" ++ t ++ b) with ⟨_, _, n, h3, h4, h5⟩ | ⟨_, _, k, hk⟩ | ⟨_, h2⟩
  · have hn : n = t.length := Longest.unique (s := t ++ b) h5 h (by simp at h4; simp; omega) (by simp)
    subst hn
    rw [step_comment hd (Or.inl (by omega)), h3, if_pos (by omega)]
    exact ⟨_, rfl, by simp [Emit.token, shift]⟩
  · refine absurd ?_ (h' k)
    rw [occursAt_iff] at hk ⊢
    exact ⟨by simp, by simpa using hk.2⟩
  · rw [hd] at h2; cases h2

theorem long_closed (i k pre n : Nat) (delim content : HT) :
    long i (pre + n + (k + 2)) pre (k + 2) true delim content =
      .ok [⟨i, pre, delim, .normal⟩, ⟨i + pre, n, content, .normal⟩, ⟨i + pre + n, k + 2, delim, .normal⟩] := by
  unfold long
  rw [if_neg (by omega), show pre + n + (k + 2) - pre - (k + 2) = n from by omega,
    show i + (pre + n + (k + 2)) - (k + 2) = i + pre + n from by omega]
  rfl

theorem long_open (i pre n : Nat) (delim content : HT) :
    long i (pre + n) pre 0 false delim content = .ok [⟨i, pre, delim, .normal⟩, ⟨i + pre, n, content, .normal⟩] := by
  unfold long
  rw [if_neg (by omega), show pre + n - pre - 0 = n from by omega]
  rfl

theorem lineComment_zero {s : Bytes} {k : Nat} (h : OccursAt (open_ k) s 2) : matchLineComment s = 0 := by
  rcases matchLineComment_facts s with ⟨_, h2, _⟩ | ⟨h1, _⟩ | ⟨h1, _⟩
  · exact absurd h (h2 k)
  · exact h1
  · exact h1

theorem steps_blockComment {k : Nat} {t b : Bytes} (h : Body k t) :
    Steps (b!"--" ++ open_ k ++ t ++ close k)
      [⟨0, k + 4, .comment_delim⟩, ⟨k + 4, t.length, .comment⟩, ⟨k + 4 + t.length, k + 2, .comment_delim⟩] b := by
  intro i
  have hd : startsWith (b!"--" ++ open_ k ++ t ++ close k ++ b) b!"--" = true := startsWith_iff.2 ⟨open_ k ++ t ++ close k ++ b, by simp⟩
  have ho : OccursAt (open_ k) (b!"--" ++ open_ k ++ t ++ close k ++ b) 2 := ⟨b!"--", t ++ close k ++ b, by simp, rfl⟩
  obtain ⟨b1, b2, b3⟩ := matchBlockComment_facts hd ho
  have e := bracketed_closed h b1
  have l1 : (b!"--" ++ open_ k).length = k + 4 := by simp [open_length]
  have l2 : (b!"--" ++ open_ k ++ t ++ close k).length = k + 4 + t.length + (k + 2) := by
    rw [List.length_append, List.length_append, l1, close_length]
  rw [step_comment hd (Or.inr (by rw [e, l2]; simp)), lineComment_zero ho, if_neg (by simp), b2, b3, e, l1, l2, if_pos rfl, long_closed]
  exact ⟨_, rfl, by simp [Emit.token, shift]; omega⟩

theorem steps_openComment {k : Nat} {t : Bytes} (h : ∀ j, ¬ OccursAt (close k) t j) :
    Steps (b!"--" ++ open_ k ++ t) [⟨0, k + 4, .comment_delim⟩, ⟨k + 4, t.length, .comment⟩] [] := by
  intro i
  rw [List.append_nil]
  have hd : startsWith (b!"--" ++ open_ k ++ t) b!"--" = true := startsWith_iff.2 ⟨open_ k ++ t, by simp⟩
  have ho : OccursAt (open_ k) (b!"--" ++ open_ k ++ t) 2 := ⟨b!"--", t, by simp, rfl⟩
  obtain ⟨b1, b2, b3⟩ := matchBlockComment_facts hd ho
  have e := bracketed_open h b1
  have l1 : (b!"--" ++ open_ k).length = k + 4 := by simp [open_length]
  have l2 : (b!"--" ++ open_ k ++ t).length = k + 4 + t.length := by rw [List.length_append, l1]
  rw [step_comment hd (Or.inr (by rw [e, l2]; simp)), lineComment_zero ho, if_neg (by simp), b2, b3, e, l1, l2, if_neg (by simp), long_open]
  exact ⟨_, rfl, by simp [Emit.token, shift]⟩

theorem step_bracket {s : Bytes} {i k : Nat} (h : OccursAt (open_ k) s 0) :
    ∃ l t, Bracketed s (open_ k) k ⟨l, t⟩ ∧ step s i = if l ≠ 0 then
      (long i l (k + 2) (if t then k + 2 else 0) t .string .string).map (·, l) else step s i := by
  have h0 := open_first h
  have e := step_late (s := s) (i := i) (not_attr (by simp [h0])) (by simp [h0, Space]) (not_dashes (by simp [h0]))
  rcases matchString_facts s with ⟨q, t, rfl, q1, _⟩ | ⟨k', k1, k2, k3, k4, k5⟩ | ⟨_, n2, _⟩
  · simp at h0; subst h0; simp at q1
  · obtain rfl := open_inj h k1
    refine ⟨_, _, k5, ?_⟩
    split
    · rw [e, if_pos ‹_›, if_pos k2, k3, k4, open_length]
    · rfl
  · exact absurd h (n2 k)

theorem steps_longString {k : Nat} {t b : Bytes} (h : Body k t) :
    Steps (open_ k ++ t ++ close k)
      [⟨0, k + 2, .string⟩, ⟨k + 2, t.length, .string⟩, ⟨k + 2 + t.length, k + 2, .string⟩] b := by
  intro i
  have ho : OccursAt (open_ k) (open_ k ++ t ++ close k ++ b) 0 := ⟨[], t ++ close k ++ b, by simp, rfl⟩
  obtain ⟨l, x, b1, b2⟩ := step_bracket (i := i) ho
  have e := bracketed_closed h b1
  have l2 : (open_ k ++ t ++ close k).length = k + 2 + t.length + (k + 2) := by
    rw [List.length_append, List.length_append, open_length, close_length]
  cases e
  rw [b2, l2, if_pos (by omega), if_pos rfl, long_closed]
  exact ⟨_, rfl, by simp [Emit.token, shift]; omega⟩

theorem steps_openString {k : Nat} {t : Bytes} (h : ∀ j, ¬ OccursAt (close k) t j) :
    Steps (open_ k ++ t) [⟨0, k + 2, .string⟩, ⟨k + 2, t.length, .string⟩] [] := by
  intro i
  rw [List.append_nil]
  have ho : OccursAt (open_ k) (open_ k ++ t) 0 := ⟨[], t, by simp, rfl⟩
  obtain ⟨l, x, b1, b2⟩ := step_bracket (i := i) ho
  have e := bracketed_open h b1
  have l2 : (open_ k ++ t).length = k + 2 + t.length := by rw [List.length_append, open_length]
  cases e
  rw [b2, l2, if_pos (by omega), if_neg (by simp), long_open]
  exact ⟨_, rfl, by simp [Emit.token, shift]⟩

theorem steps_string {q : UInt8} {t b : Bytes} (hq : q = c!"\"" ∨ q = c!"'") (h : Quoted q (t ++ b) t.length) :
    Steps (q :: t) [⟨0, t.length + 1, .string⟩] b := by
  intro i
  have h0 : (q :: t ++ b)[0]? = some q := rfl
  rw [step_late (not_attr (by rcases hq with rfl | rfl <;> simp)) (by rcases hq with rfl | rfl <;> simp [Space])
    (not_dashes (by rcases hq with rfl | rfl <;> simp))]
  rcases matchString_facts (q :: t ++ b) with ⟨q', t', e, q1, q2, q3⟩ | ⟨k', k1, _⟩ | ⟨_, _, n3⟩
  · cases e
    have := Quoted.unique hq (quoted_facts q hq (t ++ b)).2 h
    rw [show (matchString (q :: t ++ b)).length = t.length + 1 from q3.trans (congrArg (· + 1) this), if_pos (by omega),
      if_neg (by rw [q2]; simp)]
    exact ⟨_, rfl, by simp [Emit.token, shift]⟩
  · have := open_first k1
    simp at this
    subst this
    simp at hq
  · have := n3 q rfl
    grind

theorem steps_number {w b : Bytes} (h0 : w ≠ []) (h : Hex (w ++ b) w.length ∨ Decimal (w ++ b) w.length) :
    Steps w [⟨0, w.length, .number⟩] b := by
  intro i
  obtain ⟨c, t, e, hc⟩ := number_first h
  have hm := matchNumber_at h
  have key : ∀ c : UInt8, (isDigit c = true ∨ c = c!".") → c ∉ b!"<-[\"' \t\n\r" ∧ c ≠ 0x0B ∧ c ≠ 0x0C := by
    apply forall_byte; decide +kernel
  have hk := key c (hc.imp (isDigit_iff c).2 id)
  simp at hk
  have l0 : 0 < w.length := List.length_pos_iff.2 h0
  rw [step_afterString, if_pos (by omega), hm]
  · exact ⟨_, rfl, by simp [Emit.token, shift]⟩
  · exact not_attr (by rw [e]; simp [hk])
  · rw [e]; intro d hd; simp at hd; subst hd; simp [Space, hk]
  · exact not_dashes (by rw [e]; simp [hk])
  · intro k hk'
    have := open_first hk'
    rw [e] at this
    simp [hk] at this
  · rw [e]; intro d hd; simp at hd; subst hd; simp [hk]

theorem identifier_start {s : Bytes} {n : Nat} (h : Identifier IdStart IdContinue s n) :
    ∃ c t, s = c :: t ∧ 0 < n ∧ IdStart c.toNat := by
  obtain ⟨d, p, rest, rfl, h1, h2, h3, _⟩ := h
  have hd : d < 0x80 := by unfold IdStart at h2; omega
  rcases h1 with ⟨_, rfl⟩ | ⟨rfl, _⟩
  · have e : utf8 d = [UInt8.ofNat d] := by simp [utf8, hd]
    rw [e] at h3 ⊢
    refine ⟨_, _, rfl, by simp at h3; omega, ?_⟩
    have : (UInt8.ofNat d).toNat = d := by simp; omega
    rw [this]
    exact h2
  · omega

theorem step_word {w b : Bytes} {i : Nat} (h : Identifier IdStart IdContinue (w ++ b) w.length) :
    step (w ++ b) i = .ok ([⟨i, w.length, (highlightByCode w).getD .name, .normal⟩], w.length) := by
  obtain ⟨c, t, e, h0, hc⟩ := identifier_start h
  have key : ∀ c : UInt8, (c.toNat = 0x5F ∨ 0x41 ≤ c.toNat ∧ c.toNat ≤ 0x5A ∨ 0x61 ≤ c.toNat ∧ c.toNat ≤ 0x7A) →
      c ∉ b!"<-[\"' \t\n\r." ∧ c ≠ 0x0B ∧ c ≠ 0x0C ∧ isDigit c = false := by
    apply forall_byte; decide +kernel
  have hk := key c hc
  have hdig : ¬ DecDigit c := by rw [← isDigit_iff, hk.2.2.2]; simp
  simp at hk
  have hn : matchNumber (w ++ b) = 0 := matchNumber_no (by rw [e]; exact not_number hdig (by simp [hk]))
  have hi : matchIdentifier (w ++ b) = w.length := by
    obtain ⟨_, ⟨h1, h2⟩ | ⟨_, h2⟩⟩ := identifier_facts (w ++ b)
    · obtain ⟨d, p, rest, e', h3, h4, _⟩ := h
      exact absurd h4 (h2 (by rw [e]; simp) d p rest e' h3)
    · exact Identifier.unique h2 h
  rw [step_afterString, hn, hi, if_neg (by simp), if_pos (by omega), List.take_left]
  · exact not_attr (by rw [e]; simp [hk])
  · rw [e]; intro d hd; simp at hd; subst hd; simp [Space, hk]
  · exact not_dashes (by rw [e]; simp [hk])
  · intro k hk'
    have := open_first hk'
    rw [e] at this
    simp [hk] at this
  · rw [e]; intro d hd; simp at hd; subst hd; simp [hk]

theorem step_plain {s : Bytes} {i : Nat} (h : Plain s) : step s i =
      match matchOperator s with
      | some op =>
        match highlightByCode op with
        | some ty => .ok ([⟨i, op.length, ty, .normal⟩], op.length)
        | none => .error .outOfBounds
      | none => .ok ([⟨i, 1, .symbol, .normal⟩], 1) := by
  have hi : matchIdentifier s = 0 := by
    obtain ⟨_, ⟨h1, _⟩ | ⟨_, h2⟩⟩ := identifier_facts s
    · exact h1
    · obtain ⟨c, t, e, _, hc⟩ := identifier_start h2
      subst e
      exact absurd hc (h.other c rfl).2.2.2
  rw [step_afterString, matchNumber_no h.number, hi, if_neg (by simp), if_neg (by simp)]
  · have := h.attr
    rw [occursAt_zero] at this
    simpa using this
  · exact fun c hc => (h.other c hc).1
  · have := h.comment
    rw [occursAt_zero] at this
    simpa using this
  · exact h.bracket
  · exact fun c hc => ⟨(h.other c hc).2.1, (h.other c hc).2.2.1⟩

theorem element_steps {a : Bytes} {ts : List Token} {b : Bytes} (h : Element a ts b) : Steps a ts b := by
  cases h with
  | attr =>
    intro i
    unfold step
    rw [if_pos (startsWith_iff.2 ⟨b, rfl⟩)]
    exact ⟨_, rfl, by simp [parts, opt, Emit.token, shift]⟩
  | space h h' =>
    intro i
    have h1 : matchWhitespace (a ++ b) = a.length := length_if_eq (by simpa only [space_iff] using h') (by simp)
    obtain ⟨c, t, rfl⟩ := List.exists_cons_of_ne_nil h
    have hc : Space c := h'.1 c (by simp)
    unfold step stepRest
    rw [if_neg, if_pos (by rw [h1]; simp), h1]
    · exact ⟨_, rfl, rfl⟩
    · rw [not_attr]
      · simp
      · simp
        rintro rfl
        simp [Space] at hc
  | lineComment h h' => exact steps_lineComment h h'
  | blockComment h => exact steps_blockComment h
  | openComment h => exact steps_openComment h
  | longString h => exact steps_longString h
  | openString h => exact steps_openString h
  | string hq h => exact steps_string hq h
  | number h h' => exact steps_number h h'
  | keyword h h' =>
    intro i
    rw [step_word h, (C33_lua _ _).2 h']
    exact ⟨_, rfl, by simp [Emit.token, shift]⟩
  | name h h' =>
    intro i
    have : highlightByCode a = none := by
      cases hh : highlightByCode a with
      | none => rfl
      | some ty => exact absurd ((C33_lua _ _).1 hh) (h' ty)
    rw [step_word h, this]
    exact ⟨_, rfl, by simp [Emit.token, shift]⟩
  | symbol h h' h'' =>
    intro i
    rw [step_plain h'']
    rcases matchOperator_facts (a ++ b) with ⟨w, ty, o1, o2, o3, o4, o5, o6, o7, o8⟩ | ⟨o1, o2⟩
    · have := longestIn_unique o8 h o6 (by simp)
      rw [this, List.take_left] at o7
      subst o7
      have e := (C33_lua _ _).2 h'
      rw [o1]
      simp only [e]
      exact ⟨_, rfl, by simp [Emit.token, shift]⟩
    · have := h.1
      rw [List.take_left] at this
      exact absurd ((startsWith_iff (p := a)).2 ⟨b, rfl⟩) (by rw [o2 a this]; simp)
  | @other c _ h h' =>
    intro i
    rw [step_plain (s := [c] ++ b) h']
    rcases matchOperator_facts ([c] ++ b) with ⟨w, ty, o1, o2, o3, o4, o5, o6, o7, o8⟩ | ⟨o1, o2⟩
    · have h8 := o8.1
      rw [o7] at h8
      refine absurd (occursAt_zero.2 (startsWith_iff.2 ⟨([c] ++ b).drop w.length, ?_⟩)) (h w h8)
      conv => rhs; rw [← o7]
      simp only [List.length_take]
      rw [Nat.min_eq_left o6]
      exact (List.take_append_drop _ _).symm
    · rw [o1]
      exact ⟨_, rfl, by simp [Emit.token, shift]⟩

/-! ## The loop -/

theorem element_ne_nil {a : Bytes} {ts : List Token} {b : Bytes} (h : Element a ts b) : a ≠ [] := by
  cases h with
  | attr => simp
  | space h _ => exact h
  | lineComment => simp
  | blockComment => simp
  | openComment => simp
  | longString => simp [open_]
  | openString => simp [open_]
  | string => simp
  | number h _ => exact h
  | keyword h _ =>
    obtain ⟨_, _, _, h0, _⟩ := identifier_start h
    exact List.length_pos_iff.1 h0
  | name h _ =>
    obtain ⟨_, _, _, h0, _⟩ := identifier_start h
    exact List.length_pos_iff.1 h0
  | symbol h _ _ =>
    rintro rfl
    have : ∀ w ∈ symbols, 0 < w.length := by decide +kernel
    exact absurd (this _ h.1) (by simp)
  | other => simp

theorem loop_program {r : Bytes} {ts : List Token} (h : Program Element r ts) (pre : Bytes) (fuel : Nat) (out : List Emit)
    (hf : r.length < fuel) :
    ∃ es, loop (pre ++ r) fuel pre.length out = .ok (out ++ es) ∧ es.map Emit.token = shift pre.length ts := by
  induction h generalizing pre fuel out with
  | nil =>
    obtain ⟨fuel, rfl⟩ : ∃ n, fuel = n + 1 := ⟨fuel - 1, by simp at hf; omega⟩
    exact ⟨[], by simp [loop], rfl⟩
  | @cons a ts b us h _ ih =>
    obtain ⟨fuel, rfl⟩ : ∃ n, fuel = n + 1 := ⟨fuel - 1, by omega⟩
    obtain ⟨es, h1, h2⟩ := element_steps h pre.length
    have ha := List.length_pos_iff.2 (element_ne_nil h)
    simp only [List.length_append] at hf
    obtain ⟨es', h3, h4⟩ := ih (pre ++ a) fuel (out ++ es) (by omega)
    refine ⟨es ++ es', ?_, ?_⟩
    · unfold loop
      rw [if_neg (by simp; omega), List.drop_left, h1]
      simpa using h3
    · rw [List.map_append, h2, h4]
      simp [shift, Nat.add_assoc]

/-- Every Lua program is highlighted exactly as its lexical elements say. -/
theorem C58_lua : Exact highlight Element := by
  intro src ts h debug opts
  obtain ⟨es, h1, h2⟩ := loop_program h [] (src.length + 1) [] (by omega)
  rw [List.nil_append, List.nil_append] at h1
  refine ⟨es, ?_, ?_⟩
  · simp only [highlight]
    rw [show loop src (src.length + 1) 0 [] = _ from h1]
  · rw [h2]
    simp [shift]

/-! ## Every text is a sequence of lexical elements -/

theorem element_total (s : Bytes) (hne : s ≠ []) : ∃ a ts b, s = a ++ b ∧ Element a ts b := by
  by_cases hattr : startsWith s b!"<const>" = true
  · obtain ⟨u, rfl⟩ := startsWith_iff.1 hattr
    exact ⟨_, _, u, rfl, .attr⟩
  have hattr : startsWith s b!"<const>" = false := by simpa using hattr
  by_cases hw : matchWhitespace s ≠ 0
  · have h1 : matchWhitespace s ≤ s.length := (length_if_le s isWhitespace 0 (by omega)).2
    have h2 : Longest Space s (matchWhitespace s) := length_if_zero_longest s isWhitespace Space space_iff
    obtain ⟨a, b, rfl, h3, -⟩ := split_at h1
    rw [← h3] at h2 hw
    exact ⟨a, _, b, rfl, .space (by rintro rfl; simp at hw) h2⟩
  have hspace : ∀ c, s[0]? = some c → ¬ Space c := by
    have h2 := length_if_zero_longest s isWhitespace Space space_iff
    have h0 : Ascii.length_if s isWhitespace = 0 := by simpa [matchWhitespace] using hw
    rw [h0] at h2
    exact h2.2
  rcases matchLineComment_facts s with ⟨h1, h2, n, h3, h4, h5⟩ | ⟨h1, h2, k, h3⟩ | ⟨h1, h2⟩
  · obtain ⟨u, rfl⟩ := startsWith_iff.1 h1
    obtain ⟨a, b, rfl, rfl, -⟩ := split_at (s := u) (n := n) (by simp at h4; omega)
    refine ⟨_, _, b, (List.append_assoc _ _ _).symm, .lineComment h5 fun k hk => h2 k ?_⟩
    rw [occursAt_iff] at hk ⊢
    exact ⟨by simp, by simpa using hk.2⟩
  · obtain ⟨b1, _⟩ := matchBlockComment_facts h2 h3
    cases b1 with
    | closed body rest e u _ =>
      refine ⟨b!"--" ++ open_ k ++ body ++ close k, _, rest, by simpa using e, .blockComment ?_⟩
      rintro j hj ⟨x, y, e, rfl⟩
      have := u.1 x.length ⟨x, y ++ rest, by rw [← List.append_assoc, e]; simp, rfl⟩
      omega
    | unclosed body e u _ =>
      refine ⟨_, _, [], by simpa using e, .openComment ?_⟩
      rintro j ⟨x, y, e', rfl⟩
      have h1 := u.1 x.length ⟨x, y, e', rfl⟩
      have h2 := congrArg List.length e'
      simp only [List.length_append, close_length] at h2
      omega
  rcases matchString_facts s with ⟨q, t, rfl, q1, q2, q3⟩ | ⟨k, k1, k2, k3, k4, k5⟩ | ⟨n1, n2, n3⟩
  · obtain ⟨f1, f2⟩ := quoted_facts q q1 t
    obtain ⟨a, b, rfl, h3, -⟩ := split_at f1
    rw [← h3] at f2
    exact ⟨q :: a, _, b, rfl, .string q1 f2⟩
  · cases k5 with
    | closed body rest e u _ =>
      refine ⟨open_ k ++ body ++ close k, _, rest, by simpa using e, .longString ?_⟩
      rintro j hj ⟨x, y, e, rfl⟩
      have := u.1 x.length ⟨x, y ++ rest, by rw [← List.append_assoc, e]; simp, rfl⟩
      omega
    | unclosed body e u _ =>
      refine ⟨_, _, [], by simpa using e, .openString ?_⟩
      rintro j ⟨x, y, e', rfl⟩
      have h1 := u.1 x.length ⟨x, y, e', rfl⟩
      have h2 := congrArg List.length e'
      simp only [List.length_append, close_length] at h2
      omega
  obtain ⟨m1, m2 | m2⟩ := matchNumber_facts s
  · obtain ⟨a, b, rfl, h3, -⟩ := split_at m1
    rw [← h3] at m2
    exact ⟨a, _, b, rfl, .number (List.length_pos_iff.1 m2.1) m2.2⟩
  obtain ⟨i1, i2 | i2⟩ := identifier_facts s
  rotate_left
  · obtain ⟨a, b, rfl, h3, -⟩ := split_at i1
    rw [← h3] at i2
    cases hl : highlightByCode a with
    | none =>
      refine ⟨a, _, b, rfl, .name i2.2 fun ty hty => ?_⟩
      rw [← C33_lua, hl] at hty
      cases hty
    | some ty => exact ⟨a, _, b, rfl, .keyword i2.2 ((C33_lua _ _).1 hl)⟩
  have plain : Plain s := by
    refine ⟨by rw [occursAt_zero, h2]; simp, n2, by rw [occursAt_zero, hattr]; simp, m2.2, ?_⟩
    intro c hc
    refine ⟨hspace c hc, (n3 c hc).1, (n3 c hc).2, ?_⟩
    intro hid
    match s, hc with
    | d :: t, hc =>
      simp at hc
      subst hc
      refine i2.2 hne d.toNat [d] t rfl (firstChar_ascii ?_ t) hid
      unfold IdStart at hid
      omega
  rcases matchOperator_facts s with ⟨w, ty, o1, o2, o3, o4, o5, o6, o7, o8⟩ | ⟨o1, o2⟩
  · obtain ⟨a, b, rfl, h3, -⟩ := split_at o6
    rw [← h3] at o7 o8
    rw [List.take_left] at o7
    subst o7
    exact ⟨a, _, b, rfl, .symbol o8 ((words_iff _).1 o4) plain⟩
  · obtain ⟨c, t, rfl⟩ := List.exists_cons_of_ne_nil hne
    exact ⟨[c], _, t, rfl, .other (fun w hw => by rw [occursAt_zero, o2 w hw]; simp) plain⟩

/-- Every text is a Lua program in this sense. -/
theorem C58_lua_total (src : Bytes) : ∃ ts, Program Element src ts := by
  induction hn : src.length using Nat.strongRecOn generalizing src with
  | ind n ih =>
    by_cases he : src = []
    · subst he
      exact ⟨[], .nil⟩
    · obtain ⟨a, ts, b, rfl, hE⟩ := element_total src he
      have := List.length_pos_iff.2 (element_ne_nil hE)
      obtain ⟨us, hu⟩ := ih b.length (by simp at hn; omega) b rfl
      exact ⟨_, .cons hE hu⟩

example (debug : Bool) (opts : Opts) : ∃ es, highlight debug opts b!"f = [=[a]] b]=] 'x' --" = .ok (true, es) ∧
    es.map Emit.token = [⟨0, 1, .name⟩, ⟨2, 1, .symbol_op⟩, ⟨4, 3, .string⟩, ⟨7, 5, .string⟩, ⟨12, 3, .string⟩,
      ⟨16, 3, .string⟩, ⟨20, 2, .comment_delim⟩, ⟨22, 0, .comment⟩] := by
  have hp : Program Element [] [] := .nil
  have hp := Program.cons (a := b!"--") (.lineComment (t := []) ⟨by simp, by simp⟩
    (fun k hk => by have := open_first hk; simp at this)) hp
  have sp : ∀ b : Bytes, (∀ c, b.head? = some c → ¬ Space c) → Element b!" " [] b := by
    intro b hb
    exact .space (by simp) ⟨by simp [Space], fun c hc => hb c (by simpa [List.head?_eq_getElem?] using hc)⟩
  have hp := Program.cons (sp _ (by simp [Space])) hp
  have hp := Program.cons (a := b!"'x'") (.string (t := b!"x'") (by simp) (.plain (by simp) .closed)) hp
  have hp := Program.cons (sp _ (by simp [Space])) hp
  have body : Body 1 b!"a]] b" := by
    have : ∀ j, j < 5 → startsWith ((b!"a]] b" ++ close 1).drop j) (close 1) = false := by decide +kernel
    intro j hj h
    rw [occursAt_iff, this j hj] at h
    cases h.2
  have hp := Program.cons (a := b!"[=[a]] b]=]") (.longString (k := 1) (t := b!"a]] b") body) hp
  have hp := Program.cons (sp _ (by simp [Space])) hp
  have hp := Program.cons (a := b!"=") (.symbol (ty := .symbol_op) (longestIn_of (by decide) (by decide) (by decide +kernel))
    (by decide +kernel) ⟨by rw [occursAt_zero]; decide +kernel, fun k hk => by have := open_first hk; simp at this,
      by rw [occursAt_zero]; decide +kernel, not_number (by rw [← isDigit_iff]; decide) (by decide), by simp [Space, IdStart]⟩) hp
  have hp := Program.cons (sp _ (by simp [Space])) hp
  have id : Identifier IdStart IdContinue b!"f = [=[a]] b]=] 'x' --" 1 := by
    have e : matchIdentifier b!"f = [=[a]] b]=] 'x' --" = 1 := by decide +kernel
    have := (identifier_facts b!"f = [=[a]] b]=] 'x' --").2
    rw [e] at this
    exact (this.resolve_left (by simp)).2
  have hp := Program.cons (a := b!"f") (.name id fun ty h => by
    have e : highlightByCode b!"f" = none := by decide +kernel
    rw [← C33_lua, e] at h
    cases h) hp
  exact C58_lua _ _ hp debug opts

end Ulight.Lua
