import Verif.Props.Program.YamlFlow
import Verif.Hl.ProgramIn

/-!
# C58 for YAML: keys and lines
-/

namespace Ulight.Yaml

open Spec Spec.Yaml

variable {env : HEnv} {x y : St} {a b v w s t r e : Bytes} {ts us vs : List Token} {c : UInt8} {i k n m fuel B : Nat}

/-! ### Keys -/

theorem findColon_of {q : Option UInt8} (h : KeyText t q v) (ht : Separates t) (hq : ∀ k, q = some k → k ∈ b!"\"'") : findColon q (v ++ b!":" ++ t) = some v.length := by
  induction h with
  | done =>
    show findColon none (c!":" :: t) = _
    unfold findColon
    simp [separates_iff.2 ht]
  | @plain c v hl hc hs hv ih =>
    rw [List.cons_append, List.cons_append]
    unfold findColon
    rw [if_neg (by simpa [InLine, and_comm] using hl)]
    simp at hc
    have h1 : ¬ (c = c!":" ∧ separates (v ++ b!":" ++ t) = true) := fun h => hs h.1 (separates_iff.1 h.2)
    simp only
    rw [if_neg (by simp [hc]), if_neg (by simp [hc]), if_neg (by simpa using h1), ih (by simp)]
    rfl
  | @enter q v h hv ih =>
    rw [List.cons_append, List.cons_append]
    unfold findColon
    simp at h
    rw [if_neg (by rcases h with rfl | rfl <;> decide)]
    simp only
    rw [if_pos (by simpa using h), ih (by simpa using h)]
    rfl
  | @leave q v hv ih =>
    rw [List.cons_append, List.cons_append]
    unfold findColon
    have := hq q rfl
    simp at this
    rw [if_neg (by rcases this with rfl | rfl <;> decide)]
    simp only
    rw [if_pos trivial, ih (by simp)]
    rfl
  | @inner q c v hl hc he hv ih =>
    rw [List.cons_append, List.cons_append]
    unfold findColon
    rw [if_neg (by simpa [InLine, and_comm] using hl)]
    simp only
    rw [if_neg hc, if_neg (by simpa using he), ih hq]
    rfl
  | @escape c v hv ih =>
    rw [List.cons_append, List.cons_append, List.cons_append, List.cons_append]
    unfold findColon
    rw [if_neg (by decide)]
    simp only
    rw [if_neg (by decide), if_pos (by decide), ih hq]
    rfl

theorem findColon_none (h : NoKey s) : findColon none s = none := by
  cases hf : findColon none s with
  | none => rfl
  | some k =>
    obtain ⟨v, t, e, -, h1, h2⟩ := findColon_some hf
    exact absurd h2 (h v t e h1)

theorem trim_of (hv : ∀ d, v.getLast? = some d → ¬ Blank d) : (((v ++ t).take v.length).reverse.dropWhile isWs).reverse.length = v.length := by
  rw [List.take_left]
  have : v.reverse.dropWhile isWs = v.reverse := by
    cases h : v.reverse with
    | nil => rfl
    | cons d u =>
      have h1 : v.getLast? = some d := by rw [List.getLast?_eq_head?_reverse, h]; rfl
      have h2 := hv d h1
      rw [← isWs_blank'] at h2
      simp [List.dropWhile, h2]
  rw [this]
  simp

theorem key_head (h : KeyText t none v) (first : NotFirst b!" #|>?" v) : ∃ c u, v ++ b!":" = c :: u ∧ c ∉ b!" \r\n#|>?" := by
  cases h with
  | done => exact ⟨_, _, rfl, by decide⟩
  | @plain c v hl hc =>
    have := first c rfl
    refine ⟨c, v ++ b!":", rfl, ?_⟩
    simp at this ⊢
    exact ⟨this.1, fun e => hl.2 e, fun e => hl.1 e, this.2⟩
  | @enter q v h =>
    refine ⟨q, v ++ b!":", rfl, ?_⟩
    simp at h
    rcases h with rfl | rfl <;> decide

theorem Keyed.first (h : Keyed i a ts b) : (∃ c t, a = c :: t ∧ c ∉ b!" \r\n#|>?") ∧ ¬ b!"- " <+: a ++ b := by
  cases h with
  | @keyed v a ts _ h hv ha first dash x =>
    constructor
    · obtain ⟨c, u, e, hc⟩ := key_head h first
      exact ⟨c, u ++ a, by rw [e]; rfl, hc⟩
    · rintro ⟨t, e⟩
      match v with
      | [] => simp at e
      | [c] => simp at e
      | c :: d :: u =>
        simp at e
        exact dash ⟨u, by simp [← e.1, ← e.2.1]⟩

/-! ### Programs -/

abbrev Lines : Place → Bytes → List Token → Prop := ProgramIn Element

/-- `m` reads elements from the beginning of the text, and then some lines remain. -/
def Proceeds (env : HEnv) {α : Type} (m : HM St α) (z : α) (B : Nat) (x : St) (s : Bytes) (ts : List Token) (Q : Bytes → Prop) : Prop :=
  ∃ a us b vs k y, s = a ++ b ∧ ts = us ++ shift a.length vs ∧ Lines (.line k) b vs ∧ y.length + k ≤ B ∧ Q b ∧ Reads env m x a us b z y

theorem Proceeds.bind {α β : Type} {m : HM St β} {f : β → HM St α} {z : β} {z' : α} {B' : Nat} {Q Q' : Bytes → Prop}
    (h : Proceeds env m z B x s ts Q)
    (h' : ∀ b vs k y, Lines (.line k) b vs → y.length + k ≤ B → Q b → b.length ≤ s.length → Proceeds env (f z) z' B' y b vs Q') :
    Proceeds env (m >>= f) z' B' x s ts Q' := by
  obtain ⟨a, us, b, vs, k, y, rfl, rfl, h1, h2, h3, h4⟩ := h
  obtain ⟨a', us', b', vs', k', y', rfl, rfl, h1', h2', h3', h4'⟩ := h' b vs k y h1 h2 h3 (by simp)
  exact ⟨a ++ a', us ++ shift a.length us', b', vs', k', y', by simp, by same, h1', h2', h3', h4.bind h4'⟩

theorem Proceeds.after {α β : Type} {m : HM St β} {f : β → HM St α} {z : β} {z' : α} {Q : Bytes → Prop}
    (h : Reads env m x a us b z y) (h' : Proceeds env (f z) z' B y b vs Q) : Proceeds env (m >>= f) z' B x (a ++ b) (us ++ shift a.length vs) Q := by
  obtain ⟨a', us', b', vs', k', y', rfl, rfl, h1', h2', h3', h4'⟩ := h'
  exact ⟨a ++ a', us ++ shift a.length us', b', vs', k', y', by simp, by same, h1', h2', h3', h.bind h4'⟩

theorem Proceeds.done {α : Type} {z : α} {Q : Bytes → Prop} (h : Lines (.line k) s ts) (hB : x.length + k ≤ B) (hQ : Q s) :
    Proceeds env (pure z) z B x s ts Q :=
  ⟨[], [], s, ts, k, x, rfl, by simp [shift_none], h, hB, hQ, reads_pure⟩

theorem Proceeds.weaken {α : Type} {m : HM St α} {z : α} {Q Q' : Bytes → Prop} {B' : Nat} (h : Proceeds env m z B x s ts Q) (hB : B ≤ B')
    (hQ : ∀ b, b.length ≤ s.length → Q b → Q' b) : Proceeds env m z B' x s ts Q' := by
  obtain ⟨a, us, b, vs, k, y, rfl, rfl, h1, h2, h3, h4⟩ := h
  exact ⟨a, us, b, vs, k, y, rfl, rfl, h1, by omega, hQ b (by simp) h3, h4⟩

/-- The text is empty or begins with an entry. -/
def AtEntry (n : Nat) (b : Bytes) (vs : List Token) : Prop :=
  (b = [] ∧ vs = []) ∨ ∃ k a ts b' y ws, b = spaces k ++ (a ++ b') ∧ vs = shift k (ts ++ shift a.length ws) ∧ Entry k (.line n) a ts b' y ∧
    (k = 0 → ¬ b!"---" <+: a ++ b' ∧ ¬ b!"..." <+: a ++ b') ∧ Lines y b' ws

/-- The text begins with a marker. -/
def Marked (b : Bytes) : Prop := b!"---" <+: b ∨ b!"..." <+: b

theorem Marked.head (h : Marked b) : ∃ c t, b = c :: t ∧ c ∉ b!" \t\r\n#%" := by
  rcases h with ⟨t, rfl⟩ | ⟨t, rfl⟩
  · exact ⟨_, _, rfl, by decide⟩
  · exact ⟨_, _, rfl, by decide⟩

theorem BlockScalar.head (h : BlockScalar i a ts b) : ∃ c t, a = c :: t ∧ c ∈ b!"|>" := by
  cases h with
  | block hc => exact ⟨_, _, rfl, hc⟩

theorem Entry.head {p q : Place} (h : Entry k p a ts b q) : ∃ c t, a = c :: t ∧ c ∉ b!" \r\n#" := by
  cases h with
  | dash hw s => exact ⟨_, _, rfl, by decide⟩
  | keyed h =>
    cases h with
    | keyed h hv ha first dash x =>
      obtain ⟨c, u, e, hc⟩ := key_head h first
      refine ⟨c, u ++ _, by rw [e]; rfl, fun hm => hc ?_⟩
      simp at hm ⊢
      rcases hm with rfl | rfl | rfl | rfl <;> simp
  | value h =>
    obtain ⟨c, t, rfl, hc⟩ := Flow.head h
    refine ⟨c, _, rfl, fun hm => hc ?_⟩
    simp at hm ⊢
    rcases hm with rfl | rfl | rfl | rfl <;> simp
  | explicit => exact ⟨_, _, rfl, by decide⟩
  | block h =>
    obtain ⟨c, t, e, hc⟩ := BlockScalar.head h
    simp at hc
    exact ⟨c, t, e, by rcases hc with rfl | rfl <;> decide⟩

theorem indent_of (h : s.head? ≠ some c!" ") : currentIndent (spaces k ++ s) = k := by
  have := length_if_eq (p := fun d : UInt8 => d == c!" ") (longest_of (v := spaces k) (t := s) (P := fun d => (d == c!" ") = true) (by simp)
    fun c hc h' => h (by rw [hc]; simpa using h')) (by simp)
  rw [List.length_replicate] at this
  exact this

theorem reads_indent (h : s.head? ≠ some c!" ") : Reads env (consumeIndent k) x (spaces k) [] s () x := by
  refine reads_rem (reads_advance ?_)
  rw [indent_of h]
  simp

theorem spaces_first (hc : c ∉ b!"\r\n") : NotFirst b!"\r\n" (spaces k ++ c :: t) := by
  intro d hd hm
  cases k with
  | zero => simp at hd; subst hd; exact hc hm
  | succ k => simp [List.replicate_succ] at hd; subst hd; simp at hm

/-- What `blankStep` does with lines. -/
theorem blankStep_lines (h : Lines (.line n) s ts) :
    ((AtEntry n s ts ∨ Marked s) ∧ Reads env blankStep x [] [] s (.inr ()) x) ∨
    ∃ a us b vs, s = a ++ b ∧ a ≠ [] ∧ ts = us ++ shift a.length vs ∧ Lines (.line n) b vs ∧ Reads env blankStep x a us b (.inl ()) x := by
  cases h with
  | nil => exact .inl ⟨.inl (.inl ⟨rfl, rfl⟩), reads_rem (reads_this rfl reads_pure)⟩
  | @cons _ a ts b y us h h' =>
    cases h with
    | blank he ne =>
      refine .inr ⟨a, [], b, us, rfl, ne, by simp, h', reads_rem (reads_else (by simp [ne]) (reads_this ?_ ?_))⟩
      · rw [break_of he]; simpa using ne
      · exact (reads_skipLineBreak he).bind_last reads_pure
    | @comment _ k v e _ hv he =>
      refine .inr ⟨_, _, b, us, rfl, by simp, rfl, h', reads_rem (reads_else (by simp) (reads_else ?_ (reads_this ?_ ?_)))⟩
      · rw [show spaces k ++ b!"#" ++ v ++ e ++ b = spaces k ++ c!"#" :: (v ++ e ++ b) by simp, no_break (spaces_first (by decide))]
        simp
      · rw [show spaces k ++ b!"#" ++ v ++ e ++ b = spaces k ++ c!"#" :: (v ++ e ++ b) by simp, indent_of (by simp)]
        simp
      · rw [show spaces k ++ b!"#" ++ v ++ e ++ b = spaces k ++ c!"#" :: (v ++ e ++ b) by simp, indent_of (by simp)]
        have h2 := (reads_comment (env := env) (x := x) (b := e ++ b) hv (Break.end he)).bind
          (f := fun _ => (do skipLineBreak; pure (.inl ()) : HM St (Unit ⊕ Unit))) ((reads_skipLineBreak he).bind_last reads_pure)
        have h1 : Reads env (consumeIndent k) x (spaces k) [] ((b!"#" ++ v ++ e) ++ b) () x := reads_indent (by simp)
        have h3 := h1.bind (f := fun _ => (do comment; skipLineBreak; pure (.inl ()) : HM St (Unit ⊕ Unit))) h2
        exact (h3.tokens (by simp [shift_one, shift_empty, shift_opt'])).text (by simp)
    | @entry _ k a ts _ _ h hk =>
      obtain ⟨c, t, rfl, hc⟩ := Entry.head h
      refine .inl ⟨.inl (.inr ⟨k, _, ts, b, y, us, by simp, ?_, h, hk, h'⟩), reads_rem (reads_else (by simp) (reads_else ?_ (reads_else ?_ reads_pure)))⟩
      · same
      · simp at hc
        rw [show [] ++ (spaces k ++ c :: t ++ b) = spaces k ++ c :: (t ++ b) by simp, no_break (spaces_first (by simp [hc]))]
        simp
      · simp at hc
        rw [show [] ++ (spaces k ++ c :: t ++ b) = spaces k ++ c :: (t ++ b) by simp, indent_of (by simp [hc])]
        simp [hc]

    | @marker _ m r e _ hm hl he =>
      have hmk : Marked (m ++ r ++ e ++ b) := by
        rcases hm with rfl | rfl
        · exact .inl ⟨r ++ e ++ b, by simp⟩
        · exact .inr ⟨r ++ e ++ b, by simp⟩
      refine .inl ⟨.inr hmk, ?_⟩
      obtain ⟨c, t, e', hc⟩ := Marked.head hmk
      rw [e']
      simp at hc
      refine reads_rem (reads_else (by simp) (reads_else ?_ (reads_else ?_ reads_pure)))
      · rw [List.nil_append, no_break (by intro d hd hm; simp at hd hm; subst hd; grind)]
        simp
      · rw [List.nil_append, currentIndent_solid (by simp [hc])]
        simp [hc]

theorem skipBlank_loop (h : Lines (.line n) s ts) (hm : s.length < m) :
    ∃ a us b vs, s = a ++ b ∧ ts = us ++ shift a.length vs ∧ Lines (.line n) b vs ∧ (AtEntry n b vs ∨ Marked b) ∧
      Reads env (HM.loop m (fun _ => blankStep) ()) x a us b () x := by
  induction m generalizing s ts with
  | zero => omega
  | succ m ih =>
    rcases blankStep_lines (env := env) (x := x) h with ⟨h1, h2⟩ | ⟨a, us, b, vs, rfl, ne, rfl, h1, h2⟩
    · exact ⟨[], [], s, ts, rfl, by simp [shift_none], h, h1, reads_loop_end (by omega) h2⟩
    · have := List.length_pos_iff.2 ne
      simp only [List.length_append] at hm
      obtain ⟨a', us', b', vs', rfl, rfl, h1', h2', h3'⟩ := ih h1 (by omega)
      exact ⟨a ++ a', us ++ shift a.length us', b', vs', by simp, by same, h1', h2', reads_loop (by omega) h2 h3'⟩

theorem skipBlank_lines (h : Lines (.line n) s ts) :
    ∃ a us b vs, s = a ++ b ∧ ts = us ++ shift a.length vs ∧ Lines (.line n) b vs ∧ (AtEntry n b vs ∨ Marked b) ∧ Reads env skipBlank x a us b () x := by
  obtain ⟨a, us, b, vs, rfl, rfl, h1, h2, h3⟩ := skipBlank_loop (env := env) (x := x) h (Nat.lt_succ_self _)
  exact ⟨a, us, b, vs, rfl, rfl, h1, h2, reads_rem h3⟩

/-- What the recursive calls do. -/
def Recurs (env : HEnv) (fuel : Nat) (again : Nat → Nat → HM St Unit) : Prop :=
  ∀ i o B x s ts n, Lines (.line n) s ts → x.length + n ≤ B → B ≤ 64 → s.length < fuel → Proceeds env (again i o) () B x s ts (fun _ => True)

theorem descend_lines {again : Nat → Nat → HM St Unit} (hr : Recurs env fuel again) (h : Lines (.line n) s ts) (hB : x.length + n ≤ B) (h64 : B ≤ 64)
    (hs : s.length < fuel) : Proceeds env (descend again i) () B x s ts (fun _ => True) := by
  obtain ⟨a, us, b, vs, rfl, rfl, h1, h2, h3⟩ := skipBlank_lines (env := env) (x := x) h
  simp only [List.length_append] at hs
  refine Proceeds.after h3 ?_
  have := hr i 0 B x b vs n h1 hB h64 (by omega)
  by_cases hc : (b ≠ [] && matchLineBreak b = 0 && i < currentIndent b) = true
  · obtain ⟨a', us', b', vs', k', y', rfl, rfl, h1', h2', h3', h4'⟩ := this
    exact ⟨a', us', b', vs', k', y', rfl, rfl, h1', h2', h3', reads_rem (reads_this hc h4')⟩
  · exact ⟨[], [], b, vs, n, x, rfl, by simp [shift_none], h1, hB, trivial, reads_rem (reads_else hc reads_pure)⟩

theorem first_two {p q : UInt8} (h : c ≠ p) : startsWith (c :: t) [p, q] = false := by
  rw [Bool.eq_false_iff]
  intro h'
  obtain ⟨u, e⟩ := startsWith_iff.1 h'
  simp at e
  exact h e.1

theorem starts_prefix {p : Bytes} (h : ¬ p <+: s) : startsWith s p = false := by
  rw [Bool.eq_false_iff]
  intro h'
  obtain ⟨u, e⟩ := startsWith_iff.1 h'
  exact h ⟨u, e.symm⟩

/-! ### Block scalars -/

theorem indent_least : k ≤ currentIndent (spaces k ++ s) := by
  unfold currentIndent
  rw [Ascii.length_if_eq]
  induction k with
  | zero => simp
  | succ k ih => simp [List.replicate_succ]

theorem reads_consume : Reads env (consumeIndent k) x (spaces k) [] s () x := by
  refine reads_rem (reads_advance ?_)
  rw [Nat.min_eq_left indent_least]
  simp

theorem Outdented.indent (h : Outdented k b) (ne : b ≠ []) : currentIndent b < k ∧ matchLineBreak b = 0 := by
  rcases h with h | ⟨j, c, t, rfl, hj, hc⟩
  · exact absurd h ne
  · simp at hc
    exact ⟨by rw [indent_of (by simp [hc])]; exact hj, no_break (spaces_first (by simp [hc]))⟩

theorem blockLine_loop (h : BlockLines k a ts b) (hn : a.length < n) : Reads env (HM.loop n (fun _ => blockLine k) ()) x a ts b () x := by
  induction h generalizing n with
  | @done b h =>
    refine reads_loop_end (by omega) (reads_rem ?_)
    by_cases ne : b = []
    · exact reads_this (by simpa using ne) reads_pure
    · have := Outdented.indent h ne
      exact reads_else (by simpa using ne) (reads_this (by rw [List.nil_append]; simp [this]) reads_pure)
  | @blank e a ts b he ne rest ih =>
    have h1 : Reads env (blockLine k) x e [] (a ++ b) (.inl ()) x := by
      have h2 : matchLineBreak (e ++ (a ++ b)) ≠ 0 := by rw [break_of he]; simpa using ne
      exact reads_rem (reads_else (by simp [ne]) (reads_else (by simp [h2]) (reads_this h2 ((reads_skipLineBreak he).bind_last reads_pure))))
    have := List.length_pos_iff.2 ne
    simp only [List.length_append] at hn
    exact (reads_loop (c := ()) (c' := ()) (m := n) (by omega) h1 (ih (n := n - 1) (by omega))).tokens rfl
  | @line v e a ts b ne hv he rest ih =>
    obtain ⟨c, v, rfl⟩ := List.exists_cons_of_ne_nil ne
    have h1 : Reads env (blockLine k) x (spaces k ++ ((c :: v) ++ e)) [⟨k, (c :: v).length, .string⟩] (a ++ b) (.inl ()) x := by
      have h2 : k ≤ currentIndent (spaces k ++ (c :: v ++ e) ++ (a ++ b)) := by
        rw [List.append_assoc]
        exact indent_least
      have h3 : matchLineBreak (spaces k ++ (c :: v ++ e) ++ (a ++ b)) = 0 := by
        rw [show spaces k ++ (c :: v ++ e) ++ (a ++ b) = spaces k ++ c :: (v ++ e ++ (a ++ b)) by simp]
        have := hv c (by simp)
        simp [InLine] at this
        exact no_break (spaces_first (by simp [this]))
      refine reads_rem (reads_else (by simp) (reads_else ?_ (reads_else (by rw [h3]; simp) (reads_else ?_ ?_))))
      · simp only [Bool.and_eq_true, decide_eq_true_eq]; omega
      · simp only [Bool.and_eq_true, decide_eq_true_eq]; omega
      · have h4 : Reads env (do HM.emitAdvIf (lineLength (← HM.rem)) .string; skipLineBreak; pure (.inl ()) : HM St (Unit ⊕ Unit)) x
            (c :: v ++ e) (opt 0 (c :: v) .string ++ shift (c :: v).length []) (a ++ b) (.inl ()) x :=
          reads_rem ((reads_emitIf (by rw [List.append_assoc]; exact lineLength_of hv (Break.end he))).bind
            ((reads_skipLineBreak he).bind_last reads_pure))
        have h5 := (reads_consume (env := env) (x := x) (k := k) (s := c :: v ++ e ++ (a ++ b))).bind
          (f := fun _ => (do HM.emitAdvIf (lineLength (← HM.rem)) .string; skipLineBreak; pure (.inl ()) : HM St (Unit ⊕ Unit))) h4
        exact h5.tokens (by simp [shift_empty, opt, shift_one])
    simp only [List.length_append, List.length_cons] at hn
    have h6 := reads_loop (c := ()) (c' := ()) (m := n) (by omega) h1 (ih (n := n - 1) (by omega))
    exact (h6.tokens (by simp [Nat.add_assoc, Nat.add_comm, Nat.add_left_comm])).text (by simp)

theorem blankLines_loop (h : BlockBody i a ts b) (hn : a.length < n) :
    ∃ w a' us, a = w ++ a' ∧ ts = shift w.length us ∧ Reads env (HM.loop n (fun _ => (do
      if matchLineBreak (← HM.rem) ≠ 0 then do
        skipLineBreak
        pure (.inl ())
      else pure (.inr ()) : HM St (Unit ⊕ Unit))) ()) x w [] (a' ++ b) () x ∧
      ((a' = [] ∧ us = [] ∧ Outdented (i + 1) b) ∨ ∃ k c t, i < k ∧ a' = spaces k ++ c :: t ∧ c ∉ b!" \r\n" ∧ BlockLines k a' us b) := by
  induction h generalizing n with
  | @blank e a ts b he ne rest ih =>
    have := List.length_pos_iff.2 ne
    simp only [List.length_append] at hn
    obtain ⟨w, a', us, rfl, rfl, h1, h2⟩ := ih (n := n - 1) (by omega)
    refine ⟨e ++ w, a', us, by simp, by same, ?_, h2⟩
    have h3 : Reads env (do
      if matchLineBreak (← HM.rem) ≠ 0 then do
        skipLineBreak
        pure (.inl ())
      else pure (.inr ()) : HM St (Unit ⊕ Unit)) x e [] (w ++ (a' ++ b)) (.inl ()) x := by
      rw [List.append_assoc] at he
      exact reads_rem (reads_this (by rw [break_of he]; simpa using ne) ((reads_skipLineBreak he).bind_last reads_pure))
    exact (reads_loop (c := ()) (c' := ()) (by omega) h3 h1).tokens rfl
  | @empty b h =>
    refine ⟨[], [], [], rfl, rfl, reads_loop_end (by omega) (reads_rem (reads_else ?_ reads_pure)), .inl ⟨rfl, rfl, h⟩⟩
    by_cases ne : b = []
    · subst ne; decide
    · simp [(Outdented.indent h ne).2]
  | @lines k c t a ts b hk first hc h =>
    refine ⟨[], a, ts, rfl, (shift_none _).symm, reads_loop_end (by omega) (reads_rem (reads_else ?_ reads_pure)), .inr ⟨k, c, t, hk, first, hc, h⟩⟩
    simp at hc
    rw [first, show [] ++ (spaces k ++ c :: t ++ b) = spaces k ++ c :: (t ++ b) by simp, no_break (spaces_first (by simp [hc]))]
    simp

/-- The part of `blockScalar` after the header. -/
def scalarBody (i : Nat) : HM St Unit := do
  blankLines
  let s ← HM.rem
  if currentIndent s ≤ i && s ≠ [] then pure ()
  else HM.loop (s.length + 1) (fun _ => blockLine (currentIndent s)) ()

theorem reads_scalarBody (h : BlockBody i a ts b) : Reads env (scalarBody i) x a ts b () x := by
  obtain ⟨w, a', us, rfl, rfl, h1, h2⟩ := blankLines_loop (env := env) (x := x) (n := (a ++ b).length + 1) h (by simp; omega)
  have h3 : Reads env blankLines x w [] (a' ++ b) () x := reads_rem (by simpa using h1)
  refine (h3.bind (a' := a') (us := us) ?_).tokens rfl
  refine reads_rem ?_
  rcases h2 with ⟨rfl, rfl, ho⟩ | ⟨k, c, t, hk, e, hc, hl⟩
  · by_cases ne : b = []
    · subst ne
      exact reads_else (by simp) (reads_loop_end (by omega) (reads_rem (reads_this rfl reads_pure)))
    · have := (Outdented.indent ho ne).1
      refine reads_this ?_ reads_pure
      rw [List.nil_append]
      simp only [Bool.and_eq_true, decide_eq_true_eq]
      exact ⟨by omega, ne⟩
  · simp at hc
    have hi : currentIndent (a' ++ b) = k := by
      rw [e, show spaces k ++ c :: t ++ b = spaces k ++ c :: (t ++ b) by simp, indent_of (by simp [hc])]
    rw [hi]
    refine reads_else ?_ (blockLine_loop hl (by simp; omega))
    simp only [Bool.and_eq_true, decide_eq_true_eq]
    omega

/-- The end of `blockHeader`. -/
def headerEnd : HM St Unit := do
  if startsWith (← HM.rem) b!"#" then do
    comment
    skipLine
  else skipLine

theorem HeaderEnd.first {rs : List Token} (hr : HeaderEnd r rs) (he : Break e b) : ∀ c, (r ++ e ++ b).head? = some c → c ∈ b!" \t\r\n#" := by
  intro c hc
  have hb : (r = [] → c ∈ b!" \t\r\n#") := by
    rintro rfl
    have := Break.end he c (by simpa using hc)
    simp only [InLine] at this
    simp
    grind
  cases hr with
  | plain h first =>
    cases r with
    | nil => exact hb rfl
    | cons d t =>
      simp at hc
      subst hc
      have := first d rfl
      simp [Blank] at this ⊢
      grind
  | comment => simp at hc; simp [← hc]

theorem reads_headerEnd {rs : List Token} (hr : HeaderEnd r rs) (he : Break e b) : Reads env headerEnd x (r ++ e) rs b () x := by
  cases hr with
  | plain h first =>
    refine reads_rem (reads_else ?_ (reads_skipLine h he))
    rw [starts_prefix]
    · simp
    · rintro ⟨t, e'⟩
      cases r with
      | nil =>
        have h1 := Break.end he c!"#" (by rw [List.nil_append] at e'; rw [← e']; rfl)
        simp [InLine] at h1
      | cons d u =>
        simp at e'
        have := first d rfl
        rw [← e'.1] at this
        simp [Blank] at this
  | @comment v h =>
    refine reads_rem (reads_this rfl ?_)
    have h1 := (reads_comment (env := env) (x := x) (v := v) (b := ([] ++ e) ++ b) h (by simpa using Break.end he)).bind (f := fun _ => skipLine)
      (reads_skipLine (r := []) (by simp [OneLine]) he)
    exact (h1.tokens (by simp [shift_empty])).text (by simp)

/-- `blockHeader` after the first character. -/
def headerRest : HM St Unit := do
  let s ← HM.rem
  HM.emitAdvIf (if startsWith s b!"+" || startsWith s b!"-" then 1 else 0) .number_decor
  let s ← HM.rem
  HM.emitAdvIf (if (s[0]?).any (fun c => c!"1" ≤ c && c ≤ c!"9") then 1 else 0) .number_decor
  headerEnd

theorem reads_header {rs : List Token} {m d : Bytes} (hc : c ∈ b!"|>") (hm : m ∈ [[], b!"+", b!"-"]) (hd : d = [] ∨ ∃ x ∈ b!"123456789", d = [x])
    (hr : HeaderEnd r rs) (he : Break e b) :
    Reads env blockHeader x ([c] ++ (m ++ (d ++ (r ++ e))))
      ([⟨0, 1, .string_delim⟩] ++ shift 1 (opt 0 m .number_decor ++ shift m.length (opt 0 d .number_decor ++ shift d.length rs))) b () x := by
  have hf := HeaderEnd.first hr he
  have h1 := reads_headerEnd (env := env) (x := x) hr he
  have h2 : Reads env (do
      let s ← HM.rem
      HM.emitAdvIf (if (s[0]?).any (fun c => c!"1" ≤ c && c ≤ c!"9") then 1 else 0) .number_decor
      headerEnd) x (d ++ (r ++ e)) (opt 0 d .number_decor ++ shift d.length rs) b () x := by
    refine reads_rem ((reads_emitIf ?_).bind h1)
    rcases hd with rfl | ⟨y, hy, rfl⟩
    · have hz : ∀ c ∈ b!" \t\r\n#", (c!"1" ≤ c && c ≤ c!"9") = false := by decide
      have : (([] ++ (r ++ e) ++ b)[0]?).any (fun c => c!"1" ≤ c && c ≤ c!"9") = false := by
        rw [← List.head?_eq_getElem?, List.nil_append]
        cases h : (r ++ e ++ b).head? with
        | none => rfl
        | some c => exact hz c (hf c h)
      rw [if_neg (by rw [this]; simp)]
      rfl
    · have hz : ∀ c ∈ b!"123456789", (c!"1" ≤ c && c ≤ c!"9") = true := by decide
      simp only [List.cons_append, List.getElem?_cons_zero, Option.any_some, hz y hy]
      rfl
  have h3 : Reads env headerRest x (m ++ (d ++ (r ++ e))) (opt 0 m .number_decor ++ shift m.length (opt 0 d .number_decor ++ shift d.length rs)) b () x := by
    refine reads_rem ((reads_emitIf ?_).bind h2)
    simp at hm
    rcases hm with rfl | rfl | rfl
    · have hg : ∀ c, (d ++ (r ++ e) ++ b).head? = some c → c ∈ b!" \t\r\n#123456789" := by
        intro c hc
        rcases hd with rfl | ⟨y, hy, rfl⟩
        · have := hf c (by simpa using hc)
          simp at this ⊢
          grind
        · simp at hc
          subst hc
          simp at hy ⊢
          grind
      have hz : ∀ p ∈ b!"+-", startsWith (d ++ (r ++ e) ++ b) [p] = false := by
        intro p hp
        refine starts_prefix ?_
        rintro ⟨t, e'⟩
        have := hg p (by rw [← e']; rfl)
        simp at hp
        rcases hp with rfl | rfl <;> exact absurd this (by decide)
      rw [List.nil_append, hz c!"+" (by decide), hz c!"-" (by decide)]
      rfl
    · rfl
    · rfl
  have h4 : Reads env (HM.emitAdv 1 .string_delim : HM St Unit) x [c] [⟨0, 1, .string_delim⟩] (m ++ (d ++ (r ++ e)) ++ b) () x := reads_emit rfl (by simp)
  refine reads_rem (reads_check ?_ (h4.bind (f := fun _ => headerRest) h3))
  simp at hc
  rcases hc with rfl | rfl <;> rfl

theorem reads_blockScalar (h : BlockScalar i a ts b) : Reads env (blockScalar i) x a ts b () x := by
  cases h with
  | @block c m d r rs e a ts _ hc hm hd hr he h =>
    have h1 := (reads_header (env := env) (x := x) hc hm hd hr he).bind (f := fun _ => scalarBody i) (reads_scalarBody h)
    exact (h1.tokens (by simp [shift_append, shift_shift, shift_opt', Nat.add_assoc, Nat.add_comm, Nat.add_left_comm])).text (by simp)

theorem reads_blockNode (h : BlockScalar i a ts b) : Reads env (flowNode i false) x a ts b () x := by
  obtain ⟨c, t, rfl, hc⟩ := BlockScalar.head h
  have hb := reads_blockScalar (env := env) (x := x) h
  simp at hc
  refine reads_rem ?_
  show Reads env (flowNodeBody (flowNodeLoop _) i false) x _ _ _ _ _
  have h1 : Reads env (flowBranch (flowNodeLoop (c :: t ++ b).length) i false) x (c :: t) ts b () x := by
    refine reads_rem (reads_else ?_ (reads_else ?_ (reads_this ?_ hb)))
    · rw [List.cons_append, starts_head (by rcases hc with rfl | rfl <;> decide)]; simp
    · rw [List.cons_append, starts_head (by rcases hc with rfl | rfl <;> decide)]; simp
    · rcases hc with rfl | rfl <;> rfl
  have h2 := reads_node (p := []) (ps := []) (a := c :: t) (b := b) (.nil (by rcases hc with rfl | rfl <;> simp [NotFirst])) (by simp)
    (by rcases hc with rfl | rfl <;> simp [NotFirst]) h1
  simpa [shift_none] using h2

theorem value_lines {again : Nat → Nat → HM St Unit} (hr : Recurs env fuel again) (hv : Value i a us b) (h : Lines (.line n) b vs)
    (hB : x.length + n ≤ B) (h64 : B ≤ 64) (hs : b.length < fuel) :
    Proceeds env (do inlineWhitespace; mappingValue again i; pure true) true B x (a ++ b) (us ++ shift a.length vs) (fun r => r.length ≤ b.length) := by
  have hd := (descend_lines (i := i) hr h hB h64 hs).weaken (Q' := fun r => r.length ≤ b.length) (Nat.le_refl _) fun _ h _ => h
  cases hv with
  | @block w a ts _ hw hx =>
    have hbn := reads_blockNode (env := env) (x := x) hx
    obtain ⟨c, t, rfl, hc⟩ := BlockScalar.head hx
    simp at hc
    have h1 : Reads env inlineWhitespace x w [] (c :: t ++ b) () x := reads_inline hw (by rcases hc with rfl | rfl <;> simp [NotFirst])
    have h3 : Reads env (mappingValue again i) x (c :: t) ts b () x := by
      refine reads_rem (reads_else ?_ (reads_this ?_ hbn))
      · rw [List.cons_append, first_two (by rcases hc with rfl | rfl <;> decide), first_two (by rcases hc with rfl | rfl <;> decide)]; simp
      · rcases hc with rfl | rfl <;> rfl
    have h5 := Proceeds.after (f := fun _ => (do mappingValue again i; pure true : HM St Bool)) h1
      (Proceeds.after (f := fun _ => (pure true : HM St Bool)) h3 (Proceeds.done (z := true) (Q := fun r => r.length ≤ b.length) h hB (Nat.le_refl _)))
    rw [shift_append, shift_shift] at h5
    simpa [Nat.add_assoc, Nat.add_comm, Nat.add_left_comm] using h5
  | @none w r e _ hw hr' hl he =>
    have hf : NotFirst b!" \t-?|>" (r ++ e ++ b) := by
      intro c hc hm
      rcases hr' with rfl | hr'
      · have := Break.end he c (by simpa using hc)
        simp [InLine] at this hm
        grind
      · cases r with
        | nil => simp at hr'
        | cons d u => simp at hr' hc; subst hc; subst hr'; simp at hm
    have h1 : Reads env inlineWhitespace x w [] (r ++ e ++ b) () x := reads_inline hw (notFirst_sub hf (by decide))
    have h2 := (Proceeds.after (f := fun _ => descend again i) (reads_skipLine (env := env) (x := x) hl he) hd)
    have hn : ∀ p ∈ b!"-?|>", ∀ q, startsWith (r ++ e ++ b) (p :: q) = false := by
      intro p hp q
      rw [Bool.eq_false_iff]
      intro h'
      obtain ⟨u, e'⟩ := startsWith_iff.1 h'
      exact hf p (by rw [e']; rfl) (by simp at hp ⊢; grind)
    have h3 : Proceeds env (mappingValue again i) () B x (r ++ e ++ b) (shift (r ++ e).length vs) (fun r => r.length ≤ b.length) := by
      obtain ⟨a', us', b', vs', k', y', e1, e2, h1', h2', h3', h4'⟩ := h2
      refine ⟨a', us', b', vs', k', y', e1, by simpa using e2, h1', h2', h3', ?_⟩
      refine reads_rem ?_
      rw [← e1]
      refine reads_else ?_ (reads_else ?_ (reads_else ?_ h4'))
      · rw [hn c!"-" (by decide), hn c!"?" (by decide)]; simp
      · rw [hn c!"|" (by decide), hn c!">" (by decide)]; simp
      · rcases hr' with rfl | hr'
        · by_cases he' : e = []
          · subst he'
            rcases he with h | h | ⟨h, -⟩ | ⟨-, rfl⟩ <;> simp at *
          · rw [List.nil_append, break_of he]
            simp [he']
        · cases r with
          | nil => simp at hr'
          | cons d u => simp at hr'; subst hr'; simp
    have h5 := Proceeds.after (f := fun _ => (do mappingValue again i; pure true : HM St Bool)) h1
      (h3.bind fun _ vs k y hb hy hq _ => Proceeds.done (z := true) (Q := fun r => r.length ≤ b.length) hb hy hq)
    rw [shift_shift] at h5
    simpa [Nat.add_assoc] using h5
  | @flow w a ts r e _ hw h ha hl he =>
    obtain ⟨c, t, rfl, hc⟩ := Flow.head h
    have hw' : NotFirst b!" \t\r\n" (c :: t ++ (r ++ e ++ b)) := by
      intro d hd hm
      simp at hd hm hc
      subst hd
      grind
    have h1 : Reads env inlineWhitespace x w [] (c :: t ++ (r ++ e ++ b)) () x := reads_inline hw (notFirst_sub hw' (by decide))
    have h2 := (Proceeds.after (f := fun _ => descend again i) (reads_skipLine (env := env) (x := x) hl he) hd)
    have h4 := (Proceeds.after (f := fun _ => (do skipLine; descend again i : HM St Unit)) (reads_flow (env := env) (x := x) (i := i) h) h2)
    have h3 : Proceeds env (mappingValue again i) () B x (c :: t ++ (r ++ e ++ b)) (ts ++ shift (c :: t ++ r ++ e).length vs) (fun r => r.length ≤ b.length) := by
      obtain ⟨a', us', b', vs', k', y', e1, e2, h1', h2', h3', h4'⟩ := h4
      refine ⟨a', us', b', vs', k', y', e1, ?_, h1', h2', h3', ?_⟩
      · rw [← e2]; same
      refine reads_rem ?_
      rw [← e1]
      refine reads_else ?_ (reads_else ?_ (reads_this ?_ h4'))
      · rw [starts_prefix ha.1, starts_prefix ha.2]; simp
      · simp at hc
        rw [List.cons_append, starts_head (by simp [hc]), starts_head (by simp [hc])]; simp
      · rw [no_break (notFirst_sub hw' (by decide))]
        simp at hc
        simp [hc]
    have h5 := Proceeds.after (f := fun _ => (do mappingValue again i; pure true : HM St Bool)) h1
      (h3.bind fun _ vs k y hb hy hq _ => Proceeds.done (z := true) (Q := fun r => r.length ≤ b.length) hb hy hq)
    rw [shift_append, shift_shift] at h5
    simpa [Nat.add_assoc, Nat.add_comm, Nat.add_left_comm] using h5

theorem keyed_lines {again : Nat → Nat → HM St Unit} (hr : Recurs env fuel again) (hv : Keyed i a us b) (h : Lines (.line n) b vs)
    (hB : x.length + n ≤ B) (h64 : B ≤ 64) (hs : b.length < fuel) :
    Proceeds env (mappingKey again i) true B x (a ++ b) (us ++ shift a.length vs) (fun r => r.length ≤ b.length) := by
  cases hv with
  | @keyed v a ts _ hk hl ha first dash hx =>
    have h1 := value_lines (i := i) hr hx h hB h64 hs
    have h3 : Reads env (HM.emitAdv 1 .symbol_punc : HM St Unit) x b!":" [⟨0, 1, .symbol_punc⟩] (a ++ b) () x := reads_emit rfl (by simp)
    have h4 := Proceeds.after (f := fun _ => (do inlineWhitespace; mappingValue again i; pure true : HM St Bool)) h3 h1
    have h5 : Reads env (flowNodeContent v.length .markup_attr) x v (opt 0 v .markup_attr) (b!":" ++ (a ++ b)) () x :=
      reads_rem (reads_emitIf (trim_of hl))
    have h6 := Proceeds.after (f := fun _ => (do HM.emitAdv 1 .symbol_punc; inlineWhitespace; mappingValue again i; pure true : HM St Bool)) h5 h4
    obtain ⟨a', us', b', vs', k', y', e1, e2, h1', h2', h3', h4'⟩ := h6
    refine ⟨a', us', b', vs', k', y', by rw [← e1]; simp, by rw [← e2]; same, h1', h2', h3', ?_⟩
    unfold mappingKey
    refine reads_rem ?_
    rw [← e1, ← List.append_assoc, findColon_of hk ha (by simp)]
    exact h4'

theorem reads_push (h : x.length < 64) : Reads env (push i) x [] [] b () (i :: x) := by
  unfold push
  refine reads_get (reads_check (by simpa using h) ?_)
  refine ⟨[], rfl, fun i out hi => ?_⟩
  simp [HM.modify]

/-! ### Entries of a sequence -/

theorem entryEnd_lines {again : Nat → Nat → HM St Unit} (hr : Recurs env fuel again) (h : Lines (.line k) s ts) (hB : x.length + k + 1 ≤ B)
    (h64 : B ≤ 64) (hs : s.length < fuel) : Proceeds env (entryEnd again i) () B x s ts (fun _ => True) := by
  have main : ∀ {s ts}, Lines (.line k) s ts → s.length < fuel → Proceeds env (do push i; again i 0) () B x s ts (fun _ => True) := by
    intro s ts h hs
    have h1 := hr i 0 B (i :: x) s ts k h (by simp; omega) h64 hs
    have h2 := Proceeds.after (f := fun _ => again i 0) (reads_push (env := env) (i := i) (x := x) (b := s) (by omega)) h1
    simpa [shift_none] using h2
  by_cases hb : matchLineBreak s = 0
  · obtain ⟨a', us', b', vs', k', y', rfl, rfl, h1', h2', h3', h4'⟩ := main h hs
    exact ⟨a', us', b', vs', k', y', rfl, rfl, h1', h2', h3', reads_rem (reads_else (by simp [hb]) h4')⟩
  · have : ∃ e b vs, s = e ++ b ∧ ts = shift e.length vs ∧ Break e b ∧ Lines (.line k) b vs := by
      cases h with
      | nil => exact absurd rfl hb
      | @cons _ a ts b y us h h' =>
        cases h with
        | blank he ne => exact ⟨a, b, us, rfl, by simp, he, h'⟩
        | @comment _ k v e _ hv he =>
          rw [show spaces k ++ b!"#" ++ v ++ e ++ b = spaces k ++ c!"#" :: (v ++ e ++ b) by simp] at hb
          exact absurd (no_break (spaces_first (by decide))) hb
        | @entry _ k a ts _ _ h hk =>
          obtain ⟨c, t, rfl, hc⟩ := Entry.head h
          simp at hc
          rw [show spaces k ++ c :: t ++ b = spaces k ++ c :: (t ++ b) by simp] at hb
          exact absurd (no_break (spaces_first (by simp [hc]))) hb
        | @marker _ m r e _ hm hl he =>
          refine absurd (no_break ?_) hb
          rcases hm with rfl | rfl <;> intro d hd hm <;> simp at hd <;> subst hd <;> simp at hm
    obtain ⟨e, b, vs, rfl, rfl, he, h'⟩ := this
    have h1 := main h' (by simp at hs; omega)
    have h2 := Proceeds.after (f := fun _ => (do push i; again i 0 : HM St Unit)) (reads_skipLine (env := env) (x := x) (r := []) (by simp [OneLine]) he) h1
    obtain ⟨a', us', b', vs', k', y', e1, e2, h1', h2', h3', h4'⟩ := h2
    refine ⟨a', us', b', vs', k', y', e1, e2, h1', h2', h3', reads_rem (reads_this ?_ h4')⟩
    rw [← e1]
    simpa using hb

theorem mappingKey_none {again : Nat → Nat → HM St Unit} (h : NoKey s) : Reads env (mappingKey again i) x [] [] s false x := by
  unfold mappingKey
  refine reads_rem ?_
  rw [List.nil_append, findColon_none h]
  exact reads_pure

theorem compact_lines {again : Nat → Nat → HM St Unit} (hr : Recurs env fuel again) (h : Lines (.entry n i) s ts) (ne : s ≠ []) (hB : x.length + n ≤ B)
    (h64 : B ≤ 64) (hs : s.length < fuel) : Proceeds env (compact again i) () B x s ts (fun _ => True) := by
  cases h with
  | nil => exact absurd rfl ne
  | @cons _ a ts b y us h h' =>
    cases h with
    | @dash n _ w us' _ hw sk =>
      have h1 : Lines (.line (n + 1)) (b!"-" ++ w ++ b) ([⟨0, 1, .symbol_punc⟩] ++ shift 1 us' ++ shift (b!"-" ++ w).length us) := by
        refine .cons (y := .entry n 1) ?_ h'
        have := Element.entry (k := 0) (Entry.dash (k := 0) (n := n) hw sk) (fun _ => ?_)
        · simpa [shift_none] using this
        · cases w with
          | nil => simp at hw
          | cons d u => simp at hw; subst hw; simp [List.IsPrefix]
      obtain ⟨a', us', b', vs', k', y', e1, e2, h1', h2', h3', h4'⟩ := hr i 1 B x _ _ _ h1 hB h64 hs
      refine ⟨a', us', b', vs', k', y', e1, e2, h1', h2', h3', reads_rem ?_⟩
      rw [← e1]
      refine reads_else (by simp) (reads_this ?_ h4')
      cases w with
      | nil => simp at hw
      | cons d u => simp at hw; subst hw; rfl
    | keyed hk =>
      have h1 := keyed_lines (i := i) (x := x) hr hk h' hB h64 (by simp only [List.length_append] at hs; omega)
      have h2 := h1.bind (f := fun b => (if b = true then pure () else flowNode i false : HM St Unit)) (z' := ()) (B' := B) (Q' := fun _ => True)
        fun b vs k y hb hy _ _ => Proceeds.done (z := ()) (Q := fun _ => True) hb hy trivial
      obtain ⟨a', us', b', vs', k', y', e1, e2, h1', h2', h3', h4'⟩ := h2
      refine ⟨a', us', b', vs', k', y', e1, e2, h1', h2', h3', reads_rem ?_⟩
      rw [← e1]
      refine reads_else (by simpa using ne) (reads_else ?_ h4')
      rw [starts_prefix (Keyed.first hk).2]
      simp
    | block hx nk =>
      refine ⟨a, ts, b, us, n, x, rfl, rfl, h', hB, trivial, reads_rem ?_⟩
      have hn := (mappingKey_none (again := again) (env := env) (x := x) (i := i) nk).bind_none
        (f := fun z => (if z = true then pure () else flowNode i false : HM St Unit)) (reads_blockNode hx)
      obtain ⟨c, t, rfl, hc⟩ := BlockScalar.head hx
      simp at hc
      refine reads_else (by simp) (reads_else ?_ hn)
      rw [List.cons_append, first_two (by rcases hc with rfl | rfl <;> decide)]
      simp
    | @value n _ a ts e _ hf nk dash he =>
      have h1 : ∃ vs, Lines (.line n) (e ++ b) vs ∧ vs = shift e.length us := by
        by_cases h0 : e = []
        · subst h0
          exact ⟨us, h', by simp [shift_none]⟩
        · refine ⟨_, .cons (.blank ?_ h0) h', rfl⟩
          rcases he with he | he
          · exact he
          · exact absurd he.1 h0
      obtain ⟨vs, h1, rfl⟩ := h1
      refine ⟨a, ts, e ++ b, _, n, x, by simp, by same, h1, hB, trivial, reads_rem ?_⟩
      refine reads_else ?_ (reads_else ?_ ?_)
      · obtain ⟨c, t, rfl, hc⟩ := Flow.head hf
        simp
      · rw [starts_prefix dash]; simp
      · exact (mappingKey_none nk).bind_none (reads_flow hf)

theorem sequence_lines {again : Nat → Nat → HM St Unit} (hr : Recurs env fuel again) (sk : Skip w us s)
    (h : Lines (.entry n (i + 1)) s ts) (hB : x.length + n + 1 ≤ B) (h64 : B ≤ 64) (hs : s.length < fuel) :
    Proceeds env (sequenceEntry again i) () B x (b!"-" ++ w ++ s) ([⟨0, 1, .symbol_punc⟩] ++ shift 1 us ++ shift (b!"-" ++ w).length ts) (fun b => b.length ≤ s.length) := by
  have h3 : Reads env (HM.emitAdv 1 .symbol_punc : HM St Unit) x b!"-" [⟨0, 1, .symbol_punc⟩] (w ++ s) () x := reads_emit rfl (by simp)
  have h4 : Proceeds env (do
      if hasValue (← HM.rem) then do
        compact again (i + 1)
        entryEnd again i
      else entryEnd again i) () B x s ts (fun b => b.length ≤ s.length) := by
    by_cases hs0 : s = []
    · subst hs0
      have ht : ts = [] := by
        generalize he : ([] : Bytes) = s at h
        cases h with
        | nil => rfl
        | @cons _ a ts b y us h h' =>
          have ha : a = [] := by
            have := he.symm
            simp at this
            exact this.1
          cases h with
          | dash => simp at ha
          | keyed hk =>
            obtain ⟨⟨c, t, rfl, -⟩, -⟩ := Keyed.first hk
            simp at ha
          | block hx =>
            obtain ⟨c, t, rfl, -⟩ := BlockScalar.head hx
            simp at ha
          | value hf =>
            obtain ⟨c, t, rfl, -⟩ := Flow.head hf
            simp at ha
      subst ht
      obtain ⟨a', us', b', vs', k', y', e1, e2, h1', h2', h3', h4'⟩ := entryEnd_lines (i := i) (x := x) hr (ProgramIn.nil (x := Place.line n)) (by omega) h64 hs
      refine ⟨a', us', b', vs', k', y', e1, e2, h1', h2', ?_, reads_rem (reads_else ?_ h4')⟩
      · rw [e1]; simp
      · rw [← e1]; simp [hasValue]
    · have h1 := compact_lines (i := i + 1) (x := x) (B := B - 1) hr h hs0 (by omega) (by omega) hs
      have h2 := h1.bind (f := fun _ => entryEnd again i) (z' := ()) (B' := B) (Q' := fun b => b.length ≤ s.length) fun b vs k y hb hy _ hl =>
        (entryEnd_lines (i := i) (B := B) hr hb (by omega) h64 (by omega)).weaken (Nat.le_refl _) (by intros; omega)
      obtain ⟨a', us', b', vs', k', y', e1, e2, h1', h2', h3', h4'⟩ := h2
      refine ⟨a', us', b', vs', k', y', e1, e2, h1', h2', h3', reads_rem (reads_this ?_ h4')⟩
      rw [← e1]
      have := Skip.next sk
      unfold hasValue
      rw [no_break (notFirst_sub this (by decide))]
      simp [hs0, head_ne this]
  have h5 := Proceeds.after (f := fun _ => (do
      if hasValue (← HM.rem) then do
        compact again (i + 1)
        entryEnd again i
      else entryEnd again i : HM St Unit)) (reads_whitespace (env := env) (x := x) sk) h4
  obtain ⟨a', us', b', vs', k', y', e1, e2, h1', h2', h3', h4'⟩ := Proceeds.after (f := fun _ => (do
      whitespace
      if hasValue (← HM.rem) then do
        compact again (i + 1)
        entryEnd again i
      else entryEnd again i : HM St Unit)) h3 h5
  exact ⟨a', us', b', vs', k', y', by rw [← e1]; simp, by rw [← e2]; same, h1', h2', h3', h4'⟩

/-! ### Explicit keys -/

/-- The part of `explicitValue` after the colon. -/
def explicitTail (again : Nat → Nat → HM St Unit) (i : Nat) : HM St Unit := do
  whitespace
  if hasValue (← HM.rem) then again i 0
  else do
    skipLine
    again i 0

/-- The part of `explicitValue` after the line of the key. -/
def explicitRest (again : Nat → Nat → HM St Unit) (i : Nat) : HM St Unit := do
  whitespace
  if startsWith (← HM.rem) b!": " then do
    HM.emitAdv 1 .symbol_punc
    explicitTail again i
  else pure ()

theorem hasValue_of (h : NotFirst b!" \t\r\n#" s) (ne : s ≠ []) : hasValue s = true := by
  unfold hasValue
  rw [no_break (notFirst_sub h (by decide))]
  simp [ne, head_ne h]

theorem explicitTail_lines {again : Nat → Nat → HM St Unit} (hr : Recurs env fuel again) (sk : Skip w us s) (h : Lines (.line n) s ts)
    (hB : x.length + n ≤ B) (h64 : B ≤ 64) (hs : s.length < fuel) :
    Proceeds env (explicitTail again i) () B x (w ++ s) (us ++ shift w.length ts) (fun _ => True) := by
  have h1 := hr i 0 B x s ts n h hB h64 hs
  refine Proceeds.after (reads_whitespace sk) ?_
  obtain ⟨a', us', b', vs', k', y', rfl, rfl, h1', h2', h3', h4'⟩ := h1
  refine ⟨a', us', b', vs', k', y', rfl, rfl, h1', h2', h3', reads_rem ?_⟩
  by_cases ne : a' ++ b' = []
  · refine reads_else (by rw [ne]; simp [hasValue]) ?_
    have h5 : Reads env skipLine x [] [] (a' ++ b') () x := by
      rw [ne]
      exact reads_skipLine (r := []) (e := []) (by simp [OneLine]) (.inr (.inr (.inr ⟨rfl, rfl⟩)))
    exact h5.bind_none h4'
  · exact reads_this (hasValue_of (Skip.next sk) ne) h4'

theorem explicitRest_lines {again : Nat → Nat → HM St Unit} (hr : Recurs env fuel again) (h : Lines (.explicit n) s ts)
    (hB : x.length + n ≤ B) (h64 : B ≤ 64) (hs : s.length < fuel) : Proceeds env (explicitRest again i) () B x s ts (fun _ => True) := by
  have none : ∀ {w us b vs}, Skip w us b → ¬ b!": " <+: b → Lines (.line n) b vs →
      Proceeds env (explicitRest again i) () B x (w ++ b) (us ++ shift w.length vs) (fun _ => True) := by
    intro w us b vs sk hb h
    exact ⟨w, us, b, vs, n, x, rfl, rfl, h, hB, trivial,
      (reads_whitespace sk).bind_last (reads_rem (reads_else (by rw [List.nil_append, starts_prefix hb]; simp) reads_pure))⟩
  cases h with
  | nil => exact none (w := []) (us := []) (b := []) (vs := []) (.nil (by simp [NotFirst])) (by simp) .nil
  | @cons _ a ts b y us h h' =>
    cases h with
    | absent sk hb => exact none sk hb h'
    | @colon _ w us' d ds _ sk hd sd =>
      simp only [List.length_append] at hs
      have h1 := explicitTail_lines (i := i) (x := x) hr sd h' hB h64 (by omega)
      have h2 : Reads env (HM.emitAdv 1 .symbol_punc : HM St Unit) x b!":" [⟨0, 1, .symbol_punc⟩] (d ++ b) () x := reads_emit rfl (by simp)
      obtain ⟨a', us', b', vs', k', y', e1, e2, h1', h2', h3', h4'⟩ := Proceeds.after (f := fun _ => explicitTail again i) h2 h1
      have h5 : Proceeds env (do
          if startsWith (← HM.rem) b!": " then do
            HM.emitAdv 1 .symbol_punc
            explicitTail again i
          else pure ()) () B x (b!":" ++ d ++ b) ([⟨0, 1, .symbol_punc⟩] ++ shift 1 (ds ++ shift d.length us)) (fun _ => True) := by
        refine ⟨a', us', b', vs', k', y', by rw [← e1]; simp, by rw [← e2]; rfl, h1', h2', h3', reads_rem (reads_this ?_ h4')⟩
        rw [← e1]
        cases d with
        | nil => simp at hd
        | cons f t => simp at hd; subst hd; rfl
      obtain ⟨a', us', b', vs', k', y', e1, e2, h1', h2', h3', h4'⟩ := Proceeds.after (f := fun _ => (do
          if startsWith (← HM.rem) b!": " then do
            HM.emitAdv 1 .symbol_punc
            explicitTail again i
          else pure () : HM St Unit)) (reads_whitespace (env := env) (x := x) sk) h5
      exact ⟨a', us', b', vs', k', y', by rw [← e1]; simp, by rw [← e2]; same, h1', h2', h3', h4'⟩

theorem explicit_lines {again : Nat → Nat → HM St Unit} (hr : Recurs env fuel again) (sk : Skip w us (a ++ (r ++ e ++ s)))
    (hf : Flow (.node false) a ts (r ++ e ++ s)) (hl : OneLine r) (he : Break e s) (h : Lines (.explicit n) s vs)
    (hB : x.length + n ≤ B) (h64 : B ≤ 64) (hs : s.length < fuel) :
    Proceeds env (explicitKey again i) () B x (b!"?" ++ (w ++ (a ++ (r ++ e ++ s))))
      ([⟨0, 1, .symbol_punc⟩] ++ shift 1 (us ++ shift w.length (ts ++ shift a.length (shift (r ++ e).length vs)))) (fun b => b.length ≤ s.length) := by
  have h0 := explicitRest_lines (i := i) (x := x) hr h hB h64 hs
  have h1 : Proceeds env (explicitRest again i) () B x s vs (fun b => b.length ≤ s.length) := h0.weaken (Nat.le_refl _) fun b hb _ => hb
  have h2 : Proceeds env (explicitValue again i) () B x (r ++ e ++ s) ([] ++ shift (r ++ e).length vs) (fun b => b.length ≤ s.length) :=
    Proceeds.after (f := fun _ => explicitRest again i) (reads_skipLine (env := env) (x := x) hl he) h1
  obtain ⟨a', us', b', vs', k', y', e1, e2, h1', h2', h3', h4'⟩ := Proceeds.after (f := fun _ => explicitValue again i)
    (reads_flow (env := env) (x := x) (i := i + 1) (b := r ++ e ++ s) hf) h2
  have h3 : Proceeds env (do
      if hasValue (← HM.rem) then do
        flowNode (i + 1) false
        explicitValue again i
      else explicitValue again i) () B x (a ++ (r ++ e ++ s)) (ts ++ shift a.length (shift (r ++ e).length vs)) (fun b => b.length ≤ s.length) := by
    refine ⟨a', us', b', vs', k', y', e1, by rw [← e2]; simp, h1', h2', h3', reads_rem (reads_this ?_ h4')⟩
    rw [← e1]
    refine hasValue_of (Skip.next sk) ?_
    obtain ⟨c, t, rfl, -⟩ := Flow.head hf
    simp
  have h4 := Proceeds.after (f := fun _ => (do
      if hasValue (← HM.rem) then do
        flowNode (i + 1) false
        explicitValue again i
      else explicitValue again i : HM St Unit)) (reads_whitespace (env := env) (x := x) sk) h3
  have h5 : Reads env (HM.emitAdv 1 .symbol_punc : HM St Unit) x b!"?" [⟨0, 1, .symbol_punc⟩] (w ++ (a ++ (r ++ e ++ s))) () x := reads_emit rfl (by simp)
  exact Proceeds.after (f := fun _ => (do
      whitespace
      if hasValue (← HM.rem) then do
        flowNode (i + 1) false
        explicitValue again i
      else explicitValue again i : HM St Unit)) h5 h4

/-! ### Blocks -/

theorem blockEntry_lines {again : Nat → Nat → HM St Unit} {q : Place} (hr : Recurs env fuel again) (he : Entry i (.line n) a ts b q) (h : Lines q b vs)
    (hB : x.length + n ≤ B) (h64 : B ≤ 64) (hs : b.length < fuel) :
    Proceeds env (blockEntry again i) (.inl ()) B x (a ++ b) (ts ++ shift a.length vs) (fun r => r.length < (a ++ b).length) := by
  cases he with
  | @dash n w us _ hw sk =>
    have h1 := sequence_lines (i := i) (x := x) (B := B) hr sk h (by omega) h64 hs
    have h2 := h1.bind (f := fun _ => (pure (.inl ()) : HM St (Unit ⊕ Unit))) (z' := .inl ()) (B' := B) (Q' := fun r => r.length < (b!"-" ++ w ++ b).length)
      fun r vs k y hb hy hq _ => Proceeds.done hb hy (by simp only [List.length_append, List.length_cons, List.length_nil]; omega)
    obtain ⟨a', us', b', vs', k', y', e1, e2, h1', h2', h3', h4'⟩ := h2
    refine ⟨a', us', b', vs', k', y', e1, e2, h1', h2', h3', reads_rem ?_⟩
    rw [← e1]
    refine reads_else ?_ (reads_this ?_ h4')
    · rw [List.append_assoc, List.singleton_append, starts_head (by decide), first_two (by decide)]
      simp
    · cases w with
      | nil => simp at hw
      | cons d u => simp at hw; subst hw; rfl
  | @keyed n _ _ _ hk =>
    have h1 := keyed_lines (i := i) (x := x) (B := B - 1) hr hk h (by omega) (by omega) hs
    obtain ⟨⟨c, t, rfl, hc⟩, hd⟩ := Keyed.first hk
    have h2 := h1.bind (f := fun z => (if z = true then do
          push i
          pure (.inl ())
        else if hasValue (c :: t ++ b) = true then do
          flowNode i false
          skipLine
          pure (.inl ())
        else pure (.inr ()) : HM St (Unit ⊕ Unit))) (z' := .inl ()) (B' := B) (Q' := fun r => r.length ≤ b.length) (fun r vs k y hb hy hq _ => by
      have := Proceeds.after (f := fun _ => (pure (.inl ()) : HM St (Unit ⊕ Unit))) (reads_push (env := env) (i := i) (x := y) (b := r) (by omega))
        (Proceeds.done (z := Sum.inl ()) (Q := fun r => r.length ≤ b.length) (B := B) hb (by simp; omega) hq)
      simpa [shift_none] using this)
    obtain ⟨a', us', b', vs', k', y', e1, e2, h1', h2', h3', h4'⟩ := h2
    refine ⟨a', us', b', vs', k', y', e1, e2, h1', h2', ?_, reads_rem ?_⟩
    · simp only [List.length_append, List.length_cons]; omega
    rw [← e1]
    simp at hc
    refine reads_else ?_ (reads_else ?_ (reads_else ?_ h4'))
    · rw [List.cons_append, starts_head (by simp [hc]), first_two (by simp [hc])]
      simp
    · rw [starts_prefix hd]; simp
    · unfold isBlockHeader
      rw [List.cons_append, starts_head (by simp [hc]), starts_head (by simp [hc]), first_two (by simp [hc]), first_two (by simp [hc])]
      simp
  | @value n a ts r e _ hf nk hq dash hl he =>
    have h1 := Proceeds.after (f := fun _ => (pure (.inl ()) : HM St (Unit ⊕ Unit))) (reads_skipLine (env := env) (x := x) hl he)
      (Proceeds.done (z := Sum.inl ()) (Q := fun b' => b' = b) h hB rfl)
    have h2 := Proceeds.after (f := fun _ => (do skipLine; pure (.inl ()) : HM St (Unit ⊕ Unit))) (reads_flow (env := env) (x := x) (i := i) (b := r ++ e ++ b) hf) h1
    obtain ⟨a', us', b', vs', k', y', e1, e2, h1', h2', h3', h4'⟩ := h2
    obtain ⟨c, t, rfl, hc⟩ := Flow.head hf
    refine ⟨a', us', b', vs', k', y', by rw [← e1]; simp, by rw [← e2]; same, h1', h2', by subst h3'; simp only [List.length_append, List.length_cons]; omega, reads_rem ?_⟩
    rw [← e1]
    have hw : NotFirst b!"\r\n" (c :: t ++ (r ++ e ++ b)) := by
      intro d hd hm
      simp at hd hm hc
      subst hd
      grind
    refine reads_else ?_ (reads_else ?_ (reads_else ?_ ?_))
    · simp at hq
      rw [List.cons_append, starts_head hq, first_two hq]
      simp
    · rw [starts_prefix dash]; simp
    · simp at hc
      unfold isBlockHeader
      rw [List.cons_append, starts_head (by simp [hc]), starts_head (by simp [hc]), first_two (by simp [hc]), first_two (by simp [hc])]
      simp
    · have hm : Reads env (mappingKey again i) x [] [] (a' ++ b') false x := by rw [← e1]; exact mappingKey_none nk
      refine hm.bind_none (reads_else (by simp) (reads_this ?_ h4'))
      unfold hasValue
      rw [no_break hw]
      simp at hc
      simp [hc]
  | @explicit n w us a ts r e _ hw sk hf hl he =>
    have h1 := explicit_lines (i := i) (x := x) hr sk hf hl he h hB h64 hs
    have h2 := h1.bind (f := fun _ => (pure (.inl ()) : HM St (Unit ⊕ Unit))) (z' := .inl ()) (B' := B)
      (Q' := fun r' => r'.length < (b!"?" ++ w ++ a ++ (r ++ e) ++ b).length)
      fun r vs k y hb hy hq _ => Proceeds.done hb hy (by simp only [List.length_append, List.length_cons, List.length_nil]; omega)
    obtain ⟨a', us', b', vs', k', y', e1, e2, h1', h2', h3', h4'⟩ := h2
    refine ⟨a', us', b', vs', k', y', by rw [← e1]; simp, by rw [← e2]; same, h1', h2', h3', reads_rem ?_⟩
    rw [← e1]
    refine reads_this ?_ h4'
    obtain ⟨c, hc, hw⟩ := hw
    cases w with
    | nil => simp at hw
    | cons d u =>
      simp at hw
      subst hw
      have : ∀ d ∈ b!" \r\n", ∀ t, (startsWith (c!"?" :: d :: t) b!"? " || (startsWith (c!"?" :: d :: t) b!"?" && matchLineBreak (d :: t) ≠ 0)) = true := by
        intro d hd t
        simp at hd
        rcases hd with rfl | rfl | rfl
        · rfl
        · have : matchLineBreak (c!"\r" :: t) ≠ 0 := fun h => by
            have := matchLineBreak_eq.1 h c!"\r" rfl
            simp [InLine] at this
          simp [this, startsWith]
        · have : matchLineBreak (c!"\n" :: t) ≠ 0 := fun h => by
            have := matchLineBreak_eq.1 h c!"\n" rfl
            simp [InLine] at this
          simp [this, startsWith]
      simpa using this d hc (u ++ (a ++ (r ++ e ++ b)))
  | @block n c d t ts _ hx hd =>
    have h1 := Proceeds.after (f := fun _ => (pure (.inl ()) : HM St (Unit ⊕ Unit))) (reads_blockScalar (env := env) (x := x) hx)
      (Proceeds.done (z := Sum.inl ()) (Q := fun b' => b' = b) h hB rfl)
    obtain ⟨a', us', b', vs', k', y', e1, e2, h1', h2', h3', h4'⟩ := h1
    refine ⟨a', us', b', vs', k', y', e1, e2, h1', h2', by subst h3'; simp only [List.length_append, List.length_cons]; omega, reads_rem ?_⟩
    rw [← e1]
    have hb : d ∈ b!"\r\n" → matchLineBreak (d :: (t ++ b)) ≠ 0 := by
      intro hd h
      have := matchLineBreak_eq.1 h d rfl
      simp at hd
      rcases hd with rfl | rfl <;> simp [InLine] at this
    obtain ⟨c', t', e, hc⟩ := BlockScalar.head hx
    obtain ⟨rfl, -⟩ : c = c' ∧ d :: t = t' := by simpa using e
    simp at hc
    refine reads_else ?_ (reads_else ?_ (reads_this ?_ h4'))
    · rw [List.cons_append, starts_head (by rcases hc with rfl | rfl <;> decide), first_two (by rcases hc with rfl | rfl <;> decide)]; simp
    · rw [List.cons_append, first_two (by rcases hc with rfl | rfl <;> decide)]; simp
    · have hd' : d = c!" " ∨ d ∈ b!"\r\n" := by simpa using hd
      unfold isBlockHeader
      rcases hd' with rfl | hd'
      · rcases hc with rfl | rfl <;> rfl
      · have := hb hd'
        rcases hc with rfl | rfl <;> simp [this, startsWith]

theorem pop_length {k : Nat} : (x.dropWhile (k ≤ ·)).length ≤ x.length :=
  (List.dropWhile_sublist _).length_le

theorem indent_entry (h : Entry k (.line n) a ts b q) : (a ++ b).head? ≠ some c!" " := by
  obtain ⟨c, t, rfl, hc⟩ := Entry.head h
  simp at hc
  simp [hc]

/-- One step reads entries, or it is the end of a block. -/
theorem blockStep_lines {again : Nat → Nat → HM St Unit} {o : Nat} (hr : Recurs env fuel again) (h : Lines (.line n) s ts)
    (hB : x.length + n ≤ B) (h64 : B ≤ 64) (hs : s.length ≤ fuel) :
    Proceeds env (blockStep again i o) (.inl ()) B x s ts (fun r => r.length < s.length) ∨
    Proceeds env (blockStep again i o) (.inr ()) B x s ts (fun r => i - o = 0 → r = [] ∨ Marked r) := by
  obtain ⟨a, us, b, vs, rfl, rfl, h1, h2, h3⟩ := skipBlank_lines (env := env) (x := x) h
  have hs' : a.length + b.length ≤ fuel := by simpa using hs
  rcases h2 with (⟨rfl, rfl⟩ | ⟨k, a', ts', b', q, ws, rfl, rfl, he, hk, hl⟩) | hmk
  rotate_left 2
  · right
    refine ⟨a, us, b, vs, n, x, rfl, rfl, h1, hB, fun _ => .inr hmk, h3.bind_last (reads_rem (reads_else ?_ (reads_this ?_ reads_pure)))⟩
    · obtain ⟨c, t, e, -⟩ := Marked.head hmk
      simp [e]
    · obtain ⟨c, t, e, hc⟩ := Marked.head hmk
      simp at hc
      rw [List.nil_append, e, currentIndent_solid (by simp [hc]), ← e]
      rcases hmk with h | h
      · simp [startsWith_iff.2 (h.imp fun _ => Eq.symm)]
      · simp [startsWith_iff.2 (h.imp fun _ => Eq.symm)]
  · right
    exact ⟨a, us, [], [], n, x, rfl, rfl, h1, hB, fun _ => .inl rfl, h3.bind_last (reads_rem (reads_this rfl reads_pure))⟩
  · have hi := indent_of (k := k) (indent_entry he)
    have hne : spaces k ++ (a' ++ b') ≠ [] := by
      obtain ⟨c, t, rfl, -⟩ := Entry.head he
      simp
    have hdoc : (currentIndent (spaces k ++ (a' ++ b')) = 0 && (startsWith (spaces k ++ (a' ++ b')) b!"---" || startsWith (spaces k ++ (a' ++ b')) b!"...")) = false := by
      rw [hi]
      by_cases h0 : k = 0
      · subst h0
        have := hk rfl
        rw [show spaces 0 ++ (a' ++ b') = a' ++ b' from rfl, starts_prefix this.1, starts_prefix this.2]
        simp
      · simp [h0]
    by_cases hp : (k < i - o && x ≠ [] && k ≤ x.headD 0) = true
    · right
      refine ⟨a, us, _, _, n, x.dropWhile (k ≤ ·), rfl, rfl, h1, by have := pop_length (x := x) (k := k); omega, fun h0 => ?_, ?_⟩
      · rw [h0] at hp
        simp at hp
      · refine h3.bind_last (reads_rem (reads_else (by simpa using hne) (reads_else (by rw [List.nil_append, hdoc]; simp) (reads_get (reads_this ?_ ?_)))))
        · rw [List.nil_append, hi]
          exact hp
        · rw [List.nil_append, hi]
          have : Reads env (HM.modify (List.dropWhile fun d => decide (k ≤ d))) x [] [] (spaces k ++ (a' ++ b')) () (x.dropWhile (k ≤ ·)) := by
            refine ⟨[], rfl, fun i out hi => ?_⟩
            simp [HM.modify]
          exact this.bind_none (a := []) reads_pure
    · left
      obtain ⟨c, t, hct, -⟩ := Entry.head he
      have hlt : b'.length < fuel := by
        simp only [List.length_append, hct, List.length_cons] at hs'
        omega
      have h4 := blockEntry_lines (i := k) (x := x) hr he hl hB h64 hlt
      have h5 := Proceeds.after (f := fun _ => blockEntry again k) (reads_indent (env := env) (x := x) (k := k) (indent_entry he)) h4
      obtain ⟨d, ds, r, rs, k', y', e1, e2, h1', h2', h3', h4'⟩ := h5
      have h6 : Proceeds env (do
          let s ← HM.rem
          if s = [] then pure (.inr ())
          else if currentIndent s = 0 && (startsWith s b!"---" || startsWith s b!"...") then pure (.inr ())
          else do
            let stack ← HM.get
            if currentIndent s < i - o && stack ≠ [] && currentIndent s ≤ stack.headD 0 then do
              HM.modify (List.dropWhile (currentIndent s ≤ ·))
              pure (.inr ())
            else do
              consumeIndent (currentIndent s)
              blockEntry again (currentIndent s)) (.inl ()) B x (spaces k ++ (a' ++ b')) (shift k (ts' ++ shift a'.length ws))
          (fun r => r.length < (a ++ (spaces k ++ (a' ++ b'))).length) := by
        refine ⟨d, ds, r, rs, k', y', e1, by rw [← e2]; simp, h1', h2', by simp only [List.length_append] at h3' ⊢; omega, reads_rem ?_⟩
        rw [← e1]
        refine reads_else (by simpa using hne) (reads_else (by rw [hdoc]; simp) (reads_get (reads_else ?_ ?_)))
        · rw [hi]
          exact hp
        · rw [hi]
          exact h4'
      exact Proceeds.after h3 h6

theorem block_loop {again : Nat → Nat → HM St Unit} {o : Nat} (hr : Recurs env fuel again) (h : Lines (.line n) s ts)
    (hB : x.length + n ≤ B) (h64 : B ≤ 64) (hs : s.length ≤ fuel) (hm : s.length < m) :
    Proceeds env (HM.loop m (fun _ => blockStep again i o) ()) () B x s ts (fun r => i - o = 0 → r = [] ∨ Marked r) := by
  induction m generalizing s ts x n with
  | zero => omega
  | succ m ih =>
    unfold HM.loop
    rcases blockStep_lines (i := i) (o := o) hr h hB h64 hs with h1 | h1
    · exact h1.bind fun r vs k y hb hy hq _ => ih hb hy (by omega) (by omega)
    · exact h1.bind fun r vs k y hb hy hq _ => Proceeds.done hb hy hq

theorem block_lines {o : Nat} (h : Lines (.line n) s ts) (hB : x.length + n ≤ B) (h64 : B ≤ 64) (hs : s.length < fuel) :
    Proceeds env (blockNodeLoop fuel i o) () B x s ts (fun r => i - o = 0 → r = [] ∨ Marked r) := by
  induction fuel generalizing i o B x s ts n with
  | zero => omega
  | succ fuel ih =>
    have hr : Recurs env fuel (blockNodeLoop fuel) := fun i o B x s ts n h hB h64 hs =>
      (ih h hB h64 hs).weaken (Nat.le_refl _) fun _ _ _ => trivial
    obtain ⟨a', us', b', vs', k', y', e1, e2, h1', h2', h3', h4'⟩ := block_loop (i := i) (o := o) hr h hB h64 (by omega) (Nat.lt_succ_self _)
    subst e1
    exact ⟨a', us', b', vs', k', y', rfl, e2, h1', h2', h3', reads_rem h4'⟩

end Ulight.Yaml
