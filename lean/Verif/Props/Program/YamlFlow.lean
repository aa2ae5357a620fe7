import Verif.Props.Program.YamlProperties

/-!
# C58 for YAML: values with brackets
-/

namespace Ulight.Yaml

open Spec Spec.Yaml

variable {env : HEnv} {x y : St} {a b v w s t : Bytes} {ts us vs : List Token} {c : UInt8} {key : Bool} {i : Nat}

theorem shift_one {n j k : Nat} {ty : HT} : shift n (⟨j, k, ty⟩ :: ts) = ⟨n + j, k, ty⟩ :: shift n ts := rfl

theorem shift_empty {n : Nat} : shift n [] = [] := rfl

/-- Shows that tokens at the same places are equal. -/
macro "same" : tactic => `(tactic| simp [shift_append, shift_shift, shift_none, shift_one, shift_empty, Nat.add_assoc, Nat.add_comm, Nat.add_left_comm])

theorem Scalar.head (h : Scalar key a ts b) : ∃ c t, a = c :: t ∧ c ∉ b!" \t\r\n,]}#!&|>[{" := by
  cases h with
  | tilde => exact ⟨_, _, rfl, by decide⟩
  | word h hb =>
    have : (words.all fun w => w.1.head?.any fun c => !(b!" \t\r\n,]}#!&|>[{").contains c) = true := by decide +kernel
    have := List.all_eq_true.1 this _ ((words_mem _).2 h)
    cases a with
    | nil => simp at this
    | cons c t => exact ⟨c, t, rfl, by simpa using this⟩
  | number h hb =>
    obtain ⟨d, u, rfl, hd⟩ := number_head h
    exact ⟨d, u, rfl, (number_bytes d hd).2.2.1⟩
  | plain ne first h n =>
    obtain ⟨d, u, rfl⟩ := List.exists_cons_of_ne_nil ne
    refine ⟨d, u, rfl, fun hm => ?_⟩
    have h1 := first d rfl
    have h2 := h.inside 0 (by simp)
    simp at h1 hm
    have h3 : d ∈ b!"\r\n,[]{}#" := by simp; grind
    exact h2 (.char h3)
  | alias h => exact ⟨_, _, rfl, by decide⟩
  | double h => exact ⟨_, _, rfl, by decide⟩
  | single h => exact ⟨_, _, rfl, by decide⟩
  | doubleKey h => exact ⟨_, _, rfl, by decide⟩
  | singleKey h hb => exact ⟨_, _, rfl, by decide⟩

theorem Flow.bare_head (h : Flow (.bare key) a ts b) : ∃ c t, a = c :: t ∧ c ∉ b!" \t\r\n,]}#!&|>" := by
  cases h with
  | scalar h =>
    obtain ⟨c, t, e, hc⟩ := Scalar.head h
    exact ⟨c, t, e, fun hm => hc (List.mem_append_left b!"[{" hm)⟩
  | sequence h => exact ⟨_, _, rfl, by decide⟩
  | mapping h => exact ⟨_, _, rfl, by decide⟩

theorem Flow.head (h : Flow (.node key) a ts b) : ∃ c t, a = c :: t ∧ c ∉ b!" \t\r\n,]}#|>" := by
  cases h with
  | node hp h =>
    cases hp with
    | nil =>
      obtain ⟨c, t, e, hc⟩ := Flow.bare_head h
      exact ⟨c, t, e, fun hm => hc (by simp at hm ⊢; grind)⟩
    | cons h =>
      obtain ⟨c, t, e, hc⟩ := Property.head h
      refine ⟨c, _, by rw [e]; rfl, ?_⟩
      simp at hc ⊢
      rcases hc with rfl | rfl <;> simp
  | empty hp ne =>
    cases hp with
    | nil => simp at ne
    | cons h =>
      obtain ⟨c, t, e, hc⟩ := Property.head h
      refine ⟨c, _, by rw [e]; rfl, ?_⟩
      simp at hc ⊢
      rcases hc with rfl | rfl <;> simp

theorem Flow.key_head (h : Flow .key a ts b) : ∃ c t, a = c :: t ∧ c ∉ b!" \t\r\n,]}#|>" := by
  cases h with
  | plainKey q h => exact Flow.head h
  | explicitKey => exact ⟨_, _, rfl, by decide⟩

theorem starts_head {p : UInt8} (h : c ≠ p) : startsWith (c :: t) [p] = false := by
  rw [Bool.eq_false_iff]
  intro h'
  obtain ⟨u, e⟩ := startsWith_iff.1 h'
  simp at e
  exact h e.1

/-- The end of `flowNodeBody`. -/
def flowBranch (again : Nat → Bool → HM St Unit) (indent : Nat) (isKey : Bool) : HM St Unit := do
  let s ← HM.rem
  if startsWith s b!"[" then flowSequence again indent
  else if startsWith s b!"{" then flowMapping again indent
  else if startsWith s b!"|" || startsWith s b!">" then blockScalar indent
  else flowScalar isKey

theorem reads_node {p : Bytes} {ps : List Token} {again : Nat → Bool → HM St Unit} (hp : Properties p ps (a ++ b)) (ne : p ++ a ≠ [])
    (hc : p = [] → NotFirst b!" \t\r\n#" (a ++ b)) (h : Reads env (flowBranch again i key) x a ts b () y) :
    Reads env (flowNodeBody again i key) x (p ++ a) (ps ++ shift p.length ts) b () y := by
  have hw : NotFirst b!" \t\r\n#" (p ++ a ++ b) := by
    intro d hd hm
    cases hp with
    | nil => exact hc rfl d (by simpa using hd) hm
    | cons h =>
      obtain ⟨c, t, e, hc⟩ := Property.head h
      rw [e] at hd
      simp at hd hc hm
      subst hd
      grind
  have e : flowNodeBody again i key = (do
    whitespace
    let s ← HM.rem
    if s = [] || matchLineBreak s ≠ 0 then pure ()
    else do
      nodeProperties
      flowBranch again i key) := rfl
  rw [e]
  refine (reads_nothing hw).bind_none (reads_rem (reads_else ?_ ?_))
  · rw [no_break (notFirst_sub hw (by decide))]
    simp at ne ⊢
    grind
  · exact (reads_properties hp).bind h

theorem reads_body {p : Bytes} {ps : List Token} {again : Nat → Bool → HM St Unit} (hp : Properties p ps (c :: a ++ b))
    (hc : c ∉ b!" \t\r\n,]}#!&|>") (h : Reads env (flowBranch again i key) x (c :: a) ts b () y) :
    Reads env (flowNodeBody again i key) x (p ++ (c :: a)) (ps ++ shift p.length ts) b () y := by
  refine reads_node hp (by simp) (fun _ d hd hm => ?_) h
  simp at hd hc hm
  grind

theorem empty_bytes : ∀ c : UInt8, c ∈ b!"\r\n#,]}" → c ≠ c!"~" ∧ c ∉ b!"\"'*" ∧ c ∉ b!"[{|>" ∧ (words.all fun w => w.1.head? != some c) = true := by
  apply forall_byte; decide +kernel

theorem empty_number (h : c ∈ b!"\r\n#,]}") : (matchNumber (c :: t)).length = 0 := by
  simp at h
  rcases h with rfl | rfl | rfl | rfl | rfl | rfl <;> rfl

theorem reads_empty {again : Nat → Bool → HM St Unit} (hb : ∀ c, b.head? = some c → c ∈ b!"\r\n#,]}") :
    Reads env (flowBranch again i key) x [] [] b () x := by
  cases b with
  | nil => exact reads_rem (reads_else (by decide) (reads_else (by decide) (reads_else (by decide) (reads_rem reads_pure))))
  | cons c t =>
    have hc := hb c rfl
    have h1 := empty_bytes c hc
    have h2 := h1.2.2.1
    have h3 := h1.2.1
    simp at h2 h3
    unfold flowBranch
    refine reads_rem ?_
    rw [List.nil_append, starts_head (p := c!"[") (by simp [h2]), starts_head (p := c!"{") (by simp [h2]),
      starts_head (p := c!"|") (by simp [h2]), starts_head (p := c!">") (by simp [h2])]
    refine reads_else (by simp) (reads_else (by simp) (reads_else (by simp) (reads_rem ?_)))
    rw [show ([] ++ c :: t)[0]? = some c from rfl]
    refine reads_else h3.1 (reads_else h3.2.1 (reads_else h3.2.2 ?_))
    unfold plainScalar
    refine reads_rem (reads_else (by rw [List.nil_append, starts_head h1.1]; simp) ?_)
    rw [List.nil_append, no_word (s := c :: t)]
    · simp only
      refine reads_else (by rw [empty_number hc]; simp) ?_
      have hl : plainLength false (c :: t) = 0 := by
        have : isPlainEnd c = true := plainEnd_iff.2 (by simp at hc ⊢; grind)
        simp [plainLength, this]
      have := reads_emitIf (env := env) (x := x) (a := []) (b := c :: t) (ty := if key then .markup_attr else .string) hl
      exact this.tokens (by simp [opt])
    · rintro z hz t' e -
      have := List.all_eq_true.1 h1.2.2.2 z ((words_mem _).2 hz)
      have h0 : z.1 ≠ [] := by
        have : (words.all fun w => w.1 != []) = true := by decide +kernel
        simpa using List.all_eq_true.1 this _ ((words_mem _).2 hz)
      obtain ⟨l, m, hl⟩ := List.exists_cons_of_ne_nil h0
      rw [hl] at e this
      simp at e this
      exact this e.1.symm

theorem reads_flow_scalar {again : Nat → Bool → HM St Unit} (h : Scalar key a ts b) : Reads env (flowBranch again i key) x a ts b () x := by
  obtain ⟨c, t, rfl, hc⟩ := Scalar.head h
  simp at hc
  unfold flowBranch
  refine reads_rem ?_
  rw [List.cons_append, starts_head (p := c!"[") (by simp [hc]), starts_head (p := c!"{") (by simp [hc]),
    starts_head (p := c!"|") (by simp [hc]), starts_head (p := c!">") (by simp [hc])]
  exact reads_else (by simp) (reads_else (by simp) (reads_else (by simp) (reads_scalar h)))

/-! ### The switch -/

/-- What `flowSwitch` does after whitespace. -/
def switchRest (close wrong : UInt8) (ty : HT) : HM St (Option (Unit ⊕ Unit)) := do
  let s ← HM.rem
  match s[0]? with
  | none => pure (some (.inr ()))
  | some c =>
    if c = close then do
      HM.emitAdv 1 ty
      pure (some (.inr ()))
    else if c = wrong then do
      HM.emitAdv 1 .error
      pure (some (.inr ()))
    else if c = c!"," then do
      HM.emitAdv 1 .symbol_punc
      pure (some (.inl ()))
    else if c = 0x0D || c = 0x0A then do
      skipLineBreak
      pure (some (.inl ()))
    else if c = c!"#" then do
      comment
      skipLineBreak
      pure (some (.inl ()))
    else pure none

theorem reads_emit_then {α : Type} {z : α} {ty : HT} :
    Reads env (do HM.emitAdv 1 ty; pure z : HM St α) x [c] [⟨0, 1, ty⟩] b z x := by
  have h : Reads env (HM.emitAdv 1 ty : HM St Unit) x [c] [⟨0, 1, ty⟩] b () x := reads_emit rfl (by simp)
  exact h.bind_last reads_pure

theorem switch_close {close wrong : UInt8} {ty : HT} (s : Skip w us ([close] ++ b)) :
    Reads env (flowSwitch close wrong ty) x (w ++ [close]) (us ++ [⟨w.length, 1, ty⟩]) b (some (.inr ())) x := by
  have h : Reads env (switchRest close wrong ty) x [close] [⟨0, 1, ty⟩] b (some (.inr ())) x := by
    unfold switchRest
    refine reads_rem ?_
    rw [show ([close] ++ b)[0]? = some close from rfl]
    exact reads_this rfl reads_emit_then
  exact ((reads_whitespace s).bind h).tokens (by simp [shift])

theorem switch_comma {close wrong : UInt8} {ty : HT} (h1 : close ≠ c!",") (h2 : wrong ≠ c!",") (s : Skip w us (b!"," ++ b)) :
    Reads env (flowSwitch close wrong ty) x (w ++ b!",") (us ++ [⟨w.length, 1, .symbol_punc⟩]) b (some (.inl ())) x := by
  have h : Reads env (switchRest close wrong ty) x b!"," [⟨0, 1, .symbol_punc⟩] b (some (.inl ())) x := by
    unfold switchRest
    refine reads_rem ?_
    rw [show (b!"," ++ b)[0]? = some c!"," from rfl]
    exact reads_else (Ne.symm h1) (reads_else (Ne.symm h2) (reads_this rfl reads_emit_then))
  exact ((reads_whitespace s).bind h).tokens (by simp [shift])

theorem switch_none {close wrong : UInt8} {ty : HT} (hc : c ∉ b!" \t\r\n,]}#|>") (h1 : c ≠ close) (h2 : c ≠ wrong)
    (s : Skip w us (c :: t)) : Reads env (flowSwitch close wrong ty) x w us (c :: t) none x := by
  have h : Reads env (switchRest close wrong ty) x [] [] (c :: t) none x := by
    unfold switchRest
    refine reads_rem ?_
    rw [show ([] ++ c :: t)[0]? = some c from rfl]
    simp at hc
    exact reads_else h1 (reads_else h2 (reads_else (by simp [hc]) (reads_else (by simp [hc]) (reads_else (by simp [hc]) reads_pure))))
  exact (reads_whitespace s).bind_last h

theorem skip_text (h : Skip w us b) (e : b = b') : Skip w us b' := e ▸ h

/-! ### Entries of a mapping -/

/-- The part of `flowEntry` after a colon. -/
def entryValue (again : Nat → Bool → HM St Unit) (indent : Nat) : HM St Unit := do
  let s ← HM.rem
  if s ≠ [] && s[0]? ≠ some c!"," && s[0]? ≠ some c!"}" && matchLineBreak s = 0 then again indent false
  else pure ()

/-- The part of `flowEntry` after the key. -/
def entryColon (again : Nat → Bool → HM St Unit) (indent : Nat) : HM St Unit := do
  if startsWith (← HM.rem) b!":" then do
    HM.emitAdv 1 .symbol_punc
    whitespace
    entryValue again indent
  else pure ()

theorem flowEntry_eq {again : Nat → Bool → HM St Unit} :
    flowEntry again i = (do entryKey again i; whitespace; entryColon again i) := rfl

theorem reads_entryKey {again : Nat → Bool → HM St Unit} (h : Reads env (again i true) x (c :: a) ts b () x) (hc : c ≠ c!"?") :
    Reads env (entryKey again i) x (c :: a) ts b () x :=
  reads_rem (reads_else (by rw [List.cons_append, starts_head hc]; simp) h)

theorem reads_entryValue {again : Nat → Bool → HM St Unit} (h : Reads env (again i false) x (c :: a) ts b () x)
    (hc : c ∉ b!" \t\r\n,]}#|>") : Reads env (entryValue again i) x (c :: a) ts b () x := by
  refine reads_rem (reads_this ?_ h)
  simp at hc
  rw [no_break (fun d hd hm => by simp at hd hm; subst hd; rcases hm with rfl | rfl <;> simp at hc)]
  simp [hc]

/-- What is to be shown about a part. -/
def Good (env : HEnv) (x : St) (i : Nat) : Part → Bytes → List Token → Bytes → Prop
  | .node key, a, ts, b => ∀ fuel, (a ++ b).length < fuel → Reads env (flowNodeLoop fuel i key) x a ts b () x
  | .bare key, a, ts, b => ∀ fuel, (a ++ b).length ≤ fuel → Reads env (flowBranch (flowNodeLoop fuel) i key) x a ts b () x
  | .items, a, ts, b => ∃ w us r vs, a = w ++ r ∧ r ≠ [] ∧ ts = us ++ shift w.length vs ∧ Skip w us (r ++ b) ∧
      ∀ w us, Skip w us (r ++ b) → ∀ fuel m, (r ++ b).length < fuel → r.length < m →
        Reads env (HM.loop m (fun _ => flowSequenceStep (flowNodeLoop fuel) i) ()) x (w ++ r) (us ++ shift w.length vs) b () x
  | .entries, a, ts, b => ∃ w us r vs, a = w ++ r ∧ r ≠ [] ∧ ts = us ++ shift w.length vs ∧ Skip w us (r ++ b) ∧
      ∀ w us, Skip w us (r ++ b) → ∀ fuel m, (r ++ b).length < fuel → r.length < m →
        Reads env (HM.loop m (fun _ => flowMappingStep (flowNodeLoop fuel) i) ()) x (w ++ r) (us ++ shift w.length vs) b () x

  | .key, a, ts, b => ∀ fuel, (a ++ b).length < fuel → Reads env (entryKey (flowNodeLoop fuel) i) x a ts b () x
  | .value, a, ts, b => ∀ fuel, (a ++ b).length < fuel → Reads env (entryValue (flowNodeLoop fuel) i) x a ts b () x

/-- What `flowSequenceStep` does after the switch. -/
def sequenceRest (again : Nat → Bool → HM St Unit) (indent : Nat) : Option (Unit ⊕ Unit) → HM St (Unit ⊕ Unit)
  | some r => pure r
  | none => do
    again indent false
    whitespace
    pure (.inl ())

theorem sequenceStep_eq {again : Nat → Bool → HM St Unit} :
    flowSequenceStep again i = flowSwitch c!"]" c!"}" .symbol_square >>= sequenceRest again i := by
  unfold flowSequenceStep
  congr 1

/-- What `flowMappingStep` does after the switch. -/
def mappingRest (again : Nat → Bool → HM St Unit) (indent : Nat) : Option (Unit ⊕ Unit) → HM St (Unit ⊕ Unit)
  | some r => pure r
  | none => do
    flowEntry again indent
    whitespace
    pure (.inl ())

theorem mappingStep_eq {again : Nat → Bool → HM St Unit} :
    flowMappingStep again i = flowSwitch c!"}" c!"]" .symbol_brace >>= mappingRest again i := by
  unfold flowMappingStep
  congr 1

theorem good_closeItems (s : Skip w us (b!"]" ++ b)) : Good env x i .items (w ++ b!"]") (us ++ [⟨w.length, 1, .symbol_square⟩]) b := by
  refine ⟨w, us, b!"]", [⟨0, 1, .symbol_square⟩], rfl, by simp, by simp [shift], s, fun w us s fuel m _ hm => reads_loop_end (by omega) ?_⟩
  rw [sequenceStep_eq]
  have h := (switch_close (env := env) (x := x) (wrong := c!"}") (ty := .symbol_square) s).bind_last (f := sequenceRest (flowNodeLoop fuel) i) (v := .inr ()) reads_pure
  exact h.tokens (by same)

theorem good_closeEntries (s : Skip w us (b!"}" ++ b)) : Good env x i .entries (w ++ b!"}") (us ++ [⟨w.length, 1, .symbol_brace⟩]) b := by
  refine ⟨w, us, b!"}", [⟨0, 1, .symbol_brace⟩], rfl, by simp, by simp [shift], s, fun w us s fuel m _ hm => reads_loop_end (by omega) ?_⟩
  rw [mappingStep_eq]
  have h := (switch_close (env := env) (x := x) (wrong := c!"]") (ty := .symbol_brace) s).bind_last (f := mappingRest (flowNodeLoop fuel) i) (v := .inr ()) reads_pure
  exact h.tokens (by same)

theorem good_commaItems (s : Skip w us (b!"," ++ a ++ b)) (ih : Good env x i .items a ts b) :
    Good env x i .items (w ++ b!"," ++ a) (us ++ [⟨w.length, 1, .symbol_punc⟩] ++ shift (w.length + 1) ts) b := by
  refine ⟨w, us, b!"," ++ a, [⟨0, 1, .symbol_punc⟩] ++ shift 1 ts, by simp, by simp, ?_, by simpa using s, ?_⟩
  · same
  · intro w us s fuel m hf hm
    obtain ⟨w2, us2, r, vs, rfl, hr, rfl, s2, h2⟩ := ih
    simp only [List.length_append, List.length_cons, List.length_nil] at hf hm
    have h1 : Reads env (flowSequenceStep (flowNodeLoop fuel) i) x (w ++ b!",") (us ++ [⟨w.length, 1, .symbol_punc⟩]) (w2 ++ r ++ b) (.inl ()) x := by
      rw [sequenceStep_eq]
      exact (switch_comma (by decide) (by decide) (by simpa using s)).bind_last reads_pure
    have h3 := reads_loop (c := ()) (c' := ()) (m := m) (by omega) h1
      (h2 w2 us2 s2 fuel (m - 1) (by simp only [List.length_append]; omega) (by omega))
    exact (h3.tokens (by same)).text (by simp)

theorem good_commaEntries (s : Skip w us (b!"," ++ a ++ b)) (ih : Good env x i .entries a ts b) :
    Good env x i .entries (w ++ b!"," ++ a) (us ++ [⟨w.length, 1, .symbol_punc⟩] ++ shift (w.length + 1) ts) b := by
  refine ⟨w, us, b!"," ++ a, [⟨0, 1, .symbol_punc⟩] ++ shift 1 ts, by simp, by simp, ?_, by simpa using s, ?_⟩
  · same
  · intro w us s fuel m hf hm
    obtain ⟨w2, us2, r, vs, rfl, hr, rfl, s2, h2⟩ := ih
    simp only [List.length_append, List.length_cons, List.length_nil] at hf hm
    have h1 : Reads env (flowMappingStep (flowNodeLoop fuel) i) x (w ++ b!",") (us ++ [⟨w.length, 1, .symbol_punc⟩]) (w2 ++ r ++ b) (.inl ()) x := by
      rw [mappingStep_eq]
      exact (switch_comma (by decide) (by decide) (by simpa using s)).bind_last reads_pure
    have h3 := reads_loop (c := ()) (c' := ()) (m := m) (by omega) h1
      (h2 w2 us2 s2 fuel (m - 1) (by simp only [List.length_append]; omega) (by omega))
    exact (h3.tokens (by same)).text (by simp)

theorem good_item {r : Bytes} (s : Skip w us (a ++ r ++ b)) (h : Flow (.node false) a ts (r ++ b)) (ih : Good env x i (.node false) a ts (r ++ b))
    (ih' : Good env x i .items r vs b) :
    Good env x i .items (w ++ a ++ r) (us ++ shift w.length ts ++ shift (w.length + a.length) vs) b := by
  refine ⟨w, us, a ++ r, ts ++ shift a.length vs, by simp, ?_, ?_, s, ?_⟩
  · obtain ⟨c, t, rfl, -⟩ := Flow.head h
    simp
  · rw [shift_append, shift_shift]
    simp [Nat.add_comm]
  · intro w us s fuel m hf hm
    obtain ⟨w2, us2, r, vs, rfl, hr, rfl, s2, h2⟩ := ih'
    obtain ⟨c, t, rfl, hc⟩ := Flow.head h
    simp only [List.length_append, List.length_cons] at hf hm
    have hc' := hc
    simp at hc'
    have hn : Reads env (flowNodeLoop fuel i false) x (c :: t) ts (w2 ++ (r ++ b)) () x := by
      rw [← List.append_assoc]
      exact ih fuel (by simp only [List.length_append, List.length_cons]; omega)
    have h0 := switch_none (env := env) (x := x) (w := w) (us := us) (t := t ++ w2 ++ r ++ b) (close := c!"]") (wrong := c!"}")
      (ty := .symbol_square) hc (by simp [hc']) (by simp [hc']) (by simpa using s)
    have h4 : Reads env (sequenceRest (flowNodeLoop fuel) i none) x (c :: t ++ w2) (ts ++ shift (t.length + 1) us2) (r ++ b) (.inl ()) x :=
      hn.bind (f := fun _ => (do whitespace; pure (.inl ()) : HM St (Unit ⊕ Unit))) ((reads_whitespace s2).bind_last reads_pure)
    have h1 : Reads env (flowSequenceStep (flowNodeLoop fuel) i) x (w ++ (c :: t ++ w2)) (us ++ shift w.length (ts ++ shift (t.length + 1) us2))
        (r ++ b) (.inl ()) x := by
      rw [sequenceStep_eq]
      rw [show c :: (t ++ w2 ++ r ++ b) = (c :: t ++ w2) ++ (r ++ b) by simp] at h0
      exact h0.bind h4
    have h3 := reads_loop (c := ()) (c' := ()) (m := m) (by omega) h1
      (h2 [] [] (.nil (Skip.next s2)) fuel (m - 1) (by simp only [List.length_append]; omega) (by omega))
    refine (h3.tokens ?_).text (by simp)
    same

theorem good_key {w' r : Bytes} {us' : List Token} (s : Skip w us (a ++ w' ++ r ++ b))
    (h : Flow .key a ts (w' ++ r ++ b)) (s' : Skip w' us' (r ++ b)) (hr : r.head? ≠ some c!":")
    (ih : Good env x i .key a ts (w' ++ r ++ b)) (ih' : Good env x i .entries r vs b) :
    Good env x i .entries (w ++ a ++ w' ++ r)
      (us ++ shift w.length ts ++ shift (w.length + a.length) us' ++ shift (w.length + a.length + w'.length) vs) b := by
  refine ⟨w, us, a ++ w' ++ r, ts ++ shift a.length us' ++ shift (a.length + w'.length) vs, by simp, ?_, by same, by simpa using s, ?_⟩
  · obtain ⟨c, t, rfl, -⟩ := Flow.key_head h
    simp
  · intro w us s fuel m hf hm
    have hr' := hr
    obtain ⟨w2, us2, r, vs, rfl, hr, rfl, s2, h2⟩ := ih'
    obtain ⟨c, t, rfl, hc⟩ := Flow.key_head h
    simp only [List.length_append, List.length_cons] at hf hm
    have hc' := hc
    simp at hc'
    have hn : Reads env (entryKey (flowNodeLoop fuel) i) x (c :: t) ts (w' ++ (w2 ++ (r ++ b))) () x := by
      rw [← List.append_assoc w2, ← List.append_assoc w']
      exact ih fuel (by simp only [List.length_append, List.length_cons]; omega)
    have h0 := switch_none (env := env) (x := x) (w := w) (us := us) (t := t ++ w' ++ w2 ++ r ++ b) (close := c!"}") (wrong := c!"]")
      (ty := .symbol_brace) hc (by simp [hc']) (by simp [hc']) (by simpa using s)
    have hcol : Reads env (entryColon (flowNodeLoop fuel) i) x [] [] (w2 ++ (r ++ b)) () x := by
      refine reads_rem (reads_else ?_ reads_pure)
      rw [List.nil_append, ← List.append_assoc]
      intro hs
      obtain ⟨t, e⟩ := startsWith_iff.1 hs
      have hne : w2 ++ r ≠ [] := by simp [hr]
      obtain ⟨d, u, e'⟩ := List.exists_cons_of_ne_nil hne
      rw [e'] at e hr'
      simp at e hr'
      exact hr' e.1
    have he : Reads env (flowEntry (flowNodeLoop fuel) i) x (c :: t ++ w') (ts ++ shift (t.length + 1) us') (w2 ++ (r ++ b)) () x := by
      rw [flowEntry_eq]
      refine hn.bind ?_
      exact (reads_whitespace (by simpa using s')).bind_last hcol
    have h4 : Reads env (mappingRest (flowNodeLoop fuel) i none) x (c :: t ++ w' ++ w2)
        (ts ++ shift (t.length + 1) us' ++ shift (c :: t ++ w').length us2) (r ++ b) (.inl ()) x :=
      he.bind (f := fun _ => (do whitespace; pure (.inl ()) : HM St (Unit ⊕ Unit))) ((reads_whitespace s2).bind_last reads_pure)
    have h1 : Reads env (flowMappingStep (flowNodeLoop fuel) i) x (w ++ (c :: t ++ w' ++ w2))
        (us ++ shift w.length (ts ++ shift (t.length + 1) us' ++ shift (c :: t ++ w').length us2)) (r ++ b) (.inl ()) x := by
      rw [mappingStep_eq]
      rw [show c :: (t ++ w' ++ w2 ++ r ++ b) = (c :: t ++ w' ++ w2) ++ (r ++ b) by simp] at h0
      exact h0.bind h4
    have h3 := reads_loop (c := ()) (c' := ()) (m := m) (by omega) h1
      (h2 [] [] (.nil (Skip.next s2)) fuel (m - 1) (by simp only [List.length_append]; omega) (by omega))
    exact (h3.tokens (by same)).text (by simp)

theorem good_entry {w' z d r : Bytes} {us' zs ds : List Token} (s : Skip w us (a ++ w' ++ b!":" ++ z ++ d ++ r ++ b))
    (h : Flow .key a ts (w' ++ b!":" ++ z ++ d ++ r ++ b)) (s' : Skip w' us' (b!":" ++ z ++ d ++ r ++ b))
    (sx : Skip z zs (d ++ r ++ b))
    (ih : Good env x i .key a ts (w' ++ b!":" ++ z ++ d ++ r ++ b)) (ihd : Good env x i .value d ds (r ++ b))
    (ih' : Good env x i .entries r vs b) :
    Good env x i .entries (w ++ a ++ w' ++ b!":" ++ z ++ d ++ r)
      (us ++ shift w.length ts ++ shift (w.length + a.length) us' ++ [⟨w.length + a.length + w'.length, 1, .symbol_punc⟩] ++
        shift (w.length + a.length + w'.length + 1) zs ++ shift (w.length + a.length + w'.length + 1 + z.length) ds ++
        shift (w.length + a.length + w'.length + 1 + z.length + d.length) vs) b := by
  refine ⟨w, us, a ++ w' ++ b!":" ++ z ++ d ++ r, ts ++ shift a.length us' ++ [⟨a.length + w'.length, 1, .symbol_punc⟩] ++
    shift (a.length + w'.length + 1) zs ++ shift (a.length + w'.length + 1 + z.length) ds ++
    shift (a.length + w'.length + 1 + z.length + d.length) vs, by simp, ?_, by same, by simpa using s, ?_⟩
  · simp
  · intro w us s fuel m hf hm
    obtain ⟨w2, us2, r, vs, rfl, hr, rfl, s2, h2⟩ := ih'
    obtain ⟨c, t, rfl, hc⟩ := Flow.key_head h
    simp only [List.length_append, List.length_cons, List.length_nil] at hf hm
    have hc' := hc
    simp at hc'
    have hn : Reads env (entryKey (flowNodeLoop fuel) i) x (c :: t) ts (w' ++ (b!":" ++ z ++ d ++ (w2 ++ (r ++ b)))) () x := by
      have := ih fuel (by simp only [List.length_append, List.length_cons, List.length_nil]; omega)
      simpa using this
    have hv : Reads env (entryValue (flowNodeLoop fuel) i) x d ds (w2 ++ (r ++ b)) () x := by
      have := ihd fuel (by simp only [List.length_append]; omega)
      simpa using this
    have h0 := switch_none (env := env) (x := x) (w := w) (us := us) (t := t ++ w' ++ b!":" ++ z ++ d ++ w2 ++ r ++ b) (close := c!"}")
      (wrong := c!"]") (ty := .symbol_brace) hc (by simp [hc']) (by simp [hc']) (by simpa using s)
    have hval : Reads env (do whitespace; entryValue (flowNodeLoop fuel) i) x (z ++ d) (zs ++ shift z.length ds) (w2 ++ (r ++ b)) () x :=
      (reads_whitespace (by simpa using sx)).bind (f := fun _ => entryValue (flowNodeLoop fuel) i) hv
    have hcol : Reads env (entryColon (flowNodeLoop fuel) i) x (b!":" ++ (z ++ d)) ([⟨0, 1, .symbol_punc⟩] ++ shift 1 (zs ++ shift z.length ds))
        (w2 ++ (r ++ b)) () x := by
      refine reads_rem (reads_this rfl ?_)
      have h5 : Reads env (HM.emitAdv 1 .symbol_punc : HM St Unit) x b!":" [⟨0, 1, .symbol_punc⟩] ((z ++ d) ++ (w2 ++ (r ++ b))) () x :=
        reads_emit rfl (by simp)
      exact h5.bind hval
    have hws : Reads env (do whitespace; entryColon (flowNodeLoop fuel) i) x (w' ++ (b!":" ++ (z ++ d)))
        (us' ++ shift w'.length ([⟨0, 1, .symbol_punc⟩] ++ shift 1 (zs ++ shift z.length ds))) (w2 ++ (r ++ b)) () x :=
      (reads_whitespace (by simpa using s')).bind (f := fun _ => entryColon (flowNodeLoop fuel) i) hcol
    have he : Reads env (flowEntry (flowNodeLoop fuel) i) x (c :: t ++ (w' ++ (b!":" ++ (z ++ d))))
        (ts ++ shift (t.length + 1) (us' ++ shift w'.length ([⟨0, 1, .symbol_punc⟩] ++ shift 1 (zs ++ shift z.length ds)))) (w2 ++ (r ++ b)) () x := by
      rw [flowEntry_eq]
      exact Reads.bind (by simpa using hn) hws
    have h4 : Reads env (mappingRest (flowNodeLoop fuel) i none) x (c :: t ++ (w' ++ (b!":" ++ (z ++ d))) ++ w2)
        (ts ++ shift (t.length + 1) (us' ++ shift w'.length ([⟨0, 1, .symbol_punc⟩] ++ shift 1 (zs ++ shift z.length ds))) ++
          shift (c :: t ++ (w' ++ (b!":" ++ (z ++ d)))).length us2) (r ++ b) (.inl ()) x :=
      he.bind (f := fun _ => (do whitespace; pure (.inl ()) : HM St (Unit ⊕ Unit))) ((reads_whitespace s2).bind_last reads_pure)
    rw [show c :: (t ++ w' ++ b!":" ++ z ++ d ++ w2 ++ r ++ b) = (c :: t ++ (w' ++ (b!":" ++ (z ++ d))) ++ w2) ++ (r ++ b) by simp] at h0
    have h1 := h0.bind (f := mappingRest (flowNodeLoop fuel) i) h4
    rw [← mappingStep_eq] at h1
    have h3 := reads_loop (c := ()) (c' := ()) (m := m) (by omega) h1
      (h2 [] [] (.nil (Skip.next s2)) fuel (m - 1) (by simp only [List.length_append]; omega) (by omega))
    exact (h3.tokens (by same)).text (by simp)

theorem good_sequence (ih : Good env x i .items a ts b) : Good env x i (.bare key) (b!"[" ++ a) ([⟨0, 1, .symbol_square⟩] ++ shift 1 ts) b := by
  intro fuel hf
  obtain ⟨w, us, r, vs, rfl, hr, rfl, s, h⟩ := ih
  simp only [List.length_append, List.length_cons, List.length_nil] at hf
  refine reads_rem (reads_this rfl ?_)
  unfold flowSequence
  refine reads_rem (reads_check rfl ?_)
  have h5 : Reads env (HM.emitAdv 1 .symbol_square : HM St Unit) x b!"[" [⟨0, 1, .symbol_square⟩] ((w ++ r) ++ b) () x := reads_emit rfl (by simp)
  have h6 : Reads env (do HM.loop ((← HM.rem).length + 1) (fun _ => flowSequenceStep (flowNodeLoop fuel) i) ()) x (w ++ r)
      (us ++ shift w.length vs) b () x := reads_rem (h w us s fuel _ (by simp; omega) (by simp; omega))
  exact h5.bind h6

theorem good_mapping (ih : Good env x i .entries a ts b) : Good env x i (.bare key) (b!"{" ++ a) ([⟨0, 1, .symbol_brace⟩] ++ shift 1 ts) b := by
  intro fuel hf
  obtain ⟨w, us, r, vs, rfl, hr, rfl, s, h⟩ := ih
  simp only [List.length_append, List.length_cons, List.length_nil] at hf
  refine reads_rem (reads_else (by simp) (reads_this rfl ?_))
  unfold flowMapping
  refine reads_rem (reads_check rfl ?_)
  have h5 : Reads env (HM.emitAdv 1 .symbol_brace : HM St Unit) x b!"{" [⟨0, 1, .symbol_brace⟩] ((w ++ r) ++ b) () x := reads_emit rfl (by simp)
  have h6 : Reads env (do HM.loop ((← HM.rem).length + 1) (fun _ => flowMappingStep (flowNodeLoop fuel) i) ()) x (w ++ r)
      (us ++ shift w.length vs) b () x := reads_rem (h w us s fuel _ (by simp; omega) (by simp; omega))
  exact h5.bind h6

theorem good {part : Part} (h : Flow part a ts b) : Good env x i part a ts b := by
  induction h with
  | node hp h ih =>
    intro fuel hf
    obtain ⟨fuel, rfl⟩ : ∃ k, fuel = k + 1 := ⟨fuel - 1, by omega⟩
    obtain ⟨c, t, rfl, hc⟩ := Flow.bare_head h
    exact reads_body hp hc (ih fuel (by simp at hf ⊢; omega))
  | @empty key p ps b hp ne hb =>
    intro fuel hf
    obtain ⟨fuel, rfl⟩ : ∃ k, fuel = k + 1 := ⟨fuel - 1, by omega⟩
    have h := reads_node (env := env) (x := x) (i := i) (key := key) (again := flowNodeLoop fuel) (a := []) hp (by simpa using ne) (fun h => absurd h ne)
      (reads_empty hb)
    exact (h.tokens (by simp [shift_empty])).text (by simp)
  | scalar h =>
    intro fuel hf
    exact reads_flow_scalar h
  | sequence h ih => exact good_sequence ih
  | mapping h ih => exact good_mapping ih
  | closeItems s => exact good_closeItems s
  | commaItems s _ ih => exact good_commaItems s ih
  | item s h _ ih ih' => exact good_item s h ih ih'
  | closeEntries s => exact good_closeEntries s
  | commaEntries s _ ih => exact good_commaEntries s ih
  | plainKey q h ih =>
    intro fuel hf
    obtain ⟨c, t, rfl, hc⟩ := Flow.head h
    exact reads_entryKey (ih fuel hf) (by simpa using q)
  | @explicitKey w us a ts b s h ih =>
    intro fuel hf
    simp only [List.length_append, List.length_cons, List.length_nil] at hf
    have h1 : Reads env (HM.emitAdv 1 .symbol_punc : HM St Unit) x b!"?" [⟨0, 1, .symbol_punc⟩] (w ++ a ++ b) () x := reads_emit rfl (by simp)
    have h2 : Reads env (do whitespace; flowNodeLoop fuel i true) x (w ++ a) (us ++ shift w.length ts) b () x :=
      (reads_whitespace s).bind (f := fun _ => flowNodeLoop fuel i true) (ih fuel (by simp only [List.length_append]; omega))
    have h3 : Reads env (entryKey (flowNodeLoop fuel) i) x (b!"?" ++ (w ++ a)) ([⟨0, 1, .symbol_punc⟩] ++ shift 1 (us ++ shift w.length ts)) b () x :=
      reads_rem (reads_this rfl (h1.bind (f := fun _ => (do whitespace; flowNodeLoop fuel i true : HM St Unit)) h2))
    exact (h3.tokens (by same)).text (by simp)
  | value h ih =>
    intro fuel hf
    obtain ⟨c, t, rfl, hc⟩ := Flow.head h
    exact reads_entryValue (ih fuel hf) hc
  | @noValue b h =>
    intro fuel hf
    obtain ⟨c, hc, hb⟩ := h
    refine reads_rem (reads_else ?_ reads_pure)
    rw [List.nil_append, ← List.head?_eq_getElem?, hb]
    simp at hc
    rcases hc with rfl | rfl <;> simp
  | key s h s' hr _ ih ih' => exact good_key s h s' hr ih ih'
  | entry s h s' sx hd _ ih ihd ih' => exact good_entry s h s' sx ih ihd ih'

theorem reads_flow (h : Flow (.node key) a ts b) : Reads env (flowNode i key) x a ts b () x :=
  reads_rem (good h _ (by omega))

example : Flow (.node false) b!"{? ~: ,~: ~}" [⟨0, 1, .symbol_brace⟩, ⟨1, 1, .symbol_punc⟩, ⟨3, 1, .null⟩, ⟨4, 1, .symbol_punc⟩,
    ⟨6, 1, .symbol_punc⟩, ⟨7, 1, .null⟩, ⟨8, 1, .symbol_punc⟩, ⟨10, 1, .null⟩, ⟨11, 1, .symbol_brace⟩] [] := by
  have tilde : ∀ key b, Flow (.node key) b!"~" [⟨0, 1, .null⟩] b := fun key b => .node (p := []) (.nil (by simp [NotFirst])) (.scalar .tilde)
  have white : ∀ b, NotFirst b!" \t\r\n#" b → Skip b!" " [] b := fun b h => .white (by unfold White; decide) (.nil h)
  have h1 : Flow .entries b!"}" [⟨0, 1, .symbol_brace⟩] [] := .closeEntries (w := []) (.nil (by simp [NotFirst]))
  have h2 : Flow .entries b!"~: ~}" [⟨0, 1, .null⟩, ⟨1, 1, .symbol_punc⟩, ⟨3, 1, .null⟩, ⟨4, 1, .symbol_brace⟩] [] :=
    .entry (w := []) (a := b!"~") (w' := []) (x := b!" ") (d := b!"~") (.nil (by simp [NotFirst])) (.plainKey (by decide) (tilde _ _))
      (.nil (by simp [NotFirst])) (white _ (by simp [NotFirst])) (.value (tilde _ _)) h1
  have h3 : Flow .entries b!",~: ~}" [⟨0, 1, .symbol_punc⟩, ⟨1, 1, .null⟩, ⟨2, 1, .symbol_punc⟩, ⟨4, 1, .null⟩, ⟨5, 1, .symbol_brace⟩] [] :=
    .commaEntries (w := []) (.nil (by simp [NotFirst])) h2
  have h4 : Flow .entries b!"? ~: ,~: ~}" [⟨0, 1, .symbol_punc⟩, ⟨2, 1, .null⟩, ⟨3, 1, .symbol_punc⟩, ⟨5, 1, .symbol_punc⟩, ⟨6, 1, .null⟩,
      ⟨7, 1, .symbol_punc⟩, ⟨9, 1, .null⟩, ⟨10, 1, .symbol_brace⟩] [] :=
    .entry (w := []) (a := b!"? ~") (w' := []) (x := b!" ") (d := []) (.nil (by simp [NotFirst]))
      (.explicitKey (w := b!" ") (white _ (by simp [NotFirst])) (tilde _ _)) (.nil (by simp [NotFirst])) (white _ (by simp [NotFirst]))
      (.noValue ⟨c!",", by simp, rfl⟩) h3
  exact .node (p := []) (.nil (by simp [NotFirst])) (.mapping h4)

end Ulight.Yaml
