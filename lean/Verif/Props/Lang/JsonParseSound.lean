import Verif.Props.Lang.JsonParseLemmas

/-!
# What `parse_json` does for every text
-/

namespace Ulight.Json.Parser

open Spec Spec.JsonParse
open Spec.Json (Number EscapeSeq Plain Digit HexDigit)

/-! ## Executions that may reach undefined behaviour -/

/-- `m` ends with `Q`, or reaches `ULIGHT_DEBUG_ASSERT_UNREACHABLE` and then `F` holds. -/
def tri {α : Type} (F : Prop) (m : PM α) (Q : α → HS Ext → Prop) (env : HEnv) (s : HS Ext) : Prop :=
  match m env s with
  | .ok (a, s') => Q a s'
  | .error f => f = (if env.debug then .assert else .unreachable) ∧ F

section

variable {α β : Type} {F : Prop} {env : HEnv} {s : HS Ext}

theorem tri_of_wp {m : PM α} {Q : α → HS Ext → Prop} (h : wp m Q env s) : tri F m Q env s := by
  obtain ⟨a, s', h1, h2⟩ := h
  simpa [tri, h1] using h2

theorem tri_mono {m : PM α} {Q Q' : α → HS Ext → Prop} (h : tri F m Q env s)
    (hq : ∀ a s', Q a s' → Q' a s') : tri F m Q' env s := by
  unfold tri at *
  split at h
  · exact hq _ _ h
  · exact h

theorem tri_bind {m : PM α} {f : α → PM β} {Q : β → HS Ext → Prop}
    (h : tri F m (fun a s' => tri F (f a) Q env s') env s) : tri F (m >>= f) Q env s := by
  unfold tri at *
  simp only [bind, HM.bind]
  cases hm : m env s with
  | ok r =>
    rw [hm] at h
    exact h
  | error f =>
    rw [hm] at h
    exact h

theorem tri_pure {a : α} {Q : α → HS Ext → Prop} (h : Q a s) : tri F (pure a : PM α) Q env s :=
  tri_of_wp (by simpa using h)

theorem tri_rem {f : Bytes → PM α} {Q : α → HS Ext → Prop} (h : tri F (f s.rem) Q env s) :
    tri F (HM.rem >>= f) Q env s := h

end

/-! ## Invariants -/

section

variable {env : HEnv} {i j : Nat} {es : List Event} {k : List Opener} {o : JOptions}

/-- The state at `i` with the events `es`, where `k` is open. -/
structure Good (env : HEnv) (i : Nat) (es : List Event) (k : List Opener) : Prop where
  le : i ≤ env.src.length
  valid : ∀ e ∈ es, e.pos = posAt env.src e.pos.codeUnit ∧ e.pos.codeUnit ≤ i
  sorted : es.Pairwise fun a b => a.pos.codeUnit ≤ b.pos.codeUnit
  text : ∀ e ∈ es, isBlockComment e.payload = false → ∀ t, textOf e.payload = some t →
    OccursAt t env.src e.pos.codeUnit
  nest : Nesting.read {} (es.map Event.payload) = some ⟨k, false⟩

/-- The state after a failure. -/
structure Bad (o : JOptions) (env : HEnv) (es : List Event) : Prop where
  valid : ∀ e ∈ es, e.pos = posAt env.src e.pos.codeUnit ∧ e.pos.codeUnit ≤ env.src.length
  sorted : es.Pairwise fun a b => a.pos.codeUnit ≤ b.pos.codeUnit
  text : ∀ e ∈ es, isBlockComment e.payload = false → ∀ t, textOf e.payload = some t →
    OccursAt t env.src e.pos.codeUnit
  nest : ∃ n, Nesting.read {} (es.map Event.payload) = some n ∧
    (n.failed = true ∨ Unreported o env.src)

theorem Good.move (g : Good env i es k) (h : i ≤ j) (hj : j ≤ env.src.length) : Good env j es k :=
  ⟨hj, fun e he => ⟨(g.valid e he).1, Nat.le_trans (g.valid e he).2 h⟩, g.sorted, g.text, g.nest⟩

theorem read_append (n : Nesting) (a b : List Payload) :
    n.read (a ++ b) = (n.read a).bind (fun n' => n'.read b) := by
  induction a generalizing n with
  | nil => rfl
  | cons p a ih =>
    simp only [List.cons_append, Nesting.read]
    cases n.next p with
    | none => rfl
    | some n' => exact ih n'

theorem Good.visit {p : Payload} {k' : List Opener} (g : Good env i es k)
    (hn : Nesting.next ⟨k, false⟩ p = some ⟨k', false⟩)
    (ht : isBlockComment p = false → ∀ t, textOf p = some t → OccursAt t env.src i) :
    Good env i (es ++ [⟨posAt env.src i, p⟩]) k' := by
  refine ⟨g.le, ?_, ?_, ?_, ?_⟩
  · intro e he
    simp at he
    rcases he with he | rfl
    · exact g.valid e he
    · exact ⟨rfl, Nat.le_refl _⟩
  · rw [List.pairwise_append]
    refine ⟨g.sorted, by simp, ?_⟩
    intro a ha b hb
    simp at hb
    subst hb
    exact (g.valid a ha).2
  · intro e he
    simp at he
    rcases he with he | rfl
    · exact g.text e he
    · exact ht
  · rw [List.map_append, read_append, g.nest]
    simp [Nesting.read, hn]

theorem Good.fail {e : JError} (g : Good env i es k) :
    Bad o env (es ++ [⟨posAt env.src i, .error e⟩]) := by
  refine ⟨?_, ?_, ?_, ?_⟩
  · intro e he
    simp at he
    rcases he with he | rfl
    · exact ⟨(g.valid e he).1, Nat.le_trans (g.valid e he).2 g.le⟩
    · exact ⟨rfl, g.le⟩
  · rw [List.pairwise_append]
    refine ⟨g.sorted, by simp, ?_⟩
    intro a ha b hb
    simp at hb
    subst hb
    exact (g.valid a ha).2
  · intro e he
    simp at he
    rcases he with he | rfl
    · exact g.text e he
    · simp [textOf]
  · refine ⟨⟨k, true⟩, ?_, Or.inl rfl⟩
    rw [List.map_append, read_append, g.nest]
    simp [Nesting.read, Nesting.next]

/-- Failing without a call of the visitor. -/
theorem Good.quiet (g : Good env i es k) (h : Unreported o env.src) : Bad o env es :=
  ⟨fun e he => ⟨(g.valid e he).1, Nat.le_trans (g.valid e he).2 g.le⟩, g.sorted, g.text,
    ⟨k, false⟩, g.nest, Or.inr h⟩

/-- The text `u` was consumed and reported as `ms` (apart from block comments), and `r` is left. -/
structure Did (env : HEnv) (i : Nat) (es : List Event) (k : List Opener) (u : Bytes) (ms : Marks)
    (r : Bytes) (es' : List Event) : Prop where
  src : env.src.drop i = u ++ r
  rem : env.src.drop (i + u.length) = r
  ev : noBlocks es' = noBlocks es ++ noBlocks (events env.src i ms)
  good : Good env (i + u.length) es' k

theorem events_append {src : Bytes} {a b : Marks} :
    events src i (a ++ b) = events src i a ++ events src i b := by simp [events]

theorem events_later {src : Bytes} {p : Nat} {ms : Marks} :
    events src i (later p ms) = events src (i + p) ms := by
  simp [events, later, Nat.add_assoc]

theorem noBlocks_append {a b : List Event} : noBlocks (a ++ b) = noBlocks a ++ noBlocks b := by
  simp [noBlocks]

theorem Did.trans {u v r r' : Bytes} {ms ms' : Marks} {es1 es2 : List Event} {k1 k2 : List Opener}
    (h1 : Did env i es k1 u ms r es1) (h2 : Did env (i + u.length) es1 k2 v ms' r' es2) :
    Did env i es k2 (u ++ v) (ms ++ later u.length ms') r' es2 := by
  have e : i + (u ++ v).length = i + u.length + v.length := by simp; omega
  refine ⟨?_, ?_, ?_, ?_⟩
  · rw [h1.src, ← h1.rem, h2.src]
    simp
  · rw [e, h2.rem]
  · rw [h2.ev, h1.ev, events_append, events_later, noBlocks_append]
    simp
  · rw [e]; exact h2.good

theorem Did.nil (g : Good env i es k) : Did env i es k [] [] (env.src.drop i) es :=
  ⟨by simp, by simp, by simp [events, noBlocks], by simpa using g⟩

/-- Advancing without a call of the visitor. -/
theorem Did.skip {u r : Bytes} (g : Good env i es k) (hr : env.src.drop i = u ++ r) :
    Did env i es k u [] r es := by
  have hl : u.length ≤ env.src.length - i := by
    have := congrArg List.length hr
    simp at this
    omega
  have := g.le
  refine ⟨hr, ?_, by simp [events, noBlocks], g.move (by omega) (by omega)⟩
  rw [← List.drop_drop, hr]
  simp

/-- A call of the visitor at the beginning of the text `u`. -/
theorem Did.visit {u r : Bytes} {p : Payload} {k' : List Opener} (g : Good env i es k)
    (hr : env.src.drop i = u ++ r)
    (hn : Nesting.next ⟨k, false⟩ p = some ⟨k', false⟩)
    (ht : isBlockComment p = false → ∀ t, textOf p = some t → OccursAt t env.src i) :
    Did env i es k' u [(0, p)] r (es ++ [⟨posAt env.src i, p⟩]) := by
  have h := Did.skip (g.visit hn ht) hr
  exact ⟨h.src, h.rem, by simp [events, noBlocks_append], h.good⟩

theorem Did.lt {u r : Bytes} {ms : Marks} {es' : List Event} {k' : List Opener}
    (h : Did env i es k' u ms r es') : r.length = env.src.length - (i + u.length) := by
  rw [← h.rem]
  simp

theorem occursAt_drop {u r src : Bytes} (hi : i ≤ src.length) (h : src.drop i = u ++ r) :
    OccursAt u src i :=
  ⟨src.take i, r, by rw [List.append_assoc, ← h, List.take_append_drop], by simp; omega⟩

/-- The result of a member function: success `P u ms r`, where `u` was consumed and `r` is left, or
failure. -/
def Out (o : JOptions) (env : HEnv) (i : Nat) (es : List Event) (k : List Opener)
    (P : Bytes → Marks → Bytes → Prop) (b : Bool) (s' : HS Ext) : Prop :=
  if b then ∃ u ms r es', s' = st env (i + u.length) es' ∧ P u ms r ∧ Did env i es k u ms r es'
  else Bad o env s'.ext.events

theorem Out.false {P : Bytes → Marks → Bytes → Prop} {s' : HS Ext} (h : Bad o env s'.ext.events) :
    Out o env i es k P false s' := h

theorem Out.true {P : Bytes → Marks → Bytes → Prop} {s' : HS Ext} {u r : Bytes} {ms : Marks}
    {es' : List Event} (h : s' = st env (i + u.length) es') (hp : P u ms r)
    (hd : Did env i es k u ms r es') : Out o env i es k P true s' := ⟨u, ms, r, es', h, hp, hd⟩

end

/-! ## Whitespace and comments -/

section

variable {ff cm l : Bool} {env : HEnv} {i : Nat} {es : List Event} {k : List Opener} {o : JOptions}

theorem later_append {p : Nat} {a b : Marks} : later p (a ++ b) = later p a ++ later p b := by
  simp [later]

theorem later_later {p q : Nat} {a : Marks} : later p (later q a) = later (p + q) a := by
  simp [later, Nat.add_assoc]

theorem later_nil {p : Nat} : later p [] = [] := rfl

theorem later_zero {a : Marks} : later 0 a = a := by simp [later]

theorem later_cons {p q : Nat} {x : Payload} {a : Marks} :
    later p ((q, x) :: a) = (p + q, x) :: later p a := by simp [later]

theorem ws_append {u v : Bytes} {ms ms' : Marks} (h : Ws ff cm false u ms)
    (h' : Ws ff cm l v ms') : Ws ff cm l (u ++ v) (ms ++ later u.length ms') := by
  generalize hb : false = b at h
  induction h with
  | nil => simpa [later_zero] using h'
  | @char c s ms hc _ ih =>
    have := Ws.char hc ih
    rw [later_append, later_later] at this
    simpa [Nat.add_comm] using this
  | @line body c s ms hcm hc hb' _ ih =>
    have := Ws.line hcm hc hb' ih
    rw [later_append, later_later] at this
    have e : body.length + 3 + s.length = (b!"//" ++ body ++ c :: s).length := by simp; omega
    rw [e] at this
    simpa using this
  | lastLine _ h => rw [← hb] at h; cases h
  | @block body s ms hcm hb' _ ih =>
    have := Ws.block hcm hb' ih
    rw [later_append, later_later] at this
    have e : body.length + 4 + s.length = (b!"/*" ++ body ++ b!"*/" ++ s).length := by simp; omega
    rw [e] at this
    simpa using this

theorem ws_last {u : Bytes} {ms : Marks} (h : Ws ff cm false u ms) : Ws ff cm true u ms := by
  have := ws_append h (l := true) .nil
  simpa [later_nil] using this

theorem ws_head {c : UInt8} {u : Bytes} {ms : Marks} (h : Ws ff cm l (c :: u) ms) :
    isWhitespace c = true ∨ c = c!"/" := by
  generalize hx : c :: u = x at h
  cases h with
  | nil => cases hx
  | char hc _ =>
    left
    cases hx
    simp [isWhitespace] at hc ⊢
    grind
  | line _ _ _ _ => right; simp at hx; exact hx.1
  | lastLine _ _ _ => right; simp at hx; exact hx.1
  | block _ _ _ => right; simp at hx; exact hx.1

theorem ws_inv {c : UInt8} {u : Bytes} {ms : Marks} (h : Ws ff cm l (c :: u) ms) (hc : c ≠ c!"/") :
    ∃ ms', Ws ff cm l u ms' ∧ ms = later 1 ms' := by
  generalize hx : c :: u = x at h
  cases h with
  | nil => cases hx
  | char _ h => cases hx; exact ⟨_, h, rfl⟩
  | line _ _ _ _ => simp at hx; exact absurd hx.1 hc
  | lastLine _ _ _ => simp at hx; exact absurd hx.1 hc
  | block _ _ _ => simp at hx; exact absurd hx.1 hc

theorem ws_chars {u : Bytes} (h : ∀ c ∈ u, isWhitespace c = true) : Ws true cm l u [] := by
  induction u with
  | nil => exact .nil
  | cons c u ih =>
    have := Ws.char (ff := true) (cm := cm) (last := l) (c := c) (by
      have := h c (by simp)
      simp [isWhitespace] at this
      simp
      grind) (ih fun c hc => h c (by simp [hc]))
    simpa [later_nil] using this

/-- The text that `match_whitespace` matches. -/
theorem matchWhitespace_split (s : Bytes) : ∃ u r, s = u ++ r ∧ matchWhitespace s = u.length ∧
    (∀ c ∈ u, isWhitespace c = true) ∧ ∀ c, r.head? = some c → isWhitespace c = false := by
  refine ⟨s.takeWhile isWhitespace, s.dropWhile isWhitespace, by simp, matchWhitespace_eq s, ?_, ?_⟩
  · intro c hc
    have := List.all_takeWhile (p := isWhitespace) (l := s)
    rw [List.all_eq_true] at this
    exact this c hc
  · intro c hc
    have := List.head?_dropWhile_not isWhitespace s
    rw [hc] at this
    simpa using this

/-- Text that cannot go on after a line comment. -/
def Broken (r : Bytes) : Prop := r = [] ∨ r.head? = some 0xE2

/-- What `consume_whitespace_comments` consumes. -/
def WsPost (cm : Bool) (u : Bytes) (ms : Marks) (r : Bytes) : Prop :=
  Ws true cm true u ms ∧ (Ws true cm false u ms ∨ Broken r) ∧
    ∀ c, r.head? = some c → isWhitespace c = false

theorem ws_broken {u r : Bytes} {ms : Marks} (h : Ws ff cm l u ms) (hb : Broken (u ++ r)) :
    u = [] := by
  cases u with
  | nil => rfl
  | cons c u =>
    rcases ws_head h with h | h
    · rcases hb with hb | hb
      · cases hb
      · simp at hb
        subst hb
        exact absurd h (by decide)
    · subst h
      rcases hb with hb | hb
      · cases hb
      · simp at hb

/-- The innermost open thing is not a string. -/
def NotStr (k : List Opener) : Prop := ∀ x, k.head? = some x → x = .object ∨ x = .array

theorem no_newline_line {body rest : Bytes} {s : Bytes} (h : Js.LineComment s body rest) :
    (0x0A : UInt8) ∉ b!"//" ++ body := by
  simp
  intro hm
  obtain ⟨a, b, rfl⟩ := List.append_of_mem hm
  have := h.first a.length ⟨b!"\n", by simp [Js.lineTerminators], a, b ++ rest, by simp, rfl⟩
  simp at this
  omega

theorem occursAt_mono {p a b : Bytes} {n : Nat} (h : OccursAt p a n) : OccursAt p (a ++ b) n := by
  obtain ⟨x, y, rfl, rfl⟩ := h
  exact ⟨x, y ++ b, by simp, rfl⟩

theorem occursAt_bound {p a : Bytes} {n : Nat} (h : OccursAt p a n) : n + p.length ≤ a.length := by
  obtain ⟨x, y, rfl, rfl⟩ := h
  simp

theorem line_body {s body rest : Bytes} (h : Js.LineComment s body rest) :
    ∀ k, ¬ Js.LineTerminatorAt body k := by
  rintro k ⟨t, ht, hk⟩
  have h1 := h.first k ⟨t, ht, occursAt_mono hk⟩
  have h2 := occursAt_bound hk
  have : 0 < t.length := by
    simp [Js.lineTerminators] at ht
    rcases ht with rfl | rfl | rfl | rfl <;> simp
  omega

theorem block_body {s body rest : Bytes} (h : Js.BlockComment s body rest) :
    ∀ k, OccursAt b!"*/" (body ++ b!"*/") k → body.length ≤ k :=
  fun k hk => h.first k (occursAt_mono hk)

/-- What follows a line comment. -/
theorem line_rest {s body rest : Bytes} (h : Js.LineComment s body rest) :
    Broken rest ∨ ∃ c r, rest = c :: r ∧ c ∈ ([0x0A, 0x0D] : Bytes) := by
  cases rest with
  | nil => exact Or.inl (Or.inl rfl)
  | cons c r =>
    obtain ⟨t, ht, a, b, hab, ha⟩ := h.ends (by simp)
    have h1 : a = body := by
      have := congrArg (List.take body.length) hab
      rw [List.append_assoc, ← ha, List.take_left, ha, List.take_left] at this
      exact this.symm
    subst h1
    have h2 : c :: r = t ++ b := by simpa using hab
    simp [Js.lineTerminators] at ht
    rcases ht with rfl | rfl | rfl | rfl <;> simp at h2
    · exact Or.inr ⟨c, r, rfl, by simp [h2.1]⟩
    · exact Or.inr ⟨c, r, rfl, by simp [h2.1]⟩
    · exact Or.inl (Or.inr (by simp [h2.1]))
    · exact Or.inl (Or.inr (by simp [h2.1]))

/-- A line comment before more whitespace. -/
theorem ws_line {s body rest u r : Bytes} {ms : Marks} (hcm : cm = true)
    (h : Js.LineComment s body rest) (hr : rest = u ++ r) (hw : WsPost cm u ms r) :
    WsPost cm (b!"//" ++ body ++ u) ((0, .lineComment (b!"//" ++ body)) :: later (body.length + 2) ms)
      r := by
  obtain ⟨h1, h2, h3⟩ := hw
  rcases line_rest h with hb | ⟨c, t, e, hc⟩
  · rw [hr] at hb
    obtain rfl := ws_broken h1 hb
    have hms : ms = [] := by
      generalize hx : ([] : Bytes) = x at h1
      cases h1 <;> simp at hx ⊢
    subst hms
    refine ⟨?_, Or.inr (by simpa using hb), h3⟩
    simpa [later_nil] using Ws.lastLine (ff := true) hcm rfl (line_body h)
  · cases u with
    | nil =>
      rw [e] at hr
      simp at hr
      subst hr
      have := h3 c rfl
      simp [isWhitespace] at this hc
      grind
    | cons d u =>
      have hd : d = c := by rw [e] at hr; simp at hr; exact hr.1.symm
      subst hd
      have hd : d ≠ c!"/" := by
        rintro rfl
        simp at hc
      have key : ∀ l, Ws true cm l (d :: u) ms → Ws true cm l (b!"//" ++ body ++ d :: u)
          ((0, .lineComment (b!"//" ++ body)) :: later (body.length + 2) ms) := by
        intro l h
        obtain ⟨ms', h4, rfl⟩ := ws_inv h hd
        rw [later_later]
        exact Ws.line hcm hc (line_body ‹_›) h4
      exact ⟨key _ h1, h2.imp (key _) id, h3⟩

theorem ws_block {s body rest u r : Bytes} {ms : Marks} (hcm : cm = true)
    (h : Js.BlockComment s body rest) (hw : WsPost cm u ms r) :
    WsPost cm (b!"/*" ++ body ++ b!"*/" ++ u)
      ((0, .blockComment (b!"/*" ++ body ++ b!"*/")) :: later (body.length + 4) ms) r :=
  ⟨.block hcm (block_body h) hw.1, hw.2.1.imp (fun h' => .block hcm (block_body h) h') id, hw.2.2⟩

theorem WsPost.chars {w u r : Bytes} {ms : Marks} (hw : ∀ c ∈ w, isWhitespace c = true)
    (h : WsPost cm u ms r) : WsPost cm (w ++ u) (later w.length ms) r :=
  ⟨by simpa using ws_append (ws_chars hw) h.1,
    h.2.1.imp (fun h' => by simpa using ws_append (ws_chars hw) h') id, h.2.2⟩

theorem next_comment {p : Payload} (hk : NotStr k)
    (hp : (∃ t, p = .lineComment t) ∨ ∃ t, p = .blockComment t) :
    Nesting.next ⟨k, false⟩ p = some ⟨k, false⟩ := by
  cases k with
  | nil => rcases hp with ⟨t, rfl⟩ | ⟨t, rfl⟩ <;> rfl
  | cons x k =>
    rcases hk x rfl with rfl | rfl <;> rcases hp with ⟨t, rfl⟩ | ⟨t, rfl⟩ <;> rfl

theorem Out.mono {P Q : Bytes → Marks → Bytes → Prop} {b : Bool} {s' : HS Ext}
    (h : Out o env i es k P b s') (hq : ∀ u ms r, P u ms r → Q u ms r) : Out o env i es k Q b s' := by
  cases b with
  | false => exact h
  | true =>
    obtain ⟨u, ms, r, es', h1, h2, h3⟩ := h
    exact ⟨u, ms, r, es', h1, hq _ _ _ h2, h3⟩

/-- Prefixing what was done before. -/
theorem Did.out {P Q : Bytes → Marks → Bytes → Prop} {b : Bool} {s' : HS Ext} {u r : Bytes}
    {ms : Marks} {es1 : List Event} {k1 : List Opener} (h : Did env i es k1 u ms r es1)
    (ho : Out o env (i + u.length) es1 k P b s')
    (hq : ∀ v ms' r', r = v ++ r' → P v ms' r' → Q (u ++ v) (ms ++ later u.length ms') r') :
    Out o env i es k Q b s' := by
  cases b with
  | false => exact ho
  | true =>
    obtain ⟨v, ms', r', es', h1, h2, h3⟩ := ho
    refine ⟨u ++ v, ms ++ later u.length ms', r', es', ?_, hq _ _ _ ?_ h2, h.trans h3⟩
    · rw [h1]; congr 1; simp; omega
    · rw [← h.rem, h3.src]

theorem take_of_drop {u r : Bytes} (h : env.src.drop i = u ++ r) :
    (env.src.drop i).take u.length = u := by rw [h]; simp

theorem le_of_drop {u r : Bytes} (hi : i ≤ env.src.length) (h : env.src.drop i = u ++ r) :
    i + u.length ≤ env.src.length := by
  have := congrArg List.length h
  simp at this
  omega

theorem ws_loop_sound (hcm : o.allowComments = true) (hk : NotStr k) (fuel : Nat) :
    ∀ (i : Nat) (es : List Event), Good env i es k → env.src.length - i < fuel →
      wp (HM.loop fuel wsStep ()) (Out o env i es k (WsPost o.allowComments)) env (st env i es) := by
  induction fuel with
  | zero => intro i es _ h; omega
  | succ fuel ih =>
    intro i es g hf
    rw [wp_loop_succ]
    conv => arg 1; unfold wsStep
    simp only [wp_bind, wp_rem, st_rem]
    obtain ⟨w, r, h1, h2, h3, h4⟩ := matchWhitespace_split (env.src.drop i)
    have hle := le_of_drop g.le h1
    rw [h2, wp_adv hle]
    have d1 := Did.skip g h1
    have g1 := d1.good
    have hr := d1.rem
    simp only [st_rem, hr]
    by_cases hl : startsWith r b!"//" = true
    · rw [if_pos hl, wp_bind]
      unfold lineComment
      rcases Js.matchLineComment_spec r with ⟨h, _⟩ | ⟨body, rest, hc, hm⟩
      · rw [h] at hl; cases hl
      · simp only [wp_bind, wp_rem, st_rem, hr, hm]
        rw [if_pos (by omega)]
        have hs : r = (b!"//" ++ body) ++ rest := hc.split
        have hlen : body.length + 2 = (b!"//" ++ body).length := by simp
        have ht : r.take (b!"//" ++ body).length = b!"//" ++ body := by rw [hs, List.take_left]
        have hle2 := le_of_drop g1.le (hr.trans hs)
        have d2 := Did.visit (p := .lineComment (b!"//" ++ body)) (k' := k) g1
          (hr.trans hs) (next_comment hk (Or.inl ⟨_, rfl⟩)) (by
          intro _ t ht
          simp only [textOf, Option.some.injEq] at ht
          subst ht
          exact occursAt_drop g1.le (hr.trans hs))
        simp only [wp_bind]
        rw [hlen, ht, wp_visit, wp_same hle2 (by
          rw [take_of_drop (hr.trans hs)]
          exact no_newline_line hc)]
        simp only [wp_pure, if_true]
        refine wp_mono (ih _ _ d2.good (by omega)) ?_
        intro b s' ho
        refine d1.out (d2.out ho (Q := WsPost o.allowComments) fun v ms' r' e hp => ?_)
          fun v ms' r' e hp => ?_
        · rw [← hlen]
          exact ws_line hcm hc e hp
        · exact WsPost.chars h3 hp
    · rw [if_neg hl]
      by_cases hb : startsWith r b!"/*" = true
      · rw [if_pos hb, wp_bind]
        unfold blockComment
        rcases Js.matchBlockComment_spec r with ⟨h, _⟩ | ⟨body, rest, hc, hm⟩ | ⟨body, hc, hm⟩
        · rw [h] at hb; cases hb
        · simp only [wp_bind, wp_rem, st_rem, hr, hm]
          rw [if_pos (by omega), if_neg (by simp)]
          have hs : r = (b!"/*" ++ body ++ b!"*/") ++ rest := hc.split
          have hlen : body.length + 4 = (b!"/*" ++ body ++ b!"*/").length := by simp
          have hle2 := le_of_drop g1.le (hr.trans hs)
          have d2 := Did.skip g1 (hr.trans hs)
          have g3 := d2.good.visit (p := .blockComment
            ((env.src.drop (i + w.length + (b!"/*" ++ body ++ b!"*/").length)).take
              (b!"/*" ++ body ++ b!"*/").length)) (next_comment hk (Or.inr ⟨_, rfl⟩))
            (by intro h; cases h)
          have d3 : Did env (i + w.length) es k (b!"/*" ++ body ++ b!"*/")
              [(0, .blockComment (b!"/*" ++ body ++ b!"*/"))] rest _ :=
            ⟨d2.src, d2.rem, by simp [noBlocks, events, isBlockComment], g3⟩
          simp only [wp_bind]
          rw [hlen, wp_adv hle2]
          simp only [wp_rem, st_rem, wp_visit, wp_pure, if_true]
          refine wp_mono (ih _ _ g3 (by omega)) ?_
          intro b s' ho
          refine d1.out (d3.out ho (Q := WsPost o.allowComments) fun v ms' r' e hp => ?_)
            fun v ms' r' e hp => ?_
          · rw [← hlen]
            exact ws_block hcm hc hp
          · exact WsPost.chars h3 hp
        · simp only [wp_bind, wp_rem, st_rem, hr, hm]
          rw [if_pos (by omega), if_pos (by simp), wp_fail]
          simp only [Bool.false_eq_true, if_false, wp_pure]
          exact g1.fail
      · rw [if_neg hb, wp_pure]
        refine Out.true rfl ?_ d1
        exact ⟨ws_chars h3, Or.inl (ws_chars h3), h4⟩

theorem ws_sound (hk : NotStr k) (g : Good env i es k) :
    wp (consumeWs o) (Out o env i es k (WsPost o.allowComments)) env (st env i es) := by
  unfold consumeWs
  simp only [wp_bind, wp_rem, st_rem]
  cases hcm : o.allowComments with
  | true =>
    simp only [Bool.not_true, Bool.false_eq_true, if_false]
    have := ws_loop_sound hcm hk (env.src.length - i + 1) i es g (by omega)
    rw [hcm] at this
    simpa using this
  | false =>
    simp only [Bool.not_false, if_true, wp_bind]
    obtain ⟨w, r, h1, h2, h3, h4⟩ := matchWhitespace_split (env.src.drop i)
    rw [h2, wp_adv (le_of_drop g.le h1), wp_pure]
    exact Out.true rfl ⟨ws_chars h3, Or.inl (ws_chars h3), h4⟩ (Did.skip g h1)

end

/-! ## Strings -/

theorem hexDigit_eq (c : UInt8) (h : HexDigit c) : digitValue c = hexDigit c := by
  have : ∀ c : UInt8, isHexDigit c = true → digitValue c = hexDigit c := by
    apply forall_byte
    decide +kernel
  exact this c ((hex_iff c).2 h)

theorem hexValue_eq {a b c d : UInt8} (h : ∀ x ∈ [a, b, c, d], HexDigit x) :
    matchEscapeSequence.hexValue [a, b, c, d] =
      hexDigit a * 4096 + hexDigit b * 256 + hexDigit c * 16 + hexDigit d := by
  simp only [matchEscapeSequence.hexValue, List.foldl]
  rw [hexDigit_eq a (h a (by simp)), hexDigit_eq b (h b (by simp)), hexDigit_eq c (h c (by simp)),
    hexDigit_eq d (h d (by simp))]
  omega

theorem four {ds : Bytes} (h : ds.length = 4) : ∃ a b c d, ds = [a, b, c, d] := by
  match ds, h with
  | [a, b, c, d], _ => exact ⟨a, b, c, d, rfl⟩

/-- Escape sequences are matched completely, with their value. -/
theorem matchEscape_value {u : Bytes} {v : Nat} (r : Bytes) (h : EscapeValue u v) :
    matchEscapeSequence (u ++ r) true = .ok ⟨u.length, some v⟩ := by
  cases h with
  | @unicode a b c d h =>
    have h2 : isHexDigit a = true ∧ isHexDigit b = true ∧ isHexDigit c = true ∧
        isHexDigit d = true :=
      ⟨(hex_iff a).2 (h a (by simp)), (hex_iff b).2 (h b (by simp)), (hex_iff c).2 (h c (by simp)),
        (hex_iff d).2 (h d (by simp))⟩
    simp [matchEscapeSequence, isEscapable, matchCommonEscapeAt, matchCommonEscape,
      matchCommonEscape.fixed, h2, hexValue_eq h]
  | _ => simp [matchEscapeSequence, isEscapable]

/-- Escape sequences have values. -/
theorem escapeValue_of_seq {u : Bytes} (h : EscapeSeq u) : ∃ v, EscapeValue u v := by
  cases h with
  | simple h =>
    simp at h
    rcases h with rfl | rfl | rfl | rfl | rfl | rfl | rfl | rfl
    · exact ⟨_, .quote⟩
    · exact ⟨_, .backslash⟩
    · exact ⟨_, .slash⟩
    · exact ⟨_, .backspace⟩
    · exact ⟨_, .formFeed⟩
    · exact ⟨_, .lineFeed⟩
    · exact ⟨_, .carriageReturn⟩
    · exact ⟨_, .tab⟩
  | unicode h hex =>
    obtain ⟨a, b, c, d, rfl⟩ := four h
    exact ⟨_, .unicode hex⟩

/-- What `match_escape_sequence` accepts is an escape sequence. -/
theorem escape_sound (o : JOptions) (s : Bytes) :
    ∃ e, matchEscapeSequence s (decide (o.escapes ≠ .none)) = .ok e ∧
      ∀ v, e.length ≠ 0 → e.value = some v → ∃ u r, s = u ++ r ∧ e.length = u.length ∧ EscapeSeq u ∧
        EscapeReport o.escapes u (escapePayload o u v) := by
  obtain ⟨e, h1, h2, h3⟩ := matchEscape_ok' s (decide (o.escapes ≠ .none))
  refine ⟨e, h1, ?_⟩
  intro v h0 hv
  have hu := h3 h0 (by simp [hv])
  have hl : e.length = (s.take e.length).length := by simp; omega
  refine ⟨s.take e.length, s.drop e.length, by simp, hl, hu, ?_⟩
  obtain ⟨v', hv'⟩ := escapeValue_of_seq hu
  have hm := matchEscape_value (s.drop e.length) hv'
  rw [List.take_append_drop] at hm
  unfold escapePayload
  cases ho : o.escapes with
  | none => exact .none hu
  | parse =>
    rw [ho] at h1
    simp only [ne_eq, reduceCtorEq, not_false_eq_true, decide_true] at h1
    rw [hm] at h1
    have he : e.value = some v' := by rw [← Except.ok.inj h1]
    rw [he] at hv
    cases hv
    exact .parse hv'
  | parseEncode =>
    rw [ho] at h1
    simp only [ne_eq, reduceCtorEq, not_false_eq_true, decide_true] at h1
    rw [hm] at h1
    have he : e.value = some v' := by rw [← Except.ok.inj h1]
    rw [he] at hv
    cases hv
    exact .encode hv'

section

variable {env : HEnv} {i : Nat} {es : List Event} {k k0 : List Opener} {o : JOptions}

theorem next_literal {p : Payload} {x : Opener} (hx : x = .string ∨ x = .property)
    (hp : (∃ t, p = .literal t) ∨ (∃ t, p = .escape t) ∨ (∃ t v, p = .escapeValue t v) ∨
      ∃ t v w, p = .escapeUnits t v w) :
    Nesting.next ⟨x :: k0, false⟩ p = some ⟨x :: k0, false⟩ := by
  rcases hx with rfl | rfl <;>
    rcases hp with ⟨t, rfl⟩ | ⟨t, rfl⟩ | ⟨t, v, rfl⟩ | ⟨t, v, w, rfl⟩ <;> rfl

theorem plain_no_newline {u : Bytes} (h : ∀ c ∈ u, Plain c) : (0x0A : UInt8) ∉ u := by
  intro hm
  have := (h _ hm).1
  simp at this

theorem wp_one {c : UInt8} {t : Bytes} {Q : Unit → HS Ext → Prop} (hi : i ≤ env.src.length)
    (h : env.src.drop i = c :: t) (hc : c ≠ 0x0A) :
    wp (advanceSame 1) Q env (st env i es) ↔ Q () (st env (i + 1) es) := by
  have h' : env.src.drop i = [c] ++ t := h
  exact wp_same (n := 1) (le_of_drop hi h') (by rw [h]; simpa using Ne.symm hc)

/-- The marks of a run of plain characters. -/
def plainMarks (u : Bytes) : Marks := if u = [] then [] else [(0, .literal u)]

theorem flush_iff {u r : Bytes} {Q : Unit → HS Ext → Prop} (hi : i ≤ env.src.length)
    (h : env.src.drop i = u ++ r) (hu : ∀ c ∈ u, Plain c) :
    wp (flush u.length) Q env (st env i es) ↔
      Q () (st env (i + u.length) (es ++ events env.src i (plainMarks u))) := by
  unfold flush plainMarks
  by_cases h0 : u = []
  · subst h0
    simp [events]
  · rw [if_pos (by simpa using h0), if_neg h0]
    simp only [wp_bind, wp_rem, st_rem, take_of_drop h, wp_visit]
    rw [wp_same (le_of_drop hi h) (by rw [take_of_drop h]; exact plain_no_newline hu)]
    simp [events]

theorem Did.flush {u r : Bytes} {x : Opener} (g : Good env i es (x :: k0))
    (hx : x = .string ∨ x = .property) (h : env.src.drop i = u ++ r) :
    Did env i es (x :: k0) u (plainMarks u) r (es ++ events env.src i (plainMarks u)) := by
  unfold plainMarks
  by_cases h0 : u = []
  · subst h0
    have := Did.skip g h
    simpa [events] using this
  · rw [if_neg h0]
    have := Did.visit (p := .literal u) g h (next_literal hx (Or.inl ⟨u, rfl⟩)) (by
      intro _ t ht
      simp [textOf] at ht
      subst ht
      exact occursAt_drop g.le h)
    simpa [events] using this

/-- What the loop of `consume_string` consumes. -/
def StrPost (o : JOptions) (pop : Payload) (u : Bytes) (ms : Marks) (_ : Bytes) : Prop :=
  ∃ c mc, u = c ++ b!"\"" ∧ Content o.escapes c mc ∧ ms = mc ++ [(c.length, pop)]

/-- Plain characters before an escape sequence. -/
theorem content_escape {e : EscapeParsing} {u v s : Bytes} {p : Payload} {ms : Marks}
    (hu : ∀ c ∈ u, Plain c) (hp : EscapeReport e v p) (h : Content e s ms) :
    Content e (u ++ v ++ s) (plainMarks u ++ (u.length, p) :: later (u ++ v).length ms) := by
  unfold plainMarks
  by_cases h0 : u = []
  · subst h0
    simpa using Content.escape hp h
  · rw [if_neg h0]
    simpa using Content.plainEscape h0 hu hp h

theorem content_plain {e : EscapeParsing} {u : Bytes} (hu : ∀ c ∈ u, Plain c) :
    Content e u (plainMarks u) := by
  unfold plainMarks
  by_cases h0 : u = []
  · subst h0
    exact .nil
  · rw [if_neg h0]
    exact .plain h0 hu

theorem escapeSeq_no_newline {u : Bytes} (h : EscapeSeq u) : (0x0A : UInt8) ∉ u := by
  cases h with
  | simple h =>
    simp at h
    rcases h with rfl | rfl | rfl | rfl | rfl | rfl | rfl | rfl <;> decide
  | unicode h hex =>
    simp
    intro hm
    have := (hex_iff _).2 (hex _ hm)
    revert this
    decide

theorem escapeSeq_length {u : Bytes} (h : EscapeSeq u) : 0 < u.length := by
  cases h <;> simp

/-- The payload of an escape sequence has its text. -/
theorem escapePayload_cases (o : JOptions) (t : Bytes) (v : Nat) :
    textOf (escapePayload o t v) = some t ∧
    (∀ x : Opener, x = .string ∨ x = .property →
      Nesting.next ⟨x :: k0, false⟩ (escapePayload o t v) = some ⟨x :: k0, false⟩) := by
  unfold escapePayload
  cases o.escapes
  · exact ⟨rfl, fun x hx => next_literal hx (by simp)⟩
  · exact ⟨rfl, fun x hx => next_literal hx (by simp)⟩
  · exact ⟨rfl, fun x hx => next_literal hx (by simp)⟩

theorem consumeEscape_sound {x : Opener} (g : Good env i es (x :: k0))
    (hx : x = .string ∨ x = .property) :
    wp (consumeEscape o) (Out o env i es (x :: k0) fun u ms _ =>
      u ≠ [] ∧ ∃ p, EscapeReport o.escapes u p ∧ ms = [(0, p)]) env (st env i es) := by
  unfold consumeEscape
  obtain ⟨e, h1, h2⟩ := escape_sound o (env.src.drop i)
  simp only [wp_bind, wp_rem, st_rem]
  have hl : ∀ Q, wp (HM.lift (matchEscapeSequence (env.src.drop i) (decide (o.escapes ≠ .none))))
      Q env (st env i es) ↔ Q e (st env i es) := fun Q => wp_of_ok (by rw [h1]; rfl)
  rw [hl]
  by_cases h0 : e.length = 0
  · rw [if_pos h0, wp_fail]
    exact g.fail
  · rw [if_neg h0]
    cases hv : e.value with
    | none =>
      simp only []
      rw [wp_fail]
      exact g.fail
    | some v =>
      obtain ⟨u, r, hs, hlen, hseq, hrep⟩ := h2 v h0 hv
      have hp := escapePayload_cases (k0 := k0) o u v
      simp only [wp_bind]
      rw [hlen, take_of_drop hs, wp_visit, wp_same (le_of_drop g.le hs) (by
        rw [take_of_drop hs]; exact escapeSeq_no_newline hseq), wp_pure]
      refine Out.true rfl ⟨by have := escapeSeq_length hseq; intro h; subst h; simp at this, _, hrep, rfl⟩
        (Did.visit g hs (hp.2 x hx) ?_)
      intro _ t ht
      rw [hp.1] at ht
      cases ht
      exact occursAt_drop g.le hs

theorem string_loop_sound {x : Opener} {prop : Bool} (hx : x = if prop then .property else .string)
    (fuel : Nat) : ∀ (i : Nat) (es : List Event) (u r : Bytes), Good env i es (x :: k0) →
      env.src.drop i = u ++ r → (∀ c ∈ u, Plain c) → r.length < fuel →
      wp (HM.loop fuel (stringStep o prop) u.length)
        (Out o env i es k0 (StrPost o (if prop then .popProperty else .popString)))
        env (st env i es) := by
  have hx' : x = .string ∨ x = .property := by cases prop <;> simp [hx]
  have hpop : Nesting.next ⟨x :: k0, false⟩ (if prop then .popProperty else .popString) =
      some ⟨k0, false⟩ := by
    subst hx
    cases prop <;> rfl
  induction fuel with
  | zero => intro i es u r _ _ _ h; omega
  | succ fuel ih =>
    intro i es u r g h hu hf
    rw [wp_loop_succ]
    conv => arg 1; unfold stringStep
    simp only [wp_bind, wp_rem, st_rem]
    have hc : (env.src.drop i)[u.length]? = r.head? := by
      rw [h, List.getElem?_append_right (Nat.le_refl _), Nat.sub_self]
      cases r <;> rfl
    rw [hc]
    cases r with
    | nil =>
      simp only [List.head?_nil, wp_bind]
      rw [wp_fail, wp_pure]
      exact g.fail
    | cons c r =>
      simp only [List.head?_cons]
      have df := Did.flush g hx' h
      by_cases hq : c = c!"\""
      · rw [if_pos hq]
        subst hq
        simp only [wp_bind]
        have hs : env.src.drop (i + u.length) = b!"\"" ++ r := df.rem
        rw [flush_iff g.le h hu, wp_visit, wp_one df.good.le hs (by decide), wp_pure]
        have dv := Did.visit df.good hs hpop (by intro _ t ht; cases prop <;> cases ht)
        have := df.trans dv
        refine Out.true (by simp [Nat.add_assoc]) ⟨u, plainMarks u, rfl, content_plain hu, ?_⟩ this
        simp [later]
      · rw [if_neg hq]
        by_cases hb : c = c!"\\"
        · rw [if_pos hb]
          simp only [wp_bind]
          rw [flush_iff g.le h hu]
          refine wp_mono (consumeEscape_sound df.good hx') ?_
          intro b s' ho
          cases b with
          | false =>
            simp only [Bool.false_eq_true, if_false, wp_pure]
            exact ho
          | true =>
            obtain ⟨v, ms, r', es', rfl, ⟨hv, p, hp, rfl⟩, d2⟩ := ho
            simp only [if_true, wp_pure]
            have hlt : r'.length < fuel := by
              have h1 := d2.lt
              have h2 := List.length_pos_iff.2 hv
              have h3 := df.lt
              have h4 := d2.good.le
              simp at h3 hf
              omega
            have := ih _ es' [] r' d2.good (by simpa using d2.rem) (by simp) hlt
            refine wp_mono this ?_
            intro b s' ho
            refine df.out (d2.out ho
              (Q := fun w ms _ => ∃ c mc, w = v ++ c ++ b!"\"" ∧ Content o.escapes c mc ∧
                ms = (0, p) :: later v.length (mc ++ [(c.length,
                  if prop then .popProperty else .popString)])) ?_) ?_
            · rintro w ms' r'' _ ⟨c, mc, rfl, hc, rfl⟩
              exact ⟨c, mc, by simp, hc, rfl⟩
            · rintro w ms' r'' _ ⟨c, mc, rfl, hc, rfl⟩
              refine ⟨u ++ v ++ c, _, by simp, content_escape hu hp hc, ?_⟩
              simp [later, Nat.add_assoc, Function.comp_def]
        · rw [if_neg hb]
          by_cases hl : c < 0x20
          · rw [if_pos hl]
            simp only [wp_bind]
            rw [flush_iff g.le h hu, wp_fail, wp_pure]
            exact df.good.fail
          · rw [if_neg hl, wp_pure]
            have := ih i es (u ++ [c]) r g (by rw [h]; simp) (by
              intro d hd
              simp at hd
              rcases hd with hd | rfl
              · exact hu d hd
              · refine ⟨?_, hq, hb⟩
                rw [UInt8.lt_iff_toNat_lt] at hl
                simp at hl
                exact hl) (by simp at hf; omega)
            simpa using this

/-- The opener for a string. -/
def strOpener (prop : Bool) : Opener := if prop then .property else .string

/-- A call of `consume_string` where there is a quotation mark. -/
theorem string_sound {prop : Bool} {t : Bytes} (g : Good env i es k)
    (hk : if prop then ∃ k0, k = .object :: k0 else NotStr k)
    (h : env.src.drop i = c!"\"" :: t) :
    wp (consumeString o prop) (Out o env i es k fun u ms _ => ∃ c mc, u = b!"\"" ++ c ++ b!"\"" ∧
      Content o.escapes c mc ∧ ms = (0, if prop then .pushProperty else .pushString) :: later 1 mc ++
        [(c.length + 1, if prop then .popProperty else .popString)]) env (st env i es) := by
  unfold consumeString
  have hs : env.src.drop i = b!"\"" ++ t := h
  have hq : ¬ ((!startsWith (st env i es).rem b!"\"") = true) := by rw [st_rem, h]; simp
  rw [wp_bind, wp_rem, if_neg hq]
  simp only [wp_bind]
  rw [wp_visit, wp_one g.le h (by decide)]
  have hpush : Nesting.next ⟨k, false⟩ (if prop then .pushProperty else .pushString) =
      some ⟨strOpener prop :: k, false⟩ := by
    cases prop with
    | true =>
      simp at hk
      obtain ⟨k0, rfl⟩ := hk
      rfl
    | false =>
      simp at hk
      cases k with
      | nil => rfl
      | cons x k =>
        rcases hk x rfl with rfl | rfl <;> rfl
  have d1 := Did.visit g hs hpush (by intro _ t ht; cases prop <;> cases ht)
  have := string_loop_sound (o := o) (x := strOpener prop) (prop := prop) rfl
    ((env.src.drop i).length + 1) _ _ [] t d1.good (by simpa using d1.rem) (by simp)
    (by rw [h]; simp; omega)
  refine wp_mono this ?_
  intro b s' ho
  refine d1.out ho ?_
  rintro v ms' r' _ ⟨c, mc, rfl, hc, rfl⟩
  refine ⟨c, mc, by simp, hc, ?_⟩
  simp [later, Nat.add_comm]

end

/-! ## Arrays and objects -/

theorem tri_loop_succ {α β : Type} {F : Prop} {fuel : Nat} {body : β → PM (β ⊕ α)} {b : β}
    {Q : α → HS Ext → Prop} {env : HEnv} {s : HS Ext}
    (h : tri F (body b) (fun a s' => match a with
      | .inl b' => tri F (HM.loop fuel body b') Q env s'
      | .inr a => Q a s') env s) : tri F (HM.loop (fuel + 1) body b) Q env s := by
  unfold HM.loop
  refine tri_bind (tri_mono h ?_)
  intro a s' h
  cases a with
  | inl b' => exact h
  | inr a => exact tri_pure h

section

variable {env : HEnv} {i : Nat} {es : List Event} {k : List Opener} {o : JOptions}

theorem number_head {u : Bytes} (h : Number u) : ∃ c t, u = c :: t ∧ (c = c!"-" ∨ Digit c) := by
  obtain ⟨m, n, f, e, rfl, hm, ⟨⟨h0, hd⟩, _⟩, _, _⟩ := h
  obtain ⟨d, n, rfl⟩ := List.exists_cons_of_ne_nil h0
  simp at hm
  rcases hm with rfl | rfl
  · exact ⟨d, n ++ f ++ e, by simp, Or.inr (hd d (by simp))⟩
  · exact ⟨_, _, rfl, Or.inl rfl⟩

/-- Values do not begin with something that can follow an open line comment. -/
theorem text_unbroken {ff : Bool} {u r : Bytes} {ms : Marks} (h : Text ff o .value u ms) :
    ¬ Broken (u ++ r) := by
  have key : ∀ c t, u = c :: t → c ≠ 0xE2 → ¬ Broken (u ++ r) := by
    rintro c t rfl hc (h | h)
    · cases h
    · simp at h; exact hc h
  generalize hk : Kind.value = kd at h
  cases h with
  | number h =>
    obtain ⟨c, t, e, hc⟩ := number_head h
    refine key c t e ?_
    rintro rfl
    rcases hc with h | h
    · cases h
    · exact absurd h (by decide)
  | element => cases hk
  | moreElements => cases hk
  | member => cases hk
  | moreMembers => cases hk
  | _ => exact key _ _ rfl (by decide)

/-- What a member function that consumes an element or a member must do. -/
structure ItemOk (o : JOptions) (env : HEnv) (n : Nat) (op : Opener) (k : List Opener) (after : Bytes)
    (kind : Kind) (I : Bytes → Marks → Prop) (item : PM Bool) : Prop where
  run : ∀ j es, n ≤ j → Good env j es (op :: k) → ExpectedAt o env.src false after j →
    tri (MemberWithoutName o env.src) item (Out o env j es (op :: k) fun u ms _ => I u ms) env
      (st env j es)
  one : ∀ {w1 m1 u mu w2 m2}, Ws true o.allowComments false w1 m1 → I u mu →
    Ws true o.allowComments false w2 m2 →
    Text true o kind (w1 ++ u ++ w2) (m1 ++ later w1.length mu ++ later (w1 ++ u).length m2)
  more : ∀ {a ma b mb}, Text true o kind a ma → Text true o kind b mb →
    Text true o kind (a ++ b!"," ++ b) (ma ++ later (a.length + 1) mb)
  unbroken : ∀ {u mu r}, I u mu → ¬ Broken (u ++ r)
  comma : c!"," ∈ after

/-- What the loop consumes after an element or a member. -/
def TailPost (o : JOptions) (kind : Kind) (close : UInt8) (pop : Payload) (u : Bytes) (ms : Marks)
    (_ : Bytes) : Prop :=
  ∃ w mw, Ws true o.allowComments false w mw ∧
    ((u = w ++ [close] ∧ ms = mw ++ [(w.length, pop)]) ∨
    ∃ m mm, Text true o kind m mm ∧ u = w ++ b!"," ++ m ++ [close] ∧
      ms = mw ++ later (w.length + 1) (mm ++ [(m.length, pop)]))

/-- What the loop consumes at the beginning. -/
def ListPost (o : JOptions) (kind : Kind) (close : UInt8) (pop : Payload) (u : Bytes) (ms : Marks)
    (_ : Bytes) : Prop :=
  (∃ w mw, Ws true o.allowComments false w mw ∧ u = w ++ [close] ∧ ms = mw ++ [(w.length, pop)]) ∨
  ∃ m mm, Text true o kind m mm ∧ u = m ++ [close] ∧ ms = mm ++ [(m.length, pop)]

/-- An element before what follows it. -/
theorem tail_combine {n : Nat} {op : Opener} {after : Bytes} {kind : Kind} {I : Bytes → Marks → Prop}
    {item : PM Bool} {close : UInt8} {pop : Payload} {w1 u t r : Bytes} {m1 mu mt : Marks}
    (hi : ItemOk o env n op k after kind I item) (h1 : Ws true o.allowComments false w1 m1)
    (hu : I u mu) (ht : TailPost o kind close pop t mt r) :
    ∃ m mm, Text true o kind m mm ∧ w1 ++ (u ++ t) = m ++ [close] ∧
      m1 ++ later w1.length (mu ++ later u.length mt) = mm ++ [(m.length, pop)] := by
  obtain ⟨w2, m2, h2, ⟨rfl, rfl⟩ | ⟨m, mm, hm, rfl, rfl⟩⟩ := ht
  · refine ⟨_, _, hi.one h1 hu h2, by simp, ?_⟩
    simp [later_append, later_later, later_cons, later_nil]
  · refine ⟨_, _, hi.more (hi.one h1 hu h2) hm, by simp, ?_⟩
    simp [later_append, later_later, later_cons, later_nil, Nat.add_assoc]
    omega

/-- Whitespace before the current position, after `p`. -/
structure WsBefore (o : JOptions) (env : HEnv) (i : Nat) (after : Bytes) : Prop where
  ex : ∃ p w ms, env.src.take i = p ++ w ∧ Ws true o.allowComments true w ms ∧
    (Ws true o.allowComments false w ms ∨ Broken (env.src.drop i)) ∧
    ∃ c ∈ after, p.getLast? = some c

theorem WsBefore.start {after p : Bytes} {c : UInt8} (hc : c ∈ after) (hp : p.getLast? = some c)
    (h : env.src.take i = p) : WsBefore o env i after :=
  ⟨p, [], [], by simp [h], .nil, Or.inl .nil, c, hc, hp⟩

theorem take_did {u r : Bytes} (h : env.src.drop i = u ++ r) :
    env.src.take (i + u.length) = env.src.take i ++ u := by
  rw [take_add_drop, take_of_drop h]

/-- Consuming more whitespace. -/
theorem WsBefore.ws {after w r : Bytes} {mw : Marks} (h : WsBefore o env i after)
    (hr : env.src.drop i = w ++ r) (hd : env.src.drop (i + w.length) = r)
    (hw : WsPost o.allowComments w mw r) : WsBefore o env (i + w.length) after := by
  obtain ⟨p, w0, m0, h1, h2, h3, h4⟩ := h.ex
  rcases h3 with h3 | h3
  · refine ⟨p, w0 ++ w, m0 ++ later w0.length mw, ?_, ws_append h3 hw.1, ?_, h4⟩
    · rw [take_did hr, h1]; simp
    · rw [hd]
      exact hw.2.1.imp (fun h' => ws_append h3 h') id
  · rw [hr] at h3
    obtain rfl := ws_broken hw.1 h3
    exact h

theorem WsBefore.expected {after : Bytes} (h : WsBefore o env i after) (hi : i ≤ env.src.length) :
    ExpectedAt o env.src false after i := by
  obtain ⟨p, w0, m0, h1, h2, _, h4⟩ := h.ex
  exact ⟨hi, p, w0, m0, h1, h2, Or.inr h4⟩

theorem ws_unbroken {w r : Bytes} {mw : Marks} {cm : Bool} (h : WsPost cm w mw r) (hb : ¬ Broken r) :
    Ws true cm false w mw := h.2.1.resolve_right hb

theorem list_loop_sound {n : Nat} {op : Opener} {after : Bytes} {kind : Kind}
    {I : Bytes → Marks → Prop} {item : PM Bool} {close : UInt8} {pop : Payload} {err : JError}
    (hi : ItemOk o env n op k after kind I item) (hop : op = .object ∨ op = .array)
    (hclose : close ≠ 0xE2 ∧ close ≠ 0x0A)
    (hpop : Nesting.next ⟨op :: k, false⟩ pop = some ⟨k, false⟩) (htext : textOf pop = none)
    (fuel : Nat) : ∀ (i : Nat) (es : List Event) (first : Bool), Good env i es (op :: k) → n ≤ i →
      (first = true → WsBefore o env i after) → env.src.length - i < fuel →
      tri (MemberWithoutName o env.src) (HM.loop fuel (listStep o [close] pop err item) first)
        (Out o env i es k (if first then ListPost o kind close pop else TailPost o kind close pop))
        env (st env i es) := by
  have hns : NotStr (op :: k) := by
    intro x hx
    simp at hx
    subst hx
    exact hop
  induction fuel with
  | zero => intro i es _ _ _ _ h; omega
  | succ fuel ih =>
    intro i es first g hn hf hlt
    refine tri_loop_succ ?_
    conv => arg 2; unfold listStep
    refine tri_bind (tri_of_wp ?_)
    rw [wp_eof]
    by_cases he : env.src.drop i = []
    · simp only [st_rem, he, List.isEmpty_nil, if_true]
      refine tri_of_wp ?_
      simp only [wp_bind]
      rw [wp_fail, wp_pure]
      exact g.fail
    · have he' : (st env i es).rem.isEmpty = false := by
        rw [st_rem]
        cases h : env.src.drop i with
        | nil => exact absurd h he
        | cons => rfl
      rw [he']
      simp only [Bool.false_eq_true, if_false]
      have hil : i < env.src.length := by
        have := List.length_pos_iff.2 he
        simp at this
        omega
      refine tri_bind (tri_of_wp (wp_mono (ws_sound hns g) ?_))
      intro b s1 ho
      cases b with
      | false =>
        simp only [Bool.not_false, if_true]
        exact tri_pure ho
      | true =>
        obtain ⟨w, mw, r, es1, rfl, hw, d1⟩ := ho
        have hle1 := d1.good.le
        simp only [Bool.not_true, Bool.false_eq_true, if_false]
        unfold listNext
        refine tri_rem ?_
        rw [st_rem, d1.rem]
        by_cases hc : startsWith r [close] = true
        · rw [if_pos hc]
          obtain ⟨t, rfl⟩ := startsWith_iff.1 hc
          refine tri_of_wp ?_
          simp only [wp_bind]
          rw [wp_visit, wp_one hle1 d1.rem hclose.2, wp_pure]
          have d2 := Did.visit d1.good d1.rem hpop (by intro _ t ht; rw [htext] at ht; cases ht)
          have hws := ws_unbroken hw (by
            rintro (h | h)
            · cases h
            · simp at h; exact hclose.1 h)
          refine Out.true (by simp [Nat.add_assoc]) ?_ (d1.trans d2)
          have e : mw ++ later w.length [(0, pop)] = mw ++ [(w.length, pop)] := by simp [later]
          rw [e]
          cases first with
          | true => exact Or.inl ⟨w, mw, hws, rfl, rfl⟩
          | false => exact ⟨w, mw, hws, Or.inl ⟨rfl, rfl⟩⟩
        · rw [if_neg hc]
          cases first with
          | true =>
            simp only [if_true]
            have hb := (hf rfl).ws d1.src d1.rem hw
            unfold again
            refine tri_bind (tri_mono (hi.run _ es1 (by omega) d1.good (hb.expected hle1)) ?_)
            intro b s2 ho
            cases b with
            | false =>
              simp only [Bool.false_eq_true, if_false]
              exact tri_pure ho
            | true =>
              obtain ⟨u, mu, r2, es2, rfl, hu, d2⟩ := ho
              simp only [if_true]
              refine tri_pure ?_
              have hub : ¬ Broken r := by
                rw [← d1.rem, d2.src]; exact hi.unbroken hu
              have hu0 : 0 < u.length := by
                cases u with
                | nil =>
                  exact absurd (Or.inl (by simp)) (hi.unbroken (r := []) hu)
                | cons => simp
              have := ih _ es2 false d2.good (by omega) (by simp) (by
                have := d2.good.le
                omega)
              refine tri_mono this ?_
              intro b s' ho
              simp only [Bool.false_eq_true, if_false] at ho
              refine d1.out (d2.out ho (Q := fun x mx r' => ∃ t mt, x = u ++ t ∧
                mx = mu ++ later u.length mt ∧ TailPost o kind close pop t mt r') ?_) ?_
              · intro t mt r' _ ht
                exact ⟨t, mt, rfl, rfl, ht⟩
              · rintro _ _ r' _ ⟨t, mt, rfl, rfl, ht⟩
                exact Or.inr (tail_combine hi (ws_unbroken hw hub) hu ht)
          | false =>
            simp only [Bool.false_eq_true, if_false]
            by_cases hcm : startsWith r b!"," = true
            · rw [if_pos hcm]
              obtain ⟨t, rfl⟩ := startsWith_iff.1 hcm
              have hws := ws_unbroken hw (by
                rintro (h | h)
                · cases h
                · simp at h)
              have d2 := Did.skip d1.good d1.rem
              refine tri_bind (tri_of_wp ?_)
              rw [wp_one hle1 d1.rem (by decide)]
              unfold again
              refine tri_bind ?_
              unfold afterWs
              have hb2 : WsBefore o env (i + w.length + 1) after :=
                .start hi.comma (p := env.src.take i ++ w ++ b!",") (by simp) (by
                  have := take_did d1.rem
                  simp at this
                  rw [this, take_did d1.src])
              refine tri_bind (tri_of_wp (wp_mono (ws_sound hns d2.good) ?_))
              intro b s3 ho
              cases b with
              | false =>
                simp only [Bool.false_eq_true, if_false]
                exact tri_pure (tri_pure ho)
              | true =>
                obtain ⟨w1, mw1, r3, es3, rfl, hw1, d3⟩ := ho
                simp only [if_true]
                have hb3 := hb2.ws d3.src d3.rem hw1
                refine tri_mono (hi.run _ es3 (by omega) d3.good (hb3.expected d3.good.le)) ?_
                intro b s4 ho
                cases b with
                | false =>
                  simp only [Bool.false_eq_true, if_false]
                  exact tri_pure ho
                | true =>
                  obtain ⟨u, mu, r4, es4, rfl, hu, d4⟩ := ho
                  simp only [if_true]
                  refine tri_pure ?_
                  have hub : ¬ Broken r3 := by
                    rw [← d3.rem, d4.src]; exact hi.unbroken hu
                  have := ih _ es4 false d4.good (by omega) (by simp) (by
                    have := d4.good.le
                    simp at this ⊢
                    omega)
                  refine tri_mono this ?_
                  intro b s' ho
                  simp only [Bool.false_eq_true, if_false] at ho
                  refine d1.out (d2.out (d3.out (d4.out ho (Q := fun x mx r' => ∃ t mt, x = u ++ t ∧
                    mx = mu ++ later u.length mt ∧ TailPost o kind close pop t mt r') ?_)
                    (Q := fun x mx r' => ∃ m mm, Text true o kind m mm ∧ x = m ++ [close] ∧
                      mx = mm ++ [(m.length, pop)]) ?_)
                    (Q := fun x mx r' => ∃ m mm, Text true o kind m mm ∧ x = b!"," ++ (m ++ [close]) ∧
                      mx = later 1 (mm ++ [(m.length, pop)])) ?_) ?_
                  · intro t mt r' _ ht
                    exact ⟨t, mt, rfl, rfl, ht⟩
                  · rintro _ _ r' _ ⟨t, mt, rfl, rfl, ht⟩
                    exact tail_combine hi (ws_unbroken hw1 hub) hu ht
                  · rintro _ _ r' _ ⟨m, mm, hm, rfl, rfl⟩
                    exact ⟨m, mm, hm, rfl, by simp⟩
                  · rintro _ _ r' _ ⟨m, mm, hm, rfl, rfl⟩
                    refine ⟨w, mw, hws, Or.inr ⟨m, mm, hm, by simp, ?_⟩⟩
                    rw [later_later]
            · rw [if_neg hcm]
              refine tri_of_wp ?_
              simp only [wp_bind]
              rw [wp_fail, wp_pure]
              exact d1.good.fail

end

/-! ## Values -/

section

variable {env : HEnv} {i : Nat} {es : List Event} {k : List Opener} {o : JOptions}

/-- What `consume_value` must do from the index `n` on. -/
def ValueOk (o : JOptions) (env : HEnv) (n : Nat) (value : PM Bool) : Prop :=
  ∀ j es k, n ≤ j → Good env j es k → NotStr k → ExpectedAt o env.src true b!"[,:" j →
    tri (MemberWithoutName o env.src) value (Out o env j es k fun u ms _ => Text true o .value u ms)
      env (st env j es)

/-- A member without the whitespace around it. -/
def IsMember (o : JOptions) (u : Bytes) (ms : Marks) : Prop :=
  ∃ n mn w2 m2 w3 m3 v mv, Content o.escapes n mn ∧ Ws true o.allowComments false w2 m2 ∧
    Ws true o.allowComments false w3 m3 ∧ Text true o .value v mv ∧
    u = (b!"\"" ++ n ++ b!"\"") ++ (w2 ++ (b!":" ++ (w3 ++ v))) ∧
    ms = ((0, .pushProperty) :: later 1 mn ++ [(n.length + 1, .popProperty)]) ++
      later (b!"\"" ++ n ++ b!"\"").length (m2 ++ later w2.length (later 1 (m3 ++ later w3.length mv)))

theorem ExpectedAt.weaken {src after after' : Bytes} {b : Bool} (h : ExpectedAt o src false after i)
    (ha : ∀ c ∈ after, c ∈ after') : ExpectedAt o src b after' i := by
  obtain ⟨h1, p, w, ms, h2, h3, h4⟩ := h
  refine ⟨h1, p, w, ms, h2, h3, ?_⟩
  rcases h4 with ⟨h, _⟩ | ⟨c, hc, hp⟩
  · cases h
  · exact Or.inr ⟨c, ha c hc, hp⟩

theorem member_sound {n : Nat} {value : PM Bool} (hv : ValueOk o env n value) (hn : n ≤ i)
    (g : Good env i es (.object :: k)) (he : ExpectedAt o env.src false b!"{," i) :
    tri (MemberWithoutName o env.src) (consumeMember o value)
      (Out o env i es (.object :: k) fun u ms _ => IsMember o u ms) env (st env i es) := by
  have hns : NotStr (.object :: k) := by
    intro x hx
    simp at hx
    exact Or.inl hx.symm
  unfold consumeMember
  by_cases hq : ∃ t, env.src.drop i = c!"\"" :: t
  · obtain ⟨t, ht⟩ := hq
    refine tri_bind (tri_of_wp (wp_mono (string_sound (prop := true) g (by simp) ht) ?_))
    intro b s1 ho
    cases b with
    | false => exact tri_pure ho
    | true =>
      obtain ⟨u, mu, r1, es1, rfl, ⟨c, mc, rfl, hc, rfl⟩, d1⟩ := ho
      simp only [Bool.not_true, Bool.false_eq_true, if_false]
      refine tri_bind (tri_of_wp (wp_mono (ws_sound hns d1.good) ?_))
      intro b s2 ho
      cases b with
      | false => exact tri_pure ho
      | true =>
        obtain ⟨w2, m2, r2, es2, rfl, hw2, d2⟩ := ho
        simp only [Bool.not_true, Bool.false_eq_true, if_false]
        refine tri_rem ?_
        rw [st_rem, d2.rem]
        by_cases hcol : startsWith r2 b!":" = true
        · rw [hcol]
          simp only [Bool.not_true, Bool.false_eq_true, if_false]
          obtain ⟨t2, rfl⟩ := startsWith_iff.1 hcol
          have hws2 := ws_unbroken hw2 (by
            rintro (h | h)
            · cases h
            · simp at h)
          have d3 := Did.skip d2.good d2.rem
          refine tri_bind (tri_of_wp ?_)
          rw [wp_one d2.good.le d2.rem (by decide)]
          refine tri_bind (tri_of_wp (wp_mono (ws_sound hns d3.good) ?_))
          intro b s4 ho
          cases b with
          | false => exact tri_pure ho
          | true =>
            obtain ⟨w3, m3, r4, es4, rfl, hw3, d4⟩ := ho
            simp only [Bool.not_true, Bool.false_eq_true, if_false]
            refine tri_rem ?_
            rw [st_rem, d4.rem]
            by_cases hend : (r4.isEmpty || startsWith r4 b!"}" || startsWith r4 b!",") = true
            · rw [if_pos hend]
              refine tri_of_wp ?_
              rw [wp_fail]
              exact d4.good.fail
            · rw [if_neg hend]
              have hexp : WsBefore o env (i + (b!"\"" ++ c ++ b!"\"").length + w2.length + 1) b!"[,:" :=
                .start (c := c!":") (by simp)
                  (p := env.src.take i ++ (b!"\"" ++ c ++ b!"\"") ++ w2 ++ b!":")
                  (by rw [List.getLast?_append]; simp) (by
                  have := take_did d2.rem
                  simp only [List.length_cons, List.length_nil, Nat.zero_add] at this
                  rw [this, take_did d2.src, take_did d1.src])
              have hexp2 := hexp.ws d4.src d4.rem hw3
              refine tri_mono (hv _ es4 _ (by omega) d4.good hns
                (ExpectedAt.weaken (hexp2.expected d4.good.le) fun _ h => h)) ?_
              intro b s' ho
              refine d1.out (d2.out (d3.out (d4.out ho (Q := fun x mx _ => ∃ v mv,
                  Text true o .value v mv ∧ Ws true o.allowComments false w3 m3 ∧ x = w3 ++ v ∧
                  mx = m3 ++ later w3.length mv) ?_)
                (Q := fun x mx _ => ∃ v mv,
                  Text true o .value v mv ∧ Ws true o.allowComments false w3 m3 ∧
                  x = b!":" ++ (w3 ++ v) ∧ mx = later 1 (m3 ++ later w3.length mv)) ?_)
                (Q := fun x mx _ => ∃ v mv,
                  Text true o .value v mv ∧ Ws true o.allowComments false w3 m3 ∧
                  x = w2 ++ (b!":" ++ (w3 ++ v)) ∧
                  mx = m2 ++ later w2.length (later 1 (m3 ++ later w3.length mv))) ?_) ?_
              · intro v mv r' e hv
                refine ⟨v, mv, hv, ws_unbroken hw3 ?_, rfl, rfl⟩
                rw [e]
                exact text_unbroken hv
              · rintro _ _ r' _ ⟨v, mv, h1, h2, rfl, rfl⟩
                exact ⟨v, mv, h1, h2, rfl, by simp⟩
              · rintro _ _ r' _ ⟨v, mv, h1, h2, rfl, rfl⟩
                exact ⟨v, mv, h1, h2, rfl, rfl⟩
              · rintro _ _ r' _ ⟨v, mv, h1, h2, rfl, rfl⟩
                exact ⟨c, mc, w2, m2, w3, m3, v, mv, hc, hws2, h2, h1, rfl, rfl⟩
        · rw [if_pos (by simpa using hcol)]
          refine tri_of_wp ?_
          rw [wp_fail]
          exact d2.good.fail
  · have hs : (!startsWith (env.src.drop i) b!"\"") = true := by
      cases h : env.src.drop i with
      | nil => simp
      | cons c t =>
        simp
        intro hc
        subst hc
        exact hq ⟨t, h⟩
    have : consumeString o true env (st env i es) =
        .error (if env.debug then .assert else .unreachable) := by
      simp only [consumeString, bind, HM.bind, HM.rem, st_rem, hs, if_true, debugUnreachable]
    unfold tri
    simp only [bind, HM.bind, this, true_and]
    refine ⟨i, he, ?_⟩
    intro h
    cases hd : env.src.drop i with
    | nil => rw [hd] at h; cases h
    | cons c t =>
      rw [hd] at h
      simp at h
      subst h
      exact hq ⟨t, hd⟩

theorem member_item {n : Nat} {value : PM Bool} (hv : ValueOk o env n value) :
    ItemOk o env n .object k b!"{," .members (IsMember o) (consumeMember o value) where
  run := fun j es hn g he => member_sound hv hn g he
  one := by
    rintro w1 m1 u mu w4 m4 h1 ⟨n, mn, w2, m2, w3, m3, v, mv, hc, h2, h3, hv, rfl, rfl⟩ h4
    have := Text.member h1 hc h2 h3 hv h4
    have e1 : w1 ++ (b!"\"" ++ n ++ b!"\"") ++ w2 ++ b!":" ++ w3 ++ v ++ w4 =
      w1 ++ ((b!"\"" ++ n ++ b!"\"") ++ (w2 ++ (b!":" ++ (w3 ++ v)))) ++ w4 := by simp
    rw [e1] at this
    refine cast ?_ this
    congr 1
    simp [later_append, later_later, later_cons, later_nil, Nat.add_assoc, Nat.add_left_comm, Nat.add_comm]
    done
  more := Text.moreMembers
  unbroken := by
    rintro u mu r ⟨n, mn, w2, m2, w3, m3, v, mv, hc, h2, h3, hv, rfl, rfl⟩ (h | h)
    · simp at h
    · simp at h
  comma := by simp

theorem value_item {n : Nat} {value : PM Bool} (hv : ValueOk o env n value) :
    ItemOk o env n .array k b!"[," .elements (Text true o .value) value where
  run := fun j es hn g he => hv j es _ hn g (by
    intro x hx
    simp at hx
    exact Or.inr hx.symm) (ExpectedAt.weaken he (by simp))
  one := Text.element
  more := Text.moreElements
  unbroken := text_unbroken
  comma := by simp

theorem next_value {p : Payload} (hk : NotStr k)
    (hp : p = .null ∨ (∃ b, p = .boolean b) ∨ (∃ t, p = .number t) ∨ ∃ t a, p = .numberValue t a) :
    Nesting.next ⟨k, false⟩ p = some ⟨k, false⟩ := by
  cases k with
  | nil => rcases hp with rfl | ⟨t, rfl⟩ | ⟨t, rfl⟩ | ⟨t, a, rfl⟩ <;> rfl
  | cons x k =>
    rcases hk x rfl with rfl | rfl <;>
      rcases hp with rfl | ⟨t, rfl⟩ | ⟨t, rfl⟩ | ⟨t, a, rfl⟩ <;> rfl

theorem wp_read {α : Type} {f : Bytes → PM α} {Q : α → HS Ext → Prop}
    (h : wp (f (env.src.drop i)) Q env (st env i es)) :
    wp (HM.rem >>= f) Q env (st env i es) := by
  rw [wp_bind, wp_rem, st_rem]
  exact h

theorem literal_sound {text : Bytes} {p : Payload} (hk : NotStr k) (g : Good env i es k)
    (hex : ExpectedAt o env.src true b!"[,:" i)
    (hp : p = .null ∨ ∃ b, p = .boolean b) (ht : Text true o .value text [(0, p)])
    (hl : text ∈ [b!"true", b!"false", b!"null"]) {c : UInt8} {t : Bytes}
    (hc : env.src.drop i = c :: t) (hh : ∃ x, text = c :: x)
    (hcm : c ∈ b!"tfn") :
    wp (literal text p) (Out o env i es k fun u ms _ => Text true o .value u ms) env (st env i es) := by
  have hn : Nesting.next ⟨k, false⟩ p = some ⟨k, false⟩ :=
    next_value hk (hp.imp_right fun h => Or.inl h)
  have htx : textOf p = none := by
    rcases hp with rfl | ⟨b, rfl⟩ <;> rfl
  unfold literal
  refine wp_read ?_
  by_cases hs : startsWith (env.src.drop i) text = true
  · rw [if_pos hs]
    obtain ⟨r, hr⟩ := startsWith_iff.1 hs
    simp only [wp_bind]
    rw [wp_visit, wp_same (le_of_drop g.le hr) (by
      rw [take_of_drop hr]
      simp at hl
      rcases hl with rfl | rfl | rfl <;> decide), wp_pure]
    exact Out.true rfl ht (Did.visit g hr hn (by intro _ t h; rw [htx] at h; cases h))
  · rw [if_neg hs, wp_pure]
    refine Out.false (g.quiet ⟨i, hex, Or.inr ⟨⟨c, hcm, by rw [hc]; rfl⟩, ?_⟩⟩)
    intro l hl' hpre
    apply hs
    rw [startsWith_iff]
    obtain ⟨x, rfl⟩ := hh
    obtain ⟨y, hy⟩ := hpre
    have : l = c :: x := by
      rw [hc] at hy
      simp at hl hl'
      rcases hl with ⟨rfl, rfl⟩ | ⟨rfl, rfl⟩ | ⟨rfl, rfl⟩ <;>
        rcases hl' with rfl | rfl | rfl <;> simp at hy ⊢
    exact ⟨y, by rw [← hy, this]⟩

theorem number_sound (hk : NotStr k) (g : Good env i es k) :
    wp (consumeNumber o) (Out o env i es k fun u ms _ => Text true o .value u ms) env
      (st env i es) := by
  unfold consumeNumber
  refine wp_read ?_
  by_cases h0 : (matchNumber (env.src.drop i)).length = 0 ∨
      (matchNumber (env.src.drop i)).erroneous = true
  · rw [if_pos h0, wp_fail]
    exact g.fail
  · rw [if_neg h0]
    have h0' := not_or.1 h0
    obtain ⟨h1, _, h3⟩ := matchNumber_spec (env.src.drop i)
    have hnum := h3 h0'.1 (by simpa using h0'.2)
    generalize hu : (env.src.drop i).take (matchNumber (env.src.drop i)).length = u at hnum
    have hr : env.src.drop i = u ++ (env.src.drop i).drop (matchNumber (env.src.drop i)).length := by
      rw [← hu, List.take_append_drop]
    have hl : (matchNumber (env.src.drop i)).length = u.length := by
      rw [← hu]; simp at h1 ⊢; omega
    have hnl : (0x0A : UInt8) ∉ u := by
      intro hm
      obtain ⟨m, n, f, e, rfl, hm', ⟨⟨_, hd⟩, _⟩, hf, he⟩ := hnum
      simp only [List.mem_append] at hm
      rcases hm with ((hm | hm) | hm) | hm
      · simp at hm'
        rcases hm' with rfl | rfl <;> simp at hm
      · exact absurd (hd _ hm) (by decide)
      · rcases hf with rfl | ⟨ds, rfl, _, hd⟩
        · cases hm
        · simp at hm
          exact absurd (hd _ hm) (by decide)
      · rcases he with rfl | ⟨x, sg, ds, rfl, hx, hsg, _, hd⟩
        · cases hm
        · simp at hm hx hsg
          rcases hm with hm | hm | hm
          · rw [← hm] at hx; simp at hx
          · rcases hsg with rfl | rfl | rfl <;> simp at hm
          · exact absurd (hd _ hm) (by decide)
    simp only [wp_bind]
    rw [hl]
    have key : ∀ p, IsNumber o.parseNumbers u p → (∃ t, p = .number t) ∨ (∃ t a, p = .numberValue t a) →
        wp (visit p) (fun _ s' => wp (advanceSame u.length) (fun _ s' => wp (pure true : PM Bool)
          (Out o env i es k fun u ms _ => Text true o .value u ms) env s') env s') env
          (st env i es) := by
      intro p hp hp'
      rw [wp_visit, wp_same (le_of_drop g.le hr) (by rw [take_of_drop hr]; exact hnl), wp_pure]
      refine Out.true rfl (.number hnum hp) (Did.visit g hr (next_value hk (Or.inr (Or.inr hp'))) ?_)
      intro _ t ht
      have : t = u := by
        unfold IsNumber at hp
        split at hp
        · obtain ⟨a, rfl⟩ := hp
          simp [textOf] at ht
          exact ht.symm
        · subst hp
          simp [textOf] at ht
          exact ht.symm
      rw [this]
      exact occursAt_drop g.le hr
    cases hpn : o.parseNumbers with
    | true =>
      simp only [if_true]
      exact key _ (by simp [IsNumber, hpn]) (Or.inr ⟨_, _, rfl⟩)
    | false =>
      simp only [Bool.false_eq_true, if_false]
      exact key _ (by simp [IsNumber, hpn]) (Or.inl ⟨_, rfl⟩)

end

/-! ## The document -/

section

variable {env : HEnv} {i : Nat} {es : List Event} {k : List Opener} {o : JOptions}

theorem elements_ws {kd : Kind} {m w : Bytes} {mm mw : Marks} (hw : Ws true o.allowComments false w mw)
    (h : Text true o kd m mm) (hk : kd = .elements) :
    Text true o .elements (w ++ m) (mw ++ later w.length mm) := by
  induction h with
  | element h1 hv h2 =>
    have := Text.element (ws_append hw h1) hv h2
    refine cast ?_ this
    congr 1 <;> simp [later_append, later_later]
  | moreElements h1 h2 ih1 ih2 =>
    have := Text.moreElements (ih1 hk) h2
    refine cast ?_ this
    congr 1 <;> simp [later_append, later_later, Nat.add_assoc]
  | _ => cases hk

theorem elements_unbroken {kd : Kind} {m : Bytes} {mm : Marks} (h : Text true o kd m mm)
    (hk : kd = .elements) (r : Bytes) : ¬ Broken (m ++ r) := by
  induction h generalizing r with
  | @element w1 m1 v mv w2 m2 h1 hv h2 =>
    intro hb
    rw [List.append_assoc, List.append_assoc] at hb
    obtain rfl := ws_broken h1 hb
    exact text_unbroken hv hb
  | @moreElements a ma b mb h1 h2 ih1 ih2 =>
    rw [List.append_assoc, List.append_assoc]
    exact ih1 hk _
  | _ => cases hk

theorem list_ws {w u r : Bytes} {mw mu : Marks} (hw : WsPost o.allowComments w mw (u ++ r))
    (hu : ListPost o .elements c!"]" .popArray u mu r) :
    ListPost o .elements c!"]" .popArray (w ++ u) (mw ++ later w.length mu) r := by
  rcases hu with ⟨w2, m2, h2, rfl, rfl⟩ | ⟨m, mm, hm, rfl, rfl⟩
  · have hws := ws_unbroken hw (by
      intro hb
      rw [List.append_assoc] at hb
      obtain rfl := ws_broken h2 hb
      rcases hb with h | h <;> simp at h)
    exact Or.inl ⟨_, _, ws_append hws h2, by simp, by simp [later_append, later_cons, later_nil]⟩
  · have hws := ws_unbroken hw (by
      rw [List.append_assoc]
      exact elements_unbroken hm rfl _)
    exact Or.inr ⟨_, _, elements_ws hws hm rfl, by simp,
      by simp [later_append, later_cons, later_nil]⟩

theorem value_sound (fuel : Nat) : ∀ n, env.src.length - n < fuel →
    ValueOk o env n (consumeValue o fuel) := by
  induction fuel with
  | zero => intro n h; omega
  | succ fuel ih =>
    intro n hlt j es k hn g hk hex
    have hjl := g.le
    unfold consumeValue
    refine tri_rem ?_
    rw [st_rem]
    cases hd : env.src.drop j with
    | nil =>
      exact tri_pure (Out.false (g.quiet ⟨j, hex, Or.inl hd⟩))
    | cons c t =>
      have hj : j < env.src.length := by
        have := congrArg List.length hd
        simp at this
        omega
      simp only
      by_cases c1 : c = c!"\""
      · subst c1
        rw [if_pos rfl]
        refine tri_of_wp (wp_mono (string_sound (prop := false) g
          (by intro x hx; rcases hk x hx with rfl | rfl <;> simp) hd) ?_)
        intro b s' ho
        refine ho.mono ?_
        rintro u ms r ⟨c, mc, rfl, hc, rfl⟩
        exact .string hc
      rw [if_neg c1]
      by_cases c2 : c = c!"["
      · subst c2
        rw [if_pos rfl]
        unfold consumeArray
        refine tri_rem ?_
        refine tri_bind (tri_of_wp ?_)
        rw [wp_visit]
        refine tri_bind (tri_of_wp ?_)
        rw [wp_one hjl hd (by decide)]
        have d1 : Did env j es (.array :: k) b!"[" _ t _ := Did.visit (p := .pushArray) g hd (by
          cases k with
          | nil => rfl
          | cons x k => rcases hk x rfl with rfl | rfl <;> rfl) (by simp [textOf])
        have hns : NotStr (.array :: k) := by
          intro x hx; simp at hx; exact Or.inr hx.symm
        have hb : WsBefore o env (j + 1) b!"[," :=
          .start (c := c!"[") (by simp) (p := env.src.take j ++ b!"[") (by simp)
            (take_did (u := b!"[") hd)
        refine tri_bind (tri_of_wp (wp_mono (ws_sound hns d1.good) ?_))
        intro b s2 ho
        cases b with
        | false => exact tri_pure ho
        | true =>
          obtain ⟨w, mw, r, es2, rfl, hw, d2⟩ := ho
          have hle2 := d2.good.le
          simp only [Bool.not_true, Bool.false_eq_true, if_false]
          have hle2' : j + 1 + w.length ≤ env.src.length := hle2
          refine tri_mono (list_loop_sound (value_item (ih (j + 1) (by omega)))
            (Or.inr rfl) (by decide) rfl rfl _ (j + 1 + w.length) es2 true d2.good (by omega)
            (fun _ => hb.ws d2.src d2.rem hw) (by rw [st_rem]; simp; omega)) ?_
          intro b s' ho
          refine d1.out (d2.out ho (Q := ListPost o .elements c!"]" .popArray) ?_) ?_
          · intro v mv r' e hv
            subst e
            exact list_ws hw hv
          · intro v mv r' e hv
            rcases hv with ⟨w, mw, hw, rfl, rfl⟩ | ⟨m, mm, hm, rfl, rfl⟩
            · refine cast ?_ (Text.emptyArray (ff := true) (o := o) hw)
              congr 1
              simp [later_append, later_cons, later_nil, Nat.add_comm]
            · refine cast ?_ (Text.array (ff := true) (o := o) hm)
              congr 1
              simp [later_append, later_cons, later_nil, Nat.add_comm]
      rw [if_neg c2]
      by_cases c3 : c = c!"{"
      · subst c3
        rw [if_pos rfl]
        unfold consumeObject
        refine tri_rem ?_
        refine tri_bind (tri_of_wp ?_)
        rw [wp_visit]
        refine tri_bind (tri_of_wp ?_)
        rw [wp_one hjl hd (by decide)]
        have d1 : Did env j es (.object :: k) b!"{" _ t _ := Did.visit (p := .pushObject) g hd (by
          cases k with
          | nil => rfl
          | cons x k => rcases hk x rfl with rfl | rfl <;> rfl) (by simp [textOf])
        have hb : WsBefore o env (j + 1) b!"{," :=
          .start (c := c!"{") (by simp) (p := env.src.take j ++ b!"{") (by simp)
            (take_did (u := b!"{") hd)
        refine tri_mono (list_loop_sound (member_item (ih (j + 1) (by omega)))
          (Or.inl rfl) (by decide) rfl rfl _ (j + 1) _ true d1.good (by omega)
          (fun _ => hb) (by rw [st_rem]; simp; omega)) ?_
        intro b s' ho
        refine d1.out ho ?_
        intro v mv r' e hv
        rcases hv with ⟨w, mw, hw, rfl, rfl⟩ | ⟨m, mm, hm, rfl, rfl⟩
        · refine cast ?_ (Text.emptyObject (ff := true) (o := o) hw)
          congr 1
          simp [later_append, later_cons, later_nil, Nat.add_comm]
        · refine cast ?_ (Text.object (ff := true) (o := o) hm)
          congr 1
          simp [later_append, later_cons, later_nil, Nat.add_comm]
      rw [if_neg c3]
      split
      · exact tri_of_wp (number_sound hk g)
      by_cases c5 : c = c!"t"
      · subst c5
        rw [if_pos rfl]
        exact tri_of_wp (literal_sound hk g hex (Or.inr ⟨_, rfl⟩) .true_ (by simp) hd ⟨_, rfl⟩
          (by simp))
      rw [if_neg c5]
      by_cases c6 : c = c!"f"
      · subst c6
        rw [if_pos rfl]
        exact tri_of_wp (literal_sound hk g hex (Or.inr ⟨_, rfl⟩) .false_ (by simp) hd ⟨_, rfl⟩
          (by simp))
      rw [if_neg c6]
      by_cases c7 : c = c!"n"
      · subst c7
        rw [if_pos rfl]
        exact tri_of_wp (literal_sound hk g hex (Or.inl rfl) .null (by simp) hd ⟨_, rfl⟩
          (by simp))
      rw [if_neg c7]
      refine tri_of_wp ?_
      rw [wp_fail]
      exact g.fail

theorem run_sound (g : Good env 0 [] []) :
    tri (MemberWithoutName o env.src) (run o)
      (Out o env 0 [] [] fun u ms _ => Document true o u ms) env (st env 0 []) := by
  have hns : NotStr [] := by intro x hx; cases hx
  unfold run
  refine tri_bind (tri_of_wp (wp_mono (ws_sound hns g) ?_))
  intro b s1 ho
  cases b with
  | false => exact tri_pure ho
  | true =>
    obtain ⟨w, mw, r, es1, rfl, hw, d1⟩ := ho
    simp only [if_true]
    refine tri_rem ?_
    rw [st_rem]
    have hex : ExpectedAt o env.src true b!"[,:" (0 + w.length) := by
      refine ⟨d1.good.le, [], w, mw, ?_, hw.1, Or.inl ⟨rfl, rfl⟩⟩
      have := take_did d1.src
      simpa using this
    refine tri_bind (tri_mono (value_sound _ (0 + w.length) (by simp) _ _ _ (Nat.le_refl _)
      d1.good hns hex) ?_)
    intro b s2 ho
    cases b with
    | false => exact tri_pure ho
    | true =>
      obtain ⟨v, mv, r2, es2, rfl, hv, d2⟩ := ho
      simp only [if_true]
      refine tri_of_wp (wp_mono (ws_sound hns d2.good) ?_)
      intro b s3 ho
      refine d1.out (d2.out ho (Q := fun u ms _ => ∃ v mv w2 m2, Text true o .value v mv ∧
        Ws true o.allowComments true w2 m2 ∧ u = v ++ w2 ∧ ms = mv ++ later v.length m2) ?_) ?_
      · intro w2 m2 r' e h2
        exact ⟨v, mv, w2, m2, hv, h2.1, rfl, rfl⟩
      · rintro _ _ r' rfl ⟨v, mv, w2, m2, hv, h2, rfl, rfl⟩
        have hws := ws_unbroken hw (by
          rw [List.append_assoc]
          exact text_unbroken hv)
        have := Document.mk hws hv h2
        refine cast ?_ this
        congr 1 <;> simp [later_append, later_later]

end

end Ulight.Json.Parser
