import Verif.Props.Dispatch

/-!
# Tokens and characters in EBNF

Each byte outside of ASCII that is neither in a comment nor in a string gets an error token of its own, but all
of these are coalesced.
-/

namespace Ulight

open Spec Utf8

/-- A token consists of whole characters. -/
def WholeToken (src : Bytes) (t : Token) : Prop :=
  IsUtf8 (src.take t.beg) ∧ IsUtf8 ((src.drop t.beg).take t.len) ∧ IsUtf8 (src.drop (t.beg + t.len))

theorem isUtf8_cancel {a b : Bytes} (ha : IsUtf8 a) (h : IsUtf8 (a ++ b)) : IsUtf8 b := by
  obtain ⟨cs, hcs, rfl⟩ := ha
  induction cs with
  | nil => simpa [utf8All] using h
  | cons c cs ih =>
    refine ih (fun x hx => hcs x (by simp [hx])) ((isUtf8_cons_iff (enc_utf8 (hcs c (by simp)))).1 ?_)
    simpa [utf8All] using h

/-! ## Error tokens are always coalesced -/

namespace Ebnf

open Spec.Ebnf

/-- Error tokens are emitted so that they are always coalesced. -/
def Forced (out : List Emit) : Prop := ∀ e ∈ out, e.ty = .error → e.mode = .forced

/-- A program emits no other error tokens. -/
def Keeps {α : Type} (m : HM St α) : Prop :=
  ∀ env s a s', m env s = .ok (a, s') → Forced s.out → Forced s'.out

variable {α β : Type}

theorem keeps_pure (a : α) : Keeps (pure a : HM St α) := by
  intro env s a s' h
  cases h
  exact id

theorem keeps_bind {m : HM St α} {f : α → HM St β} (h : Keeps m) (hf : ∀ a, Keeps (f a)) : Keeps (m >>= f) := by
  intro env s b s' hr ho
  change HM.bind m f env s = _ at hr
  unfold HM.bind at hr
  split at hr
  · rename_i a s1 h1
    exact hf a _ _ _ _ hr (h _ _ _ _ h1 ho)
  · simp at hr

theorem keeps_rem : Keeps HM.rem := by
  intro env s a s' h
  cases h
  exact id

theorem keeps_get : Keeps HM.get := by
  intro env s a s' h
  cases h
  exact id

theorem keeps_set (x : St) : Keeps (HM.set x) := by
  intro env s a s' h
  cases h
  exact id

theorem keeps_index : Keeps HM.index := by
  intro env s a s' h
  cases h
  exact id

theorem keeps_hassert (c : Bool) : Keeps (HM.hassert c) := by
  intro env s a s' h
  unfold HM.hassert at h
  split at h
  · cases h; exact id
  · simp at h

theorem keeps_advance (n : Nat) : Keeps (HM.advance n) := by
  intro env s a s' h
  unfold HM.advance at h
  split at h
  · cases h; exact id
  · simp at h

theorem keeps_emit {b n : Nat} {ty : HT} {mode : Mode} (hm : ty = .error → mode = .forced) :
    Keeps (HM.emit b n ty mode) := by
  intro env s a s' h ho
  unfold HM.emit at h
  split at h
  · simp at h
  · cases h
    intro e he
    simp only [List.mem_append, List.mem_singleton] at he
    rcases he with he | rfl
    · exact ho e he
    · exact hm

theorem keeps_emitAdv {n : Nat} {ty : HT} {mode : Mode} (hm : ty = .error → mode = .forced) :
    Keeps (HM.emitAdv n ty mode) :=
  keeps_bind keeps_index fun _ => keeps_bind (keeps_emit hm) fun _ => keeps_advance _

theorem keeps_ite {c : Prop} [Decidable c] {a b : HM St α} (h : Keeps a) (h' : Keeps b) :
    Keeps (if c then a else b) := by
  split
  · exact h
  · exact h'

theorem keeps_emitAdvIf {n : Nat} {ty : HT} {mode : Mode} (hm : ty = .error → mode = .forced) :
    Keeps (HM.emitAdvIf n ty mode) := keeps_ite (keeps_emitAdv hm) (keeps_pure _)

theorem keeps_loop {body : β → HM St (β ⊕ α)} (h : ∀ b, Keeps (body b)) (fuel : Nat) (b : β) :
    Keeps (HM.loop fuel body b) := by
  induction fuel generalizing b with
  | zero => intro env s a s' h; simp [HM.loop, HM.fault] at h
  | succ n ih =>
    refine keeps_bind (h b) fun r => ?_
    cases r with
    | inl b' => exact ih b'
    | inr a => exact keeps_pure a

/-- Apply the rules above as often as possible. -/
macro "keeps" : tactic => `(tactic| repeat' with_reducible first
  | assumption | exact keeps_pure _ | exact keeps_rem | exact keeps_get | exact keeps_set _ | exact keeps_hassert _
  | exact keeps_advance _ | exact keeps_emitAdv (by first | decide | assumption | simp)
  | exact keeps_emitAdvIf (by first | decide | assumption) | refine keeps_bind ?_ fun _ => ?_ | refine keeps_ite ?_ ?_
  | split | dsimp only)

theorem keeps_delimited {o c : Bytes} {t1 t2 t3 : HT} (h1 : t1 = .error → Mode.normal = .forced)
    (h2 : t2 = .error → Mode.normal = .forced) (h3 : t3 = .error → Mode.normal = .forced) :
    Keeps (consumeDelimited o c t1 t2 t3) := by
  unfold consumeDelimited
  keeps

theorem keeps_rightEmit {n : Nat} {ty : HT} (h : ty = .error → Mode.normal = .forced) : Keeps (rightEmit n ty) := by
  unfold rightEmit
  keeps

theorem keeps_dispatch (prev c : UInt8) (r : Bytes) : Keeps (dispatch prev c r) := by
  have hd : Keeps digit := by unfold digit; keeps
  have hl : Keeps letter := by unfold letter; keeps
  have hr {n : Nat} : Keeps (rightEmit n .symbol_op) := keeps_rightEmit (by decide)
  have h1 {n : Nat} : Keeps (rightEmit n .symbol_parens) := keeps_rightEmit (by decide)
  have h2 {n : Nat} : Keeps (rightEmit n .symbol_brace) := keeps_rightEmit (by decide)
  have h3 {n : Nat} : Keeps (rightEmit n .symbol_square) := keeps_rightEmit (by decide)
  have h4 {n : Nat} : Keeps (rightEmit n .symbol_punc) := keeps_rightEmit (by decide)
  have hh : Keeps (hyphen prev) := by
    unfold hyphen
    keeps
    all_goals exact hr
  have hc : Keeps consumeComment := keeps_delimited (by decide) (by decide) (by decide)
  have hs (q : UInt8) : Keeps (consumeString q) := keeps_delimited (by decide) (by decide) (by decide)
  have hm : Keeps consumeSpecialSequence := by
    unfold consumeSpecialSequence
    keeps
  unfold dispatch
  keeps
  all_goals first | exact hs _ | exact hr | exact h1 | exact h2 | exact h3 | exact h4

theorem forced {debug : Bool} {opts : Opts} {src : Bytes} {good : Bool} {es : List Emit}
    (h : highlight debug opts src = .ok (good, es)) : Forced es := by
  have key : Keeps run := by
    unfold run
    refine keeps_bind keeps_rem fun r => keeps_bind (keeps_loop (fun prev => ?_) _ _) fun _ => keeps_pure _
    unfold step
    refine keeps_bind keeps_rem fun r => ?_
    cases r with
    | nil => exact keeps_pure _
    | cons c t => exact keeps_bind (keeps_dispatch _ _ _) fun _ => keeps_pure _
  unfold highlight HM.run HM.runAll at h
  split at h
  · rename_i g s hr
    simp only [Except.ok.injEq, Prod.mk.injEq] at h
    obtain ⟨_, rfl⟩ := h
    exact key _ _ _ _ hr (by intro e he; simp at he)
  · simp at h

/-! ## Tokens between which a character is split are joined -/

/-- A position within a character. -/
def Cut (src : Bytes) (p : Nat) : Prop := ∃ b, src[p]? = some b ∧ 0x80 ≤ b.toNat ∧ b.toNat < 0xC0

theorem not_cut_at {src s : Bytes} {p k : Nat} {c : UInt8} (hs : src.drop p = s) (hk : s[k]? = some c)
    (hc : c.toNat < 0x80) : ¬ Cut src (p + k) := by
  rintro ⟨b, hb, h1, _⟩
  rw [← hs, List.getElem?_drop, hb] at hk
  cases hk
  omega

theorem not_cut_end {src s : Bytes} {p k : Nat} (hs : src.drop p = s) (hk : s.length ≤ k) : ¬ Cut src (p + k) := by
  rintro ⟨b, hb, _⟩
  have := List.getElem?_drop (xs := src) (i := p) (j := k)
  rw [hb, hs, List.getElem?_eq_none hk] at this
  simp at this

theorem not_cut_after {src s : Bytes} {p k : Nat} {c : UInt8} (hu : IsUtf8 src) (hs : src.drop p = s)
    (hk : s[k]? = some c) (hc : c.toNat < 0x80) : ¬ Cut src (p + (k + 1)) := by
  rintro ⟨b, hb, h1, h2⟩
  rw [← hs, List.getElem?_drop] at hk
  have h3 := (isUtf8_boundary hu hk (Or.inl hc)).2
  have hlt : p + k < src.length := by
    rw [List.getElem?_eq_some_iff] at hk
    exact hk.1
  have e : src.drop (p + k) = c :: src.drop (p + (k + 1)) := by
    rw [← Nat.add_assoc, List.drop_eq_getElem_cons hlt]
    rw [List.getElem?_eq_some_iff] at hk
    rw [hk.2]
  rw [e] at h3
  have h4 := (isUtf8_cons_iff (.one c hc)).1 h3
  have h5 : src.drop (p + (k + 1)) = b :: src.drop (p + (k + 1) + 1) := by
    rw [List.getElem?_eq_some_iff] at hb
    obtain ⟨hl, hb⟩ := hb
    rw [List.drop_eq_getElem_cons hl, hb]
  rw [h5] at h4
  have := isUtf8_head h4
  omega

/-- From position `p` on, a token after a split character continues an error token. -/
def Joined (src : Bytes) : Nat → List Token → Prop
  | p, [] => ¬ Cut src p
  | p, t :: ts => (Cut src p → t.beg = p ∧ t.ty = .error) ∧ (¬ Cut src p → ¬ Cut src t.beg) ∧
      (Cut src (t.beg + t.len) → t.ty = .error) ∧ Joined src (t.beg + t.len) ts

theorem Joined.move {src : Bytes} {p q : Nat} {ts : List Token} (h : Joined src p ts) (hp : ¬ Cut src p)
    (hq : ¬ Cut src q) : Joined src q ts := by
  cases ts with
  | nil => exact hq
  | cons t ts => exact ⟨fun h => absurd h hq, fun _ => h.2.1 hp, h.2.2⟩

theorem Joined.prepend {src : Bytes} {p q : Nat} {us ts : List Token} (h : Joined src q ts) (hp : ¬ Cut src p)
    (hq : ¬ Cut src q) (hu : ∀ t ∈ us, ¬ Cut src t.beg ∧ ¬ Cut src (t.beg + t.len)) : Joined src p (us ++ ts) := by
  induction us generalizing p with
  | nil => exact h.move hq hp
  | cons u us ih =>
    have hw := hu u (by simp)
    exact ⟨fun h => absurd h hp, fun _ => hw.1, fun h => absurd h hw.2, ih hw.2 fun t ht => hu t (by simp [ht])⟩

/-- Tokens that do not split characters. -/
def Uncut (src : Bytes) (t : Token) : Prop := ¬ Cut src t.beg ∧ ¬ Cut src (t.beg + t.len)

/-- What has been delivered when the next token is at `p` or later. -/
def Sofar (src : Bytes) (acc : List Token) (p : Nat) : Prop :=
  (¬ Cut src p ∧ ∀ t ∈ acc, Uncut src t) ∨
  ∃ acc0 t, acc = acc0 ++ [t] ∧ (∀ x ∈ acc0, Uncut src x) ∧ ¬ Cut src t.beg ∧ t.beg + t.len = p ∧ t.ty = .error

theorem glue_uncut {src : Bytes} (coal : Bool) (es : List Emit) (hf : Forced es) (p : Nat) (acc : List Token)
    (hj : Joined src p (es.map Emit.token)) (ha : Sofar src acc p) :
    ∀ t ∈ es.foldl (emitSeq coal) acc, Uncut src t := by
  induction es generalizing p acc with
  | nil =>
    rcases ha with ⟨_, ha⟩ | ⟨acc0, t, rfl, h0, h1, rfl, _⟩
    · exact ha
    · intro x hx
      simp only [List.foldl_nil, List.mem_append, List.mem_singleton] at hx
      rcases hx with hx | rfl
      · exact h0 x hx
      · exact ⟨h1, hj⟩
  | cons e es ih =>
    obtain ⟨j1, j2, j3, j4⟩ := hj
    rw [List.foldl_cons]
    refine ih (fun x hx => hf x (by simp [hx])) _ _ j4 ?_
    -- in all cases, the last token ends with `e`
    have close : ∀ acc0 b l, (∀ x ∈ acc0, Uncut src x) → ¬ Cut src b → b + l = e.beg + e.len →
        Sofar src (acc0 ++ [⟨b, l, e.ty⟩]) (e.beg + e.len) := by
      intro acc0 b l h0 hb he
      by_cases hc : Cut src (e.beg + e.len)
      · exact Or.inr ⟨acc0, _, rfl, h0, hb, he, j3 hc⟩
      · refine Or.inl ⟨hc, ?_⟩
        intro x hx
        simp only [List.mem_append, List.mem_singleton] at hx
        rcases hx with hx | rfl
        · exact h0 x hx
        · refine ⟨hb, ?_⟩
          show ¬ Cut src (b + l)
          rw [he]
          exact hc
    by_cases hp : Cut src p
    · rcases ha with ⟨ha, _⟩ | ⟨acc0, t, rfl, h0, h1, h2, h3⟩
      · exact absurd hp ha
      · obtain ⟨k1, k2⟩ := j1 hp
        change e.beg = p at k1
        change e.ty = .error at k2
        have hm : emitSeq coal (acc0 ++ [t]) e = acc0 ++ [⟨t.beg, t.len + e.len, e.ty⟩] := by
          unfold emitSeq
          have : e.mayMerge coal = true := by
            unfold Emit.mayMerge
            rw [hf e (by simp) k2]
          simp [this, touches, h3, k2, k1, h2, Token.extend]
        rw [hm]
        exact close _ _ _ h0 h1 (by omega)
    · have hall : ∀ t ∈ acc, ¬ Cut src t.beg := by
        rcases ha with ⟨_, ha⟩ | ⟨acc0, t, rfl, h0, h1, h2, h3⟩
        · exact fun t ht => (ha t ht).1
        · intro x hx
          simp only [List.mem_append, List.mem_singleton] at hx
          rcases hx with hx | rfl
          · exact (h0 x hx).1
          · exact h1
      have hall2 : ∀ t ∈ acc, Uncut src t := by
        rcases ha with ⟨_, ha⟩ | ⟨acc0, t, rfl, h0, h1, h2, h3⟩
        · exact ha
        · intro x hx
          simp only [List.mem_append, List.mem_singleton] at hx
          rcases hx with hx | rfl
          · exact h0 x hx
          · refine ⟨h1, ?_⟩
            rw [h2]
            exact hp
      rcases emitSeq_cases coal acc e with h | ⟨ts0, b, l, h1, h2, h3, h4⟩
      · rw [h]
        exact close _ _ _ hall2 (j2 hp) rfl
      · rw [h4]
        subst h1
        exact close _ _ _ (fun x hx => hall2 x (by simp [hx])) (hall ⟨b, l, e.ty⟩ (by simp)) (by omega)

theorem ascii_of_mem {c : UInt8} {l : Bytes} (h : c ∈ l) (hl : ∀ x ∈ l, x.toNat < 0x80) : c.toNat < 0x80 := hl c h

/-- Symbols are in ASCII and not empty. -/
theorem symbol_ascii {u r : Bytes} {ty : HT} (h : Symbol u r ty) : u ≠ [] ∧ ∀ x ∈ u, x.toNat < 0x80 := by
  cases h
  all_goals refine ⟨by simp, ?_⟩
  all_goals intro x hx
  case op h => simp at hx; subst hx; exact ascii_of_mem h (by decide)
  case square h => simp at hx; subst hx; exact ascii_of_mem h (by decide)
  case brace h => simp at hx; subst hx; exact ascii_of_mem h (by decide)
  case starSlashColon h _ => simp at hx; subst hx; exact ascii_of_mem h (by decide)
  all_goals exact ascii_of_mem hx (by decide)

theorem joined {src s : Bytes} {p : Nat} {q : Place} {prev : UInt8} {ts : List Token} (hu : IsUtf8 src)
    (h : Tokens q prev p s ts) (hs : src.drop p = s) : Joined src p ts := by
  induction h with
  | nil => exact not_cut_end (k := 0) hs (by simp)
  | @step q prev p s u c u' us r q' ts e hu' h _ ih =>
    have ih := ih (by rw [← List.drop_drop, hs, e]; simp)
    -- tokens of ASCII characters
    have plain : ∀ ty, (∀ x ∈ u, x.toNat < 0x80) → us = [⟨0, u.length, ty⟩] → Joined src p (shift p us ++ ts) := by
      intro ty ha hus
      have h0 : ¬ Cut src p := not_cut_at (k := 0) (c := c) hs (by rw [e, hu']; rfl) (ha c (by simp [hu']))
      have h1 : ¬ Cut src (p + u.length) := by
        have hl : u.length = u'.length + 1 := by rw [hu']; rfl
        rw [hl]
        have hx : s[u'.length]? = u[u'.length]? := by
          rw [e, List.getElem?_append_left (by omega)]
        have hlt : u'.length < u.length := by omega
        rw [List.getElem?_eq_getElem hlt] at hx
        exact not_cut_after hu hs hx (ha _ (List.getElem_mem hlt))
      refine ih.prepend h0 h1 ?_
      rw [hus]
      simpa [shift] using ⟨h0, h1⟩
    cases h with
    | space h =>
      have ha : c.toNat < 0x80 := by
        simp only [List.cons.injEq] at hu'
        rw [← hu'.1]
        exact ascii_of_mem h (by decide)
      have h0 : ¬ Cut src p := not_cut_at (k := 0) hs (by rw [e, hu']; rfl) ha
      have h1 := not_cut_after (k := 0) hu hs (by rw [e, hu']; rfl) ha
      exact ih.move h1 h0
    | symbol h => exact plain _ (symbol_ascii h).2 rfl
    | ruleEnd h => exact plain _ (by intro x hx; simp at hx; subst hx; exact ascii_of_mem h (by decide)) rfl
    | @comment body r' first =>
      have h0 : ¬ Cut src (p + 0) := not_cut_at hs (k := 0) (c := c!"(") (by simp) (by decide)
      have h2 : ¬ Cut src (p + 2) := not_cut_after hu hs (k := 1) (c := c!"*") (by simp) (by decide)
      have h3 : ¬ Cut src (p + (2 + body.length)) :=
        not_cut_at hs (c := c!"*") (by rw [Nat.add_comm]; simp) (by decide)
      have h4 : ¬ Cut src (p + (2 + body.length + 1 + 1)) :=
        not_cut_after hu hs (c := c!")")
          (by rw [show 2 + body.length + 1 = body.length + 1 + 2 by omega]; simp) (by decide)
      refine ih.prepend h0 (by simpa [Nat.add_comm, Nat.add_left_comm, Nat.add_assoc] using h4) ?_
      intro t ht
      simp only [shift, opt, List.map_append, List.mem_append, List.map_cons, List.map_nil, List.mem_singleton] at ht
      rcases ht with (rfl | ht) | rfl
      · exact ⟨h0, h2⟩
      · split at ht
        · simp at ht
        · simp at ht
          subst ht
          exact ⟨h2, by simpa [Nat.add_assoc] using h3⟩
      · exact ⟨h3, by simpa [Nat.add_assoc] using h4⟩
    | @openComment body none =>
      have h0 : ¬ Cut src (p + 0) := not_cut_at hs (k := 0) (c := c!"(") (by simp) (by decide)
      have h2 : ¬ Cut src (p + 2) := not_cut_after hu hs (k := 1) (c := c!"*") (by simp) (by decide)
      have h3 : ¬ Cut src (p + (2 + body.length)) := not_cut_end hs (by simp; omega)
      refine ih.prepend h0 (by simpa [Nat.add_comm, Nat.add_left_comm, Nat.add_assoc] using h3) ?_
      intro t ht
      simp only [shift, opt, List.map_append, List.mem_append, List.map_cons, List.map_nil, List.mem_singleton] at ht
      rcases ht with rfl | ht
      · exact ⟨h0, h2⟩
      · split at ht
        · simp at ht
        · simp at ht
          subst ht
          exact ⟨h2, by simpa [Nat.add_assoc] using h3⟩
    | strayClose => exact plain _ (by intro x hx; exact ascii_of_mem hx (by decide)) rfl
    | @string quote body r' hq first =>
      have hq : quote.toNat < 0x80 := ascii_of_mem hq (by decide)
      have h0 : ¬ Cut src (p + 0) := not_cut_at hs (k := 0) (c := quote) (by simp) hq
      have h1 : ¬ Cut src (p + 1) := not_cut_after hu hs (k := 0) (c := quote) (by simp) hq
      have h2 : ¬ Cut src (p + (1 + body.length)) :=
        not_cut_at hs (c := quote) (by rw [Nat.add_comm]; simp) hq
      have h3 : ¬ Cut src (p + (1 + body.length + 1)) :=
        not_cut_after hu hs (c := quote) (by rw [Nat.add_comm]; simp) hq
      refine ih.prepend h0 (by simpa [Nat.add_comm, Nat.add_left_comm, Nat.add_assoc] using h3) ?_
      intro t ht
      simp only [shift, opt, List.map_append, List.mem_append, List.map_cons, List.map_nil, List.mem_singleton] at ht
      rcases ht with (rfl | ht) | rfl
      · exact ⟨h0, h1⟩
      · split at ht
        · simp at ht
        · simp at ht
          subst ht
          exact ⟨h1, by simpa [Nat.add_assoc] using h2⟩
      · exact ⟨h2, by simpa [Nat.add_assoc] using h3⟩
    | @openString quote body hq none =>
      have hq : quote.toNat < 0x80 := ascii_of_mem hq (by decide)
      have h0 : ¬ Cut src (p + 0) := not_cut_at hs (k := 0) (c := quote) (by simp) hq
      have h1 : ¬ Cut src (p + 1) := not_cut_after hu hs (k := 0) (c := quote) (by simp) hq
      have h2 : ¬ Cut src (p + (1 + body.length)) := not_cut_end hs (by simp; omega)
      refine ih.prepend h0 (by simpa [Nat.add_comm, Nat.add_left_comm, Nat.add_assoc] using h2) ?_
      intro t ht
      simp only [shift, opt, List.map_append, List.mem_append, List.map_cons, List.map_nil, List.mem_singleton] at ht
      rcases ht with rfl | ht
      · exact ⟨h0, h1⟩
      · split at ht
        · simp at ht
        · simp at ht
          subst ht
          exact ⟨h1, by simpa [Nat.add_assoc] using h2⟩
    | @special body r' first =>
      have h0 : ¬ Cut src (p + 0) := not_cut_at hs (k := 0) (c := c!"?") (by simp) (by decide)
      have h3 : ¬ Cut src (p + (1 + body.length + 1)) :=
        not_cut_after hu hs (c := c!"?") (by rw [Nat.add_comm]; simp) (by decide)
      refine ih.prepend h0 (by simpa [Nat.add_comm, Nat.add_left_comm, Nat.add_assoc] using h3) ?_
      intro t ht
      simp [shift] at ht
      subst ht
      exact ⟨h0, by simpa [Nat.add_comm, Nat.add_left_comm, Nat.add_assoc] using h3⟩
    | @openSpecial body none =>
      have h0 : ¬ Cut src (p + 0) := not_cut_at hs (k := 0) (c := c!"?") (by simp) (by decide)
      have h3 : ¬ Cut src (p + (body.length + 1)) := not_cut_end hs (by simp)
      refine ih.prepend h0 h3 ?_
      intro t ht
      simp [shift] at ht
      subst ht
      exact ⟨h0, h3⟩
    | letter h =>
      refine plain _ ?_ rfl
      intro x hx
      simp at hx
      subst hx
      rcases h with (h | h) | rfl
      · omega
      · omega
      · decide
    | digit h =>
      refine plain _ ?_ rfl
      intro x hx
      simp at hx
      subst hx
      exact Nat.lt_of_le_of_lt h.2 (by decide)
    | hyphen hq h => exact plain _ (by intro x hx; exact ascii_of_mem hx (by decide)) rfl
    | minus h => exact plain _ (by intro x hx; exact ascii_of_mem hx (by decide)) rfl
    | other h1 h2 h3 h4 =>
      exact ⟨fun _ => ⟨rfl, rfl⟩, fun h => h, fun _ => rfl, ih⟩

theorem isUtf8_uncut {src : Bytes} {p : Nat} (hu : IsUtf8 src) (hp : ¬ Cut src p) :
    IsUtf8 (src.take p) ∧ IsUtf8 (src.drop p) := by
  by_cases hl : p < src.length
  · refine isUtf8_boundary hu (List.getElem?_eq_getElem hl) ?_
    refine Decidable.byContradiction fun h => hp ⟨_, List.getElem?_eq_getElem hl, ?_⟩
    omega
  · rw [List.take_of_length_le (by omega), List.drop_eq_nil_of_le (by omega)]
    exact ⟨hu, isUtf8_nil⟩

/-- For EBNF, the tokens that are delivered consist of whole characters. -/
theorem whole {debug : Bool} {opts : Opts} {src : Bytes} (hu : IsUtf8 src) {good : Bool} {es : List Emit}
    (h : highlight debug opts src = .ok (good, es)) (coal : Bool) : ∀ t ∈ glueAll coal es, WholeToken src t := by
  obtain ⟨es', h1, h2⟩ := C36_ebnf debug opts src
  rw [h] at h1
  obtain ⟨⟩ := h1
  intro t ht
  have hc := glue_uncut (src := src) coal es (forced h) 0 [] (joined hu h2 rfl) (Or.inl ⟨?_, by simp⟩) t ht
  · have h1 := isUtf8_uncut hu hc.1
    have h2 := isUtf8_uncut hu hc.2
    refine ⟨h1.1, ?_, h2.2⟩
    have := h2.1
    rw [List.take_add] at this
    exact isUtf8_cancel h1.1 this
  · rintro ⟨b, hb, h1, h2⟩
    cases src with
    | nil => simp at hb
    | cons a src =>
      simp at hb
      subst hb
      have := isUtf8_head hu
      omega

end Ebnf

end Ulight
