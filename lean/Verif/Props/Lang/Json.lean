import Verif.Props.Lang.JsonSafe

/-!
# C30: highlighting of valid JSON documents
-/

namespace Ulight.Json

open Spec Spec.Json

/-- The state after the text `u` was consumed, `r` is left, and the tokens `ts` were emitted. -/
structure After (s : HS Unit) (u r : Bytes) (ts : List Token) (s' : HS Unit) : Prop where
  rem : s'.rem = r
  idx : s'.idx = s.idx + u.length
  out : s'.out.map Emit.token = s.out.map Emit.token ++ shift s.idx ts

theorem shift_shift (a b : Nat) (ts : List Token) : shift a (shift b ts) = shift (a + b) ts := by
  simp [shift, Nat.add_assoc]

theorem shift_append (a : Nat) (ts us : List Token) :
    shift a (ts ++ us) = shift a ts ++ shift a us := by simp [shift]

theorem shift_cons (a : Nat) (t : Token) (us : List Token) :
    shift a (t :: us) = ⟨a + t.beg, t.len, t.ty⟩ :: shift a us := by simp [shift]

theorem shift_nil (a : Nat) : shift a [] = [] := rfl

theorem shift_zero (ts : List Token) : shift 0 ts = ts := by simp [shift]

theorem shift_opt (a b : Nat) (u : Bytes) (ty : HT) : shift a (opt b u ty) = opt (a + b) u ty := by
  unfold opt
  split <;> simp [shift]

theorem After.refl (s : HS Unit) {r : Bytes} (h : s.rem = r) : After s [] r [] s :=
  ⟨h, by simp, by simp [shift]⟩

theorem After.trans {s s1 s2 : HS Unit} {u v r1 r2 : Bytes} {ts us : List Token}
    (h1 : After s u r1 ts s1) (h2 : After s1 v r2 us s2) :
    After s (u ++ v) r2 (ts ++ shift u.length us) s2 :=
  ⟨h2.rem, by rw [h2.idx, h1.idx]; simp; omega, by
    rw [h2.out, h1.out, h1.idx, shift_append, shift_shift]; simp⟩

theorem After.len {s s' : HS Unit} {u r : Bytes} {ts : List Token} {env : HEnv}
    (h : After s u r ts s') (hr : s.rem = u ++ r) (hl : s.idx + s.rem.length = env.src.length) :
    s'.idx + s'.rem.length = env.src.length := by
  rw [h.rem, h.idx]
  rw [hr] at hl
  simp at hl
  omega

theorem After.emitted {s : HS Unit} {u r : Bytes} {ty : HT} {mode : Mode} (hr : s.rem = u ++ r) :
    After s u r [⟨0, u.length, ty⟩] (s.emitted u.length ty mode) :=
  ⟨by simp [HS.emitted, hr], rfl, by simp [HS.emitted, Emit.token, shift]⟩

theorem After.adv {s : HS Unit} {u r : Bytes} (hr : s.rem = u ++ r) :
    After s u r [] (s.adv u.length) :=
  ⟨by simp [HS.adv, hr], rfl, by simp [HS.adv, shift]⟩

section

variable {env : HEnv} {s : HS Unit}

/-- `emit_and_advance` of the text `u`. -/
theorem emit_after {u r : Bytes} {n : Nat} {ty : HT} {mode : Mode} {Q : Unit → HS Unit → Prop}
    (hl : s.idx + s.rem.length = env.src.length) (hr : s.rem = u ++ r) (hu : u ≠ [])
    (hn : n = u.length) (k : ∀ s', After s u r [⟨0, u.length, ty⟩] s' → Q () s') :
    wp (HM.emitAdv n ty mode) Q env s := by
  subst hn
  rw [wp_emitAdv_iff hl (List.length_pos_iff.2 hu) (by rw [hr]; simp)]
  exact k _ (.emitted hr)

theorem emitIf_after {u r : Bytes} {n : Nat} {ty : HT} {Q : Unit → HS Unit → Prop}
    (hl : s.idx + s.rem.length = env.src.length) (hr : s.rem = u ++ r)
    (hn : n = u.length) (k : ∀ s', After s u r (opt 0 u ty) s' → Q () s') :
    wp (HM.emitAdvIf n ty) Q env s := by
  subst hn
  unfold HM.emitAdvIf
  by_cases hu : u = []
  · subst hu
    simp only [List.length_nil, ne_eq, not_true, if_false, wp_pure]
    exact k s ⟨by simpa using hr, by simp, by simp [opt, shift]⟩
  · rw [if_pos (by simpa using hu)]
    refine emit_after hl hr hu rfl fun s' h => k s' ?_
    simpa [opt, hu] using h

/-- Text that ends whitespace. -/
def NoWs (r : Bytes) : Prop := ∀ c, r.head? = some c → isWhitespace c = false ∧ c ≠ c!"/"

theorem matchWhitespace_cons {c : UInt8} {t : Bytes} (h : isWhitespace c = true) :
    matchWhitespace (c :: t) = matchWhitespace t + 1 := by
  simp [matchWhitespace_eq, h]

theorem matchWhitespace_zero {r : Bytes} (h : ∀ c, r.head? = some c → isWhitespace c = false) :
    matchWhitespace r = 0 := by
  rw [matchWhitespace_eq]
  cases r with
  | nil => rfl
  | cons c r => simp [h c rfl]

theorem lineTerminator_append {body r : Bytes} {c : UInt8} (hc : c = 0x0A ∨ c = 0x0D)
    (hb : ∀ k, ¬ Js.LineTerminatorAt body k) :
    ∀ k, Js.LineTerminatorAt (body ++ c :: r) k → body.length ≤ k := by
  rintro k ⟨t, ht, a, b, hab, rfl⟩
  rcases Nat.lt_or_ge a.length body.length with hlt | hge
  · exfalso
    -- the terminator would have to cross the end of `body`
    by_cases hin : a.length + t.length ≤ body.length
    · refine hb a.length ⟨t, ht, a, body.drop (a.length + t.length), ?_, rfl⟩
      have h1 := congrArg (List.take body.length) hab
      simp only [List.take_left] at h1
      rw [List.take_append, List.take_of_length_le (by simp; omega)] at h1
      have h2 := congrArg (List.drop (a.length + t.length)) h1
      rw [h1]
      congr 1
      simp [List.drop_append]
    · have h1 : (body ++ c :: r)[body.length]? = some c := by simp
      rw [hab] at h1
      rw [List.append_assoc, List.getElem?_append_right (by omega),
        List.getElem?_append_left (by omega)] at h1
      simp [Js.lineTerminators] at ht
      have hpos : body.length - a.length ≠ 0 := by omega
      rcases ht with rfl | rfl | rfl | rfl <;> simp at hin h1
      · omega
      · omega
      all_goals
        have : body.length - a.length = 1 ∨ body.length - a.length = 2 := by omega
        rcases this with h | h <;> rw [h] at h1 <;> simp at h1 <;> subst h1 <;> simp at hc
  · exact hge

theorem occursAt_append {body r : Bytes} {k : Nat}
    (hb : ∀ k, OccursAt b!"*/" (body ++ b!"*/") k → body.length ≤ k)
    (h : OccursAt b!"*/" (body ++ b!"*/" ++ r) k) : body.length ≤ k := by
  obtain ⟨a, b, hab, rfl⟩ := h
  rcases Nat.lt_or_ge a.length body.length with hlt | hge
  · refine hb a.length ⟨a, ((body ++ b!"*/").drop (a.length + 2)), ?_, rfl⟩
    have h1 := congrArg (List.take (body.length + 2)) hab
    rw [List.take_left' (by simp)] at h1
    rw [List.take_append, List.take_of_length_le (by simp; omega)] at h1
    rw [h1]
    congr 1
    simp [List.drop_append]
  · exact hge

/-- Whitespace is skipped. -/
theorem ws_skip {cm : Bool} {c : UInt8} {t : Bytes} {fuel : Nat} {Q : Unit → HS Unit → Prop}
    (hr : s.rem = c :: t) (hc : isWhitespace c = true) :
    wp (HM.loop (fuel + 1) (wsStep cm) ()) Q env s ↔
      wp (HM.loop (fuel + 1) (wsStep cm) ()) Q env (s.adv 1) := by
  unfold HM.loop wsStep
  simp only [wp_bind, wp_rem]
  have hr1 : (s.adv 1).rem = t := by simp [HS.adv, hr]
  have e1 : matchWhitespace s.rem = matchWhitespace t + 1 := by rw [hr]; exact matchWhitespace_cons hc
  have hle := matchWhitespace_le t
  have hlen : s.rem.length = t.length + 1 := by rw [hr]; simp
  rw [hr1, wp_advance_iff (by omega), wp_advance_iff (by rw [hr1]; omega)]
  have : s.adv (matchWhitespace s.rem) = (s.adv 1).adv (matchWhitespace t) := by
    rw [e1]
    simp only [HS.adv, List.drop_drop]
    congr 1
    · congr 1; omega
    · omega
  rw [this]

/-- The first iteration if there is no whitespace. -/
theorem ws_comment {fuel : Nat} {Q : Unit → HS Unit → Prop} (h0 : matchWhitespace s.rem = 0) :
    wp (HM.loop (fuel + 1) (wsStep true) ()) Q env s ↔
      wp (HM.or expectLineComment expectBlockComment) (fun b s' =>
        if b then wp (HM.loop fuel (wsStep true) ()) Q env s' else Q () s') env s := by
  have hw : ∀ Q' : Unit ⊕ Unit → HS Unit → Prop, wp (wsStep true ()) Q' env s ↔
      wp (HM.or expectLineComment expectBlockComment)
        (fun b s' => if b then Q' (.inl ()) s' else Q' (.inr ()) s') env s := by
    intro Q'
    have e : ∀ (b : Bool) (s' : HS Unit),
        wp (if b = true then pure (.inl ()) else pure (.inr ()) : HM Unit (Unit ⊕ Unit)) Q' env s' ↔
        (if b = true then Q' (.inl ()) s' else Q' (.inr ()) s') := by
      intro b s'
      cases b <;> simp
    unfold wsStep
    have he : s.adv 0 = s := by simp [HS.adv]
    simp only [wp_bind, wp_rem, h0]
    rw [wp_advance_iff (by omega), he]
    simp only [if_true, wp_bind, e]
  conv => lhs; unfold HM.loop
  rw [wp_bind, hw]
  simp only [wp_pure]

theorem emit_iff {b n : Nat} {ty : HT} {t : HS Unit} {Q : Unit → HS Unit → Prop} (h1 : 0 < n)
    (h2 : b + n ≤ env.src.length) : wp (HM.emit b n ty) Q env t ↔
      Q () ⟨t.rem, t.idx, t.out ++ [⟨b, n, ty, .normal⟩], t.ext⟩ := by
  apply wp_of_ok
  have : (n != 0 && decide (b < env.src.length) && decide (b + n ≤ env.src.length)) = true := by
    simp
    omega
  simp [HM.emit, this]

theorem emitIf_opt {b n : Nat} {v : Bytes} {ty : HT} {t : HS Unit} {Q : Unit → HS Unit → Prop}
    (hn : n = v.length) (h1 : b + v.length ≤ env.src.length)
    (h2 : ∀ es, es.map Emit.token = opt b v ty → Q () ⟨t.rem, t.idx, t.out ++ es, t.ext⟩) :
    wp (HM.emitIf b n ty) Q env t := by
  subst hn
  unfold HM.emitIf
  by_cases hv : v = []
  · subst hv
    simp only [List.length_nil, ne_eq, not_true, if_false, wp_pure]
    simpa using h2 [] rfl
  · have := List.length_pos_iff.2 hv
    rw [if_pos (by omega), emit_iff this h1]
    exact h2 [_] (by simp [opt, hv, Emit.token])

theorem lineComment_after {body r : Bytes} {c : UInt8} (hc : c = 0x0A ∨ c = 0x0D)
    (hb : ∀ k, ¬ Js.LineTerminatorAt body k)
    (hl : s.idx + s.rem.length = env.src.length) (hr : s.rem = b!"//" ++ body ++ c :: r) :
    wp expectLineComment (fun b s' => b = true ∧
      After s (b!"//" ++ body) (c :: r) (⟨0, 2, .comment_delim⟩ :: opt 2 body .comment) s') env s := by
  have hs : s.rem = b!"//" ++ (body ++ c :: r) := by rw [hr]; simp
  have hlc : Js.matchLineComment s.rem = body.length + 2 := by
    have hlt := lineTerminator_append (r := r) hc hb
    have hat : Js.LineTerminatorAt (body ++ c :: r) body.length :=
      ⟨[c], by rcases hc with rfl | rfl <;> simp [Js.lineTerminators], body, r, by simp, rfl⟩
    rcases Js.matchLineComment_spec s.rem with ⟨h, _⟩ | ⟨body', rest', ⟨h1, h2, h3⟩, h4⟩
    · rw [hs] at h; simp at h
    · rw [hs] at h1
      have h1 : body ++ c :: r = body' ++ rest' := by
        simpa using h1
      have ha : body.length ≤ body'.length := by
        refine hlt _ ?_
        rw [h1]
        refine h3 ?_
        rintro rfl
        have := h2 body.length (by rw [← h1]; exact hat)
        have := congrArg List.length h1
        simp at this
        omega
      have hb := h2 body.length (by rw [← h1]; exact hat)
      rw [h4]
      omega
  unfold expectLineComment
  simp only [wp_bind, wp_rem, hlc]
  rw [if_pos (by omega)]
  simp only [wp_bind]
  refine emit_after hl hs (by simp) rfl ?_
  intro s1 a1
  have hl1 := a1.len hs hl
  refine emitIf_after hl1 a1.rem (by omega) ?_
  intro s2 a2
  rw [wp_pure]
  refine ⟨rfl, ?_⟩
  have := a1.trans a2
  simpa [shift_opt] using this

theorem blockComment_after {body r : Bytes}
    (hb : ∀ k, OccursAt b!"*/" (body ++ b!"*/") k → body.length ≤ k)
    (hl : s.idx + s.rem.length = env.src.length) (hr : s.rem = b!"/*" ++ body ++ b!"*/" ++ r) :
    wp expectBlockComment (fun b s' => b = true ∧
      After s (b!"/*" ++ body ++ b!"*/") r (⟨0, 2, .comment_delim⟩ :: opt 2 body .comment ++
        [⟨body.length + 2, 2, .comment_delim⟩]) s') env s := by
  have hs : s.rem = b!"/*" ++ (body ++ b!"*/" ++ r) := by rw [hr]; simp
  have hbc : Js.matchBlockComment s.rem = ⟨body.length + 4, true⟩ := by
    have hocc : OccursAt b!"*/" (body ++ b!"*/" ++ r) body.length := ⟨body, r, rfl, rfl⟩
    rcases Js.matchBlockComment_spec s.rem with ⟨h, _⟩ | ⟨body', rest', ⟨h1, h2⟩, h4⟩ |
      ⟨body', ⟨h1, h2⟩, h4⟩
    · rw [hs] at h; simp at h
    · rw [hs] at h1
      have h1 : body ++ b!"*/" ++ r = body' ++ b!"*/" ++ rest' := by
        simpa using h1
      have ha : body.length ≤ body'.length :=
        occursAt_append (r := r) hb ⟨body', rest', h1, rfl⟩
      have hb := h2 body.length (by rw [← h1]; exact hocc)
      rw [h4]
      congr 1
      omega
    · rw [hs] at h1
      have h1 : body ++ b!"*/" ++ r = body' := by simpa using h1
      exact absurd hocc (h1 ▸ h2 _)
  have hlen : s.rem.length = body.length + r.length + 4 := by rw [hs]; simp; omega
  unfold expectBlockComment
  simp only [wp_bind, wp_rem, hbc]
  rw [if_pos (by simp)]
  simp only [wp_bind, wp_index, if_true, emitWhen]
  rw [emit_iff (by omega) (by omega)]
  refine emitIf_opt (v := body) (by omega) (by omega) ?_
  intro es hes
  rw [emit_iff (by omega) (by omega), wp_advance_iff (by simp only; omega), wp_pure]
  refine ⟨rfl, ?_, ?_, ?_⟩
  · simp only [HS.adv, hr]
    exact List.drop_left' (by simp)
  · simp [HS.adv]
  · simp [HS.adv, hes, shift_append, shift_cons, shift_opt, Emit.token, shift_nil]
    omega

/-- The loop of `consume_whitespace_comments` consumes exactly whitespace and comments. -/
theorem ws_loop {cm : Bool} {u : Bytes} {ts : List Token} (h : Ws cm u ts) :
    ∀ (fuel : Nat) (s : HS Unit) (r : Bytes), s.idx + s.rem.length = env.src.length →
      s.rem = u ++ r → NoWs r → s.rem.length < fuel →
      wp (HM.loop fuel (wsStep cm) ()) (fun _ s' => After s u r ts s') env s := by
  induction h with
  | nil =>
    intro fuel s r hl hr hn hf
    match fuel, hf with
    | fuel + 1, _ =>
      have hr : s.rem = r := by simpa using hr
      have h0 : matchWhitespace s.rem = 0 := by
        rw [hr]; exact matchWhitespace_zero fun c hc => (hn c hc).1
      have hl : startsWith s.rem b!"//" = false ∧ startsWith s.rem b!"/*" = false := by
        rw [hr]
        cases r with
        | nil => simp
        | cons c r =>
          have := (hn c rfl).2
          simp [Ne.symm this]
      cases cm with
      | false =>
        unfold HM.loop wsStep
        simp only [wp_bind, wp_rem, h0]
        rw [wp_advance_iff (by omega)]
        have he : s.adv 0 = s := by simp [HS.adv]
        simpa [he] using After.refl s hr
      | true =>
        rw [ws_comment h0]
        simp [HM.or, expectLineComment, expectBlockComment, Js.matchLineComment,
          Js.matchBlockComment, hl.1, hl.2, After.refl s hr]
  | @char c u ts hc hw ih =>
    intro fuel s r hl hr hn hf
    have hws : isWhitespace c = true := by
      simp [isWhitespace] at hc ⊢
      grind
    have ha : After s [c] (u ++ r) [] (s.adv 1) := .adv (by simpa using hr)
    have hlen : s.rem.length = (u ++ r).length + 1 := by rw [hr]; simp
    have h1 := ih fuel (s.adv 1) r (ha.len (by simpa using hr) hl) ha.rem hn (by rw [ha.rem]; omega)
    match fuel, hf with
    | fuel + 1, _ =>
      rw [ws_skip (by simpa using hr) hws]
      refine wp_mono h1 ?_
      intro _ s' h
      simpa using ha.trans h
  | @line body c u ts hcm hc hb hw ih =>
    intro fuel s r hl hr hn hf
    subst hcm
    simp at hc
    have h0 : matchWhitespace s.rem = 0 := by
      rw [hr]; exact matchWhitespace_zero (by simp [isWhitespace])
    have hr' : s.rem = b!"//" ++ body ++ c :: (u ++ r) := by rw [hr]; simp
    have hlen : s.rem.length = body.length + (u ++ r).length + 3 := by rw [hr']; simp; omega
    match fuel, hf with
    | 1, hf => omega
    | fuel + 2, hf =>
      rw [ws_comment h0]
      unfold HM.or
      rw [wp_bind]
      refine wp_mono (lineComment_after hc hb hl hr') ?_
      rintro b s2 ⟨rfl, a2⟩
      have hl2 := a2.len hr' hl
      simp only [if_true, wp_pure]
      -- the line feed is consumed as whitespace by the next iteration
      have ha : After s2 [c] (u ++ r) [] (s2.adv 1) := .adv (by simpa using a2.rem)
      have hwsc : isWhitespace c = true := by rcases hc with rfl | rfl <;> decide
      rw [ws_skip a2.rem hwsc]
      refine wp_mono (ih (fuel + 1) (s2.adv 1) r (ha.len (by simpa using a2.rem) hl2) ha.rem hn
        (by rw [ha.rem]; omega)) ?_
      intro _ s' h
      have := a2.trans (ha.trans h)
      simpa [shift_append, shift_shift, shift_opt, shift_nil, Nat.add_comm, Nat.add_left_comm]
        using this
  | @block body u ts hcm hb hw ih =>
    intro fuel s r hl hr hn hf
    subst hcm
    have h0 : matchWhitespace s.rem = 0 := by
      rw [hr]; exact matchWhitespace_zero (by simp [isWhitespace])
    have hr' : s.rem = b!"/*" ++ body ++ b!"*/" ++ (u ++ r) := by rw [hr]; simp
    have hlen : s.rem.length = body.length + (u ++ r).length + 4 := by rw [hr']; simp; omega
    match fuel, hf with
    | fuel + 1, hf =>
      rw [ws_comment h0]
      unfold HM.or
      rw [wp_bind]
      have hlc : Js.matchLineComment s.rem = 0 := by
        rw [hr']; simp [Js.matchLineComment]
      conv => arg 1; unfold expectLineComment
      simp only [wp_bind, wp_rem, hlc, ne_eq, not_true, if_false, wp_pure, Bool.false_eq_true]
      refine wp_mono (blockComment_after hb hl hr') ?_
      rintro b s2 ⟨rfl, a2⟩
      have hl2 := a2.len hr' hl
      simp only [if_true]
      refine wp_mono (ih fuel _ r hl2 a2.rem hn ?_) ?_
      · rw [a2.rem]; omega
      · intro _ s' h
        have := a2.trans h
        simpa [Nat.add_comm, Nat.add_left_comm] using this

theorem consumeWs_after {cm : Bool} {u r : Bytes} {ts : List Token} (h : Ws cm u ts)
    (hl : s.idx + s.rem.length = env.src.length) (hr : s.rem = u ++ r) (hn : NoWs r) :
    wp (consumeWs cm) (fun _ s' => After s u r ts s') env s := by
  unfold consumeWs
  simp only [wp_bind, wp_rem]
  exact ws_loop h _ s r hl hr hn (by omega)

/-- The tokens at the end of a string. -/
def closeTokens (property : Bool) (b : Nat) (u : Bytes) : List Token :=
  if property then [⟨b, u.length + 1, .markup_attr⟩]
  else opt b u .string ++ [⟨b + u.length, 1, .string_delim⟩]

theorem closeTokens_true : closeTokens true = fun b u => [⟨b, u.length + 1, .markup_attr⟩] := by
  funext b u
  simp [closeTokens]

theorem contentTokens_shift (property : Bool) (b : Nat) (u : Bytes) (items : List Item) :
    contentTokens (plainType property) (closeTokens property) b u items =
      shift b (contentTokens (plainType property) (closeTokens property) 0 u items) := by
  induction items generalizing b u with
  | nil =>
    simp only [contentTokens, closeTokens]
    cases property <;> simp [shift_append, shift_opt, shift_cons, shift_nil]
  | cons i items ih =>
    cases i with
    | char c =>
      simp only [contentTokens]
      exact ih b (u ++ [c])
    | esc e =>
      simp only [contentTokens]
      rw [ih (b + u.length + e.length) [], ih (0 + u.length + e.length) []]
      simp [shift_append, shift_opt, shift_cons, shift_shift, Nat.add_assoc]

theorem escape_ne_nil {e : Bytes} (h : EscapeSeq e) : ∃ t, e = c!"\\" :: t := by
  cases h with
  | simple h => exact ⟨_, rfl⟩
  | unicode h _ => exact ⟨_, rfl⟩

theorem content_cons (i : Item) (items : List Item) :
    content (i :: items) = i.text ++ content items := by simp [content]

/-- The loop of `expect_string` on valid content. -/
theorem string_content (property : Bool) (items : List Item) (hv : ∀ i ∈ items, i.Valid) (r : Bytes) :
    ∀ (fuel : Nat) (s : HS Unit) (u : Bytes), s.idx + s.rem.length = env.src.length →
      s.rem = u ++ (content items ++ c!"\"" :: r) → s.rem.length - u.length < fuel →
      wp (HM.loop fuel (stringStep property) u.length) (fun b s' => b = true ∧
        After s (u ++ (content items ++ b!"\"")) r
          (contentTokens (plainType property) (closeTokens property) 0 u items) s') env s := by
  induction items with
  | nil =>
    intro fuel s u hl hr hf
    match fuel, hf with
    | fuel + 1, _ =>
      have hr : s.rem = u ++ c!"\"" :: r := by simpa [content] using hr
      unfold HM.loop
      rw [wp_bind]
      unfold stringStep
      simp only [wp_bind, wp_rem]
      have hc : s.rem[u.length]? = some c!"\"" := by rw [hr]; simp
      simp only [hc, if_true]
      cases property with
      | true =>
        simp only [if_true, wp_bind]
        refine emitIf_after (u := u ++ b!"\"") hl (by simpa using hr) (by simp) ?_
        intro s1 a1
        simp only [wp_pure]
        exact ⟨trivial, by simpa [content, contentTokens, closeTokens, opt] using a1⟩
      | false =>
        simp only [Bool.false_eq_true, if_false, wp_bind]
        refine emitIf_after hl hr rfl ?_
        intro s1 a1
        have hl1 := a1.len hr hl
        refine emit_after (u := b!"\"") hl1 (by simpa using a1.rem) (by simp) rfl ?_
        intro s2 a2
        simp only [wp_pure]
        refine ⟨trivial, ?_⟩
        have := a1.trans a2
        simpa [content, contentTokens, closeTokens, shift_opt, shift_cons, shift_nil] using this
  | cons i items ih =>
    intro fuel s u hl hr hf
    have ih := ih fun i hi => hv i (by simp [hi])
    have hi := hv i (by simp)
    have hlen := congrArg List.length hr
    cases i with
    | char c =>
      simp [content, Item.text] at hr hlen
      match fuel, hf with
      | fuel + 1, hf =>
        unfold HM.loop
        rw [wp_bind]
        unfold stringStep
        simp only [wp_bind, wp_rem]
        have hc : s.rem[u.length]? = some c := by rw [hr]; simp
        obtain ⟨h1, h2, h3⟩ : Plain c := hi
        have h4 : ¬ (c = 0x0A ∨ c = 0x0D ∨ c = 0x0B) := by
          rintro (rfl | rfl | rfl) <;> revert h1 <;> decide
        have h5 : ¬ c < 0x20 := by
          rw [UInt8.lt_iff_toNat_lt]
          simpa using h1
        simp only [hc, h2, h3, h4, h5, if_false, wp_pure]
        have := ih fuel s (u ++ [c]) hl (by simp [content, hr]) (by simp; omega)
        simp only [List.length_append, List.length_cons, List.length_nil] at this
        refine wp_mono this ?_
        rintro b s' ⟨hb, h⟩
        exact ⟨hb, by simpa [content, Item.text, contentTokens] using h⟩
    | esc e =>
      simp [content_cons, Item.text] at hr hlen
      obtain ⟨t, rfl⟩ := escape_ne_nil hi
      match fuel, hf with
      | fuel + 1, hf =>
        unfold HM.loop
        rw [wp_bind]
        unfold stringStep
        simp only [wp_bind, wp_rem]
        have hc : s.rem[u.length]? = some c!"\\" := by rw [hr]; simp
        simp only [hc]
        rw [if_neg (by decide), if_neg (by decide)]
        simp only [wp_bind, if_true]
        refine emitIf_after hl hr rfl ?_
        intro s1 a1
        have hl1 := a1.len hr hl
        unfold stringEscape
        simp only [wp_bind, wp_rem, wp_lift]
        have hi : EscapeSeq (c!"\\" :: t) := hi
        obtain ⟨v, hesc⟩ := matchEscape_append (content items ++ c!"\"" :: r) hi
        refine ⟨_, by rw [a1.rem]; exact hesc, ?_⟩
        rw [if_pos (by simp)]
        simp only [Option.isNone_some, Bool.false_eq_true, if_false]
        refine emit_after hl1 a1.rem (by simp) rfl ?_
        intro s2 a2
        have hl2 := a2.len a1.rem hl1
        simp only [wp_pure]
        have hlen2 := congrArg List.length a2.rem
        simp at hlen2
        have := ih fuel s2 [] hl2 (by simpa using a2.rem) (by simp at hlen; simp; omega)
        refine wp_mono this ?_
        rintro b s' ⟨hb, h⟩
        refine ⟨hb, ?_⟩
        have := a1.trans (a2.trans h)
        rw [contentTokens, contentTokens_shift property (0 + u.length + _)]
        simpa [content_cons, Item.text, plainType, shift_append, shift_opt, shift_cons, shift_shift, shift_nil]
          using this

theorem string_value_after {items : List Item} (hv : ∀ i ∈ items, i.Valid) {r : Bytes}
    (hl : s.idx + s.rem.length = env.src.length) (hr : s.rem = quoted items ++ r) :
    wp (expectString false) (fun b s' => b = true ∧ After s (quoted items) r (stringTokens items) s')
      env s := by
  have hr' : s.rem = b!"\"" ++ (content items ++ c!"\"" :: r) := by simpa [quoted] using hr
  unfold expectString
  simp only [wp_bind, wp_rem]
  rw [if_neg (by rw [hr']; simp)]
  simp only [Bool.false_eq_true, if_false, wp_bind]
  refine emit_after hl hr' (by simp) rfl ?_
  intro s1 a1
  have hl1 := a1.len hr' hl
  have hlen := congrArg List.length a1.rem
  have hlen' := congrArg List.length hr'
  simp at hlen hlen'
  refine wp_mono (string_content false items hv r _ s1 [] hl1 (by simpa using a1.rem)
    (by simp; omega)) ?_
  rintro b s' ⟨hb, h⟩
  refine ⟨hb, ?_⟩
  have := a1.trans h
  have hc : (fun b u => opt b u .string ++ [⟨b + u.length, 1, .string_delim⟩]) = closeTokens false := by
    funext b u
    simp [closeTokens]
  unfold stringTokens
  rw [hc, show HT.string = plainType false from rfl, contentTokens_shift]
  simpa [quoted] using this

theorem string_name_after {items : List Item} (hv : ∀ i ∈ items, i.Valid) {r : Bytes}
    (hl : s.idx + s.rem.length = env.src.length) (hr : s.rem = quoted items ++ r) :
    wp (expectString true) (fun b s' => b = true ∧ After s (quoted items) r (nameTokens items) s')
      env s := by
  have hr' : s.rem = b!"\"" ++ (content items ++ c!"\"" :: r) := by simpa [quoted] using hr
  unfold expectString
  simp only [wp_bind, wp_rem]
  rw [if_neg (by rw [hr']; simp)]
  simp only [if_true]
  refine wp_mono (string_content true items hv r _ s b!"\"" hl hr' (by simp; omega)) ?_
  rintro b s' ⟨hb, h⟩
  exact ⟨hb, by simpa [quoted, nameTokens, plainType, closeTokens_true] using h⟩

/-! ## Values -/

/-- Text that may follow a value in a document. -/
def Follow (r : Bytes) : Prop :=
  ∀ c, r.head? = some c → c ∈ ([0x20, 0x09, 0x0A, 0x0D, c!"/", c!",", c!"]", c!"}"] : Bytes)

theorem Follow.number {r : Bytes} (h : Follow r) : AfterNumber r := by
  intro c hc
  have := h c hc
  simp at this
  rcases this with rfl | rfl | rfl | rfl | rfl | rfl | rfl | rfl <;> decide

theorem Follow.alnum {r : Bytes} (h : Follow r) : ∀ c, r.head? = some c → isAlnum c = false := by
  intro c hc
  have := h c hc
  simp at this
  rcases this with rfl | rfl | rfl | rfl | rfl | rfl | rfl | rfl <;> decide

theorem ws_follow {cm : Bool} {w : Bytes} {ts : List Token} (h : Ws cm w ts) {r : Bytes}
    (hr : Follow r) : Follow (w ++ r) := by
  cases h with
  | nil => simpa using hr
  | char h _ =>
    intro c hc
    simp at hc h
    subst hc
    simp
    grind
  | line => intro c hc; simp at hc; simp [← hc]
  | block => intro c hc; simp at hc; simp [← hc]

theorem noWs_of {c : UInt8} {r : Bytes} (h : isWhitespace c = false) (h' : c ≠ c!"/") :
    NoWs (c :: r) := by
  intro d hd
  simp at hd
  subst hd
  exact ⟨h, h'⟩

theorem number_head {u : Bytes} (h : Number u) :
    ∃ c t, u = c :: t ∧ (c = c!"-" ∨ Digit c) := by
  obtain ⟨minus, int, frac, exp, rfl, hm, ⟨⟨hi, hd⟩, _⟩, _⟩ := h
  simp at hm
  rcases hm with rfl | rfl
  · match int, hi, hd with
    | c :: t, _, hd => exact ⟨c, _, rfl, Or.inr (hd c (by simp))⟩
  · exact ⟨c!"-", _, rfl, Or.inl rfl⟩

/-- How a value begins. -/
theorem text_head {cm lits l : Bool} {u : Bytes} {ts : List Token}
    (h : Text cm lits (.value l) u ts) : ∃ c t, u = c :: t ∧ isWhitespace c = false ∧ c ≠ c!"/" ∧
      c ≠ c!"}" ∧ c ≠ c!"," ∧ c ≠ c!"]" := by
  have hd : ∀ c, Digit c → isWhitespace c = false ∧ c ≠ c!"/" ∧ c ≠ c!"}" ∧ c ≠ c!"," ∧ c ≠ c!"]" := by
    apply forall_byte
    decide +kernel
  cases h with
  | string h => exact ⟨c!"\"", _, rfl, by decide⟩
  | number h =>
    obtain ⟨c, t, hu, hc⟩ := number_head h
    refine ⟨c, t, hu, ?_⟩
    rcases hc with hc | hc
    · rw [hc]; decide
    · exact hd c hc
  | bool h =>
    simp at h
    rcases h with rfl | rfl <;> exact ⟨_, _, rfl, by decide⟩
  | null => exact ⟨_, _, rfl, by decide⟩
  | emptyObject => exact ⟨c!"{", _, rfl, by decide⟩
  | object => exact ⟨c!"{", _, rfl, by decide⟩
  | emptyArray => exact ⟨c!"[", _, rfl, by decide⟩
  | array => exact ⟨c!"[", _, rfl, by decide⟩

/-- An alternative that does not match. -/
theorem or_right {a b : HM Unit Bool} {Q : Bool → HS Unit → Prop}
    (ha : wp a (fun r s' => r = false ∧ s' = s) env s) (hb : wp b Q env s) :
    wp (HM.or a b) Q env s := by
  unfold HM.or
  rw [wp_bind]
  refine wp_mono ha ?_
  rintro r s' ⟨rfl, rfl⟩
  simpa using hb

/-- An alternative that matches. -/
theorem or_left {a b : HM Unit Bool} {P : HS Unit → Prop}
    (ha : wp a (fun r s' => r = true ∧ P s') env s) :
    wp (HM.or a b) (fun r s' => r = true ∧ P s') env s := by
  unfold HM.or
  rw [wp_bind]
  refine wp_mono ha ?_
  rintro r s' ⟨rfl, h⟩
  simpa using h

theorem string_no {c : UInt8} {t : Bytes} {p : Bool} (hr : s.rem = c :: t) (hc : c ≠ c!"\"") :
    wp (expectString p) (fun r s' => r = false ∧ s' = s) env s := by
  unfold expectString
  simp [hr, Ne.symm hc]

theorem number_no {c : UInt8} {t : Bytes} (hr : s.rem = c :: t) (hc : c ≠ c!"-" ∧ ¬ Digit c ∧
    c ≠ c!"." ∧ c ≠ c!"e" ∧ c ≠ c!"E") :
    wp expectNumber (fun r s' => r = false ∧ s' = s) env s := by
  unfold expectNumber
  obtain ⟨h1, h2, h3, h4, h5⟩ := hc
  have hd : matchDigits (c :: t) = 0 := by
    rw [← digit_iff] at h2
    rw [matchDigits_eq]
    simp [h2]
  have h0 : (matchNumber s.rem).length = 0 := by
    rw [hr]
    simp [matchNumber, Ne.symm h1, hd, matchFraction, h3, matchExponent, h4, h5]
  simp only [wp_bind, wp_rem, h0]
  simp

theorem object_no {cm : Bool} {v : HM Unit Bool} {c : UInt8} {t : Bytes} (hr : s.rem = c :: t)
    (hc : c ≠ c!"{") : wp (expectObject cm v) (fun r s' => r = false ∧ s' = s) env s := by
  unfold expectObject
  simp [hr, Ne.symm hc]

theorem array_no {cm : Bool} {v : HM Unit Bool} {c : UInt8} {t : Bytes} (hr : s.rem = c :: t)
    (hc : c ≠ c!"[") : wp (expectArray cm v) (fun r s' => r = false ∧ s' = s) env s := by
  unfold expectArray
  simp [hr, Ne.symm hc]

theorem atEnd_after {cm : Bool} {u r : Bytes} {ts : List Token} (h : Ws cm u ts)
    (hl : s.idx + s.rem.length = env.src.length) (hr : s.rem = u ++ r) (hn : NoWs r) :
    wp (atEnd cm) (fun b s' => After s u r ts s' ∧
      b = (r.isEmpty || startsWith r b!"}" || startsWith r b!",")) env s := by
  unfold atEnd
  simp only [wp_bind, wp_rem, wp_pure]
  refine wp_mono (consumeWs_after h hl hr hn) ?_
  intro _ s1 a1
  exact ⟨a1, by rw [a1.rem]⟩

/-- What the theorem says about each syntactic category. -/
def Correct (env : HEnv) (cm : Bool) (k : Kind) (u : Bytes) (ts : List Token) : Prop :=
  match k with
  | .value l => ∀ (fuel : Nat) (s : HS Unit) (r : Bytes),
      s.idx + s.rem.length = env.src.length → s.rem = u ++ r → Follow r → s.rem.length < fuel →
      wp (expectValue cm fuel) (fun b s' => After s u r ts s' ∧ (l = false → b = true)) env s
  | .elements => ∀ (vf fuel : Nat) (s : HS Unit) (r : Bytes) (c : UInt8) (Q : Bool → HS Unit → Prop),
      s.idx + s.rem.length = env.src.length → s.rem = u ++ c :: r → (c = c!"," ∨ c = c!"]") →
      s.rem.length < vf → s.rem.length < fuel →
      (∀ (fuel' : Nat) (s' : HS Unit), After s u (c :: r) ts s' → s'.rem.length < fuel' →
        wp (HM.loop fuel' (arrayStep cm (expectValue cm vf)) ()) Q env s') →
      wp (HM.loop fuel (arrayStep cm (expectValue cm vf)) ()) Q env s
  | .members => ∀ (vf fuel : Nat) (s : HS Unit) (r : Bytes) (c : UInt8) (Q : Bool → HS Unit → Prop),
      s.idx + s.rem.length = env.src.length → s.rem = u ++ c :: r → (c = c!"," ∨ c = c!"}") →
      s.rem.length < vf → s.rem.length < fuel →
      (∀ (fuel' : Nat) (s' : HS Unit), After s u (c :: r) ts s' → s'.rem.length ≤ fuel' →
        wp (objectNext) (fun a s'' => wp (match a with
          | .inl b' => HM.loop fuel' (objectStep cm (expectValue cm vf)) b'
          | .inr a => pure a) Q env s'') env s') →
      wp (HM.loop fuel (objectStep cm (expectValue cm vf)) ()) Q env s

/-- Without whitespace, nothing changes. -/
theorem consumeWs_id {cm : Bool} {c : UInt8} {r : Bytes} (hr : s.rem = c :: r)
    (hc : isWhitespace c = false ∧ c ≠ c!"/") :
    wp (consumeWs cm) (fun _ s' => s' = s) env s := by
  have h0 : matchWhitespace s.rem = 0 := by
    rw [hr]; exact matchWhitespace_zero (by simpa using hc.1)
  have hl : startsWith s.rem b!"//" = false ∧ startsWith s.rem b!"/*" = false := by
    rw [hr]
    simp [Ne.symm hc.2]
  unfold consumeWs
  simp only [wp_bind, wp_rem]
  cases cm with
  | false =>
    unfold HM.loop wsStep
    simp only [wp_bind, wp_rem, h0]
    rw [wp_advance_iff (by omega)]
    have he : s.adv 0 = s := by simp [HS.adv]
    simp [he]
  | true =>
    rw [ws_comment h0]
    simp [HM.or, expectLineComment, expectBlockComment, Js.matchLineComment,
      Js.matchBlockComment, hl.1, hl.2]

/-- Skipping whitespace before the next element. -/
theorem array_skip {cm : Bool} {w : Bytes} {wt : List Token} (hw : Ws cm w wt) {v : HM Unit Bool}
    {r : Bytes} {c : UInt8} {fuel : Nat} {Q : Bool → HS Unit → Prop}
    (hl : s.idx + s.rem.length = env.src.length) (hr : s.rem = w ++ c :: r)
    (hc : isWhitespace c = false ∧ c ≠ c!"/") (hf : s.rem.length < fuel)
    (k : ∀ (fuel' : Nat) (s' : HS Unit), After s w (c :: r) wt s' → s'.rem.length < fuel' →
      wp (HM.loop fuel' (arrayStep cm v) ()) Q env s') :
    wp (HM.loop fuel (arrayStep cm v) ()) Q env s := by
  match fuel, hf with
  | fuel + 1, hf =>
    have hb : ∀ s' : HS Unit, s'.rem = c :: r → ∀ Q', wp (arrayStep cm v ()) Q' env s' → ∀ s0, s0.rem ≠ [] →
        wp (consumeWs cm) (fun _ s1 => s1 = s') env s0 → wp (arrayStep cm v ()) Q' env s0 := by
      intro s' hr' Q' h s0 hne h0
      unfold arrayStep at h ⊢
      simp only [wp_bind, wp_eof] at h ⊢
      rw [if_neg (by simpa using hne)]
      rw [if_neg (by rw [hr']; simp), wp_bind] at h
      rw [wp_bind]
      obtain ⟨_, s1, e1, q1⟩ := h
      obtain ⟨_, s2, e2, q2⟩ := h0
      obtain ⟨_, s3, e3, q3⟩ := consumeWs_id (env := env) (cm := cm) hr' hc
      rw [e3] at e1
      cases e1
      subst q2 q3
      exact ⟨_, _, e2, q1⟩
    obtain ⟨_, s1, e1, a1⟩ := consumeWs_after hw hl hr (noWs_of hc.1 hc.2)
    have hl1 := a1.len hr hl
    have hlen := congrArg List.length hr
    have hlen1 := congrArg List.length a1.rem
    simp at hlen hlen1
    have h := k (fuel + 1) s1 a1 (by omega)
    unfold HM.loop at h ⊢
    rw [wp_bind] at h ⊢
    exact hb s1 a1.rem _ h s (by rw [hr]; simp) ⟨_, _, e1, rfl⟩

/-- Values that are not objects or arrays, and the brackets. -/
theorem scalar_correct {l : Bool} {cm : Bool} :
    (∀ items : List Item, (∀ i ∈ items, i.Valid) →
      Correct env cm (.value l) (quoted items) (stringTokens items)) ∧
    (∀ u, Number u → Correct env cm (.value l) u [⟨0, u.length, .number⟩]) ∧
    (∀ u, u ∈ [b!"true", b!"false"] → Correct env cm (.value true) u [⟨0, u.length, .bool_⟩]) ∧
    Correct env cm (.value true) b!"null" [⟨0, 4, .null⟩] := by
  have lit : ∀ u ty, u ∈ [b!"true", b!"false", b!"null"] →
      ty = (if u = b!"null" then HT.null else .bool_) →
      Correct env cm (.value true) u [⟨0, u.length, ty⟩] := by
    rintro u ty hu hty fuel s r hl hr hfo hf
    match fuel, hf with
    | fuel + 1, _ =>
      unfold expectValue
      obtain ⟨c, t, hc, h1, h2, h3, h4, h5⟩ : ∃ c t, u = c :: t ∧ c ≠ c!"\"" ∧
          (c ≠ c!"-" ∧ ¬ Digit c ∧ c ≠ c!"." ∧ c ≠ c!"e" ∧ c ≠ c!"E") ∧ c ≠ c!"{" ∧ c ≠ c!"[" ∧
          True := by
        simp at hu
        rcases hu with rfl | rfl | rfl <;> exact ⟨_, _, rfl, by decide, by decide, by decide, by decide, trivial⟩
      have hr' : s.rem = c :: (t ++ r) := by rw [hr, hc]; rfl
      refine or_right (string_no hr' h1) (or_right (number_no hr' h2) (or_right (object_no hr' h3)
        (or_right (array_no hr' h4) ?_)))
      unfold expectTrueFalseNull
      simp only [wp_bind, wp_rem]
      rw [hr, matchIdentifier_append hu hfo.alnum]
      simp only
      rw [if_pos (by rw [hc]; simp)]
      simp only [wp_bind]
      refine emit_after hl hr (by rw [hc]; simp) rfl ?_
      intro s1 a1
      simp only [wp_pure]
      refine ⟨?_, by simp⟩
      simp at hu
      rcases hu with rfl | rfl | rfl <;> simpa [hty] using a1
  refine ⟨?_, ?_, ?_, ?_⟩
  · intro items hv fuel s r hl hr hfo hf
    match fuel, hf with
    | fuel + 1, _ =>
      unfold expectValue
      refine wp_mono (or_left (string_value_after hv hl hr)) ?_
      rintro b s' ⟨hb, h⟩
      exact ⟨h, fun _ => hb⟩
  · intro u hu fuel s r hl hr hfo hf
    match fuel, hf with
    | fuel + 1, _ =>
      unfold expectValue
      obtain ⟨h1, h2, h3⟩ := matchNumber_append hu hfo.number
      obtain ⟨c, t, hc, hd⟩ := number_head hu
      have hr' : s.rem = c :: (t ++ r) := by rw [hr, hc]; rfl
      refine or_right (string_no hr' ?_) ?_
      · rcases hd with rfl | hd
        · decide
        · rintro rfl
          revert hd
          decide
      · refine wp_mono (or_left (P := fun s' => After s u r [⟨0, u.length, .number⟩] s') ?_)
          (fun b s' h => ⟨h.2, fun _ => h.1⟩)
        unfold expectNumber
        simp only [wp_bind, wp_rem, hr, h1, h2]
        rw [if_pos (by simpa using h3)]
        simp only [wp_bind, Bool.false_eq_true, if_false]
        refine emit_after hl hr h3 rfl ?_
        intro s1 a1
        rw [wp_pure]
        exact ⟨rfl, a1⟩
  · intro u hu
    refine lit u .bool_ (by simp at hu ⊢; grind) ?_
    simp at hu
    rcases hu with rfl | rfl <;> rfl
  · exact lit b!"null" .null (by simp) rfl

theorem bracket_ne {c d : UInt8} (hcd : c ≠ d) {t : Bytes} (hr : s.rem = c :: t) :
    startsWith s.rem [d] = false := by
  rw [hr]
  simp [Ne.symm hcd]

/-- An array whose content the loop handles. -/
theorem array_correct {l : Bool} {cm : Bool} {m : Bytes} {mt : List Token}
    (h : ∀ (vf fuel : Nat) (s : HS Unit) (r : Bytes) (Q : Bool → HS Unit → Prop),
      s.idx + s.rem.length = env.src.length → s.rem = m ++ c!"]" :: r →
      s.rem.length < vf → s.rem.length < fuel →
      (∀ (fuel' : Nat) (s' : HS Unit), After s m (c!"]" :: r) mt s' → s'.rem.length < fuel' →
        wp (HM.loop fuel' (arrayStep cm (expectValue cm vf)) ()) Q env s') →
      wp (HM.loop fuel (arrayStep cm (expectValue cm vf)) ()) Q env s) :
    Correct env cm (.value l) (b!"[" ++ m ++ b!"]")
      (⟨0, 1, .symbol_square⟩ :: shift 1 mt ++ [⟨m.length + 1, 1, .symbol_square⟩]) := by
  intro fuel s r hl hr hfo hf
  have hr' : s.rem = b!"[" ++ (m ++ c!"]" :: r) := by rw [hr]; simp
  match fuel, hf with
  | fuel + 1, hf =>
    unfold expectValue
    refine or_right (string_no hr' (by decide)) (or_right (number_no hr' (by decide))
      (or_right (object_no hr' (by decide)) ?_))
    refine wp_mono (or_left (P := fun s' => After s (b!"[" ++ m ++ b!"]") r
      (⟨0, 1, .symbol_square⟩ :: shift 1 mt ++ [⟨m.length + 1, 1, .symbol_square⟩]) s') ?_)
      (fun b s' h => ⟨h.2, fun _ => h.1⟩)
    unfold expectArray
    simp only [wp_bind, wp_rem]
    rw [if_neg (by rw [hr']; simp)]
    simp only [wp_bind]
    refine emit_after hl hr' (by simp) rfl ?_
    intro s1 a1
    have hl1 := a1.len hr' hl
    have hlen := congrArg List.length hr'
    have hlen1 := congrArg List.length a1.rem
    simp at hlen hlen1
    refine h fuel _ s1 r _ hl1 a1.rem (by omega) (by omega) ?_
    intro fuel' s2 a2 hf'
    have hl2 := a2.len a1.rem hl1
    match fuel', hf' with
    | fuel' + 1, _ =>
      unfold HM.loop
      rw [wp_bind]
      unfold arrayStep
      simp only [wp_bind, wp_eof]
      rw [if_neg (by rw [a2.rem]; simp), wp_bind]
      refine wp_mono (consumeWs_id a2.rem (by decide)) ?_
      rintro _ s3 rfl
      simp only [wp_bind, wp_rem]
      rw [if_pos (by rw [a2.rem]; simp)]
      simp only [wp_bind]
      refine emit_after (u := b!"]") hl2 (by simpa using a2.rem) (by simp) rfl ?_
      intro s4 a4
      simp only [wp_pure]
      refine ⟨trivial, ?_⟩
      have := (a1.trans a2).trans a4
      simpa [shift_cons, shift_nil, Nat.add_comm] using this

/-- An object whose content the loop handles. -/
theorem object_correct {l : Bool} {cm : Bool} {m : Bytes} {mt : List Token}
    (h : ∀ (vf fuel : Nat) (s : HS Unit) (r : Bytes) (Q : Bool → HS Unit → Prop),
      s.idx + s.rem.length = env.src.length → s.rem = m ++ c!"}" :: r →
      s.rem.length < vf → s.rem.length < fuel →
      (∀ (fuel' : Nat) (s' : HS Unit), After s m (c!"}" :: r) mt s' → s'.rem.length ≤ fuel' →
        wp (objectNext) (fun a s'' => wp (match a with
          | .inl b' => HM.loop fuel' (objectStep cm (expectValue cm vf)) b'
          | .inr a => pure a) Q env s'') env s') →
      wp (HM.loop fuel (objectStep cm (expectValue cm vf)) ()) Q env s) :
    Correct env cm (.value l) (b!"{" ++ m ++ b!"}")
      (⟨0, 1, .symbol_brace⟩ :: shift 1 mt ++ [⟨m.length + 1, 1, .symbol_brace⟩]) := by
  intro fuel s r hl hr hfo hf
  have hr' : s.rem = b!"{" ++ (m ++ c!"}" :: r) := by rw [hr]; simp
  match fuel, hf with
  | fuel + 1, hf =>
    unfold expectValue
    refine or_right (string_no hr' (by decide)) (or_right (number_no hr' (by decide)) ?_)
    refine wp_mono (or_left (P := fun s' => After s (b!"{" ++ m ++ b!"}") r
      (⟨0, 1, .symbol_brace⟩ :: shift 1 mt ++ [⟨m.length + 1, 1, .symbol_brace⟩]) s') ?_)
      (fun b s' h => ⟨h.2, fun _ => h.1⟩)
    unfold expectObject
    simp only [wp_bind, wp_rem]
    rw [if_neg (by rw [hr']; simp)]
    simp only [wp_bind]
    refine emit_after hl hr' (by simp) rfl ?_
    intro s1 a1
    have hl1 := a1.len hr' hl
    have hlen := congrArg List.length hr'
    have hlen1 := congrArg List.length a1.rem
    simp at hlen hlen1
    refine h fuel _ s1 r _ hl1 a1.rem (by omega) (by omega) ?_
    intro fuel' s2 a2 hf'
    have hl2 := a2.len a1.rem hl1
    unfold objectNext
    simp only [wp_bind, wp_rem]
    rw [if_pos (by rw [a2.rem]; simp)]
    simp only [wp_bind]
    refine emit_after (u := b!"}") hl2 (by simpa using a2.rem) (by simp) rfl ?_
    intro s4 a4
    simp only [wp_pure]
    refine ⟨trivial, ?_⟩
    have := (a1.trans a2).trans a4
    simpa [shift_cons, shift_nil, Nat.add_comm] using this

/-- One member. -/
theorem member_correct {cm : Bool} {w1 w2 w3 w4 v : Bytes} {t1 t2 t3 t4 vt : List Token}
    {items : List Item} {lits : Bool} (h1 : Ws cm w1 t1) (hn : ∀ i ∈ items, i.Valid) (h2 : Ws cm w2 t2)
    (h3 : Ws cm w3 t3) (hv : Text cm lits (.value true) v vt) (h4 : Ws cm w4 t4)
    (ih : Correct env cm (.value true) v vt) {vf : Nat} {c : UInt8} {r : Bytes}
    (hc : c = c!"," ∨ c = c!"}") (hl : s.idx + s.rem.length = env.src.length)
    (hr : s.rem = w1 ++ (quoted items ++ (w2 ++ (b!":" ++ (w3 ++ (v ++ (w4 ++ c :: r)))))))
    (hf : s.rem.length < vf) :
    wp (consumeMember cm (expectValue cm vf)) (fun _ s' =>
      After s (w1 ++ quoted items ++ w2 ++ b!":" ++ w3 ++ v ++ w4) (c :: r)
        (t1 ++ shift w1.length (nameTokens items) ++ shift (w1 ++ quoted items).length t2 ++
          ⟨(w1 ++ quoted items ++ w2).length, 1, .symbol_punc⟩ ::
          shift (w1 ++ quoted items ++ w2 ++ b!":").length t3 ++
          shift (w1 ++ quoted items ++ w2 ++ b!":" ++ w3).length vt ++
          shift (w1 ++ quoted items ++ w2 ++ b!":" ++ w3 ++ v).length t4) s') env s := by
  unfold consumeMember
  rw [wp_bind]
  refine wp_mono (atEnd_after h1 hl hr (noWs_of (c := c!"\"") (by decide) (by decide))) ?_
  rintro b s1 ⟨a1, rfl⟩
  have hl1 := a1.len hr hl
  rw [if_neg (by simp [quoted])]
  simp only [wp_bind, ignore, wp_pure]
  refine wp_mono (string_name_after hn hl1 a1.rem) ?_
  rintro b s2 ⟨_, a2⟩
  have hl2 := a2.len a1.rem hl1
  refine wp_mono (atEnd_after h2 hl2 a2.rem (noWs_of (c := c!":") (by decide) (by decide))) ?_
  rintro b s3 ⟨a3, rfl⟩
  have hl3 := a3.len a2.rem hl2
  rw [if_neg (by simp)]
  simp only [wp_bind, wp_rem]
  rw [if_pos (by rw [a3.rem]; simp)]
  simp only [wp_bind]
  refine emit_after hl3 a3.rem (by simp) rfl ?_
  intro s4 a4
  have hl4 := a4.len a3.rem hl3
  obtain ⟨d, v', rfl, d1, d2, d3, d4, d5⟩ := text_head hv
  refine wp_mono (atEnd_after h3 hl4 a4.rem (noWs_of d1 d2)) ?_
  rintro b s5 ⟨a5, rfl⟩
  have hl5 := a5.len a4.rem hl4
  rw [if_neg (by simp [Ne.symm d3, Ne.symm d4])]
  simp only [wp_bind]
  have hfw : Follow (w4 ++ c :: r) := by
    refine ws_follow h4 ?_
    intro x hx
    simp at hx
    subst hx
    rcases hc with rfl | rfl <;> decide
  have hlt : s5.rem.length < vf := by
    have := a1.idx
    have := a2.idx
    have := a3.idx
    have := a4.idx
    have := a5.idx
    omega
  refine wp_mono (ih vf s5 _ hl5 a5.rem hfw hlt) ?_
  rintro b s6 ⟨a6, _⟩
  have hl6 := a6.len a5.rem hl5
  have hnw : NoWs (c :: r) := by rcases hc with rfl | rfl <;> exact noWs_of (by decide) (by decide)
  rw [wp_pure]
  refine wp_mono (consumeWs_after h4 hl6 a6.rem hnw) ?_
  rintro _ s7 a7
  have := (((((a1.trans a2).trans a3).trans a4).trans a5).trans a6).trans a7
  simpa [shift_cons, shift_nil] using this

theorem text_correct {cm : Bool} {k : Kind} {u : Bytes} {ts : List Token}
    (h : Text cm false k u ts) : Correct env cm k u ts := by
  induction h with
  | string h => exact scalar_correct.1 _ h
  | number h => exact (scalar_correct).2.1 _ h
  | bool h => exact (scalar_correct (l := true)).2.2.1 _ h
  | null => exact (scalar_correct (l := true)).2.2.2
  | @emptyObject l w wt hw =>
    refine object_correct ?_
    intro vf fuel s r Q hl hr hv hf k
    match fuel, hf with
    | fuel + 1, hf =>
      unfold HM.loop
      rw [wp_bind]
      conv => arg 1; unfold objectStep
      simp only [wp_bind, wp_eof]
      rw [if_neg (by rw [hr]; simp)]
      simp only [wp_bind]
      conv => arg 1; unfold consumeMember
      rw [wp_bind]
      refine wp_mono (atEnd_after hw hl hr (noWs_of (by decide) (by decide))) ?_
      rintro b s1 ⟨a1, rfl⟩
      rw [if_pos (by simp), wp_pure]
      refine wp_mono (k fuel s1 a1 ?_) ?_
      · have := a1.idx
        have := a1.len hr hl
        omega
      · intro a s'' h
        cases a <;> exact h
  | @object l m mt hm ih =>
    refine object_correct ?_
    intro vf fuel s r Q hl hr hv hf k
    exact ih vf fuel s r _ Q hl hr (Or.inr rfl) hv hf k
  | @emptyArray l w wt hw =>
    refine array_correct ?_
    intro vf fuel s r Q hl hr hv hf k
    exact array_skip hw hl hr (by decide) hf k
  | @array l m mt hm ih =>
    refine array_correct ?_
    intro vf fuel s r Q hl hr hv hf k
    exact ih vf fuel s r _ Q hl hr (Or.inr rfl) hv hf k
  | @element w1 t1 v vt w2 t2 h1 hv h2 ih =>
    intro vf fuel s r c Q hl hr hc hvf hf k
    obtain ⟨d, v', rfl, d1, d2, d3, d4, d5⟩ := text_head hv
    have hr1 : s.rem = w1 ++ d :: (v' ++ (w2 ++ c :: r)) := by rw [hr]; simp
    refine array_skip h1 hl hr1 ⟨d1, d2⟩ hf ?_
    intro fuel1 s1 a1 hf1
    have hl1 := a1.len hr1 hl
    have hcw : isWhitespace c = false ∧ c ≠ c!"/" := by rcases hc with rfl | rfl <;> decide
    have hfw : Follow (w2 ++ c :: r) := by
      refine ws_follow h2 ?_
      intro x hx
      simp at hx
      subst hx
      rcases hc with rfl | rfl <;> decide
    match fuel1, hf1 with
    | fuel1 + 1, hf1 =>
      unfold HM.loop
      rw [wp_bind]
      conv => arg 1; unfold arrayStep
      simp only [wp_bind, wp_eof]
      rw [if_neg (by rw [a1.rem]; simp), wp_bind]
      refine wp_mono (consumeWs_id a1.rem ⟨d1, d2⟩) ?_
      rintro _ s1' rfl
      simp only [wp_bind, wp_rem]
      rw [if_neg (by rw [a1.rem]; simp [Ne.symm d5]), if_neg (by rw [a1.rem]; simp [Ne.symm d4]),
        wp_bind]
      have hi1 := a1.idx
      refine wp_mono (ih vf s1' _ hl1 (by simpa using a1.rem) hfw (by omega)) ?_
      rintro b s2 ⟨a2, hb⟩
      have hr2 : s1'.rem = (d :: v') ++ (w2 ++ c :: r) := by simpa using a1.rem
      have hl2 := a2.len hr2 hl1
      rw [if_pos (hb rfl)]
      simp only [wp_pure]
      have hi2 := a2.idx
      simp only [List.length_cons] at hi2
      refine array_skip h2 hl2 a2.rem hcw (by omega) ?_
      intro fuel3 s3 a3 hf3
      refine k fuel3 s3 ?_ hf3
      have := (a1.trans a2).trans a3
      simpa using this
  | @moreElements e et m mt he hm ihe ihm =>
    intro vf fuel s r c Q hl hr hc hvf hf k
    have hr1 : s.rem = e ++ c!"," :: (m ++ c :: r) := by rw [hr]; simp
    refine ihe vf fuel s (m ++ c :: r) c!"," Q hl hr1 (Or.inl rfl) hvf hf ?_
    intro fuel1 s1 a1 hf1
    have hl1 := a1.len hr1 hl
    match fuel1, hf1 with
    | fuel1 + 1, hf1 =>
      unfold HM.loop
      rw [wp_bind]
      conv => arg 1; unfold arrayStep
      simp only [wp_bind, wp_eof]
      rw [if_neg (by rw [a1.rem]; simp), wp_bind]
      refine wp_mono (consumeWs_id a1.rem (by decide)) ?_
      rintro _ s1' rfl
      simp only [wp_bind, wp_rem]
      rw [if_neg (by rw [a1.rem]; simp), if_pos (by rw [a1.rem]; simp)]
      simp only [wp_bind]
      have hr2 : s1'.rem = b!"," ++ (m ++ c :: r) := by simpa using a1.rem
      refine emit_after hl1 hr2 (by simp) rfl ?_
      intro s2 a2
      have hl2 := a2.len hr2 hl1
      have hi1 := a1.idx
      have hi2 := a2.idx
      simp only [List.length_cons, List.length_nil] at hi2
      simp only [wp_pure]
      refine ihm vf fuel1 s2 r c Q hl2 a2.rem hc (by omega) (by omega) ?_
      intro fuel3 s3 a3 hf3
      refine k fuel3 s3 ?_ hf3
      have := (a1.trans a2).trans a3
      simpa [shift_cons, shift_nil, Nat.add_comm] using this
  | @member w1 t1 items w2 t2 w3 t3 v vt w4 t4 h1 hn h2 h3 hv h4 ih =>
    intro vf fuel s r c Q hl hr hc hvf hf k
    match fuel, hf with
    | fuel + 1, hf =>
      unfold HM.loop
      rw [wp_bind]
      conv => arg 1; unfold objectStep
      simp only [wp_bind, wp_eof]
      rw [if_neg (by rw [hr]; simp)]
      simp only [wp_bind]
      refine wp_mono (member_correct (r := r) h1 hn h2 h3 hv h4 ih hc hl (by rw [hr]; simp) hvf) ?_
      intro _ s1 a1
      refine wp_mono (k fuel s1 a1 ?_) ?_
      · have := a1.idx
        have := a1.len hr hl
        omega
      · intro a s'' h
        cases a <;> exact h
  | @moreMembers e et m mt he hm ihe ihm =>
    intro vf fuel s r c Q hl hr hc hvf hf k
    have hr1 : s.rem = e ++ c!"," :: (m ++ c :: r) := by rw [hr]; simp
    refine ihe vf fuel s (m ++ c :: r) c!"," Q hl hr1 (Or.inl rfl) hvf hf ?_
    intro fuel1 s1 a1 hf1
    have hl1 := a1.len hr1 hl
    unfold objectNext
    simp only [wp_bind, wp_rem]
    rw [if_neg (by rw [a1.rem]; simp), if_pos (by rw [a1.rem]; simp)]
    simp only [wp_bind]
    have hr2 : s1.rem = b!"," ++ (m ++ c :: r) := by simpa using a1.rem
    refine emit_after hl1 hr2 (by simp) rfl ?_
    intro s2 a2
    have hl2 := a2.len hr2 hl1
    have hi1 := a1.idx
    have hi2 := a2.idx
    simp only [List.length_cons, List.length_nil] at hi2
    simp only [wp_pure]
    refine ihm vf fuel1 s2 r c Q hl2 a2.rem hc (by omega) (by omega) ?_
    intro fuel3 s3 a3 hf3
    refine k fuel3 s3 ?_ hf3
    have := (a1.trans a2).trans a3
    simpa [shift_cons, shift_nil, Nat.add_comm] using this

theorem run_correct {cm : Bool} {u : Bytes} {ts : List Token} (h : Document cm false u ts)
    (hl : s.idx + s.rem.length = env.src.length) (hr : s.rem = u) :
    wp (run cm) (fun b s' => b = true ∧ After s u [] ts s') env s := by
  cases h with
  | @mk w1 t1 v vt w2 t2 h1 hv h2 =>
    obtain ⟨d, v', rfl, d1, d2, d3, d4, d5⟩ := text_head hv
    have hr1 : s.rem = w1 ++ d :: (v' ++ w2) := by rw [hr]; simp
    unfold run
    rw [wp_bind]
    refine wp_mono (consumeWs_after h1 hl hr1 (noWs_of d1 d2)) ?_
    intro _ s1 a1
    have hl1 := a1.len hr1 hl
    simp only [wp_bind, wp_rem, ignore, wp_pure]
    have hr2 : s1.rem = (d :: v') ++ w2 := by simpa using a1.rem
    refine wp_mono (text_correct hv _ s1 w2 hl1 hr2 ?_ (by omega)) ?_
    · simpa using ws_follow (r := []) h2 (by simp [Follow])
    rintro b s2 ⟨a2, _⟩
    have hl2 := a2.len hr2 hl1
    refine wp_mono (consumeWs_after (r := []) h2 hl2 (by simpa using a2.rem) (by simp [NoWs])) ?_
    intro _ s3 a3
    refine ⟨trivial, ?_⟩
    have := (a1.trans a2).trans a3
    simpa using this

end

/-- The tokens of valid documents: every string, number, literal and punctuation character has its
type, as `Spec.Json.Document` says, provided that `true`, `false` and `null` are not elements of
arrays (the missing part, see `C30_literal_in_array`). -/
theorem C30_json_partial (debug : Bool) (opts : Opts) (src : Bytes) (ts : List Token)
    (h : Document (!opts.strict) false src ts) :
    ∃ es, highlight debug opts src = .ok (true, es) ∧ es.map Emit.token = ts := by
  obtain ⟨b, s', h1, rfl, h2⟩ := run_correct (env := ⟨debug, opts.seen, src⟩) (s := ⟨src, 0, [], ()⟩) h
    (by simp) rfl
  refine ⟨s'.out, by simp [highlight, HM.run, HM.runAll, h1], ?_⟩
  simpa [shift_zero] using h2.out

/-- The same for JSON with comments, where comments are allowed even in strict mode. -/
theorem C30_jsonc_partial (debug : Bool) (opts : Opts) (src : Bytes) (ts : List Token)
    (h : Document true false src ts) :
    ∃ es, highlightC debug opts src = .ok (true, es) ∧ es.map Emit.token = ts := by
  obtain ⟨b, s', h1, rfl, h2⟩ := run_correct (env := ⟨debug, opts.seen, src⟩) (s := ⟨src, 0, [], ()⟩) h
    (by simp) rfl
  refine ⟨s'.out, by simp [highlightC, HM.run, HM.runAll, h1], ?_⟩
  simpa [shift_zero] using h2.out

/-! The documented tokens include no errors. -/

/-- No token is an error. -/
def NoError (ts : List Token) : Prop := ∀ t ∈ ts, t.ty ≠ .error

theorem noError_shift {a : Nat} {ts : List Token} : NoError (shift a ts) ↔ NoError ts := by
  simp [NoError, shift]

theorem noError_append {ts us : List Token} : NoError (ts ++ us) ↔ NoError ts ∧ NoError us := by
  simp [NoError, or_imp, forall_and]

theorem noError_cons {t : Token} {us : List Token} :
    NoError (t :: us) ↔ t.ty ≠ .error ∧ NoError us := by
  simp [NoError]

theorem noError_nil : NoError [] := by simp [NoError]

theorem noError_opt {b : Nat} {u : Bytes} {ty : HT} (h : ty ≠ .error) : NoError (opt b u ty) := by
  unfold opt
  split <;> simp [NoError, h]

theorem ws_noError {cm : Bool} {u : Bytes} {ts : List Token} (h : Ws cm u ts) : NoError ts := by
  induction h with
  | nil => exact noError_nil
  | char _ _ ih => exact noError_shift.2 ih
  | line _ _ _ _ ih =>
    simp only [noError_append, noError_cons, noError_shift]
    exact ⟨⟨by decide, noError_opt (by decide)⟩, ih⟩
  | block _ _ _ ih =>
    simp only [noError_append, noError_cons, noError_shift]
    exact ⟨⟨by decide, noError_opt (by decide)⟩, by decide, ih⟩

theorem content_noError {ty : HT} {close : Nat → Bytes → List Token} (hty : ty ≠ .error)
    (hc : ∀ b u, NoError (close b u)) (b : Nat) (u : Bytes) (items : List Item) :
    NoError (contentTokens ty close b u items) := by
  induction items generalizing b u with
  | nil => exact hc b u
  | cons i items ih =>
    cases i with
    | char c => exact ih _ _
    | esc e =>
      simp only [contentTokens, noError_append, noError_cons]
      exact ⟨noError_opt hty, by decide, ih _ _⟩

theorem text_noError {cm lits : Bool} {k : Kind} {u : Bytes} {ts : List Token}
    (h : Text cm lits k u ts) : NoError ts := by
  have hname : ∀ items, NoError (nameTokens items) := fun items =>
    content_noError (by decide) (fun b u => by simp [NoError]) _ _ _
  induction h with
  | string h =>
    simp only [stringTokens, noError_cons]
    refine ⟨by decide, content_noError (by decide) (fun b u => ?_) _ _ _⟩
    simp only [noError_append, noError_cons]
    exact ⟨noError_opt (by decide), by decide, noError_nil⟩
  | number h => simp [NoError]
  | bool h => simp [NoError]
  | null => simp [NoError]
  | emptyObject h =>
    simp only [noError_append, noError_cons, noError_shift]
    exact ⟨⟨by decide, ws_noError h⟩, by decide, noError_nil⟩
  | object h ih =>
    simp only [noError_append, noError_cons, noError_shift]
    exact ⟨⟨by decide, ih⟩, by decide, noError_nil⟩
  | emptyArray h =>
    simp only [noError_append, noError_cons, noError_shift]
    exact ⟨⟨by decide, ws_noError h⟩, by decide, noError_nil⟩
  | array h ih =>
    simp only [noError_append, noError_cons, noError_shift]
    exact ⟨⟨by decide, ih⟩, by decide, noError_nil⟩
  | element h1 hv h2 ih =>
    simp only [noError_append, noError_shift]
    exact ⟨⟨ws_noError h1, ih⟩, ws_noError h2⟩
  | moreElements he hm ih1 ih2 =>
    simp only [noError_append, noError_cons, noError_shift]
    exact ⟨ih1, by decide, ih2⟩
  | member h1 hn h2 h3 hv h4 ih =>
    simp only [noError_append, noError_cons, noError_shift]
    exact ⟨⟨⟨⟨⟨ws_noError h1, hname _⟩, ws_noError h2⟩, by decide, ws_noError h3⟩, ih⟩, ws_noError h4⟩
  | moreMembers he hm ih1 ih2 =>
    simp only [noError_append, noError_cons, noError_shift]
    exact ⟨ih1, by decide, ih2⟩

/-- Valid documents have no error tokens (again without literals as elements of arrays). -/
theorem C30_no_errors_partial (debug : Bool) (opts : Opts) (src : Bytes) (ts : List Token)
    (h : Document (!opts.strict) false src ts) :
    ∃ es, highlight debug opts src = .ok (true, es) ∧ ∀ e ∈ es, e.ty ≠ .error := by
  obtain ⟨es, h1, h2⟩ := C30_json_partial debug opts src ts h
  refine ⟨es, h1, fun e he => ?_⟩
  have hn : NoError ts := by
    cases h with
    | mk hw1 hv hw2 =>
      simp only [noError_append, noError_shift]
      exact ⟨⟨ws_noError hw1, text_noError hv⟩, ws_noError hw2⟩
  have := hn e.token (by rw [← h2]; exact List.mem_map_of_mem he)
  simpa [Emit.token] using this

/-- A document that meets the hypotheses: `{"a": [1, "\n"], "b":null}`. -/
example : ∃ ts, Document false false b!"{\"a\": [1, \"\\n\"], \"b\":null}" ts ∧ ts.length = 15 := by
  have one : Text false false (.value false) b!"1" _ :=
    .number ⟨[], b!"1", [], [], rfl, by simp, ⟨⟨by simp, by decide⟩, by decide⟩, Or.inl rfl, Or.inl rfl⟩
  have str : Text false false (.value false) _ _ := .string (items := [.esc b!"\\n"])
    (by simpa [Item.Valid] using EscapeSeq.simple (by decide))
  have sp : Ws false b!" " _ := .char (by decide) .nil
  have arr : Text false false (.value true) _ _ :=
    .array (.moreElements (.element .nil one .nil) (.element sp str .nil))
  have ha : ∀ c : UInt8, Plain c → ∀ i ∈ [Item.char c], i.Valid := by
    intro c hc
    simpa [Item.Valid] using hc
  have m1 := Text.member (lits := false) (cm := false) (items := [.char c!"a"]) .nil
    (ha _ (by simp [Plain])) .nil sp arr .nil
  have m2 := Text.member (lits := false) (cm := false) (items := [.char c!"b"]) sp
    (ha _ (by simp [Plain])) .nil .nil .null .nil
  exact ⟨_, .mk .nil (.object (.moreMembers m1 m2)) .nil, by decide +kernel⟩

/-- The full property fails: `[true]` is a valid document, but its closing bracket becomes an error
token, because `expect_true_false_null` reports failure (json.cpp:407-419). -/
theorem C30_literal_in_array :
    (∃ ts, Document false true b!"[true]" ts) ∧
    (highlight true ⟨false, true⟩ b!"[true]").map (fun r => r.2.map Emit.token) =
      .ok [⟨0, 1, .symbol_square⟩, ⟨1, 4, .bool_⟩, ⟨5, 1, .error⟩] := by
  constructor
  · exact ⟨_, .mk .nil (.array (.element .nil (.bool (s := b!"true") (by simp)) .nil)) .nil⟩
  · decide +kernel

/-- For every text, valid or not: highlighting succeeds, tokens are what `Spec.Json.Tok` says about
their text (an escape sequence is a valid one, a number is a number, and so on), and text between
tokens is whitespace, up to the end `p` of the document. -/
theorem C30_every_token (debug : Bool) (opts : Opts) (src : Bytes) :
    ∃ es p, highlight debug opts src = .ok (true, es) ∧ p ≤ src.length ∧
      Tiles rules src p (es.map Emit.token) := highlight_tiles debug opts src

/-- The same for JSON with comments. -/
theorem C30_every_token_jsonc (debug : Bool) (opts : Opts) (src : Bytes) :
    ∃ es p, highlightC debug opts src = .ok (true, es) ∧ p ≤ src.length ∧
      Tiles rules src p (es.map Emit.token) := highlightC_tiles debug opts src

example : (highlight true {} b!"{\"a\": [1, 2").map (fun r => r.2.map Emit.token) =
    .ok [⟨0, 1, .symbol_brace⟩, ⟨1, 3, .markup_attr⟩, ⟨4, 1, .symbol_punc⟩, ⟨6, 1, .symbol_square⟩,
      ⟨7, 1, .number⟩, ⟨8, 1, .symbol_punc⟩, ⟨10, 1, .number⟩] := by
  decide +kernel

end Ulight.Json
