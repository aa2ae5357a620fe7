import Verif.Props.Lang.Json
import Verif.Props.Lang.JsonParseSound

/-!
# `parse_json` accepts JSON documents
-/

namespace Ulight.Json.Parser

open Spec Spec.JsonParse
open Spec.Json (Number EscapeSeq Plain Digit HexDigit)

section

variable {env : HEnv} {i : Nat} {es : List Event} {o : JOptions}

/-- The text `u` was consumed and reported as `ms`. -/
def Fin (env : HEnv) (i : Nat) (es : List Event) (u : Bytes) (ms : Marks) (b : Bool) (s' : HS Ext) :
    Prop :=
  b = true ∧ ∃ es', s' = st env (i + u.length) es' ∧ bare es' = bare es ++ bare (events env.src i ms)

theorem bare_append {a b : List Event} : bare (a ++ b) = bare a ++ bare b := by
  simp [bare, noBlocks]

theorem Fin.after {u v : Bytes} {ms ms' : Marks} {es1 : List Event} {b : Bool} {s' : HS Ext}
    (h1 : bare es1 = bare es ++ bare (events env.src i ms))
    (h : Fin env (i + u.length) es1 v ms' b s') :
    Fin env i es (u ++ v) (ms ++ later u.length ms') b s' := by
  obtain ⟨hb, es', rfl, h2⟩ := h
  refine ⟨hb, es', ?_, ?_⟩
  · congr 1; simp; omega
  · rw [h2, h1, events_append, events_later, bare_append, List.append_assoc]

theorem Fin.cast {u v : Bytes} {ms ms' : Marks} {b : Bool} {s' : HS Ext}
    (h : Fin env i es u ms b s') (h1 : u = v) (h2 : ms = ms') : Fin env i es v ms' b s' := by
  subst h1 h2
  exact h

theorem bare_nil : bare es = bare es ++ bare (events env.src i []) := by simp [events, bare, noBlocks]

theorem bare_visit {p : Payload} :
    bare (es ++ [⟨posAt env.src i, p⟩]) = bare es ++ bare (events env.src i [(0, p)]) := by
  simp [events, bare_append]

theorem bare_block {t t' : Bytes} {j : Nat} :
    bare (es ++ [⟨posAt env.src j, .blockComment t'⟩]) =
      bare es ++ bare (events env.src i [(0, .blockComment t)]) := by
  simp [events, bare, noBlocks, isBlockComment]

theorem Fin.refl : Fin env i es [] [] true (st env i es) := ⟨rfl, es, rfl, bare_nil⟩

theorem drop_next {u r : Bytes} (h : env.src.drop i = u ++ r) : env.src.drop (i + u.length) = r := by
  rw [← List.drop_drop, h, List.drop_left]

theorem drop_one {c : UInt8} {r : Bytes} (h : env.src.drop i = c :: r) : env.src.drop (i + 1) = r :=
  drop_next (u := [c]) h

theorem le_cons {c : UInt8} {r : Bytes} (h : env.src.drop i = c :: r) : i < env.src.length := by
  have := congrArg List.length h
  simp at this
  omega

/-! ## Whitespace -/

theorem wsStep_skip {c : UInt8} {t : Bytes} {fuel : Nat} {Q : Bool → HS Ext → Prop}
    (hr : env.src.drop i = c :: t) (hc : isWhitespace c = true) :
    wp (HM.loop (fuel + 1) wsStep ()) Q env (st env i es) ↔
      wp (HM.loop (fuel + 1) wsStep ()) Q env (st env (i + 1) es) := by
  rw [wp_loop_succ, wp_loop_succ]
  unfold wsStep
  simp only [wp_bind, wp_rem, st_rem, hr, drop_one hr]
  have hl := congrArg List.length hr
  simp at hl
  have hle := matchWhitespace_le t
  rw [matchWhitespace_cons hc, wp_adv (by omega), wp_adv (by omega)]
  rw [show i + (matchWhitespace t + 1) = i + 1 + matchWhitespace t by omega]

theorem lineComment_match {body r : Bytes} {c : UInt8} (hc : c = 0x0A ∨ c = 0x0D)
    (hb : ∀ k, ¬ Js.LineTerminatorAt body k) :
    Js.matchLineComment (b!"//" ++ body ++ c :: r) = body.length + 2 := by
  have hlt := lineTerminator_append (r := r) hc hb
  have hat : Js.LineTerminatorAt (body ++ c :: r) body.length :=
    ⟨[c], by rcases hc with rfl | rfl <;> simp [Js.lineTerminators], body, r, by simp, rfl⟩
  rcases Js.matchLineComment_spec (b!"//" ++ body ++ c :: r) with
    ⟨h, _⟩ | ⟨body', rest', ⟨h1, h2, h3⟩, h4⟩
  · simp at h
  · have h1 : body ++ c :: r = body' ++ rest' := by simpa using h1
    have ha : body.length ≤ body'.length := by
      refine hlt _ ?_
      rw [h1]
      refine h3 ?_
      rintro rfl
      have := h2 body.length (by rw [← h1]; exact hat)
      have := congrArg List.length h1
      simp at this
      omega
    have hb := h2 body.length (by rw [← h1]; exact hat)
    rw [h4]
    omega

theorem lineComment_match_end {body : Bytes} (hb : ∀ k, ¬ Js.LineTerminatorAt body k) :
    Js.matchLineComment (b!"//" ++ body) = body.length + 2 := by
  rcases Js.matchLineComment_spec (b!"//" ++ body) with
    ⟨h, _⟩ | ⟨body', rest', ⟨h1, h2, h3⟩, h4⟩
  · simp at h
  · have h1 : body = body' ++ rest' := by simpa using h1
    by_cases hr : rest' = []
    · subst hr
      rw [h4, h1]
      simp
    · exact absurd (h1 ▸ h3 hr) (hb _)

theorem blockComment_match {body r : Bytes}
    (hb : ∀ k, OccursAt b!"*/" (body ++ b!"*/") k → body.length ≤ k) :
    Js.matchBlockComment (b!"/*" ++ body ++ b!"*/" ++ r) = ⟨body.length + 4, true⟩ := by
  have hocc : OccursAt b!"*/" (body ++ b!"*/" ++ r) body.length := ⟨body, r, rfl, rfl⟩
  rcases Js.matchBlockComment_spec (b!"/*" ++ body ++ b!"*/" ++ r) with
    ⟨h, _⟩ | ⟨body', rest', ⟨h1, h2⟩, h4⟩ | ⟨body', ⟨h1, h2⟩, h4⟩
  · simp at h
  · have h1 : body ++ b!"*/" ++ r = body' ++ b!"*/" ++ rest' := by simpa using h1
    have ha : body.length ≤ body'.length :=
      occursAt_append (r := r) hb ⟨body', rest', h1, rfl⟩
    have hb := h2 body.length (by rw [← h1]; exact hocc)
    rw [h4]
    congr 1
    omega
  · have h1 : body ++ b!"*/" ++ r = body' := by simpa using h1
    exact absurd hocc (h1 ▸ h2 _)

theorem no_newline_body {body : Bytes} (hb : ∀ k, ¬ Js.LineTerminatorAt body k) :
    (0x0A : UInt8) ∉ b!"//" ++ body := by
  intro hm
  simp at hm
  obtain ⟨a, b, rfl⟩ := List.append_of_mem hm
  exact hb a.length ⟨[0x0A], by simp [Js.lineTerminators], a, b, by simp, rfl⟩

theorem ws_char {ff : Bool} {c : UInt8}
    (h : c ∈ ([0x20, 0x09, 0x0A, 0x0D] : Bytes) ∨ (ff = true ∧ c = 0x0C)) : isWhitespace c = true := by
  simp [isWhitespace] at h ⊢
  grind

/-- A line comment in the loop. -/
theorem wsStep_line {body r : Bytes} {fuel : Nat} {Q : Bool → HS Ext → Prop} (hi : i ≤ env.src.length)
    (hr : env.src.drop i = (b!"//" ++ body) ++ r)
    (hm : Js.matchLineComment ((b!"//" ++ body) ++ r) = (b!"//" ++ body).length)
    (hb : ∀ k, ¬ Js.LineTerminatorAt body k) :
    wp (HM.loop (fuel + 1) wsStep ()) Q env (st env i es) ↔
      wp (HM.loop fuel wsStep ()) Q env (st env (i + (b!"//" ++ body).length)
        (es ++ [⟨posAt env.src i, .lineComment (b!"//" ++ body)⟩])) := by
  rw [wp_loop_succ]
  conv => enter [1, 1]; unfold wsStep
  simp only [wp_bind, wp_rem, st_rem]
  rw [hr, matchWhitespace_zero (by simp; decide), wp_adv (by omega)]
  simp only [st_rem, Nat.add_zero, hr]
  rw [if_pos (by simp)]
  simp only [wp_bind]
  conv => enter [1, 1]; unfold lineComment
  simp only [wp_bind, wp_rem, st_rem, hr, hm]
  rw [if_pos (by simp)]
  simp only [wp_bind]
  rw [List.take_left, wp_visit, wp_same (le_of_drop hi hr) (by
    rw [take_of_drop hr]; exact no_newline_body hb)]
  simp

theorem wsStep_block {body r : Bytes} {fuel : Nat} {Q : Bool → HS Ext → Prop} (hi : i ≤ env.src.length)
    (hr : env.src.drop i = (b!"/*" ++ body ++ b!"*/") ++ r)
    (hb : ∀ k, OccursAt b!"*/" (body ++ b!"*/") k → body.length ≤ k) :
    ∃ t, wp (HM.loop (fuel + 1) wsStep ()) Q env (st env i es) ↔
      wp (HM.loop fuel wsStep ()) Q env (st env (i + (b!"/*" ++ body ++ b!"*/").length)
        (es ++ [⟨posAt env.src (i + (b!"/*" ++ body ++ b!"*/").length), .blockComment t⟩])) := by
  have hm : Js.matchBlockComment ((b!"/*" ++ body ++ b!"*/") ++ r) =
      ⟨(b!"/*" ++ body ++ b!"*/").length, true⟩ := by
    rw [blockComment_match hb]; simp
  refine ⟨(env.src.drop (i + (b!"/*" ++ body ++ b!"*/").length)).take
    (b!"/*" ++ body ++ b!"*/").length, ?_⟩
  rw [wp_loop_succ]
  conv => enter [1, 1]; unfold wsStep
  simp only [wp_bind, wp_rem, st_rem]
  rw [hr, matchWhitespace_zero (by simp; decide), wp_adv (by omega)]
  simp only [st_rem, Nat.add_zero, hr]
  rw [if_neg (by simp), if_pos (by simp)]
  simp only [wp_bind]
  conv => enter [1, 1]; unfold blockComment
  simp only [wp_bind, wp_rem, st_rem, hr, hm]
  rw [if_pos (by simp), if_neg (by simp)]
  simp only [wp_bind]
  rw [wp_adv (le_of_drop hi hr)]
  simp only [wp_rem, wp_visit, wp_pure, if_true]
  rfl

theorem ws_loop_complete {ff l : Bool} {u : Bytes} {ms : Marks} (h : Ws ff true l u ms) :
    ∀ (fuel i : Nat) (es : List Event) (r : Bytes), i ≤ env.src.length →
      env.src.drop i = u ++ r → NoWs r → (l = true → r = []) → env.src.length - i < fuel →
      wp (HM.loop fuel wsStep ()) (Fin env i es u ms) env (st env i es) := by
  have stop : ∀ (fuel i : Nat) (es : List Event) (r : Bytes), i ≤ env.src.length →
      env.src.drop i = r → NoWs r → 0 < fuel →
      wp (HM.loop fuel wsStep ()) (Fin env i es [] []) env (st env i es) := by
    intro fuel i es r hi hr hn hf
    match fuel, hf with
    | fuel + 1, _ =>
      rw [wp_loop_succ]
      conv => arg 1; unfold wsStep
      simp only [wp_bind, wp_rem, st_rem, hr]
      have hl : startsWith r b!"//" = false ∧ startsWith r b!"/*" = false := by
        cases r with
        | nil => simp
        | cons c r =>
          have := (hn c rfl).2
          simp [Ne.symm this]
      rw [matchWhitespace_zero fun c hc => (hn c hc).1, wp_adv (by omega)]
      simp only [st_rem, Nat.add_zero, hr, hl.1, hl.2, Bool.false_eq_true, if_false, wp_pure]
      exact Fin.refl
  induction h with
  | nil =>
    intro fuel i es r hi hr hn _ hf
    exact stop fuel i es r hi (by simpa using hr) hn (by omega)
  | @char c u ms hc hw ih =>
    intro fuel i es r hi hr hn hl hf
    have hr' : env.src.drop i = c :: (u ++ r) := hr
    have hlt := le_cons hr'
    match fuel, hf with
    | fuel + 1, hf =>
      rw [wsStep_skip hr' (ws_char hc)]
      refine wp_mono (ih (fuel + 1) (i + 1) es r (by omega) (drop_one hr') hn hl (by omega)) ?_
      intro b s' h
      exact (Fin.after (u := [c]) bare_nil h).cast rfl (by simp)
  | @line body c u ms _ hc hb hw ih =>
    intro fuel i es r hi hr hn hl hf
    have hc' : c = 0x0A ∨ c = 0x0D := by simpa using hc
    have hr1 : env.src.drop i = (b!"//" ++ body) ++ (c :: (u ++ r)) := by rw [hr]; simp
    have hr2 := drop_next hr1
    have hlt := le_cons hr2
    match fuel, hf with
    | fuel + 1, hf =>
      rw [wsStep_line hi hr1 (by rw [lineComment_match hc' hb]; simp) hb]
      have hbl : 2 ≤ (b!"//" ++ body).length := by simp
      match fuel, hf with
      | 0, hf => omega
      | fuel + 1, hf =>
        rw [wsStep_skip hr2 (by rcases hc' with rfl | rfl <;> decide)]
        refine wp_mono (ih (fuel + 1) _ _ r (by omega) (drop_one hr2) hn hl (by omega)) ?_
        intro b s' h
        refine (Fin.after bare_visit (Fin.after (u := [c]) bare_nil h)).cast (by simp) ?_
        simp [later_later]
  | @lastLine body _ hl' hb =>
    intro fuel i es r hi hr hn hl hf
    have hrn := hl hl'
    have hr1 : env.src.drop i = (b!"//" ++ body) ++ r := hr
    have hr2 := drop_next hr1
    have := le_of_drop hi hr1
    have hbl : 2 ≤ (b!"//" ++ body).length := by simp
    match fuel, hf with
    | fuel + 1, hf =>
      rw [wsStep_line hi hr1 (by rw [hrn, List.append_nil, lineComment_match_end hb]; simp) hb]
      refine wp_mono (stop fuel _ _ r (by omega) hr2 hn (by omega)) ?_
      intro b s' h
      exact (Fin.after bare_visit h).cast (by simp) (by simp [later])
  | @block body u ms _ hb hw ih =>
    intro fuel i es r hi hr hn hl hf
    have hr1 : env.src.drop i = (b!"/*" ++ body ++ b!"*/") ++ (u ++ r) := by rw [hr]; simp
    have hr2 := drop_next hr1
    have := le_of_drop hi hr1
    have hbl : 2 ≤ (b!"/*" ++ body ++ b!"*/").length := by simp
    match fuel, hf with
    | fuel + 1, hf =>
      obtain ⟨t, ht⟩ := wsStep_block (es := es) (fuel := fuel)
        (Q := Fin env i es (b!"/*" ++ body ++ b!"*/" ++ u)
          ((0, .blockComment (b!"/*" ++ body ++ b!"*/")) :: later (body.length + 4) ms)) hi hr1 hb
      rw [ht]
      refine wp_mono (ih fuel _ _ r (by omega) hr2 hn hl (by omega)) ?_
      intro b s' h
      refine (Fin.after (bare_block (t := b!"/*" ++ body ++ b!"*/")) h).cast (by simp) ?_
      simp

theorem ws_plain {ff l : Bool} {u : Bytes} {ms : Marks} (h : Ws ff false l u ms) :
    (∀ c ∈ u, isWhitespace c = true) ∧ ms = [] := by
  generalize hcm : false = cm at h
  induction h with
  | nil => simp
  | char hc _ ih =>
    obtain ⟨h1, h2⟩ := ih
    refine ⟨?_, by rw [h2]; rfl⟩
    intro c hm
    simp at hm
    rcases hm with rfl | hm
    · exact ws_char hc
    · exact h1 c hm
  | line h => rw [h] at hcm; cases hcm
  | lastLine h => rw [h] at hcm; cases hcm
  | block h => rw [h] at hcm; cases hcm

theorem ws_complete {ff l : Bool} {u r : Bytes} {ms : Marks} (h : Ws ff o.allowComments l u ms)
    (hi : i ≤ env.src.length) (hr : env.src.drop i = u ++ r) (hn : NoWs r) (hl : l = true → r = []) :
    wp (consumeWs o) (Fin env i es u ms) env (st env i es) := by
  unfold consumeWs
  refine wp_read ?_
  cases hcm : o.allowComments with
  | true =>
    rw [hcm] at h
    simp only [Bool.not_true, Bool.false_eq_true, if_false]
    exact ws_loop_complete h _ i es r hi hr hn hl (by simp)
  | false =>
    rw [hcm] at h
    obtain ⟨h1, rfl⟩ := ws_plain h
    simp only [Bool.not_false, if_true, wp_bind]
    have : matchWhitespace (env.src.drop i) = u.length := by
      rw [hr, matchWhitespace_eq, List.takeWhile_append_of_pos h1]
      cases r with
      | nil => simp
      | cons c r => simp [(hn c rfl).1]
    rw [this, wp_adv (le_of_drop hi hr), wp_pure]
    exact ⟨rfl, es, rfl, bare_nil⟩

end

/-! ## Strings -/

section

variable {env : HEnv} {i : Nat} {es : List Event} {o : JOptions} {prop : Bool}

/-- A plain character in the loop. -/
theorem stringStep_plain {p r : Bytes} {c : UInt8} {fuel : Nat} {Q : Bool → HS Ext → Prop}
    (hr : env.src.drop i = p ++ c :: r) (hc : Plain c) :
    wp (HM.loop (fuel + 1) (stringStep o prop) p.length) Q env (st env i es) ↔
      wp (HM.loop fuel (stringStep o prop) (p.length + 1)) Q env (st env i es) := by
  obtain ⟨h1, h2, h3⟩ := hc
  rw [wp_loop_succ]
  conv => enter [1, 1]; unfold stringStep
  have : (env.src.drop i)[p.length]? = some c := by rw [hr]; simp
  simp only [wp_bind, wp_rem, st_rem, this]
  rw [if_neg (by simpa using h2), if_neg (by simpa using h3), if_neg (by
    rw [UInt8.lt_iff_toNat_lt]; simp; omega), wp_pure]

theorem string_run {u : Bytes} (hu : ∀ c ∈ u, Plain c) : ∀ {p r : Bytes} {fuel : Nat}
    {Q : Bool → HS Ext → Prop}, env.src.drop i = p ++ u ++ r →
    (wp (HM.loop (fuel + u.length) (stringStep o prop) p.length) Q env (st env i es) ↔
      wp (HM.loop fuel (stringStep o prop) (p ++ u).length) Q env (st env i es)) := by
  induction u with
  | nil => intro p r fuel Q hr; simp
  | cons c u ih =>
    intro p r fuel Q hr
    have hr1 : env.src.drop i = p ++ c :: (u ++ r) := by rw [hr]; simp
    have e : fuel + (c :: u).length = fuel + u.length + 1 := by simp; omega
    rw [e, stringStep_plain hr1 (hu c (by simp))]
    have := ih (fun d hd => hu d (by simp [hd])) (p := p ++ [c]) (r := r) (fuel := fuel) (Q := Q)
      (by rw [hr]; simp)
    simpa using this

/-- The closing quotation mark. -/
theorem stringStep_close {u r : Bytes} {fuel : Nat} (hi : i ≤ env.src.length)
    (hu : ∀ c ∈ u, Plain c) (hr : env.src.drop i = u ++ c!"\"" :: r) :
    wp (HM.loop (fuel + 1) (stringStep o prop) u.length)
      (Fin env i es (u ++ b!"\"")
        (plainMarks u ++ [(u.length, if prop then .popProperty else .popString)])) env
      (st env i es) := by
  rw [wp_loop_succ]
  conv => arg 1; unfold stringStep
  have : (env.src.drop i)[u.length]? = some c!"\"" := by rw [hr]; simp
  simp only [wp_bind, wp_rem, st_rem, this]
  rw [if_pos trivial]
  simp only [wp_bind]
  rw [flush_iff hi hr hu, wp_visit, wp_one (le_of_drop hi hr) (drop_next hr) (by decide), wp_pure]
  simp only
  refine Fin.cast (Fin.after (u := u) (ms := plainMarks u) ?_ (v := b!"\"")
    (ms' := [(0, if prop then .popProperty else .popString)]) ⟨rfl, _, rfl, bare_visit⟩) (by simp)
    (by simp [later])
  rw [bare_append]

theorem consumeEscape_complete {v r : Bytes} {p : Payload} (hi : i ≤ env.src.length)
    (h : EscapeReport o.escapes v p) (hr : env.src.drop i = v ++ r) :
    wp (consumeEscape o) (Fin env i es v [(0, p)]) env (st env i es) := by
  have key : ∃ x, matchEscapeSequence (v ++ r) (decide (o.escapes ≠ .none)) = .ok ⟨v.length, some x⟩ ∧
      escapePayload o v x = p ∧ EscapeSeq v := by
    generalize ho : o.escapes = e at h
    have seq : ∀ {v x}, EscapeValue v x → EscapeSeq v := by
      intro v x h
      cases h with
      | unicode h => exact .unicode (by simp) h
      | _ => exact .simple (by simp)
    cases h with
    | none h =>
      obtain ⟨x, hx⟩ := matchEscape_append r h
      exact ⟨x, by simpa using hx, by simp [escapePayload, ho], h⟩
    | parse h =>
      exact ⟨_, by simpa using matchEscape_value r h, by simp [escapePayload, ho], seq h⟩
    | encode h =>
      exact ⟨_, by simpa using matchEscape_value r h, by simp [escapePayload, ho], seq h⟩
  obtain ⟨x, h1, h2, h3⟩ := key
  unfold consumeEscape
  refine wp_read ?_
  rw [wp_bind, wp_of_ok (m := HM.lift _) (a := ⟨v.length, some x⟩) (s' := st env i es)
    (by rw [hr, h1]; rfl)]
  have hpos := escapeSeq_length h3
  rw [if_neg (by simp only; omega)]
  simp only [wp_bind]
  rw [take_of_drop hr, h2, wp_visit, wp_same (le_of_drop hi hr) (by
    rw [take_of_drop hr]; exact escapeSeq_no_newline h3), wp_pure]
  exact ⟨rfl, _, rfl, bare_visit⟩

theorem escapeReport_head {e : EscapeParsing} {v : Bytes} {p : Payload} (h : EscapeReport e v p) :
    ∃ t, v = c!"\\" :: t := by
  cases h with
  | none h => exact escape_ne_nil h
  | parse h => cases h <;> exact ⟨_, rfl⟩
  | encode h => cases h <;> exact ⟨_, rfl⟩

/-- Plain characters and an escape sequence. -/
theorem stringStep_escape {u v r : Bytes} {p : Payload} {fuel : Nat} {Q : Bool → HS Ext → Prop}
    (hi : i ≤ env.src.length) (hu : ∀ c ∈ u, Plain c) (he : EscapeReport o.escapes v p)
    (hr : env.src.drop i = u ++ (v ++ r))
    (hq : ∀ es1, bare es1 = bare es ++ bare (events env.src i (plainMarks u ++ [(u.length, p)])) →
      wp (HM.loop fuel (stringStep o prop) 0) Q env (st env (i + (u ++ v).length) es1)) :
    wp (HM.loop (fuel + 1) (stringStep o prop) u.length) Q env (st env i es) := by
  rw [wp_loop_succ]
  conv => arg 1; unfold stringStep
  obtain ⟨t, rfl⟩ := escapeReport_head he
  have : (env.src.drop i)[u.length]? = some c!"\\" := by rw [hr]; simp
  simp only [wp_bind, wp_rem, st_rem, this]
  rw [if_neg (by decide), if_pos trivial]
  simp only [wp_bind]
  rw [flush_iff hi hr hu]
  refine wp_mono (consumeEscape_complete (le_of_drop hi hr) he (drop_next hr)) ?_
  rintro b s' ⟨rfl, es', rfl, h⟩
  simp only [if_true, wp_pure]
  have e : i + u.length + (c!"\\" :: t).length = i + (u ++ c!"\\" :: t).length := by simp; omega
  rw [e]
  refine hq es' ?_
  rw [h, bare_append, events_append, bare_append, List.append_assoc]
  congr 2

theorem string_loop_complete {s : Bytes} {ms : Marks} (h : Content o.escapes s ms) :
    ∀ (fuel i : Nat) (es : List Event) (r : Bytes), i ≤ env.src.length →
      env.src.drop i = s ++ c!"\"" :: r → env.src.length - i < fuel →
      wp (HM.loop fuel (stringStep o prop) 0)
        (Fin env i es (s ++ b!"\"") (ms ++ [(s.length, if prop then .popProperty else .popString)]))
        env (st env i es) := by
  induction h with
  | nil =>
    intro fuel i es r hi hr hf
    match fuel, hf with
    | fuel + 1, hf =>
      exact stringStep_close (u := []) hi (by simp) hr
  | @plain u h0 hu =>
    intro fuel i es r hi hr hf
    have hl := le_of_drop hi hr
    have := le_cons (drop_next hr)
    obtain ⟨f, rfl⟩ : ∃ f, fuel = f + 1 + u.length := ⟨fuel - 1 - u.length, by omega⟩
    have hrun := string_run (o := o) (prop := prop) (es := es) (p := []) (r := c!"\"" :: r) hu
      (by simpa using hr) (fuel := f + 1) (Q := Fin env i es (u ++ b!"\"")
        ([(0, .literal u)] ++ [(u.length, if prop then .popProperty else .popString)]))
    refine hrun.2 ?_
    have := stringStep_close (o := o) (prop := prop) (es := es) (fuel := f) hi hu hr
    simpa [plainMarks, h0] using this
  | @escape v p s ms he hrest ih =>
    intro fuel i es r hi hr hf
    obtain ⟨t, ht⟩ := escapeReport_head he
    have hr1 : env.src.drop i = v ++ (s ++ c!"\"" :: r) := by rw [hr]; simp
    have hl := le_of_drop hi hr1
    have hpos : 0 < v.length := by rw [ht]; simp
    match fuel, hf with
    | fuel + 1, hf =>
      refine stringStep_escape (u := []) hi (by simp) he hr1 ?_
      intro es1 h1
      refine wp_mono (ih fuel _ es1 r hl (drop_next hr1) (by simp; omega)) ?_
      intro b s' h
      refine (Fin.after h1 h).cast (by simp) ?_
      simp [plainMarks, later_append, later_cons, later_nil]
  | @plainEscape u v p s ms h0 hu he hrest ih =>
    intro fuel i es r hi hr hf
    obtain ⟨t, ht⟩ := escapeReport_head he
    have hr1 : env.src.drop i = u ++ (v ++ (s ++ c!"\"" :: r)) := by rw [hr]; simp
    have hr2 : env.src.drop i = (u ++ v) ++ (s ++ c!"\"" :: r) := by rw [hr]; simp
    have hl := le_of_drop hi hr2
    have hpos : 0 < v.length := by rw [ht]; simp
    have hlen : (u ++ v).length = u.length + v.length := by simp
    obtain ⟨f, rfl⟩ : ∃ f, fuel = f + 1 + u.length := ⟨fuel - 1 - u.length, by omega⟩
    refine (string_run (p := []) (r := v ++ (s ++ c!"\"" :: r)) hu (by simpa using hr1)).2 ?_
    refine stringStep_escape (u := u) hi hu he hr1 ?_
    intro es1 h1
    refine wp_mono (ih f _ es1 r hl (drop_next hr2) (by omega)) ?_
    intro b s' h
    refine (Fin.after h1 h).cast (by simp) ?_
    simp [plainMarks, later_append, later_cons, later_nil, h0, Nat.add_assoc]

theorem string_complete {s r : Bytes} {ms : Marks} (h : Content o.escapes s ms)
    (hi : i ≤ env.src.length) (hr : env.src.drop i = (b!"\"" ++ s ++ b!"\"") ++ r) :
    wp (consumeString o prop) (Fin env i es (b!"\"" ++ s ++ b!"\"")
      ((0, if prop then .pushProperty else .pushString) :: later 1 ms ++
        [(s.length + 1, if prop then .popProperty else .popString)])) env (st env i es) := by
  have hr1 : env.src.drop i = c!"\"" :: (s ++ c!"\"" :: r) := by rw [hr]; simp
  have hlt := le_cons hr1
  unfold consumeString
  refine wp_read ?_
  rw [if_neg (by rw [hr1]; simp)]
  simp only [wp_bind]
  rw [wp_visit, wp_one hi hr1 (by decide)]
  refine wp_mono (string_loop_complete h _ (i + 1) _ r (by omega) (drop_one hr1) (by simp; omega)) ?_
  intro b s' h
  refine (Fin.after (u := b!"\"") bare_visit h).cast (by simp) ?_
  simp [later_append, later_cons, later_nil, Nat.add_comm]

end

/-! ## Lists -/

section

variable {ff : Bool} {env : HEnv} {i : Nat} {es : List Event} {o : JOptions}

/-- Items with whitespace around them, separated by commas. -/
inductive Items (ff : Bool) (o : JOptions) (I : Bytes → Marks → Prop) : Bytes → Marks → Prop where
  | one {w1 m1 u mu w2 m2} (h1 : Ws ff o.allowComments false w1 m1) (hu : I u mu)
      (h2 : Ws ff o.allowComments false w2 m2) :
      Items ff o I (w1 ++ u ++ w2) (m1 ++ later w1.length mu ++ later (w1 ++ u).length m2)
  | cons {w1 m1 u mu w2 m2 b mb} (h1 : Ws ff o.allowComments false w1 m1) (hu : I u mu)
      (h2 : Ws ff o.allowComments false w2 m2) (hb : Items ff o I b mb) :
      Items ff o I (w1 ++ u ++ w2 ++ b!"," ++ b)
        (m1 ++ later w1.length mu ++ later (w1 ++ u).length m2 ++ later ((w1 ++ u ++ w2).length + 1) mb)

theorem Items.append {I : Bytes → Marks → Prop} {a b : Bytes} {ma mb : Marks} (ha : Items ff o I a ma)
    (hb : Items ff o I b mb) : Items ff o I (a ++ b!"," ++ b) (ma ++ later (a.length + 1) mb) := by
  induction ha with
  | one h1 hu h2 => exact .cons h1 hu h2 hb
  | cons h1 hu h2 _ ih =>
    have := Items.cons h1 hu h2 ih
    refine cast ?_ this
    congr 1
    · simp
    · simp [later_append, later_later, Nat.add_assoc, Nat.add_left_comm, Nat.add_comm]

theorem Items.mono {I J : Bytes → Marks → Prop} {a : Bytes} {ma : Marks} (ha : Items ff o I a ma)
    (h : ∀ u mu, I u mu → J u mu) : Items ff o J a ma := by
  induction ha with
  | one h1 hu h2 => exact .one h1 (h _ _ hu) h2
  | cons h1 hu h2 _ ih => exact .cons h1 (h _ _ hu) h2 ih

/-- A text that begins like a value or a member. -/
def Head (u : Bytes) : Prop :=
  ∃ c t, u = c :: t ∧ isWhitespace c = false ∧ c ≠ c!"/" ∧ c ≠ c!"}" ∧ c ≠ c!"," ∧ c ≠ c!"]"

theorem Head.noWs {u r : Bytes} (h : Head u) : NoWs (u ++ r) := by
  obtain ⟨c, t, rfl, h1, h2, _⟩ := h
  exact noWs_of h1 h2

theorem Head.append {u r : Bytes} (h : Head u) : Head (u ++ r) := by
  obtain ⟨c, t, rfl, h⟩ := h
  exact ⟨c, t ++ r, rfl, h⟩

/-- What is to be shown of an item. -/
def ItemC (env : HEnv) (n : Nat) (item : PM Bool) (u : Bytes) (mu : Marks) : Prop :=
  Head u ∧ ∀ i es r, n ≤ i → i ≤ env.src.length → env.src.drop i = u ++ r → AfterNumber r →
    wp item (Fin env i es u mu) env (st env i es)

theorem ws_afterNumber {l : Bool} {cm : Bool} {w r : Bytes} {mw : Marks} (h : Ws ff cm l w mw)
    (hr : AfterNumber r) : AfterNumber (w ++ r) := by
  cases h with
  | nil => simpa using hr
  | char h _ =>
    intro c hc
    simp at hc h
    subst hc
    rcases h with (rfl | rfl | rfl | rfl) | ⟨_, rfl⟩ <;> decide
  | line => intro c hc; simp at hc; subst hc; decide
  | lastLine => intro c hc; simp at hc; subst hc; decide
  | block => intro c hc; simp at hc; subst hc; decide

def Closing (close : UInt8) : Prop := close = c!"]" ∨ close = c!"}"

theorem Closing.noWs {close : UInt8} {r : Bytes} (h : Closing close) : NoWs (close :: r) := by
  rcases h with rfl | rfl <;> exact noWs_of (by decide) (by decide)

theorem Closing.after {close : UInt8} {r : Bytes} (h : Closing close) : AfterNumber (close :: r) := by
  intro c hc
  simp at hc
  subst hc
  rcases h with rfl | rfl <;> decide

variable {close : UInt8} {pop : Payload} {err : JError} {item : PM Bool} {n : Nat}

/-- The end of a list. -/
theorem list_close {w r : Bytes} {mw : Marks} {fuel : Nat} {first : Bool} (hc : Closing close)
    (hw : Ws ff o.allowComments false w mw) (hi : i ≤ env.src.length)
    (hr : env.src.drop i = w ++ close :: r) :
    wp (HM.loop (fuel + 1) (listStep o [close] pop err item) first)
      (Fin env i es (w ++ [close]) (mw ++ [(w.length, pop)])) env (st env i es) := by
  rw [wp_loop_succ]
  conv => arg 1; unfold listStep
  rw [wp_bind, wp_eof, st_rem, if_neg (by rw [hr]; simp), wp_bind]
  refine wp_mono (ws_complete hw hi hr hc.noWs (by simp)) ?_
  rintro b s' ⟨rfl, es1, rfl, h1⟩
  rw [if_neg (by simp)]
  unfold listNext
  refine wp_read ?_
  have hr2 := drop_next hr
  rw [if_pos (by rw [hr2]; simp)]
  simp only [wp_bind]
  rw [wp_visit, wp_one (le_of_drop hi hr) hr2 (by rcases hc with rfl | rfl <;> decide), wp_pure]
  simp only
  exact (Fin.after (v := [close]) (ms' := [(0, pop)]) h1 ⟨rfl, _, rfl, bare_visit⟩).cast rfl
    (by simp [later])

/-- A comma in a list. -/
theorem list_comma {w r : Bytes} {mw : Marks} {fuel : Nat} {Q : Bool → HS Ext → Prop}
    (hc : Closing close)
    (hw : Ws ff o.allowComments false w mw) (hi : i ≤ env.src.length)
    (hr : env.src.drop i = w ++ c!"," :: r)
    (hq : ∀ es1, bare es1 = bare es ++ bare (events env.src i mw) →
      wp (afterWs o item) (fun b s' => b = true ∧
        wp (HM.loop fuel (listStep o [close] pop err item) false) Q env s') env
        (st env (i + w.length + 1) es1)) :
    wp (HM.loop (fuel + 1) (listStep o [close] pop err item) false) Q env (st env i es) := by
  rw [wp_loop_succ]
  conv => arg 1; unfold listStep
  rw [wp_bind, wp_eof, st_rem, if_neg (by rw [hr]; simp), wp_bind]
  refine wp_mono (ws_complete hw hi hr (noWs_of (by decide) (by decide)) (by simp)) ?_
  rintro b s' ⟨rfl, es1, rfl, h1⟩
  rw [if_neg (by simp)]
  unfold listNext
  refine wp_read ?_
  have hr2 := drop_next hr
  rw [if_neg (by rw [hr2]; rcases hc with rfl | rfl <;> simp), if_neg (by simp),
    if_pos (by rw [hr2]; simp)]
  simp only [wp_bind]
  rw [wp_one (le_of_drop hi hr) hr2 (by decide)]
  unfold again
  rw [wp_bind]
  refine wp_mono (hq es1 h1) ?_
  rintro b s' ⟨rfl, h⟩
  rw [if_pos rfl, wp_pure]
  exact h

/-- The first item of a list. -/
theorem list_first {w u r : Bytes} {mw : Marks} {fuel : Nat} {Q : Bool → HS Ext → Prop}
    (hc : Closing close) (hu : Head u)
    (hw : Ws ff o.allowComments false w mw) (hi : i ≤ env.src.length)
    (hr : env.src.drop i = w ++ (u ++ r))
    (hq : ∀ es1, bare es1 = bare es ++ bare (events env.src i mw) →
      wp item (fun b s' => b = true ∧
        wp (HM.loop fuel (listStep o [close] pop err item) false) Q env s') env
        (st env (i + w.length) es1)) :
    wp (HM.loop (fuel + 1) (listStep o [close] pop err item) true) Q env (st env i es) := by
  rw [wp_loop_succ]
  conv => arg 1; unfold listStep
  have hne : ¬ ((w ++ (u ++ r)).isEmpty = true) := by
    obtain ⟨c, t, rfl, _⟩ := hu
    simp
  rw [wp_bind, wp_eof, st_rem, if_neg (by rw [hr]; exact hne), wp_bind]
  refine wp_mono (ws_complete hw hi hr hu.noWs (by simp)) ?_
  rintro b s' ⟨rfl, es1, rfl, h1⟩
  rw [if_neg (by simp)]
  unfold listNext
  refine wp_read ?_
  have hr2 := drop_next hr
  have hnc : ¬ (startsWith (env.src.drop (i + w.length)) [close] = true) := by
    rw [hr2]
    obtain ⟨c, t, rfl, _, _, h3, _, h5⟩ := hu
    rcases hc with rfl | rfl <;> simp [Ne.symm h3, Ne.symm h5]
  rw [if_neg hnc, if_pos rfl]
  unfold again
  rw [wp_bind]
  refine wp_mono (hq es1 h1) ?_
  rintro b s' ⟨rfl, h⟩
  rw [if_pos rfl, wp_pure]
  exact h

theorem items_core {b : Bytes} {mb : Marks} (hc : Closing close)
    (h : Items ff o (ItemC env n item) b mb) :
    ∃ w mw u mu, b = w ++ u ∧ mb = mw ++ later w.length mu ∧ Ws ff o.allowComments false w mw ∧
      Head u ∧ ∀ i es r fuel, n ≤ i → i ≤ env.src.length → env.src.drop i = u ++ close :: r →
        env.src.length - i < fuel →
        wp item (fun ok s' => ok = true ∧
          wp (HM.loop fuel (listStep o [close] pop err item) false)
            (Fin env i es (u ++ [close]) (mu ++ [(u.length, pop)])) env s') env (st env i es) := by
  induction h with
  | @one w1 m1 u mu w2 m2 h1 hu h2 =>
    refine ⟨w1, m1, u ++ w2, mu ++ later u.length m2, by simp,
      by simp [later_append, later_later], h1, hu.1.append, ?_⟩
    intro i es r fuel hn hi hr hf
    have hr1 : env.src.drop i = u ++ (w2 ++ close :: r) := by rw [hr]; simp
    refine wp_mono (hu.2 i es _ hn hi hr1 (ws_afterNumber h2 hc.after)) ?_
    rintro b s' ⟨rfl, es1, rfl, e1⟩
    refine ⟨rfl, ?_⟩
    match fuel, hf with
    | fuel + 1, hf =>
      refine wp_mono (list_close hc h2 (le_of_drop hi hr1) (drop_next hr1)) ?_
      intro b s' h
      exact (Fin.after e1 h).cast (by simp) (by simp [later_append, later_cons, later_nil])
  | @cons w1 m1 u mu w2 m2 b mb h1 hu h2 _ ih =>
    obtain ⟨w, mw, v, mv, rfl, rfl, hw, hv, ih⟩ := ih
    refine ⟨w1, m1, u ++ w2 ++ b!"," ++ (w ++ v),
      mu ++ later u.length m2 ++ later ((u ++ w2).length + 1) (mw ++ later w.length mv), by simp,
      by simp [later_append, later_later, Nat.add_assoc], h1, ?_, ?_⟩
    · have := hu.1.append (r := w2 ++ b!"," ++ (w ++ v))
      simpa using this
    intro i es r fuel hn hi hr hf
    have hr1 : env.src.drop i = u ++ (w2 ++ c!"," :: (w ++ (v ++ close :: r))) := by rw [hr]; simp
    have hl1 := le_of_drop hi hr1
    have hupos : 0 < u.length := by
      obtain ⟨c, t, rfl, _⟩ := hu.1
      simp
    refine wp_mono (hu.2 i es _ hn hi hr1 (ws_afterNumber h2 (by
      intro c hc
      simp at hc
      subst hc
      decide))) ?_
    rintro b s' ⟨rfl, es1, rfl, e1⟩
    refine ⟨rfl, ?_⟩
    match fuel, hf with
    | fuel + 1, hf =>
      have hr2 := drop_next hr1
      have hl2 := le_of_drop hl1 hr2
      have hr3 := drop_next hr2
      have hl3 := le_cons hr3
      have hr4 := drop_one hr3
      refine list_comma hc h2 hl1 hr2 ?_
      intro es2 e2
      unfold afterWs
      rw [wp_bind]
      refine wp_mono (ws_complete hw hl3 hr4 hv.noWs (by simp)) ?_
      rintro b s' ⟨rfl, es3, rfl, e3⟩
      rw [if_pos rfl]
      refine wp_mono (ih _ es3 r fuel (by omega) (le_of_drop hl3 hr4) (drop_next hr4) (by omega)) ?_
      rintro b s' ⟨rfl, h⟩
      refine ⟨rfl, wp_mono h ?_⟩
      intro b s' h
      refine (Fin.after e1 (Fin.after e2 (Fin.after (u := b!",") bare_nil (Fin.after e3 h)))).cast
        (by simp) ?_
      simp [later_append, later_cons, later_nil, later_later, Nat.add_assoc, Nat.add_comm,
        Nat.add_left_comm]

end

/-! ## Values -/

section

variable {ff : Bool} {env : HEnv} {i : Nat} {es : List Event} {o : JOptions}

theorem literal_complete {text r : Bytes} {p : Payload} (hi : i ≤ env.src.length)
    (hr : env.src.drop i = text ++ r) (hn : (0x0A : UInt8) ∉ text) :
    wp (literal text p) (Fin env i es text [(0, p)]) env (st env i es) := by
  unfold literal
  refine wp_read ?_
  rw [if_pos (by rw [hr]; exact startsWith_iff.2 ⟨r, rfl⟩)]
  simp only [wp_bind]
  rw [wp_visit, wp_same (le_of_drop hi hr) (by rw [take_of_drop hr]; exact hn), wp_pure]
  exact ⟨rfl, _, rfl, bare_visit⟩

theorem number_no_newline {u : Bytes} (hnum : Number u) : (0x0A : UInt8) ∉ u := by
  intro hm
  obtain ⟨m, n, f, e, rfl, hm', ⟨⟨_, hd⟩, _⟩, hf, he⟩ := hnum
  simp only [List.mem_append] at hm
  rcases hm with ((hm | hm) | hm) | hm
  · simp at hm'
    rcases hm' with rfl | rfl <;> simp at hm
  · exact absurd (hd _ hm) (by decide)
  · rcases hf with rfl | ⟨ds, rfl, _, hd⟩
    · cases hm
    · simp at hm
      exact absurd (hd _ hm) (by decide)
  · rcases he with rfl | ⟨x, sg, ds, rfl, hx, hsg, _, hd⟩
    · cases hm
    · simp at hm hx hsg
      rcases hm with hm | hm | hm
      · rw [← hm] at hx; simp at hx
      · rcases hsg with rfl | rfl | rfl <;> simp at hm
      · exact absurd (hd _ hm) (by decide)

theorem number_complete {u r : Bytes} {p : Payload} (h : Number u) (hp : IsNumber o.parseNumbers u p)
    (hi : i ≤ env.src.length) (hr : env.src.drop i = u ++ r) (hf : AfterNumber r) :
    wp (consumeNumber o) (Fin env i es u [(0, p)]) env (st env i es) := by
  obtain ⟨h1, h2, h3⟩ := matchNumber_append h hf
  unfold consumeNumber
  refine wp_read ?_
  have h0 : ¬ ((matchNumber (env.src.drop i)).length = 0 ∨
      (matchNumber (env.src.drop i)).erroneous = true) := by
    rw [hr, h1, h2]
    simpa using h3
  rw [if_neg h0]
  simp only [wp_bind]
  have hl : (matchNumber (env.src.drop i)).length = u.length := by rw [hr, h1]
  rw [hl, take_of_drop hr, wp_visit, wp_same (le_of_drop hi hr) (by
    rw [take_of_drop hr]; exact number_no_newline h), wp_pure]
  refine ⟨rfl, _, rfl, ?_⟩
  rw [bare_append]
  congr 1
  unfold IsNumber at hp
  cases hpn : o.parseNumbers with
  | true =>
    rw [hpn] at hp
    simp only [if_true] at hp
    obtain ⟨t, rfl⟩ := hp
    simp [events, bare, noBlocks, isBlockComment, withoutArgument]
  | false =>
    rw [hpn] at hp
    simp at hp
    subst hp
    simp [events]

theorem text_head' {u : Bytes} {ms : Marks} (h : Text ff o .value u ms) : Head u := by
  have hd : ∀ c, Digit c → isWhitespace c = false ∧ c ≠ c!"/" ∧ c ≠ c!"}" ∧ c ≠ c!"," ∧ c ≠ c!"]" := by
    apply forall_byte
    decide +kernel
  cases h with
  | number h =>
    obtain ⟨c, t, rfl, hc⟩ := number_head h
    refine ⟨c, t, rfl, ?_⟩
    rcases hc with rfl | hc
    · decide
    · exact hd c hc
  | _ => exact ⟨_, _, rfl, by decide⟩

/-- What is to be shown of a value. -/
def ValueC (env : HEnv) (o : JOptions) (u : Bytes) (mu : Marks) : Prop :=
  ∀ n fuel, env.src.length - n < fuel → ItemC env n (consumeValue o fuel) u mu

/-- What is to be shown of a member. -/
def MemberC (env : HEnv) (o : JOptions) (u : Bytes) (mu : Marks) : Prop :=
  ∀ n fuel, env.src.length - n < fuel → ItemC env n (consumeMember o (consumeValue o fuel)) u mu

theorem valueC_of {u : Bytes} {mu : Marks} (hu : Text ff o .value u mu)
    (h : ∀ fuel i es r c t, env.src.length - i < fuel + 1 → i ≤ env.src.length →
      env.src.drop i = u ++ r → AfterNumber r → u = c :: t →
      wp (if c = c!"\"" then consumeString o false
        else if c = c!"[" then consumeArray o (consumeValue o fuel)
        else if c = c!"{" then consumeObject o (consumeValue o fuel)
        else if c = c!"-" || isDigit c then consumeNumber o
        else if c = c!"t" then literal b!"true" (.boolean true)
        else if c = c!"f" then literal b!"false" (.boolean false)
        else if c = c!"n" then literal b!"null" .null
        else fail .illegal_escape) (Fin env i es u mu) env (st env i es)) : ValueC env o u mu := by
  intro n fuel hf
  refine ⟨text_head' hu, ?_⟩
  intro i es r hn hi hr ha
  match fuel, hf with
  | fuel + 1, hf =>
    obtain ⟨c, t, hc, _⟩ := text_head' hu
    unfold consumeValue
    refine wp_read ?_
    have hr1 : env.src.drop i = c :: (t ++ r) := by rw [hr, hc]; rfl
    rw [hr1]
    exact h fuel i es r c t (by omega) hi hr ha hc

theorem array_complete {fuel : Nat} {m r : Bytes} {mm : Marks}
    (h : Ws ff o.allowComments false m mm ∨ Items ff o (ValueC env o) m mm)
    (hf : env.src.length - i < fuel + 1)
    (hi : i ≤ env.src.length) (hr : env.src.drop i = (b!"[" ++ m ++ b!"]") ++ r) :
    wp (consumeArray o (consumeValue o fuel)) (Fin env i es (b!"[" ++ m ++ b!"]")
      ((0, .pushArray) :: later 1 mm ++ [(m.length + 1, .popArray)])) env (st env i es) := by
  have hr1 : env.src.drop i = c!"[" :: (m ++ c!"]" :: r) := by rw [hr]; simp
  have hlt := le_cons hr1
  have hr2 := drop_one hr1
  have hc : Closing c!"]" := Or.inl rfl
  unfold consumeArray
  refine wp_read ?_
  simp only [wp_bind]
  rw [wp_visit, wp_one hi hr1 (by decide)]
  have fin : ∀ (u : Bytes) (mu : Marks) b s', Fin env (i + 1) (es ++ [⟨posAt env.src i, .pushArray⟩])
      u mu b s' → u = m ++ b!"]" → mu = mm ++ [(m.length, .popArray)] →
      Fin env i es (b!"[" ++ m ++ b!"]") ((0, .pushArray) :: later 1 mm ++ [(m.length + 1, .popArray)])
        b s' := by
    intro u mu b s' h e1 e2
    refine (Fin.after (u := b!"[") bare_visit h).cast (by rw [e1]; simp) ?_
    rw [e2]
    simp [later_append, later_cons, later_nil, Nat.add_comm]
  rcases h with h | h
  · refine wp_mono (ws_complete h hlt hr2 hc.noWs (by simp)) ?_
    rintro b s' ⟨rfl, es1, rfl, e1⟩
    rw [if_neg (by simp)]
    refine wp_mono (list_close (ff := ff) hc (Ws.nil) (le_of_drop hlt hr2) (r := r)
      (by rw [drop_next hr2]; rfl)) ?_
    intro b s' h
    exact fin _ _ _ _ (Fin.after e1 h) (by simp) (by simp [later])
  · obtain ⟨w, mw, u, mu, rfl, rfl, hw, hu, core⟩ := items_core (pop := .popArray)
      (err := .unterminated_array) hc (h.mono fun u mu hu => hu (i + 1) fuel (by omega))
    have hr3 : env.src.drop (i + 1) = w ++ (u ++ c!"]" :: r) := by rw [hr2]; simp
    refine wp_mono (ws_complete hw hlt hr3 hu.noWs (by simp)) ?_
    rintro b s' ⟨rfl, es1, rfl, e1⟩
    rw [if_neg (by simp)]
    have hr4 := drop_next hr3
    have hl4 := le_of_drop hlt hr3
    refine list_first (ff := ff) (w := []) hc hu .nil hl4 hr4 ?_
    intro es2 e2
    refine wp_mono (core _ es2 r (env.src.drop i).length (by simp) hl4 hr4
      (by simp; omega)) ?_
    rintro b s' ⟨rfl, h⟩
    refine ⟨rfl, wp_mono h ?_⟩
    intro b s' h
    exact fin _ _ _ _ (Fin.after e1 (Fin.after (u := []) e2 h)) (by simp)
      (by simp [later_append, later_cons, later_nil, later_zero])

theorem object_complete {fuel : Nat} {m r : Bytes} {mm : Marks}
    (h : Ws ff o.allowComments false m mm ∨ Items ff o (MemberC env o) m mm)
    (hf : env.src.length - i < fuel + 1)
    (hi : i ≤ env.src.length) (hr : env.src.drop i = (b!"{" ++ m ++ b!"}") ++ r) :
    wp (consumeObject o (consumeValue o fuel)) (Fin env i es (b!"{" ++ m ++ b!"}")
      ((0, .pushObject) :: later 1 mm ++ [(m.length + 1, .popObject)])) env (st env i es) := by
  have hr1 : env.src.drop i = c!"{" :: (m ++ c!"}" :: r) := by rw [hr]; simp
  have hlt := le_cons hr1
  have hr2 := drop_one hr1
  have hc : Closing c!"}" := Or.inr rfl
  unfold consumeObject
  refine wp_read ?_
  simp only [wp_bind]
  rw [wp_visit, wp_one hi hr1 (by decide)]
  have fin : ∀ (u : Bytes) (mu : Marks) b s', Fin env (i + 1) (es ++ [⟨posAt env.src i, .pushObject⟩])
      u mu b s' → u = m ++ b!"}" → mu = mm ++ [(m.length, .popObject)] →
      Fin env i es (b!"{" ++ m ++ b!"}") ((0, .pushObject) :: later 1 mm ++ [(m.length + 1, .popObject)])
        b s' := by
    intro u mu b s' h e1 e2
    refine (Fin.after (u := b!"{") bare_visit h).cast (by rw [e1]; simp) ?_
    rw [e2]
    simp [later_append, later_cons, later_nil, Nat.add_comm]
  rcases h with h | h
  · refine wp_mono (list_close (ff := ff) hc h hlt hr2) ?_
    intro b s' h
    exact fin _ _ _ _ h rfl rfl
  · obtain ⟨w, mw, u, mu, rfl, rfl, hw, hu, core⟩ := items_core (pop := .popObject)
      (err := .unterminated_object) hc (h.mono fun u mu hu => hu (i + 1) fuel (by omega))
    have hr3 : env.src.drop (i + 1) = w ++ (u ++ c!"}" :: r) := by rw [hr2]; simp
    have hr4 := drop_next hr3
    have hl4 := le_of_drop hlt hr3
    refine list_first (ff := ff) hc hu hw hlt hr3 ?_
    intro es2 e2
    refine wp_mono (core _ es2 r (env.src.drop i).length (by omega) hl4 hr4
      (by simp; omega)) ?_
    rintro b s' ⟨rfl, h⟩
    refine ⟨rfl, wp_mono h ?_⟩
    intro b s' h
    exact fin _ _ _ _ (Fin.after e2 h) (by simp)
      (by simp [later_append, later_cons, later_nil])

theorem member_complete {n w2 w3 v : Bytes} {mn m2 m3 mv : Marks} (hn : Content o.escapes n mn)
    (h2 : Ws ff o.allowComments false w2 m2) (h3 : Ws ff o.allowComments false w3 m3)
    (hv : ValueC env o v mv) :
    MemberC env o ((b!"\"" ++ n ++ b!"\"") ++ (w2 ++ (b!":" ++ (w3 ++ v))))
      (((0, .pushProperty) :: later 1 mn ++ [(n.length + 1, .popProperty)]) ++
      later (b!"\"" ++ n ++ b!"\"").length
        (m2 ++ later w2.length (later 1 (m3 ++ later w3.length mv)))) := by
  intro lo fuel hf
  obtain ⟨hvh, hv⟩ := hv lo fuel hf
  refine ⟨⟨_, _, rfl, by decide⟩, ?_⟩
  intro i es r hlo hi hr ha
  have hr1 : env.src.drop i = (b!"\"" ++ n ++ b!"\"") ++ (w2 ++ (c!":" :: (w3 ++ (v ++ r)))) := by
    rw [hr]; simp
  have hl2 := le_of_drop hi hr1
  have hr2 := drop_next hr1
  have hl3 := le_of_drop hl2 hr2
  have hr3 := drop_next hr2
  have hl4 := le_cons hr3
  have hr4 := drop_one hr3
  have hl5 := le_of_drop hl4 hr4
  have hr5 := drop_next hr4
  unfold consumeMember
  rw [wp_bind]
  refine wp_mono (string_complete (prop := true) hn hi hr1) ?_
  rintro b s' ⟨rfl, es1, rfl, e1⟩
  rw [if_neg (by simp), wp_bind]
  refine wp_mono (ws_complete h2 hl2 hr2 (noWs_of (by decide) (by decide)) (by simp)) ?_
  rintro b s' ⟨rfl, es2, rfl, e2⟩
  rw [if_neg (by simp)]
  refine wp_read ?_
  rw [if_neg (by rw [hr3]; simp), wp_bind, wp_one hl3 hr3 (by decide), wp_bind]
  refine wp_mono (ws_complete h3 hl4 hr4 hvh.noWs (by simp)) ?_
  rintro b s' ⟨rfl, es3, rfl, e3⟩
  rw [if_neg (by simp)]
  refine wp_read ?_
  have hnot : ¬ ((env.src.drop (i + (b!"\"" ++ n ++ b!"\"").length + w2.length + 1 + w3.length)).isEmpty
      || startsWith (env.src.drop (i + (b!"\"" ++ n ++ b!"\"").length + w2.length + 1 + w3.length)) b!"}"
      || startsWith (env.src.drop (i + (b!"\"" ++ n ++ b!"\"").length + w2.length + 1 + w3.length)) b!",")
      = true := by
    rw [hr5]
    obtain ⟨c, t, rfl, _, _, h3, h4, _⟩ := hvh
    simp [Ne.symm h3, Ne.symm h4]
  rw [if_neg hnot]
  refine wp_mono (hv _ es3 r (by omega) hl5 hr5 ha) ?_
  intro b s' h
  refine (Fin.after e1 (Fin.after e2 (Fin.after (u := b!":") bare_nil (Fin.after e3 h)))).cast
    (by simp) ?_
  simp

theorem text_complete {k : Kind} {u : Bytes} {ms : Marks} (h : Text ff o k u ms) :
    (k = .value → ValueC env o u ms) ∧ (k = .elements → Items ff o (ValueC env o) u ms) ∧
      (k = .members → Items ff o (MemberC env o) u ms) := by
  induction h with
  | @string s ms h =>
    refine ⟨fun _ => ?_, by simp, by simp⟩
    refine valueC_of (Text.string (ff := ff) h) ?_
    intro fuel i es r c t hf hi hr ha hc
    have : c = c!"\"" := by simp at hc; exact hc.1.symm
    rw [if_pos this]
    exact string_complete h hi hr
  | @number s p h hp =>
    refine ⟨fun _ => ?_, by simp, by simp⟩
    refine valueC_of (Text.number (ff := ff) h hp) ?_
    intro fuel i es r c t hf hi hr ha hc
    obtain ⟨c', t', hc', hd⟩ := number_head h
    rw [hc] at hc'
    obtain ⟨rfl, rfl⟩ := List.cons.inj hc'
    have hne : ∀ d : UInt8, Digit d → d ≠ c!"\"" ∧ d ≠ c!"[" ∧ d ≠ c!"{" := by
      apply forall_byte
      decide +kernel
    have hn : c ≠ c!"\"" ∧ c ≠ c!"[" ∧ c ≠ c!"{" := by
      rcases hd with rfl | hd
      · decide
      · exact hne c hd
    rw [if_neg hn.1, if_neg hn.2.1, if_neg hn.2.2, if_pos (by
      rcases hd with rfl | hd
      · simp
      · simp [(digit_iff c).2 hd])]
    exact number_complete h hp hi hr ha
  | true_ =>
    refine ⟨fun _ => ?_, by simp, by simp⟩
    refine valueC_of (Text.true_ (ff := ff)) ?_
    intro fuel i es r c t hf hi hr ha hc
    have : c = c!"t" := by simp at hc; exact hc.1.symm
    subst this
    exact literal_complete hi hr (by decide)
  | false_ =>
    refine ⟨fun _ => ?_, by simp, by simp⟩
    refine valueC_of (Text.false_ (ff := ff)) ?_
    intro fuel i es r c t hf hi hr ha hc
    have : c = c!"f" := by simp at hc; exact hc.1.symm
    subst this
    exact literal_complete hi hr (by decide)
  | null =>
    refine ⟨fun _ => ?_, by simp, by simp⟩
    refine valueC_of (Text.null (ff := ff)) ?_
    intro fuel i es r c t hf hi hr ha hc
    have : c = c!"n" := by simp at hc; exact hc.1.symm
    subst this
    exact literal_complete hi hr (by decide)
  | @emptyObject w ms hw =>
    refine ⟨fun _ => ?_, by simp, by simp⟩
    refine valueC_of (Text.emptyObject (ff := ff) hw) ?_
    intro fuel i es r c t hf hi hr ha hc
    have : c = c!"{" := by simp at hc; exact hc.1.symm
    subst this
    exact object_complete (Or.inl hw) hf hi hr
  | @object m ms hm ih =>
    refine ⟨fun _ => ?_, by simp, by simp⟩
    refine valueC_of (Text.object (ff := ff) hm) ?_
    intro fuel i es r c t hf hi hr ha hc
    have : c = c!"{" := by simp at hc; exact hc.1.symm
    subst this
    exact object_complete (Or.inr (ih.2.2 rfl)) hf hi hr
  | @emptyArray w ms hw =>
    refine ⟨fun _ => ?_, by simp, by simp⟩
    refine valueC_of (Text.emptyArray (ff := ff) hw) ?_
    intro fuel i es r c t hf hi hr ha hc
    have : c = c!"[" := by simp at hc; exact hc.1.symm
    subst this
    exact array_complete (Or.inl hw) hf hi hr
  | @array m ms hm ih =>
    refine ⟨fun _ => ?_, by simp, by simp⟩
    refine valueC_of (Text.array (ff := ff) hm) ?_
    intro fuel i es r c t hf hi hr ha hc
    have : c = c!"[" := by simp at hc; exact hc.1.symm
    subst this
    exact array_complete (Or.inr (ih.2.1 rfl)) hf hi hr
  | element h1 _ h2 ih => exact ⟨by simp, fun _ => .one h1 (ih.1 rfl) h2, by simp⟩
  | moreElements _ _ ih1 ih2 => exact ⟨by simp, fun _ => (ih1.2.1 rfl).append (ih2.2.1 rfl), by simp⟩
  | @member w1 m1 n mn w2 m2 w3 m3 v mv w4 m4 h1 hn h2 h3 hv h4 ih =>
    refine ⟨by simp, by simp, fun _ => ?_⟩
    have := Items.one h1 (member_complete hn h2 h3 (ih.1 rfl)) h4
    refine cast ?_ this
    congr 1
    · simp
    · simp [later_append, later_later, later_cons, later_nil, Nat.add_assoc, Nat.add_left_comm,
        Nat.add_comm]
  | moreMembers _ _ ih1 ih2 => exact ⟨by simp, by simp, fun _ => (ih1.2.2 rfl).append (ih2.2.2 rfl)⟩

theorem run_complete {ms : Marks} (h : Document ff o env.src ms) :
    wp (run o) (Fin env 0 [] env.src ms) env (st env 0 []) := by
  generalize hs : env.src = src at h
  cases h with
  | @mk w1 m1 v mv w2 m2 h1 hv h2 =>
    have hr1 : env.src.drop 0 = w1 ++ (v ++ w2) := by rw [hs]; simp
    have hl1 := le_of_drop (Nat.zero_le _) hr1
    have hr2 := drop_next hr1
    have hl2 := le_of_drop hl1 hr2
    have hr3 := drop_next hr2
    have hh := text_head' hv
    unfold run
    rw [wp_bind]
    refine wp_mono (ws_complete h1 (Nat.zero_le _) hr1 hh.noWs (by simp)) ?_
    rintro b s' ⟨rfl, es1, rfl, e1⟩
    rw [if_pos rfl]
    refine wp_read ?_
    rw [wp_bind]
    refine wp_mono (((text_complete hv).1 rfl (0 + w1.length) _ (by simp)).2 _ es1 _ (Nat.le_refl _)
      hl1 hr2 (by
        have := ws_afterNumber (r := []) h2 (by intro c hc; cases hc)
        simpa using this)) ?_
    rintro b s' ⟨rfl, es2, rfl, e2⟩
    rw [if_pos rfl]
    refine wp_mono (ws_complete (r := []) h2 hl2 (by simpa using hr3) (by intro c hc; cases hc) (by simp)) ?_
    intro b s' h
    exact (Fin.after e1 (Fin.after e2 h)).cast (by simp) (by simp [later_append, later_later])

end

end Ulight.Json.Parser
