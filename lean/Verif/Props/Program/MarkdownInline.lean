import Verif.Props.Program.MarkdownMatch
import Verif.Props.Program.Html
import Verif.Hl.Reads

/-!
# How the Markdown highlighter reads text with markup
-/

namespace Ulight

open Spec

variable {σ α β : Type} {env : HEnv} {x y z : σ} {a a' b : Bytes} {ts us : List Token} {v : α}

theorem reads_index {f : Nat → HM σ α} (h : Reads env (f (env.src.length - (a ++ b).length)) x a ts b v y) :
    Reads env (HM.index >>= f) x a ts b v y := by
  obtain ⟨es, rfl, h⟩ := h
  refine ⟨es, rfl, fun i out hi => ?_⟩
  have := h i out hi
  rwa [show env.src.length - (a ++ b).length = i by omega] at this

/-- The text that is read is a part of the source text. -/
theorem reads_fits {m : HM σ α} (h : (a ++ b).length ≤ env.src.length → Reads env m x a ts b v y) : Reads env m x a ts b v y := by
  by_cases hl : (a ++ b).length ≤ env.src.length
  · exact h hl
  · refine ⟨ts.map fun t => ⟨t.beg, t.len, t.ty, .normal⟩, ?_, fun i out hi => absurd hi (by omega)⟩
    simp [Emit.token, Function.comp_def]

theorem Reads.tokens {m : HM σ α} (h : Reads env m x a ts b v y) (e : ts = us) : Reads env m x a us b v y := e ▸ h

theorem Reads.text {m : HM σ α} (h : Reads env m x a ts b v y) (e : a = a') : Reads env m x a' ts b v y := e ▸ h

theorem shift_opt' (p q : Nat) (s : Bytes) (ty : HT) : shift p (opt q s ty) = opt (p + q) s ty := by
  unfold opt shift
  split <;> simp

end Ulight

namespace Ulight.Markdown

open Spec Spec.Markdown

variable {env : HEnv} {x y : St} {a a' b : Bytes} {ts us : List Token}

/-- The state after text. -/
def opened (x : St) (o : Bool) : St := { x with comment := x.comment || o }

theorem opened_false : opened x false = x := by simp [opened]

theorem opened_opened (o o' : Bool) : opened (opened x o) o' = opened x (o || o') := by simp [opened, Bool.or_assoc]

theorem opened_of (o o' : Bool) (h : o = false) : opened x o' = opened x (o || o') := by simp [h]

/-- The `switch`. -/
def switch (again : Nat → UInt8 → HM St Unit) (heading : Bool) (avail : Nat) (prev c : UInt8) (t : Bytes) : HM St UInt8 :=
  if c = c!"`" then orOne (expectCodeSpan avail) c!"`" c
  else if c = c!"<" then orOne (HM.or (expectHtmlComment avail) (expectAutolink avail)) c!">" c
  else if c = c!"\\" then
    if 2 ≤ avail ∧ (t.head?).any isPunctuation then do
      HM.emitAdv 2 .string_escape
      return (t.head?).getD 0
    else oneByte c
  else if c = c!"&" then orOne (expectReference avail) c!";" c
  else if c = c!"!" then
    if 2 ≤ avail ∧ t.head? = some c!"[" then orOne (expectImage avail) c!")" c
    else oneByte c
  else if c = c!"[" then orOne (expectLink again avail) c!")" c
  else if c = c!"*" ∨ c = c!"_" then orOne (expectEmphasis again c avail prev) c c
  else plainText heading avail

theorem reads_switch {again : Nat → UInt8 → HM St Unit} {hd : Bool} {p q c : UInt8} {t : Bytes} (e : a ++ a' = c :: t)
    (h : Reads env (switch again hd (a ++ a').length p c (t ++ b)) x a ts (a' ++ b) q y) :
    Reads env (inlineStep again hd (a ++ a').length p) x a ts (a' ++ b) q y := by
  unfold inlineStep
  refine reads_rem (reads_else (by simp) ?_)
  have : a ++ (a' ++ b) = c :: (t ++ b) := by rw [← List.append_assoc, e]; rfl
  rw [this]
  exact h

theorem reads_step {again : Nat → UInt8 → HM St Unit} {hd : Bool} {p q c : UInt8} {t : Bytes} {m : Nat} {z : St} (e : a ++ a' = c :: t)
    (ha : a ≠ []) (hm : 0 < m)
    (h : Reads env (switch again hd (a ++ a').length p c (t ++ b)) x a ts (a' ++ b) q y)
    (h' : Reads env (HM.loop (m - 1) (inlineLoopStep again hd (env.src.length - b.length)) q) y a' us b () z) :
    Reads env (HM.loop m (inlineLoopStep again hd (env.src.length - b.length)) p) x (a ++ a') (ts ++ shift a.length us) b () z := by
  refine reads_fits fun hl => ?_
  refine reads_loop hm ?_ h'
  unfold inlineLoopStep
  refine reads_index (reads_eof ?_)
  have hp := List.length_pos_iff.2 ha
  simp only [List.length_append] at hl
  refine reads_this ⟨by simp only [List.length_append]; omega, by cases a <;> simp_all⟩ ?_
  rw [show env.src.length - b.length - (env.src.length - (a ++ (a' ++ b)).length) = (a ++ a').length by
    simp only [List.length_append]; omega]
  exact (reads_switch e h).bind_last reads_pure

theorem region : (a ++ (a' ++ b)).take (a ++ a').length = a ++ a' := by
  rw [← List.append_assoc, List.take_left]

theorem reads_orOne {m : HM St Bool} {q c : UInt8} (h : Reads env m x a ts b true y) : Reads env (orOne m q c) x a ts b q y :=
  h.bind_last (reads_this rfl reads_pure)

theorem reads_oneByte {c : UInt8} : Reads env (oneByte c) x [c] [] b c x :=
  (reads_advance rfl).bind_last reads_pure

theorem reads_orOne_none {m : HM St Bool} {q c : UInt8} (h : Reads env m x [] [] ([c] ++ b) false x) :
    Reads env (orOne m q c) x [c] [] b c x :=
  h.bind_none (reads_else (by simp) reads_oneByte)

theorem reads_codeSpan {n : Nat} {v : Bytes} (h : Span n v a') :
    Reads env (expectCodeSpan (copies n c!"`" ++ v ++ copies n c!"`" ++ a').length) x (copies n c!"`" ++ v ++ copies n c!"`")
      [⟨0, n, .string_delim⟩, ⟨n, v.length, .text_code⟩, ⟨n + v.length, n, .string_delim⟩] (a' ++ b) true x := by
  unfold expectCodeSpan
  refine reads_rem ?_
  rw [region, codeSpan_of h]
  have h0 : copies n c!"`" ≠ [] := by have := h.pos; simp; omega
  have := (reads_emit (env := env) (x := x) (a := copies n c!"`") (b := v ++ copies n c!"`" ++ (a' ++ b)) (n := n) (ty := .string_delim)
    (mode := .normal) (by simp) h0).bind (f := fun _ => (do HM.emitAdvIf v.length .text_code; HM.emitAdv n .string_delim; return true : HM St Bool))
    ((reads_emitIf (a := v) (b := copies n c!"`" ++ (a' ++ b)) rfl).bind (f := fun _ => (do HM.emitAdv n .string_delim; return true : HM St Bool))
      ((reads_emit (a := copies n c!"`") (by simp) h0).bind_last reads_pure))
  refine (this.tokens ?_).text (by simp)
  simp [shift, opt, h.nonempty]

theorem reads_comment {t : Bytes} (c : Html.CommentText (t ++ b!"-->" ++ a') t.length) (h1 : ¬ b!">" <+: t ++ b!"-->" ++ a')
    (h2 : ¬ b!"->" <+: t ++ b!"-->" ++ a') :
    Reads env (expectHtmlComment (b!"<!--" ++ t ++ b!"-->" ++ a').length) x (b!"<!--" ++ t ++ b!"-->")
      ([⟨0, 4, .comment_delim⟩] ++ opt 4 t .comment ++ [⟨4 + t.length, 3, .comment_delim⟩]) (a' ++ b) true x := by
  unfold expectHtmlComment
  refine reads_rem ?_
  have := Html.matchComment_closed c h1 h2
  rw [region, show b!"<!--" ++ t ++ b!"-->" ++ a' = b!"<!--" ++ (t ++ b!"-->" ++ a') by simp only [List.append_assoc], this]
  refine reads_else (by simp) ?_
  have := (reads_emit (env := env) (x := x) (a := b!"<!--") (b := t ++ b!"-->" ++ (a' ++ b)) (n := 4) (ty := .comment_delim)
    (mode := .normal) rfl (by simp)).bind (f := fun _ => (if true then (do HM.emitAdvIf (4 + t.length + 3 - 4 - 3) .comment; HM.emitAdv 3 .comment_delim; return true : HM St Bool) else (do
      HM.emitAdv (4 + t.length + 3 - 4) .comment
      HM.modify fun x => { x with comment := true }
      return true)))
    (reads_this rfl ((reads_emitIf (a := t) (b := b!"-->" ++ (a' ++ b)) (by omega)).bind (f := fun _ => (do HM.emitAdv 3 .comment_delim; return true : HM St Bool))
      ((reads_emit (a := b!"-->") rfl (by simp)).bind_last reads_pure)))
  refine (this.tokens ?_).text (by simp)
  simp [shift_append, shift_opt']
  simp [shift]

theorem reads_openComment {t : Bytes} (ht : t ≠ []) (c : Html.CommentText t t.length) (h1 : ¬ b!">" <+: t) (h2 : ¬ b!"->" <+: t) :
    Reads env (expectHtmlComment (b!"<!--" ++ t).length) x (b!"<!--" ++ t) [⟨0, 4, .comment_delim⟩, ⟨4, t.length, .comment⟩] b true
      (opened x true) := by
  unfold expectHtmlComment
  refine reads_rem ?_
  have := Html.matchComment_open c h1 h2
  rw [List.take_left, this]
  refine reads_else (by simp) ?_
  have := (reads_emit (env := env) (x := x) (a := b!"<!--") (b := t ++ b) (n := 4) (ty := .comment_delim)
    (mode := .normal) rfl (by simp)).bind (f := fun _ => (if false then (do HM.emitAdvIf (4 + t.length - 4 - 3) .comment; HM.emitAdv 3 .comment_delim; return true : HM St Bool) else (do
      HM.emitAdv (4 + t.length - 4) .comment
      HM.modify fun x => { x with comment := true }
      return true)))
    (v := true) (z := opened x true) (reads_else (by simp) ((reads_emit (a := t) (by omega) ht).bind_last (f := fun _ => (do HM.modify fun x => { x with comment := true }; return true : HM St Bool)) ?_))
  · refine this.tokens ?_
    simp [shift]
  · exact ⟨[], rfl, fun i out hi => by simp [HM.modify, opened, bind, HM.bind, pure, HM.pure]⟩

theorem noComment {s : Bytes} (h : ¬ Html.Comment s) : Reads env (expectHtmlComment s.length) x [] [] (s ++ b) false x := by
  unfold expectHtmlComment
  refine reads_rem ?_
  rw [List.nil_append, List.take_left]
  have : Html.matchComment s = {} := by
    rcases Html.matchComment_spec s with ⟨h1, _⟩ | ⟨_, _, _, h1, _⟩
    · exact h1
    · exact absurd h1 h
  rw [this]
  exact reads_this rfl reads_pure

theorem reads_autolink {v : Bytes} (h : Autolink v) :
    Reads env (expectAutolink (b!"<" ++ v ++ b!">" ++ a').length) x (b!"<" ++ v ++ b!">")
      [⟨0, 1, .symbol_formatting⟩, ⟨1, v.length, .text_link⟩, ⟨1 + v.length, 1, .symbol_formatting⟩] (a' ++ b) true x := by
  unfold expectAutolink
  refine reads_rem ?_
  rw [region, autolink_of h]
  have hne : v ≠ [] := by
    rintro rfl
    rcases h.mark with h | h <;> simp at h
  refine reads_else (by simpa using hne) ?_
  have := (reads_emit (env := env) (x := x) (a := b!"<") (b := v ++ b!">" ++ (a' ++ b)) (n := 1) (ty := .symbol_formatting)
    (mode := .normal) rfl (by simp)).bind (f := fun _ => (do HM.emitAdv v.length .text_link; HM.emitAdv 1 .symbol_formatting; return true : HM St Bool))
    ((reads_emit (a := v) (b := b!">" ++ (a' ++ b)) rfl hne).bind (f := fun _ => (do HM.emitAdv 1 .symbol_formatting; return true : HM St Bool))
      ((reads_emit (a := b!">") rfl (by simp)).bind_last reads_pure))
  refine (this.tokens ?_).text (by simp)
  simp [shift]

theorem reads_reference {v : Bytes} (h : Reference v) :
    Reads env (expectReference (v ++ a').length) x v [⟨0, v.length, .string_escape⟩] (a' ++ b) true x := by
  unfold expectReference
  refine reads_rem ?_
  have h0 : v ≠ [] := by cases h <;> simp
  rw [region, reference_of h]
  exact reads_this (by simpa using h0) ((reads_emit rfl h0).bind_last reads_pure)

theorem reads_linkEnd {url title : Bytes} :
    Reads env (linkEnd url.length title.length) x (Spec.Markdown.linkEnd url title [])
      ([⟨0, 2, .symbol_formatting⟩] ++ opt 2 url .text_link ++ [⟨2 + url.length + title.length, 1, .symbol_formatting⟩]) b () x := by
  unfold linkEnd
  have := (reads_emit (env := env) (x := x) (a := b!"](") (b := url ++ (title ++ b!")") ++ b) (n := 2) (ty := .symbol_formatting)
    (mode := .normal) rfl (by simp)).bind (f := fun _ => (do HM.emitAdvIf url.length .text_link; HM.advance title.length; HM.emitAdv 1 .symbol_formatting : HM St Unit))
    (a' := url ++ (title ++ b!")")) (b := b)
    ((reads_emitIf (a := url) (b := title ++ b!")" ++ b) rfl).bind (f := fun _ => (do HM.advance title.length; HM.emitAdv 1 .symbol_formatting : HM St Unit))
      (a' := title ++ b!")") ((reads_advance (a := title) (b := b!")" ++ b) rfl).bind (f := fun _ => (HM.emitAdv 1 .symbol_formatting : HM St Unit))
        (reads_emit (a := b!")") rfl (by simp))))
  refine (this.tokens ?_).text (by simp [Spec.Markdown.linkEnd])
  simp only [List.nil_append, shift_append, shift_shift, shift_opt', List.length_cons, List.length_nil, Nat.zero_add]
  simp [shift, Nat.add_assoc]

theorem linkEnd_append (url title t : Bytes) : Spec.Markdown.linkEnd url title t = Spec.Markdown.linkEnd url title [] ++ t := by
  simp [Spec.Markdown.linkEnd]

theorem linkEnd_length (url title t : Bytes) : (Spec.Markdown.linkEnd url title t).length = 3 + url.length + title.length + t.length := by
  simp [Spec.Markdown.linkEnd]; omega

theorem reads_image {text url title : Bytes} (l : Link text url title) :
    Reads env (expectImage (b!"![" ++ text ++ Spec.Markdown.linkEnd url title [] ++ a').length) x
      (b!"![" ++ text ++ Spec.Markdown.linkEnd url title [])
      ([⟨0, 2, .symbol_formatting⟩, ⟨2 + text.length, 2, .symbol_formatting⟩] ++ opt (2 + text.length + 2) url .text_link ++
          [⟨2 + text.length + 2 + url.length + title.length, 1, .symbol_formatting⟩]) (a' ++ b) true x := by
  unfold expectImage
  refine reads_rem ?_
  have hL := link_of (p := b!"![") (t := a') l
  have e : b!"![" ++ text ++ Spec.Markdown.linkEnd url title [] ++ a' = b!"![" ++ text ++ Spec.Markdown.linkEnd url title a' := by
    rw [linkEnd_append url title a', List.append_assoc]
  refine reads_else (by rw [e]; simp only [List.length_append, linkEnd_length]; simp; omega) ?_
  rw [region, e, show (2 : Nat) = b!"![".length from rfl, hL]
  have := (reads_emit (env := env) (x := x) (a := b!"![") (b := text ++ Spec.Markdown.linkEnd url title [] ++ (a' ++ b)) (n := 2)
    (ty := .symbol_formatting) (mode := .normal) rfl (by simp)).bind
    (f := fun _ => (do HM.advance text.length; linkEnd url.length title.length; return true : HM St Bool))
    (a' := text ++ Spec.Markdown.linkEnd url title []) (b := a' ++ b)
    ((reads_advance (a := text) (b := Spec.Markdown.linkEnd url title [] ++ (a' ++ b)) rfl).bind
      (f := fun _ => (do linkEnd url.length title.length; return true : HM St Bool)) (reads_linkEnd.bind_last reads_pure))
  refine (this.tokens ?_).text (by simp)
  simp only [List.nil_append, shift_append, shift_shift, shift_opt', List.length_cons, List.length_nil, Nat.zero_add]
  simp [shift, Nat.add_assoc]

theorem reads_link {again : Nat → UInt8 → HM St Unit} {text url title : Bytes} (l : Link text url title)
    (h : Reads env (again text.length 0) x text us (Spec.Markdown.linkEnd url title [] ++ (a' ++ b)) () y) :
    Reads env (expectLink again (b!"[" ++ text ++ Spec.Markdown.linkEnd url title [] ++ a').length) x
      (b!"[" ++ text ++ Spec.Markdown.linkEnd url title [])
      ([⟨0, 1, .symbol_formatting⟩] ++ shift 1 us ++ [⟨1 + text.length, 2, .symbol_formatting⟩] ++
          opt (1 + text.length + 2) url .text_link ++
          [⟨1 + text.length + 2 + url.length + title.length, 1, .symbol_formatting⟩]) (a' ++ b) true y := by
  unfold expectLink
  refine reads_rem ?_
  have hL := link_of (p := b!"[") (t := a') l
  have e : b!"[" ++ text ++ Spec.Markdown.linkEnd url title [] ++ a' = b!"[" ++ text ++ Spec.Markdown.linkEnd url title a' := by
    rw [linkEnd_append url title a', List.append_assoc]
  refine reads_else (by rw [e]; simp only [List.length_append, linkEnd_length]; simp; omega) ?_
  have hL : matchLink 1 (b!"[" ++ text ++ Spec.Markdown.linkEnd url title a') = some (text.length, url.length, title.length) := hL
  rw [region, e, hL]
  have := (reads_emit (env := env) (x := x) (a := b!"[") (b := text ++ Spec.Markdown.linkEnd url title [] ++ (a' ++ b)) (n := 1)
    (ty := .symbol_formatting) (mode := .normal) rfl (by simp)).bind
    (f := fun _ => (do again text.length 0; linkEnd url.length title.length; return true : HM St Bool))
    (a' := text ++ Spec.Markdown.linkEnd url title []) (b := a' ++ b)
    (h.bind (f := fun _ => (do linkEnd url.length title.length; return true : HM St Bool)) (reads_linkEnd.bind_last reads_pure))
  refine (this.tokens ?_).text (by simp)
  simp only [shift_append, shift_shift, shift_opt', List.length_cons, List.length_nil, Nat.zero_add]
  simp [shift, Nat.add_assoc]

theorem reads_emphasis {again : Nat → UInt8 → HM St Unit} {c p : UInt8} {n : Nat} {v : Bytes} (e : Emphasized c n p v a')
    (h : Reads env (again v.length c) x v us (copies n c ++ (a' ++ b)) () y) :
    Reads env (expectEmphasis again c (copies n c ++ v ++ copies n c ++ a').length p) x (copies n c ++ v ++ copies n c)
      ([⟨0, n, .symbol_formatting⟩] ++ shift n us ++ [⟨n + v.length, n, .symbol_formatting⟩]) (a' ++ b) true y := by
  unfold expectEmphasis
  refine reads_rem ?_
  rw [region, emphasis_of e]
  have hn := e.few
  have h0 : copies n c ≠ [] := by simp; omega
  have hl : n + v.length - n = v.length := by omega
  have := (reads_emit (env := env) (x := x) (a := copies n c) (b := v ++ copies n c ++ (a' ++ b)) (n := n)
    (ty := .symbol_formatting) (mode := .normal) (by simp) h0).bind
    (f := fun _ => (do again (n + v.length - n) c; HM.emitAdv n .symbol_formatting; return true : HM St Bool))
    (a' := v ++ copies n c) (b := a' ++ b)
    ((hl.symm ▸ h : Reads env (again (n + v.length - n) c) x v us (copies n c ++ (a' ++ b)) () y).bind (f := fun _ => (do HM.emitAdv n .symbol_formatting; return true : HM St Bool))
      ((reads_emit (a := copies n c) (by simp) h0).bind_last reads_pure))
  refine (this.tokens ?_).text (by simp)
  simp [shift_append]
  simp [shift]

theorem special_cases {c : UInt8} (h : Special c) :
    c = c!"`" ∨ c = c!"<" ∨ c = c!"\\" ∨ c = c!"&" ∨ c = c!"!" ∨ c = c!"[" ∨ c = c!"*" ∨ c = c!"_" := by
  simpa [Special] using h

theorem reads_stray {again : Nat → UInt8 → HM St Unit} {hd : Bool} {c p : UInt8} {s : Bytes} (hc : Special c) (h : Nothing p (c :: s))
    (hs : OneLine (c :: s)) : Reads env (switch again hd ([c] ++ s).length p c (s ++ b)) x [c] [] (s ++ b) c x := by
  have reg : ([] ++ ([c] ++ (s ++ b))).take ([c] ++ s).length = c :: s := by simp
  unfold switch
  rcases special_cases hc with rfl | rfl | rfl | rfl | rfl | rfl | rfl | rfl
  · refine reads_this rfl (reads_orOne_none ?_)
    unfold expectCodeSpan
    refine reads_rem ?_
    rw [reg, codeSpan_no hs h.code]
    exact reads_pure
  · refine reads_else (by decide) (reads_this rfl (reads_orOne_none (reads_or_else ?_ ?_)))
    · exact noComment (s := c!"<" :: s) h.comment
    · unfold expectAutolink
      refine reads_rem ?_
      rw [reg, autolink_no h.autolink]
      exact reads_this rfl reads_pure
  · refine reads_else (by decide) (reads_else (by decide) (reads_this rfl (reads_else ?_ reads_oneByte)))
    rintro ⟨h1, h2⟩
    cases s with
    | nil => simp at h1
    | cons d s =>
      simp at h2
      exact h.escape d s rfl ((isPunctuation_iff d).1 h2)
  · refine reads_else (by decide) (reads_else (by decide) (reads_else (by decide) (reads_this rfl (reads_orOne_none ?_))))
    unfold expectReference
    refine reads_rem ?_
    rw [reg, reference_no h.reference]
    exact reads_else (by simp) reads_pure
  · refine reads_else (by decide) (reads_else (by decide) (reads_else (by decide) (reads_else (by decide) (reads_this rfl ?_))))
    by_cases h1 : 2 ≤ ([c!"!"] ++ s).length ∧ (s ++ b).head? = some c!"["
    · refine reads_this h1 (reads_orOne_none ?_)
      cases s with
      | nil => simp at h1
      | cons d s =>
        obtain rfl : d = c!"[" := by simpa using h1.2
        unfold expectImage
        refine reads_rem ?_
        by_cases h5 : ([c!"!"] ++ c!"[" :: s).length < 5
        · exact reads_this h5 reads_pure
        · refine reads_else h5 ?_
          have := link_no (p := b!"![") (s := s) hs h.image
          rw [reg, show matchLink 2 (c!"!" :: c!"[" :: s) = none from this]
          exact reads_pure
    · exact reads_else h1 reads_oneByte
  · refine reads_else (by decide) (reads_else (by decide) (reads_else (by decide) (reads_else (by decide) (reads_else (by decide)
      (reads_this rfl (reads_orOne_none ?_))))))
    unfold expectLink
    refine reads_rem ?_
    by_cases h5 : ([c!"["] ++ s).length < 4
    · exact reads_this h5 reads_pure
    · refine reads_else h5 ?_
      have := link_no (p := b!"[") (s := s) hs h.link
      rw [reg, show matchLink 1 (c!"[" :: s) = none from this]
      exact reads_pure
  all_goals
    refine reads_else (by decide) (reads_else (by decide) (reads_else (by decide) (reads_else (by decide) (reads_else (by decide)
      (reads_else (by decide) (reads_this (by decide) (reads_orOne_none ?_)))))))
    unfold expectEmphasis
    refine reads_rem ?_
    rw [reg, emphasis_no (by decide) hs (h.emphasis _)]
    exact reads_pure

theorem reads_plain {again : Nat → UInt8 → HM St Unit} {hd : Bool} {c p q : UInt8} {v : Bytes} (hq : (c :: v).getLast? = some q)
    (hv : ∀ d ∈ c :: v, ¬ Special d) (ha : ∀ d, a'.head? = some d → Special d) :
    Reads env (switch again hd (c :: v ++ a').length p c (v ++ a' ++ b)) x (c :: v)
      (if hd then [⟨0, (c :: v).length, .text_heading⟩] else []) (a' ++ b) q x := by
  have hc := hv c (by simp)
  simp only [Special, List.mem_cons, List.not_mem_nil, or_false, not_or] at hc
  obtain ⟨h1, h2, h3, h4, h5, h6, h7, h8⟩ := hc
  unfold switch
  rw [if_neg h1, if_neg h2, if_neg h3, if_neg h4, if_neg h5, if_neg h6, if_neg (by simp [h7, h8])]
  unfold plainText
  refine reads_rem ?_
  have hn : 1 + Ascii.length_if (((c :: v ++ (a' ++ b)).take (c :: v ++ a').length).drop 1) (fun c => !isSpecial c) = (c :: v).length := by
    rw [region]
    rw [len_of (a := v) (b := a') (by simp)]
    · simp; omega
    · intro d hd
      have := hv d (by simp [hd])
      rw [← isSpecial_iff] at this
      simpa using this
    · intro d hd
      have := ha d hd
      rw [← isSpecial_iff] at this
      simp [this]
  simp only [hn]
  have hq' : ((c :: v ++ (a' ++ b))[(c :: v).length - 1]?).getD 0 = q := by
    rw [(getLast_index hq).2]; rfl
  rw [hq']
  cases hd with
  | true => exact reads_this rfl ((reads_emit rfl (by simp)).bind_last reads_pure)
  | false => exact reads_else (by simp) ((reads_advance rfl).bind_last reads_pure)

theorem inline_nil {hd : Bool} {p : UInt8} {o : Bool} (h : Inline hd p a ts o) (e : a = []) : ts = [] ∧ o = false := by
  cases h with
  | nil => simp
  | plain hq => simp at e; rw [e.1] at hq; cases hq
  | code s => simp at e; exact absurd e.2.1 s.nonempty
  | reference r => cases r <;> simp at e
  | emphasis em => simp at e; exact absurd e.2.1 em.nonempty
  | _ => simp at e

/-- The loop reads the text until the end of the region. -/
def LoopReads (env : HEnv) (hd : Bool) (p : UInt8) (a : Bytes) (ts : List Token) (o : Bool) : Prop :=
  ∀ (d m : Nat) (b : Bytes) (x : St), a.length ≤ d → a.length < m → OneLine a →
    Reads env (HM.loop m (inlineLoopStep (inline d false) hd (env.src.length - b.length)) p) x a ts b () (opened x o)

theorem inline_of_loop {hd : Bool} {p : UInt8} {o : Bool} (h : Inline hd p a ts o) (h' : LoopReads env hd p a ts o) {d : Nat}
    (hd' : a.length < d) (hl : OneLine a) : Reads env (inline d hd a.length p) x a ts b () (opened x o) := by
  obtain ⟨d, rfl⟩ : ∃ k, d = k + 1 := ⟨d - 1, by omega⟩
  unfold inline
  by_cases h0 : a = []
  · obtain ⟨rfl, rfl⟩ := inline_nil h h0
    subst h0
    rw [opened_false]
    exact reads_this rfl reads_pure
  · refine reads_else (by simpa using h0) (reads_fits fun hf => reads_index ?_)
    have := h' d (a.length + 1) b x (by omega) (by omega) hl
    rw [List.length_append] at hf
    rwa [show env.src.length - (a ++ b).length + a.length = env.src.length - b.length by rw [List.length_append]; omega]

section
variable {again : Nat → UInt8 → HM St Unit} {hd : Bool} {n : Nat} {p : UInt8} {t : Bytes}

theorem switch_code : switch again hd n p c!"`" t = orOne (expectCodeSpan n) c!"`" c!"`" := rfl

theorem switch_less : switch again hd n p c!"<" t = orOne (HM.or (expectHtmlComment n) (expectAutolink n)) c!">" c!"<" := rfl

theorem switch_escape {c : UInt8} (hc : Punctuation c) (hn : 2 ≤ n) :
    switch again hd n p c!"\\" (c :: t) = (do HM.emitAdv 2 .string_escape; return c : HM St UInt8) := by
  unfold switch
  rw [if_neg (by decide), if_neg (by decide), if_pos rfl, if_pos ⟨hn, by simpa using (isPunctuation_iff c).2 hc⟩]
  rfl

theorem switch_reference : switch again hd n p c!"&" t = orOne (expectReference n) c!";" c!"&" := rfl

theorem switch_link : switch again hd n p c!"[" t = orOne (expectLink again n) c!")" c!"[" := rfl

theorem switch_emphasis {c : UInt8} (hc : c ∈ b!"*_") : switch again hd n p c t = orOne (expectEmphasis again c n p) c c := by
  have hc : c = c!"*" ∨ c = c!"_" := by simpa using hc
  rcases hc with rfl | rfl <;> rfl

end

section
variable {h : Bool} {p : UInt8} {v : Bytes} {o : Bool}

/-- The rest of the text. -/
theorem LoopReads.rest {q : UInt8} {d m : Nat} (ih : LoopReads env h q a' ts o) (hd : (a ++ a').length ≤ d) (hm : (a ++ a').length < m)
    (hl : OneLine (a ++ a')) (ha : a ≠ []) :
    Reads env (HM.loop (m - 1) (inlineLoopStep (inline d false) h (env.src.length - b.length)) q) x a' ts b () (opened x o) := by
  have := List.length_pos_iff.2 ha
  rw [List.length_append] at hd hm
  exact ih d (m - 1) b x (by omega) (by omega) fun c hc => hl c (by simp [hc])

theorem loop_more {q c : UInt8} {t : Bytes} {o' : Bool} (e : a ++ a' = c :: t) (ha : a ≠ [])
    (h1 : ∀ d b x, (a ++ a').length ≤ d → OneLine (a ++ a') →
      Reads env (switch (inline d false) h (a ++ a').length p c (t ++ b)) x a us (a' ++ b) q (opened x o'))
    (ih : LoopReads env h q a' ts o) : LoopReads env h p (a ++ a') (us ++ shift a.length ts) (o' || o) := by
  intro d m b x hd hm hl
  have := reads_step (m := m) e ha (by omega) (h1 d b x hd hl) (ih.rest hd hm hl ha)
  rwa [opened_opened] at this

theorem loop_code {n : Nat} (s : Span n v a) (ih : LoopReads env h c!"`" a ts o) :
    LoopReads env h p (copies n c!"`" ++ v ++ copies n c!"`" ++ a)
        ([⟨0, n, .string_delim⟩, ⟨n, v.length, .text_code⟩, ⟨n + v.length, n, .string_delim⟩] ++ shift (n + v.length + n) ts) o := by
  obtain ⟨k, rfl⟩ : ∃ k, n = k + 1 := ⟨n - 1, by have := s.pos; omega⟩
  rw [show k + 1 + v.length + (k + 1) = (copies (k + 1) c!"`" ++ v ++ copies (k + 1) c!"`").length by simp; omega]
  refine loop_more (o' := false) (c := c!"`") (t := copies k c!"`" ++ v ++ copies (k + 1) c!"`" ++ a) (by simp [List.replicate_succ])
    (by simp) (fun d b x _ _ => ?_) ih
  rw [switch_code, opened_false]
  exact reads_orOne (reads_codeSpan s)

theorem loop_comment {t : Bytes} (c : Html.CommentText (t ++ b!"-->" ++ a) t.length) (h1 : ¬ b!">" <+: t ++ b!"-->" ++ a)
    (h2 : ¬ b!"->" <+: t ++ b!"-->" ++ a) (ih : LoopReads env h c!">" a ts o) :
    LoopReads env h p (b!"<!--" ++ t ++ b!"-->" ++ a)
        ([⟨0, 4, .comment_delim⟩] ++ opt 4 t .comment ++ [⟨4 + t.length, 3, .comment_delim⟩] ++ shift (4 + t.length + 3) ts) o := by
  rw [show 4 + t.length + 3 = (b!"<!--" ++ t ++ b!"-->").length by simp; omega]
  refine loop_more (o' := false) (c := c!"<") (t := b!"!--" ++ t ++ b!"-->" ++ a) (by simp) (by simp) (fun d b x _ _ => ?_) ih
  rw [switch_less, opened_false]
  exact reads_orOne (reads_or (reads_comment c h1 h2))

theorem loop_nil : LoopReads env h p [] [] false := by
  intro d m b x _ hm _
  rw [opened_false]
  refine reads_loop_end (by omega) ?_
  unfold inlineLoopStep
  exact reads_index (reads_eof (reads_else (by simp) reads_pure))

theorem loop_openComment {t : Bytes} (ht : t ≠ []) (c : Html.CommentText t t.length) (h1 : ¬ b!">" <+: t) (h2 : ¬ b!"->" <+: t) :
    LoopReads env h p (b!"<!--" ++ t) [⟨0, 4, .comment_delim⟩, ⟨4, t.length, .comment⟩] true := by
  have := loop_more (p := p) (o' := true) (c := c!"<") (t := b!"!--" ++ t ++ []) (a := b!"<!--" ++ t)
    (us := [⟨0, 4, .comment_delim⟩, ⟨4, t.length, .comment⟩]) (by simp) (by simp) (fun d b x _ _ => ?_)
    (loop_nil (env := env) (h := h) (p := c!">"))
  · simpa [shift] using this
  · rw [switch_less, List.append_nil (b!"<!--" ++ t)]
    exact reads_orOne (reads_or (reads_openComment ht c h1 h2))

theorem loop_autolink (l : Autolink v) (c : ¬ Html.Comment (b!"<" ++ v ++ b!">" ++ a)) (ih : LoopReads env h c!">" a ts o) :
    LoopReads env h p (b!"<" ++ v ++ b!">" ++ a)
        ([⟨0, 1, .symbol_formatting⟩, ⟨1, v.length, .text_link⟩, ⟨1 + v.length, 1, .symbol_formatting⟩] ++
          shift (1 + v.length + 1) ts) o := by
  rw [show 1 + v.length + 1 = (b!"<" ++ v ++ b!">").length by simp; omega]
  refine loop_more (o' := false) (c := c!"<") (t := v ++ b!">" ++ a) (by simp) (by simp) (fun d b x _ _ => ?_) ih
  rw [switch_less, opened_false]
  refine reads_orOne (reads_or_else ?_ (reads_autolink l))
  rw [← List.append_assoc]
  exact noComment c

theorem loop_escape {c : UInt8} (hc : Punctuation c) (ih : LoopReads env h c a ts o) :
    LoopReads env h p (c!"\\" :: c :: a) ([⟨0, 2, .string_escape⟩] ++ shift 2 ts) o := by
  have := loop_more (p := p) (h := h) (o' := false) (a := [c!"\\", c]) (us := [⟨0, 2, .string_escape⟩]) (c := c!"\\") (t := c :: a) (by simp) (by simp)
    (fun d b x _ _ => ?_) ih
  · exact this
  · rw [opened_false, show c :: a ++ b = c :: (a ++ b) from rfl, switch_escape hc (by simp)]
    exact (reads_emit (a := [c!"\\", c]) rfl (by simp)).bind_last reads_pure

theorem loop_reference (r : Reference v) (ih : LoopReads env h c!";" a ts o) :
    LoopReads env h p (v ++ a) ([⟨0, v.length, .string_escape⟩] ++ shift v.length ts) o := by
  have h0 : ∃ w, v = c!"&" :: w := by cases r <;> exact ⟨_, rfl⟩
  obtain ⟨w, rfl⟩ := h0
  refine loop_more (o' := false) (c := c!"&") (t := w ++ a) (by simp) (by simp) (fun d b x _ _ => ?_) ih
  rw [switch_reference, opened_false]
  exact reads_orOne (reads_reference r)

theorem loop_image {text url title : Bytes} (l : Link text url title) (ih : LoopReads env h c!")" a ts o) :
    LoopReads env h p (b!"![" ++ text ++ Spec.Markdown.linkEnd url title a)
        ([⟨0, 2, .symbol_formatting⟩, ⟨2 + text.length, 2, .symbol_formatting⟩] ++ opt (2 + text.length + 2) url .text_link ++
          [⟨2 + text.length + 2 + url.length + title.length, 1, .symbol_formatting⟩] ++
          shift (2 + text.length + 2 + url.length + title.length + 1) ts) o := by
  rw [show 2 + text.length + 2 + url.length + title.length + 1 = (b!"![" ++ text ++ Spec.Markdown.linkEnd url title []).length by
    simp [linkEnd_length]; omega, linkEnd_append, ← List.append_assoc]
  refine loop_more (o' := false) (c := c!"!") (t := b!"[" ++ text ++ Spec.Markdown.linkEnd url title [] ++ a) (by simp) (by simp)
    (fun d b x _ _ => ?_) ih
  rw [opened_false]
  unfold switch
  exact reads_else (by decide) (reads_else (by decide) (reads_else (by decide) (reads_else (by decide) (reads_this rfl
        (reads_this ⟨by simp, by simp⟩ (reads_orOne (reads_image l)))))))

theorem loop_link {text url title : Bytes} {o' : Bool} (l : Link text url title) (hi : Inline false 0 text us o')
    (ihi : LoopReads env false 0 text us o') (ih : LoopReads env h c!")" a ts o) :
    LoopReads env h p (b!"[" ++ text ++ Spec.Markdown.linkEnd url title a)
        ([⟨0, 1, .symbol_formatting⟩] ++ shift 1 us ++ [⟨1 + text.length, 2, .symbol_formatting⟩] ++
          opt (1 + text.length + 2) url .text_link ++
          [⟨1 + text.length + 2 + url.length + title.length, 1, .symbol_formatting⟩] ++
          shift (1 + text.length + 2 + url.length + title.length + 1) ts) (o' || o) := by
  rw [show 1 + text.length + 2 + url.length + title.length + 1 = (b!"[" ++ text ++ Spec.Markdown.linkEnd url title []).length by
    simp [linkEnd_length]; omega, linkEnd_append, ← List.append_assoc]
  refine loop_more (c := c!"[") (t := text ++ Spec.Markdown.linkEnd url title [] ++ a) (by simp) (by simp) (fun d b x hd hl => ?_) ih
  rw [switch_link]
  refine reads_orOne (reads_link l (inline_of_loop hi ihi ?_ fun c hc => hl c (by simp [hc])))
  simp at hd
  omega

theorem loop_emphasis {c : UInt8} {n : Nat} {o' : Bool} (e : Emphasized c n p v a) (hi : Inline false c v us o')
    (ihi : LoopReads env false c v us o') (ih : LoopReads env h c a ts o) :
    LoopReads env h p (copies n c ++ v ++ copies n c ++ a)
        ([⟨0, n, .symbol_formatting⟩] ++ shift n us ++ [⟨n + v.length, n, .symbol_formatting⟩] ++ shift (n + v.length + n) ts)
        (o' || o) := by
  obtain ⟨k, rfl⟩ : ∃ k, n = k + 1 := ⟨n - 1, by have := e.few; omega⟩
  rw [show k + 1 + v.length + (k + 1) = (copies (k + 1) c ++ v ++ copies (k + 1) c).length by simp; omega]
  refine loop_more (c := c) (t := copies k c ++ v ++ copies (k + 1) c ++ a) (by simp [List.replicate_succ]) (by simp)
    (fun d b x hd hl => ?_) ih
  rw [switch_emphasis e.mark]
  refine reads_orOne (reads_emphasis e (inline_of_loop hi ihi ?_ fun c hc => hl c (by simp [hc])))
  simp at hd
  omega

theorem loop_plain {q : UInt8} (hq : v.getLast? = some q) (hv : ∀ c ∈ v, ¬ Special c) (ha : ∀ c, a.head? = some c → Special c)
    (ih : LoopReads env h q a ts o) :
    LoopReads env h p (v ++ a) ((if h then [⟨0, v.length, .text_heading⟩] else []) ++ shift v.length ts) o := by
  cases v with
  | nil => cases hq
  | cons c v =>
    refine loop_more (o' := false) (c := c) (t := v ++ a) rfl (by simp) (fun d b x _ _ => ?_) ih
    rw [opened_false]
    exact reads_plain hq hv ha

theorem loop_stray {c : UInt8} (hc : Special c) (n : Nothing p (c :: a)) (ih : LoopReads env h c a ts o) :
    LoopReads env h p (c :: a) (shift 1 ts) o := by
  refine loop_more (o' := false) (us := []) (a := [c]) (c := c) (t := a) rfl (by simp) (fun d b x _ hl => ?_) ih
  rw [opened_false]
  exact reads_stray hc n hl

end

theorem loop_reads {hd : Bool} {p : UInt8} {o : Bool} (h : Inline hd p a ts o) : LoopReads env hd p a ts o := by
  induction h with
  | nil => exact loop_nil
  | plain hq hv ha _ ih => exact loop_plain hq hv ha ih
  | code s _ ih => exact loop_code s ih
  | comment c h1 h2 _ ih => exact loop_comment c h1 h2 ih
  | openComment ht c h1 h2 => exact loop_openComment ht c h1 h2
  | autolink l c _ ih => exact loop_autolink l c ih
  | escape hc _ ih => exact loop_escape hc ih
  | reference r _ ih => exact loop_reference r ih
  | image l _ ih => exact loop_image l ih
  | link l hi _ ihi ih => exact loop_link l hi ihi ih
  | emphasis e hi _ ihi ih => exact loop_emphasis e hi ihi ih
  | stray hc n _ ih => exact loop_stray hc n ih

theorem reads_inline {hd : Bool} {p : UInt8} {o : Bool} (h : Inline hd p a ts o) (hl : OneLine a) :
    Reads env (consumeInline a.length p hd) x a ts b () (opened x o) :=
  inline_of_loop h (loop_reads h) (by omega) hl

end Ulight.Markdown
