import Verif.Props.Lang.YamlMatch
import Verif.Props.Program.MarkdownInline
import Verif.Spec.Elements.Yaml

/-!
# C58 for YAML: lines, whitespace and comments
-/

namespace Ulight.Yaml

open Spec Spec.Yaml

variable {env : HEnv} {x y : St} {a a' b s t v w e r : Bytes} {ts us vs : List Token} {k n : Nat} {c : UInt8}

theorem reads_check {α : Type} {z : α} {p : Bool} {f : Unit → HM St α} (hp : p = true) (h : Reads env (f ()) x a ts b z y) :
    Reads env (HM.hassert p >>= f) x a ts b z y := by
  subst hp
  exact h

theorem shift_none (ts : List Token) : shift 0 ts = ts := by simp [shift]

theorem longest_of {P : UInt8 → Prop} (hv : ∀ c ∈ v, P c) (ht : ∀ c, t.head? = some c → ¬ P c) : Longest P (v ++ t) v.length := by
  refine ⟨by simpa using hv, fun c hc => ?_⟩
  rw [List.getElem?_append_right (by omega)] at hc
  simp at hc
  exact ht c (by rw [List.head?_eq_getElem?]; exact hc)

theorem lineLength_of (hv : OneLine v) (ht : LineEnd t) : lineLength (v ++ t) = v.length :=
  Longest.unique (lineLength_longest _) (longest_of hv ht) (lineLength_le _) (by simp)

theorem break_of (h : Break e b) : matchLineBreak (e ++ b) = e.length := by
  unfold matchLineBreak
  rcases h with rfl | rfl | ⟨rfl, h⟩ | ⟨rfl, rfl⟩
  · rfl
  · rfl
  · cases b with
    | nil => rfl
    | cons c t =>
      have hc : c ≠ c!"\n" := fun h' => h (by simp [h'])
      have : ¬ c!"\n" = c := fun h' => hc h'.symm
      simp [startsWith, this]
  · rfl

theorem Break.end (h : Break e b) : LineEnd (e ++ b) := by
  rcases h with rfl | rfl | ⟨rfl, h⟩ | ⟨rfl, rfl⟩ <;> intro c hc <;> simp at hc <;> subst hc <;> simp [InLine]

theorem reads_skipLineBreak (h : Break e b) : Reads env skipLineBreak x e [] b () x := reads_rem (reads_advance (break_of h))

theorem reads_skipLine (hr : OneLine r) (h : Break e b) : Reads env skipLine x (r ++ e) [] b () x := by
  unfold skipLine
  refine reads_rem ?_
  rw [List.append_assoc, lineLength_of hr (Break.end h)]
  exact ((reads_advance rfl).bind (reads_skipLineBreak h)).tokens rfl

theorem reads_comment (hv : OneLine v) (hb : LineEnd b) :
    Reads env comment x (b!"#" ++ v) ([⟨0, 1, .comment_delim⟩] ++ opt 1 v .comment) b () x := by
  unfold comment
  refine reads_rem (reads_check rfl ?_)
  have h : Reads env (HM.rem >>= fun r => HM.emitAdvIf (lineLength r) .comment) x v (opt 0 v .comment) b () x :=
    reads_rem (reads_emitIf (lineLength_of hv hb))
  have := (reads_emit (env := env) (x := x) (n := 1) (ty := .comment_delim) (mode := .normal) (a := b!"#") rfl (by simp)).bind
    (f := fun _ => (HM.rem >>= fun r => HM.emitAdvIf (lineLength r) .comment : HM St Unit)) h
  exact this.tokens (by rw [shift_opt']; rfl)

theorem isWs_blank' {c : UInt8} : isWs c = true ↔ Blank c := by
  unfold isWs Blank
  simp

theorem reads_inline (hw : ∀ c ∈ w, Blank c) (hb : NotFirst b!" \t" b) : Reads env inlineWhitespace x w [] b () x := by
  unfold inlineWhitespace
  refine reads_rem (reads_advance ?_)
  exact length_if_eq (longest_of (by simpa [isWs_blank'] using hw) fun c hc h => hb c hc (isWs_blank'.1 h)) (by simp)

/-! ## Whitespace and comments -/

theorem skip_blanks (h : Skip a ts b) : ∃ w a' us, a = w ++ a' ∧ (∀ c ∈ w, Blank c) ∧ ts = shift w.length us ∧ Skip a' us b ∧
    NotFirst b!" \t" (a' ++ b) := by
  induction h with
  | nil h => exact ⟨[], [], [], rfl, by simp, rfl, .nil h, fun c hc hm => h c hc (by simp at hm ⊢; rcases hm with rfl | rfl <;> simp)⟩
  | @white c a ts b h rest ih =>
    by_cases hc : Blank c
    · obtain ⟨w, a', us, rfl, h1, rfl, h2, h3⟩ := ih
      refine ⟨c :: w, a', us, rfl, by simpa [hc] using h1, ?_, h2, h3⟩
      rw [shift_shift, List.length_cons, Nat.add_comm]
    · exact ⟨[], _, _, rfl, by simp, (shift_none _).symm, .white h rest, by rintro d hd; simp at hd; subst hd; exact hc⟩
  | @comment v a ts b h e rest ih =>
    exact ⟨[], _, _, rfl, by simp, (shift_none _).symm, .comment h e rest, by rintro d hd; simp at hd; subst hd; decide⟩

theorem skip_break (h : Skip (c :: a) ts b) (hc : c ∈ b!"\r\n") :
    ∃ e a' us, c :: a = e ++ a' ∧ e ≠ [] ∧ Break e (a' ++ b) ∧ ts = shift e.length us ∧ Skip a' us b := by
  cases h with
  | white h rest =>
    simp only [List.mem_cons, List.not_mem_nil, or_false] at hc
    rcases hc with rfl | rfl
    · by_cases h1 : (a ++ b).head? = some c!"\n"
      · cases rest with
        | nil h => exact absurd (by decide) (h _ h1)
        | white h' rest =>
          simp at h1
          subst h1
          exact ⟨b!"\r\n", _, _, rfl, by simp, .inl rfl, by rw [shift_shift]; rfl, rest⟩
        | comment => simp at h1
      · exact ⟨b!"\r", _, _, rfl, by simp, .inr (.inr (.inl ⟨rfl, h1⟩)), rfl, rest⟩
    · exact ⟨b!"\n", _, _, rfl, by simp, .inr (.inl rfl), rfl, rest⟩
  | comment => exact absurd hc (by decide)

theorem no_break (h : NotFirst b!"\r\n" s) : matchLineBreak s = 0 := by
  rw [matchLineBreak_eq]
  intro c hc
  have := h c hc
  simpa [InLine, and_comm] using this

theorem notFirst_sub {xs ys : Bytes} (h : NotFirst xs s) (hs : ∀ c ∈ ys, c ∈ xs) : NotFirst ys s := fun c hc hm => h c hc (hs c hm)

theorem head_ne (h : NotFirst b!" \t\r\n#" s) : s[0]? ≠ some c!"#" := by
  rw [← List.head?_eq_getElem?]
  exact fun h' => h _ h' (by decide)

theorem whitespaceStep_reads (h : Skip a ts b) :
    (Reads env whitespaceStep x a ts b (.inr ()) x) ∨
    ∃ u us r vs, a = u ++ r ∧ u ≠ [] ∧ ts = us ++ shift u.length vs ∧ Skip r vs b ∧ Reads env whitespaceStep x u us (r ++ b) (.inl ()) x := by
  by_cases h0 : a ++ b = []
  · left
    obtain ⟨rfl, rfl⟩ : a = [] ∧ b = [] := by simpa using h0
    cases h
    exact reads_eof (reads_this rfl reads_pure)
  obtain ⟨w, a', us, rfl, hw, rfl, h', hn⟩ := skip_blanks h
  cases h' with
  | nil h1 =>
    left
    refine reads_eof (reads_else (by simpa using h0) ?_)
    have h2 : Reads env (HM.rem >>= fun s => if s[0]? = some c!"#" then (do
          comment
          pure (.inl ()) : HM St (Unit ⊕ Unit))
        else if matchLineBreak s ≠ 0 then do
          skipLineBreak
          pure (.inl ())
        else pure (.inr ())) x [] [] b (.inr ()) x := by
      refine reads_rem (reads_else (head_ne h1) (reads_else ?_ reads_pure))
      rw [Decidable.not_not]
      exact no_break (notFirst_sub h1 (by decide))
    exact ((reads_inline (b := [] ++ b) hw (by simpa using hn)).bind (b := b) h2).tokens rfl
  | @white c a ts _ h1 h2 =>
    have hc : c ∈ b!"\r\n" := by
      have := hn c rfl
      simp only [White, List.mem_cons, List.not_mem_nil, or_false] at this h1 ⊢
      rcases h1 with h | h | h
      · exact absurd (.inl h) this
      · exact absurd (.inr h) this
      · exact h
    obtain ⟨e, a2, us2, e1, e2, e3, e4, e5⟩ := skip_break (.white h1 h2) hc
    right
    refine ⟨w ++ e, [], a2, us2, by rw [List.append_assoc, ← e1], by simp [e2], by rw [e4, shift_shift, List.length_append]; rfl, e5, ?_⟩
    refine reads_eof (reads_else (by simp [e2]) ?_)
    have hh : (e ++ (a2 ++ b))[0]? = some c := by rw [← List.append_assoc, ← e1]; rfl
    have h3 : Reads env (HM.rem >>= fun s => if s[0]? = some c!"#" then (do
          comment
          pure (.inl ()) : HM St (Unit ⊕ Unit))
        else if matchLineBreak s ≠ 0 then do
          skipLineBreak
          pure (.inl ())
        else pure (.inr ())) x e [] (a2 ++ b) (.inl ()) x := by
      refine reads_rem (reads_else ?_ (reads_this ?_ ((reads_skipLineBreak e3).bind_last reads_pure)))
      · rw [hh]
        intro h; cases h; exact absurd hc (by decide)
      · rw [break_of e3]
        exact Nat.ne_of_gt (List.length_pos_iff.2 e2)
    refine ((reads_inline (b := e ++ (a2 ++ b)) hw ?_).bind h3).tokens rfl
    rw [← List.append_assoc, ← e1]; exact hn
  | @comment v a ts _ h1 h2 h3 =>
    right
    refine ⟨w ++ (b!"#" ++ v), shift w.length ([⟨0, 1, .comment_delim⟩] ++ opt 1 v .comment), a, ts, by simp, by simp, ?_, h3, ?_⟩
    · rw [shift_append, shift_shift]
      simp [Nat.add_assoc]
      congr 1
      omega
    refine reads_eof (reads_else (by simp) ?_)
    have h3 : Reads env (HM.rem >>= fun s => if s[0]? = some c!"#" then (do
          comment
          pure (.inl ()) : HM St (Unit ⊕ Unit))
        else if matchLineBreak s ≠ 0 then do
          skipLineBreak
          pure (.inl ())
        else pure (.inr ())) x (b!"#" ++ v) ([⟨0, 1, .comment_delim⟩] ++ opt 1 v .comment) (a ++ b) (.inl ()) x :=
      reads_rem (reads_this rfl ((reads_comment h1 h2).bind_last reads_pure))
    exact ((reads_inline (b := b!"#" ++ v ++ (a ++ b)) hw (by simpa using hn)).bind h3).tokens rfl

theorem whitespace_loop (m : Nat) (h : Skip a ts b) (hm : a.length < m) : Reads env (HM.loop m (fun _ => whitespaceStep) ()) x a ts b () x := by
  induction m generalizing a ts with
  | zero => omega
  | succ m ih =>
    rcases whitespaceStep_reads (env := env) (x := x) h with h1 | ⟨u, us, r, vs, rfl, h1, rfl, h2, h3⟩
    · exact reads_loop_end (by omega) h1
    · have := List.length_pos_iff.2 h1
      simp only [List.length_append] at hm
      exact reads_loop (c' := ()) (by omega) h3 (ih h2 (by omega))

theorem reads_whitespace (h : Skip a ts b) : Reads env whitespace x a ts b () x :=
  reads_rem (whitespace_loop _ h (by simp; omega))

theorem reads_nothing (h : NotFirst b!" \t\r\n#" b) : Reads env whitespace x [] [] b () x := reads_whitespace (.nil h)

theorem Skip.next (h : Skip a ts b) : NotFirst b!" \t\r\n#" b := by
  induction h <;> assumption

end Ulight.Yaml
