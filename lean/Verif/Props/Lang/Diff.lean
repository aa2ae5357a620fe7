import Verif.Lang.Diff
import Verif.Spec.Lang.Diff
import Verif.Hl.Lemmas
import Verif.Props.Parse

/-!
# C34: highlighting of diffs
-/

namespace Ulight.Diff

open Spec

theorem chooseLineHighlight_spec (line : Bytes) (h : line ≠ []) :
    ∃ ty, chooseLineHighlight line = .ok ty ∧ DiffLine line ty ∧ ty ≠ .none := by
  obtain ⟨c, t, rfl⟩ := List.exists_cons_of_ne_nil h
  have nsw : ∀ (s p : Bytes), ¬ startsWith s p = true → ∀ u, s ≠ p ++ u := by
    intro s p h u e
    exact h (startsWith_iff.2 ⟨u, e⟩)
  refine ⟨_, rfl, ?_, ?_⟩
  · split
    · subst_vars
      split
      · rename_i h; obtain ⟨u, e⟩ := startsWith_iff.1 h; rw [e]; exact .oldFile u
      · rename_i h; exact .deletion t (nsw _ _ h)
    split
    · subst_vars
      split
      · rename_i h; obtain ⟨u, e⟩ := startsWith_iff.1 h; rw [e]; exact .newFile u
      · rename_i h; exact .insertion t (nsw _ _ h)
    split
    · subst_vars
      split
      · rename_i h
        rw [Bool.or_eq_true] at h
        rcases h with h | h
        · obtain ⟨u, e⟩ := startsWith_iff.1 h; rw [e]; exact .contextFile u
        · simp only [Option.isNone_iff_eq_none, List.findIdx?_eq_none_iff] at h
          have : c!"*" :: t = List.replicate (t.length + 1) c!"*" := by
            rw [List.eq_replicate_iff]
            refine ⟨by simp, fun b hb => ?_⟩
            have := h b hb
            simpa using this
          rw [this]
          exact .contextHunk _
      · rename_i h
        rw [Bool.or_eq_true, not_or] at h
        refine .star t (nsw _ _ h.1) ?_
        have := h.2
        simp only [Option.isNone_iff_eq_none, List.findIdx?_eq_none_iff] at this
        grind
    split
    · subst_vars; exact .modification t
    split
    · subst_vars
      split
      · rename_i h; obtain ⟨u, e⟩ := startsWith_iff.1 h; rw [e]; exact .hunk u
      · rename_i h; exact .at t (nsw _ _ h)
    · rename_i h1 h2 h3 h4 h5
      refine .common c t ?_
      intro hc
      have hc : c = c!"-" ∨ c = c!"+" ∨ c = c!"*" ∨ c = c!"!" ∨ c = c!"@" := by
        simpa using hc
      rcases hc with h | h | h | h | h <;> contradiction
  · repeat' split
    all_goals decide

/-- The output so far, followed by the tokens of the remaining text, is right. -/
def Inv (env : HEnv) (s : HS Unit) : Prop :=
  s.idx + s.rem.length = env.src.length ∧
  ∀ ts, DiffTokens s.idx s.rem ts → DiffTokens 0 env.src (s.out.map Emit.token ++ ts)

theorem step_spec (env : HEnv) (s : HS Unit) (hi : Inv env s) (hs : s.rem ≠ []) :
    wp step (fun _ s' => Inv env s' ∧ s'.rem.length < s.rem.length) env s := by
  obtain ⟨content, term, rest, fl, h1, h2⟩ := C22_match_crlf_line s.rem
  have hlen : s.rem.length = content.length + term.length + rest.length := by
    rw [fl.split]; simp; omega
  have hpos : content.length ≠ 0 ∨ term.length ≠ 0 := by
    rcases fl.term with e | e | ⟨e, _⟩ | ⟨e, e'⟩
    · right; rw [e]; simp
    · right; rw [e]; simp
    · right; rw [e]; simp
    · left
      have := fl.split
      rw [e, e'] at this
      simp at this
      rw [← this]
      simpa using hs
  have htake : s.rem.take content.length = content := by
    rw [fl.split]; simp
  unfold step highlightLine
  simp only [wp_bind, wp_rem, wp_hassert, h1, h2, htake]
  refine ⟨by simpa using hpos, ?_⟩
  by_cases hc : content = []
  · subst hc
    simp only [List.isEmpty_nil, if_true, wp_pure]
    rw [wp_advance_iff (by omega)]
    have hdrop : s.rem.drop term.length = rest := by rw [fl.split]; simp
    simp at hpos hlen
    refine ⟨⟨?_, fun ts h => ?_⟩, ?_⟩
    · simp only [HS.adv, hdrop]; have := hi.1; omega
    · simp only [HS.adv, hdrop] at h
      exact hi.2 ts (.empty fl hs h)
    · simp only [HS.adv, hdrop]; have : 0 < term.length := by simpa [List.length_pos_iff] using hpos
      omega
  · obtain ⟨ty, e1, e2, e3⟩ := chooseLineHighlight_spec content hc
    have hcl : 0 < content.length := List.length_pos_iff.2 hc
    have : content.isEmpty = false := by simpa using hc
    simp only [this, Bool.false_eq_true, if_false, wp_bind, wp_lift, e1]
    refine ⟨ty, rfl, ?_⟩
    rw [wp_emitAdv_iff hi.1 hcl (by omega)]
    have hd1 : s.rem.drop content.length = term ++ rest := by rw [fl.split]; simp
    have hdrop : (s.rem.drop content.length).drop term.length = rest := by rw [hd1]; simp
    have hl1 : (s.rem.drop content.length).length = term.length + rest.length := by rw [hd1]; simp
    rw [wp_advance_iff (by simp only [HS.emitted]; omega)]
    refine ⟨⟨?_, fun ts h => ?_⟩, ?_⟩
    · simp only [HS.adv, HS.emitted, hdrop]; have := hi.1; omega
    · simp only [HS.adv, HS.emitted, hdrop] at h ⊢
      have := hi.2 _ (.line fl hc e2 h)
      simpa [Emit.token] using this
    · simp only [HS.adv, HS.emitted, hdrop]; omega

/-- C34: the diff language never fails, and emits exactly one token per nonempty line, covering the
line without its terminator, with the type that the line's leading characters determine. -/
theorem C34_diff (debug : Bool) (opts : Opts) (src : Bytes) :
    ∃ es, highlight debug opts src = .ok (true, es) ∧
      DiffTokens 0 src (es.map Emit.token) := by
  have : wp run (fun b s => b = true ∧ DiffTokens 0 src (s.out.map Emit.token))
      ⟨debug, opts.seen, src⟩ ⟨src, 0, [], ()⟩ := by
    unfold run
    simp only [wp_bind, wp_rem, wp_pure, true_and]
    refine wp_whileNotEof (Inv ⟨debug, opts.seen, src⟩) ⟨by simp, fun ts h => by simpa using h⟩
      (by simp) (step_spec _) ?_
    intro s hi hs
    have := hi.2 []
    rw [hs] at this
    simpa using this (.nil _)
  obtain ⟨b, s', h1, rfl, h2⟩ := this
  exact ⟨s'.out, by simp [highlight, HM.run, HM.runAll, h1], h2⟩

theorem chooseLineHighlight_of_spec {line : Bytes} {ty : HT} (h : DiffLine line ty) :
    chooseLineHighlight line = .ok ty := by
  have nsw : ∀ (s p : Bytes), (∀ u, s ≠ p ++ u) → startsWith s p = false := by
    intro s p h
    rw [Bool.eq_false_iff]
    exact fun h' => (startsWith_iff.1 h').elim h
  cases h with
  | oldFile t | newFile t | contextFile t | hunk t =>
    simp [chooseLineHighlight, startsWith]
  | modification t => simp [chooseLineHighlight]
  | contextHunk n =>
    have e : List.replicate (n + 1) c!"*" = c!"*" :: List.replicate n c!"*" := rfl
    have h : ((List.replicate (n + 1) c!"*").findIdx? (· ≠ c!"*")).isNone = true := by
      rw [Option.isNone_iff_eq_none, List.findIdx?_eq_none_iff]
      intro x hx
      simp [List.eq_of_mem_replicate hx]
    rw [e] at h ⊢
    simp only [chooseLineHighlight, h]
    simp
  | deletion t h => simp [chooseLineHighlight, nsw _ _ h]
  | insertion t h => simp [chooseLineHighlight, nsw _ _ h]
  | «at» t h => simp [chooseLineHighlight, nsw _ _ h]
  | star t h h' =>
    have h2 : ((c!"*" :: t).findIdx? (· ≠ c!"*")).isNone = false := by
      rw [Bool.eq_false_iff, ne_eq, Option.isNone_iff_eq_none, List.findIdx?_eq_none_iff]
      grind
    simp only [chooseLineHighlight, h2, nsw _ _ h]
    simp
  | common c t h =>
    simp at h
    simp [chooseLineHighlight, h]

/-- The specification determines the type of a line. -/
theorem diffLine_unique {line : Bytes} {ty ty' : HT} (h : DiffLine line ty)
    (h' : DiffLine line ty') : ty = ty' := by
  have h1 := chooseLineHighlight_of_spec h
  rw [chooseLineHighlight_of_spec h'] at h1
  exact (Except.ok.inj h1).symm

/-- The specification determines the tokens. -/
theorem C34_diff_tokens_unique {p : Nat} {s : Bytes} {ts ts' : List Token} (h : DiffTokens p s ts)
    (h' : DiffTokens p s ts') : ts = ts' := by
  have nofl : ∀ {c t r}, FirstLine ([] : Bytes) c t r → c = [] := by
    intro c t r fl
    have := fl.split
    simp_all
  induction h generalizing ts' with
  | nil p =>
    cases h' with
    | nil => rfl
    | empty _ ne => simp at ne
    | line fl ne => exact absurd (nofl fl) ne
  | empty fl ne _ ih =>
    cases h' with
    | nil => simp at ne
    | empty fl' _ h' => obtain ⟨_, rfl, rfl⟩ := C22_first_line_unique fl fl'; exact ih h'
    | line fl' ne' => obtain ⟨rfl, _⟩ := C22_first_line_unique fl fl'; simp at ne'
  | line fl ne kind _ ih =>
    cases h' with
    | nil => exact absurd (nofl fl) ne
    | empty fl' _ _ => obtain ⟨rfl, _⟩ := C22_first_line_unique fl fl'; simp at ne
    | line fl' _ kind' h' =>
      obtain ⟨rfl, rfl, rfl⟩ := C22_first_line_unique fl fl'
      rw [diffLine_unique kind kind', ih h']

/-- The tokens are well-formed. -/
theorem wellFormed {p : Nat} {s : Bytes} {ts : List Token} (h : DiffTokens p s ts) :
    WellFormedFrom (p + s.length) p ts := by
  have mono : ∀ (ts : List Token) (n lo lo' : Nat), lo ≤ lo' → WellFormedFrom n lo' ts →
      WellFormedFrom n lo ts := by
    intro ts n lo lo' h w
    cases ts with
    | nil => trivial
    | cons t ts => obtain ⟨a, b⟩ := w; exact ⟨by omega, b⟩
  induction h with
  | nil => trivial
  | @empty p s term rest ts fl ne _ ih =>
    have hl : s.length = term.length + rest.length := by rw [fl.split]; simp
    rw [show p + s.length = p + term.length + rest.length by omega]
    exact mono _ _ _ _ (Nat.le_add_right _ _) ih
  | @line p s content term rest ty ts fl ne kind _ ih =>
    have hl : s.length = content.length + term.length + rest.length := by rw [fl.split]; simp; omega
    refine ⟨by simp, List.length_pos_iff.2 ne, by simp only; omega, ?_, ?_⟩
    · obtain ⟨ty', _, h2, h3⟩ := chooseLineHighlight_spec content ne
      rw [diffLine_unique kind h2]; exact h3
    · refine mono _ _ _ (p + content.length + term.length) (by simp) ?_
      rw [show p + s.length = p + content.length + term.length + rest.length by omega]
      exact ih

example : highlight true {} b!"--- a\r\n-x\n\n" =
    .ok (true, [⟨0, 5, .diff_heading, .normal⟩, ⟨7, 2, .diff_deletion, .normal⟩]) := by
  decide +kernel

end Ulight.Diff
