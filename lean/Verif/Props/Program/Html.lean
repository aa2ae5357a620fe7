import Verif.Spec.Elements.Html
import Verif.Props.Lang.Html
import Verif.Hl.ProgramPlaces
import Verif.Props.Program.Css

/-!
# C58 for HTML
-/

namespace Ulight.Html

open Spec Spec.Html

section

variable (css js : Highlight) (env : HEnv) (T : List Token)

/-- All tokens are right. -/
def Done (_ : Unit) (s : HS Unit) : Prop := s.out.map Emit.token = T

/-- What remains to be done after a tag or a text. -/
def Back (n : Nat) (r : Bool) (s : HS Unit) : Prop := r = true ∧ wp (HM.whileNotEof n (step css js)) (Done T) env s

/-- What remains to be done in a start tag. -/
def InTag (name : Bytes) (m n : Nat) (s : HS Unit) : Prop :=
  wp (HM.loop m (fun _ => attributesStep) ()) (fun c s => wp (if c then elementContent css js name else pure true)
    (Back css js env T n) env s) env s

/-- What remains to be done at each place. -/
def At (x : Place) (r : Bytes) (i : Nat) (out : List Emit) : Prop :=
  match x with
  | .start => wp (do
      let _ ← expectBom
      let r ← HM.rem
      HM.whileNotEof (r.length + 1) (step css js)) (Done T) env ⟨r, i, out, ()⟩
  | .content => (∀ n, r.length < n → wp (HM.whileNotEof n (step css js)) (Done T) env ⟨r, i, out, ()⟩) ∧
      ∀ m n, r.length < m → r.length < n → wp (HM.loop m textStep ()) (Back css js env T n) env ⟨r, i, out, ()⟩
  | .tag name => ∀ m n, r.length < m → r.length < n → InTag css js env T name m n ⟨r, i, out, ()⟩
  | .quoted d name => r ≠ [] → ∀ f m n, 2 * r.length < f → r.length < m → r.length < n →
      wp (HM.loop f (quotedStep (mark d)) 1) (fun c s => c = true ∧ InTag css js env T name m n s) env ⟨r, i, out, ()⟩
  | .unquoted first name => r ≠ [] → ∀ f m n, 2 * r.length < f → r.length < m → r.length < n →
      wp (HM.loop f unquotedStep (if first then 0 else 1)) (fun c s => c = true ∧ InTag css js env T name m n s) env
        ⟨r, i, out, ()⟩
  | .escapable lo => ∀ name, name.map lower = lo → ∀ m n, r.length < m → r.length < n →
      wp (HM.loop m (escapableStep name) ()) (Back css js env T n) env ⟨r, i, out, ()⟩
  | .code lo => lo ∈ [b!"script", b!"style"] → ∀ n, r.length < n → wp (do
      let n ← HM.lift (matchRawText r lo)
      consumeNested (if lo = b!"script" then js else css) n
      pure true) (Back css js env T n) env ⟨r, i, out, ()⟩

end

variable {css js : Highlight} {env : HEnv} {T : List Token} {i : Nat} {out : List Emit} {a b : Bytes}

/-- The places before and after an element. -/
abbrev Goes' (css js : Highlight) (env : HEnv) (T : List Token) := Goes (At css js env T) env.src.length

/-- One iteration of the main loop. -/
theorem wp_main {n : Nat} {s : HS Unit} {Q : Unit → HS Unit → Prop} (hn : s.rem.length < n) (hs : s.rem ≠ [])
    (h : wp (HM.or expectComment (HM.or expectDoctype (HM.or expectCData (HM.or expectEndTag
      (HM.or (expectStartTag css js) expectText))))) (fun r s => r = true ∧ wp (HM.whileNotEof (n - 1) (step css js)) Q env s) env s) :
    wp (HM.whileNotEof n (step css js)) Q env s := by
  unfold HM.whileNotEof
  refine wp_loop_more (by omega) ?_
  rw [wp_bind, wp_eof]
  have : s.rem.isEmpty = false := by cases h : s.rem <;> simp_all
  simp only [this, Bool.false_eq_true, if_false]
  rw [wp_bind]
  refine wp_body (wp_mono h ?_)
  rintro r s ⟨h1, h2⟩
  rw [wp_pure]
  exact ⟨h1, h2⟩
where
  wp_body {P : HS Unit → Prop} {s : HS Unit} (h : wp (HM.or expectComment (HM.or expectDoctype (HM.or expectCData (HM.or expectEndTag
      (HM.or (expectStartTag css js) expectText))))) (fun r s => r = true ∧ P s) env s) :
      wp (step css js) (fun _ s => P s) env s := by
    unfold step
    rw [wp_bind]
    refine wp_mono h ?_
    rintro _ s ⟨rfl, h⟩
    rw [if_pos rfl, wp_pure]
    exact h

theorem done_main {n : Nat} (hn : 0 < n) (h : out.map Emit.token = T) :
    wp (HM.whileNotEof n (step css js)) (Done T) env ⟨[], i, out, ()⟩ := by
  unfold HM.whileNotEof
  refine wp_loop_more hn ?_
  rw [wp_bind, wp_eof, if_pos (by rfl), wp_pure]
  exact h

theorem noComment {s : Bytes} {o : List Emit} (h : ¬ Comment s) : expectComment env ⟨s, i, o, ()⟩ = .ok (false, ⟨s, i, o, ()⟩) := by
  have : matchComment s = {} := by
    rcases matchComment_spec s with ⟨h1, _⟩ | ⟨_, _, _, h1, _⟩
    · exact h1
    · exact absurd h1 h
  show (if (matchComment s).length = 0 then pure false else _ : HM Unit Bool) env _ = _
  rw [this, if_pos rfl]
  rfl

theorem noDoctype {s : Bytes} {o : List Emit} (h : ¬ BeginsLower b!"<!doctype" s) :
    expectDoctype env ⟨s, i, o, ()⟩ = .ok (false, ⟨s, i, o, ()⟩) := by
  have : matchDoctype s = {} := by
    rcases matchDoctype_spec s with ⟨h1, _⟩ | ⟨_, _, h1, _⟩
    · exact h1
    · exact absurd h1 h
  show (if (matchDoctype s).length ≠ 0 then _ else pure false : HM Unit Bool) env _ = _
  rw [this, if_neg (by simp)]
  rfl

theorem noCData {s : Bytes} {o : List Emit} (h : ¬ b!"<![CDATA[" <+: s) :
    expectCData env ⟨s, i, o, ()⟩ = .ok (false, ⟨s, i, o, ()⟩) := by
  have : matchCData s = {} := by
    rcases matchCData_spec s with ⟨h1, _⟩ | ⟨h1, _⟩
    · exact h1
    · exact absurd ⟨s.drop 9, by rw [← h1, List.take_append_drop]⟩ h
  show (if (matchCData s).length ≠ 0 then _ else pure false : HM Unit Bool) env _ = _
  rw [this, if_neg (by simp)]
  rfl

theorem noEndTag {s : Bytes} {o : List Emit} (h : ¬ EndTag s) :
    expectEndTag env ⟨s, i, o, ()⟩ = .ok (false, ⟨s, i, o, ()⟩) := by
  have : matchEndTag s = (0, 0) := by
    rcases matchEndTag_spec s with ⟨h1, _⟩ | ⟨h1, _⟩
    · exact h1
    · exact absurd h1 h
  show (if (matchEndTag s).1 = 0 then pure false else _ : HM Unit Bool) env _ = _
  rw [this, if_pos rfl]
  rfl

theorem noStartTag {s : Bytes} {o : List Emit} (h : s.head? ≠ some c!"<") :
    expectStartTag css js env ⟨s, i, o, ()⟩ = .ok (false, ⟨s, i, o, ()⟩) := by
  have : startsWith s b!"<" = false := startsWith_one_false (by rwa [← List.head?_eq_getElem?])
  show (if !startsWith s b!"<" then pure false else _ : HM Unit Bool) env _ = _
  simp only [this, Bool.not_false, if_true]
  rfl

theorem comment_head {s : Bytes} (h : Comment s) : b!"<!--" <+: s := by
  obtain ⟨t, n, rfl, _⟩ := h
  exact ⟨t, rfl⟩

theorem endTag_head {s : Bytes} (h : EndTag s) : b!"</" <+: s := by
  obtain ⟨a, w, b, rfl, _⟩ := h
  exact ⟨a :: w ++ c!">" :: b, by simp⟩

theorem doctype_head {s : Bytes} (h : BeginsLower b!"<!doctype" s) : s.head? = some c!"<" ∧ s[1]? = some c!"!" := by
  have lt : ∀ c : UInt8, lower c = c!"<" → c = c!"<" := by apply forall_byte; decide +kernel
  have bang : ∀ c : UInt8, lower c = c!"!" → c = c!"!" := by apply forall_byte; decide +kernel
  match s, h with
  | [], h => simp [BeginsLower] at h
  | [c], h => simp [BeginsLower] at h
  | c :: d :: s, h =>
    simp [BeginsLower] at h
    simp [lt _ h.1, bang _ h.2.1]

/-- At text without a tag, only text is expected. -/
theorem wp_plain {s : Bytes} {n : Nat} {Q : Unit → HS Unit → Prop} (hn : s.length < n) (hs : s ≠ []) (h : s.head? ≠ some c!"<")
    (h' : wp expectText (fun r s => r = true ∧ wp (HM.whileNotEof (n - 1) (step css js)) Q env s) env ⟨s, i, out, ()⟩) :
    wp (HM.whileNotEof n (step css js)) Q env ⟨s, i, out, ()⟩ := by
  have no : ∀ w : Bytes, w.head? = some c!"<" → ¬ w <+: s := by
    rintro w hw ⟨t, rfl⟩
    cases w with
    | nil => simp at hw
    | cons c w => simp_all
  refine wp_main hn hs ?_
  refine wp_else (noComment fun hc => no _ (by rfl) (comment_head hc)) ?_
  refine wp_else (noDoctype fun hc => h (doctype_head hc).1) ?_
  refine wp_else (noCData (no _ (by rfl))) ?_
  refine wp_else (noEndTag fun hc => no _ (by rfl) (endTag_head hc)) ?_
  exact wp_else (noStartTag h) h'

theorem ref_eq {w : Bytes} (hw : RefContent w) (b : Bytes) : matchReference (b!"&" ++ w ++ b!";" ++ b) = w.length + 2 :=
  ((ref_iff _ _).1 ⟨w, b, hw, by simp, rfl⟩).1

/-- If a text begins with a tag, the loop for texts ends. -/
theorem text_of_main {s : Bytes} (h : s.head? = some c!"<") (hm : ∀ n, s.length < n → wp (HM.whileNotEof n (step css js)) (Done T) env ⟨s, i, out, ()⟩)
    (m n : Nat) (h1 : s.length < m) (h2 : s.length < n) : wp (HM.loop m textStep ()) (Back css js env T n) env ⟨s, i, out, ()⟩ := by
  obtain ⟨t, rfl⟩ : ∃ t, s = c!"<" :: t := by
    cases s with
    | nil => simp at h
    | cons c t => simp at h; exact ⟨t, by rw [h]⟩
  refine wp_loop_more (by omega) ?_
  unfold textStep
  rw [wp_bind, wp_rem]
  simp only [List.isEmpty_cons, Bool.false_eq_true, if_false]
  have : Ascii.find_if (c!"<" :: t) (fun c => c = c!"<" || c = c!"&") = some 0 := by
    simp [Ascii.find_if, Ascii.findLoop]
  simp only [this]
  rw [if_pos (by rfl), wp_bind, wp_advance_iff (by simp), wp_pure]
  exact ⟨rfl, hm n h2⟩

/-- Elements that begin with a tag. -/
theorem goes_tag {ts : List Token} {y : Place} (ha : a.head? = some c!"<") (h : ∃ es : List Emit, ts = es.map Emit.token ∧
    ∀ i out, i + (a ++ b).length = env.src.length → At css js env T y b (i + a.length) (out ++ es.map (Emit.moved i)) →
      ∀ n, (a ++ b).length < n → wp (HM.whileNotEof n (step css js)) (Done T) env ⟨a ++ b, i, out, ()⟩) :
    Goes' css js env T .content a ts b y := by
  obtain ⟨es, rfl, h⟩ := h
  refine ⟨es, rfl, fun i out hi h' => ?_⟩
  have := h i out hi h'
  refine ⟨this, text_of_main ?_ this⟩
  cases a with
  | nil => simp at ha
  | cons c a => simpa using ha

theorem goes_tag_parts {ps : List (Bytes × HT)} {y : Place} (ha : a.head? = some c!"<")
    (h : ∀ i out, i + (a ++ b).length = env.src.length → At css js env T y b (i + a.length) (out ++ partsEmit i ps) →
      ∀ n, (a ++ b).length < n → wp (HM.whileNotEof n (step css js)) (Done T) env ⟨a ++ b, i, out, ()⟩) :
    Goes' css js env T .content a (parts 0 ps) b y := by
  refine goes_tag ha ⟨partsEmit 0 ps, (partsEmit_token 0 ps).symm, fun i out hi h' => h i out hi ?_⟩
  rwa [partsEmit_moved] at h'

theorem wp_at {m : HM Unit α} {Q : α → HS Unit → Prop} {r : Bytes} {j : Nat} {o : List Emit} (h : wp m Q env ⟨r, i, out, ()⟩)
    (hj : i = j) (ho : out = o) : wp m Q env ⟨r, j, o, ()⟩ := by
  subst hj ho
  exact h

theorem take_not {p s : Bytes} (h : ¬ p <+: s) : s.take p.length ≠ p := fun e => h ⟨s.drop p.length, by
  conv => lhs; arg 1; rw [← e]
  exact List.take_append_drop _ _⟩

theorem wp_here {m m' : HM Unit Bool} {Q : Bool → HS Unit → Prop} {s : HS Unit} (h : wp m (fun r s => r = true ∧ Q true s) env s) :
    wp (HM.or m m') Q env s := by
  refine wp_step_or (wp_mono h ?_)
  rintro _ _ ⟨rfl, h⟩
  simpa using h

/-! ### Comments and declarations -/

theorem commentText_unique {s : Bytes} {m n : Nat} (h : CommentText s m) (h' : CommentText s n) : m = n :=
  UpTo.unique h.upTo h'.upTo (by decide)

theorem matchComment_closed {t : Bytes} (h : CommentText (t ++ b!"-->" ++ b) t.length) (h' : ¬ b!">" <+: t ++ b!"-->" ++ b)
    (h'' : ¬ b!"->" <+: t ++ b!"-->" ++ b) : matchComment (b!"<!--" ++ (t ++ b!"-->" ++ b)) = ⟨4 + t.length + 3, true⟩ := by
  rcases matchComment_spec (b!"<!--" ++ (t ++ b!"-->" ++ b)) with ⟨_, h1⟩ | ⟨u, n, e, _, _, h1, h2⟩
  · exact absurd ⟨_, _, rfl, take_not h', take_not h'', h⟩ h1
  · obtain rfl := List.append_cancel_left e
    obtain rfl := commentText_unique h h1
    rcases h2 with h2 | h2
    · exact h2.1
    · simp at h2

theorem matchComment_open {t : Bytes} (h : CommentText t t.length) (h' : ¬ b!">" <+: t)
    (h'' : ¬ b!"->" <+: t) : matchComment (b!"<!--" ++ t) = ⟨4 + t.length, false⟩ := by
  rcases matchComment_spec (b!"<!--" ++ t) with ⟨_, h1⟩ | ⟨u, n, e, _, _, h1, h2⟩
  · exact absurd ⟨_, _, rfl, take_not h', take_not h'', h⟩ h1
  · obtain rfl := List.append_cancel_left e
    obtain rfl := commentText_unique h h1
    rcases h2 with h2 | h2
    · obtain ⟨_, a, b, e, he⟩ := h2
      have := congrArg List.length e
      simp at this
      omega
    · exact h2.1

theorem comment_goes {t : Bytes} (h : CommentText (t ++ b!"-->" ++ b) t.length) (h' : ¬ b!">" <+: t ++ b!"-->" ++ b)
    (h'' : ¬ b!"->" <+: t ++ b!"-->" ++ b) :
    Goes' css js env T .content (b!"<!--" ++ t ++ b!"-->")
      (parts 0 [(b!"<!--", .comment_delim), (t, .comment), (b!"-->", .comment_delim)]) b .content := by
  refine goes_tag_parts (by rfl) fun i out hi hb n hn => ?_
  rw [show b!"<!--" ++ t ++ b!"-->" ++ b = b!"<!--" ++ (t ++ (b!"-->" ++ b)) by simp] at hi hn ⊢
  refine wp_main hn (by simp) (wp_here ?_)
  unfold expectComment
  rw [wp_bind, wp_rem]
  have hm := matchComment_closed h h' h''
  rw [show t ++ b!"-->" ++ b = t ++ (b!"-->" ++ b) by simp] at hm
  simp only [hm]
  rw [if_neg (by simp), wp_bind, wp_emit (by rfl) (by simp) hi, if_pos trivial, wp_bind,
    wp_emitNonempty (by omega) (by simp at hi ⊢; omega), wp_bind, wp_emit (by rfl) (by simp) (by simp at hi ⊢; omega), wp_pure]
  refine ⟨rfl, trivial, ?_⟩
  have := hb.1 (n - 1) (by simp at hn ⊢; omega)
  refine wp_at this (by simp; omega) ?_
  simp [partsEmit, optEmit, Nat.add_assoc]

theorem openComment_goes {t : Bytes} (h : CommentText t t.length) (h' : ¬ b!">" <+: t) (h'' : ¬ b!"->" <+: t) :
    Goes' css js env T .content (b!"<!--" ++ t) (parts 0 [(b!"<!--", .comment_delim), (t, .comment)]) [] .content := by
  refine goes_tag_parts (by rfl) fun i out hi hb n hn => ?_
  rw [show b!"<!--" ++ t ++ [] = b!"<!--" ++ (t ++ []) by simp] at hi hn ⊢
  refine wp_main hn (by simp) (wp_here ?_)
  unfold expectComment
  rw [wp_bind, wp_rem]
  have hm := matchComment_open h h' h''
  rw [show b!"<!--" ++ t = b!"<!--" ++ (t ++ []) by simp] at hm
  simp only [hm]
  rw [if_neg (by simp), wp_bind, wp_emit (by rfl) (by simp) hi, if_neg (by simp), wp_bind,
    wp_emitNonempty (by omega) (by simp at hi ⊢; omega), wp_pure]
  refine ⟨rfl, trivial, ?_⟩
  have := hb.1 (n - 1) (by simp at hn ⊢; omega)
  refine wp_at this (by simp; omega) ?_
  simp [partsEmit, optEmit]

/-- Before a declaration, no comment. -/
theorem no_comment {s : Bytes} (h : s[2]? ≠ some c!"-") : ¬ Comment s := by
  rintro ⟨t, n, rfl, _⟩
  exact h (by rfl)

theorem matchDoctype_closed {w t : Bytes} (h : w.map lower = b!"<!doctype") (h' : c!">" ∉ t) :
    matchDoctype (w ++ (t ++ (b!">" ++ b))) = ⟨9 + t.length + 1, true⟩ := by
  have hw : w.length = 9 := by simpa using congrArg List.length h
  have hb : Ascii.startsWithIgnoreCase (w ++ (t ++ (b!">" ++ b))) b!"<!DOCTYPE" = true := by
    rw [beginsLower_iff]
    show ((w ++ (t ++ (b!">" ++ b))).take 9).map lower = b!"<!doctype"
    rw [List.take_left' hw, h]
  unfold matchDoctype
  have hd : (w ++ (t ++ (b!">" ++ b))).drop 9 = t ++ c!">" :: b := List.drop_left' hw
  simp only [hb, Bool.not_true, Bool.false_eq_true, if_false, hd, findSub_one h']

theorem matchDoctype_open {w t : Bytes} (h : w.map lower = b!"<!doctype") (h' : c!">" ∉ t) :
    matchDoctype (w ++ t) = ⟨9 + t.length, false⟩ := by
  have hw : w.length = 9 := by simpa using congrArg List.length h
  have hb : Ascii.startsWithIgnoreCase (w ++ t) b!"<!DOCTYPE" = true := by
    rw [beginsLower_iff]
    show ((w ++ t).take 9).map lower = b!"<!doctype"
    rw [List.take_left' hw, h]
  unfold matchDoctype
  have hd : (w ++ t).drop 9 = t := List.drop_left' hw
  have hf : findSub b!">" t = none := by
    cases hf : findSub b!">" t with
    | none => rfl
    | some k =>
      obtain ⟨a, u, rfl, _⟩ := findSub_one_some hf
      simp at h'
  simp [hb, hd, hf, hw]

theorem doctype_bytes {w : Bytes} (h : w.map lower = b!"<!doctype") : w.head? = some c!"<" ∧ ∀ b, (w ++ b)[2]? ≠ some c!"-" := by
  have hw : w.length = 9 := by simpa using congrArg List.length h
  have h1 := doctype_head (s := w) (by show (w.take 9).map lower = _; rw [List.take_of_length_le (by omega), h])
  have minus : lower c!"-" ≠ c!"d" := by decide
  refine ⟨h1.1, fun b e => ?_⟩
  rw [List.getElem?_append_left (by omega)] at e
  have := congrArg (·[2]?) h
  simp [e, lower] at this

theorem doctype_goes {w t : Bytes} (h : w.map lower = b!"<!doctype") (h' : c!">" ∉ t) :
    Goes' css js env T .content (w ++ t ++ b!">") [⟨0, 9 + t.length + 1, .name_macro⟩] b .content := by
  have hw : w.length = 9 := by simpa using congrArg List.length h
  have hx := doctype_bytes h
  refine goes_tag (by simp [hx.1]) ⟨[⟨0, 9 + t.length + 1, .name_macro, .normal⟩], rfl, fun i out hi hb n hn => ?_⟩
  refine wp_main hn (by simp) (wp_else (noComment (no_comment (by simpa using hx.2 (t ++ (b!">" ++ b))))) (wp_here ?_))
  unfold expectDoctype
  rw [wp_bind, wp_rem]
  have hm : matchDoctype (w ++ t ++ b!">" ++ b) = ⟨9 + t.length + 1, true⟩ := by simpa using matchDoctype_closed (b := b) h h'
  simp only [hm]
  rw [if_pos (by simp), wp_bind, wp_emit (by simp; omega) (by simp) hi, wp_pure]
  refine ⟨rfl, trivial, ?_⟩
  have := hb.1 (n - 1) (by simp at hn ⊢; omega)
  refine wp_at this (by simp; omega) ?_
  simp [Emit.moved]

theorem openDoctype_goes {w t : Bytes} (h : w.map lower = b!"<!doctype") (h' : c!">" ∉ t) :
    Goes' css js env T .content (w ++ t) [⟨0, 9 + t.length, .name_macro⟩] [] .content := by
  have hw : w.length = 9 := by simpa using congrArg List.length h
  have hx := doctype_bytes h
  refine goes_tag (by simp [hx.1]) ⟨[⟨0, 9 + t.length, .name_macro, .normal⟩], rfl, fun i out hi hb n hn => ?_⟩
  refine wp_main hn (by simp; intro e; simp [e] at hw) (wp_else (noComment (no_comment (by simpa using hx.2 t))) (wp_here ?_))
  unfold expectDoctype
  rw [wp_bind, wp_rem]
  have hm : matchDoctype (w ++ t ++ []) = ⟨9 + t.length, false⟩ := by simpa using matchDoctype_open h h'
  simp only [hm]
  rw [if_pos (by simp), wp_bind, wp_emit (by simp; omega) (by omega) hi, wp_pure]
  refine ⟨rfl, trivial, ?_⟩
  have := hb.1 (n - 1) (by simp at hn ⊢; omega)
  refine wp_at this (by simp; omega) ?_
  simp [Emit.moved]

theorem wp_emitAt' {n k : Nat} {ty : HT} {r : Bytes} {Q : Unit → HS Unit → Prop} (h0 : 0 < n) (h : k + n ≤ env.src.length) :
    wp (HM.emit k n ty) Q env ⟨r, i, out, ()⟩ ↔ Q () ⟨r, i, out ++ [⟨k, n, ty, .normal⟩], ()⟩ := by
  unfold HM.emit
  refine wp_of_ok (if_neg ?_)
  have : k < env.src.length := by omega
  have : n ≠ 0 := by omega
  simp [*]

theorem matchCData_closed {t : Bytes} (h : UpTo b!"]]>" (t ++ b!"]]>" ++ b) t.length) :
    matchCData (b!"<![CDATA[" ++ (t ++ b!"]]>" ++ b)) = ⟨9 + t.length + 3, true⟩ := by
  have hd : (b!"<![CDATA[" ++ (t ++ b!"]]>" ++ b)).drop 9 = t ++ b!"]]>" ++ b := List.drop_left' rfl
  have hs : startsWith (b!"<![CDATA[" ++ (t ++ b!"]]>" ++ b)) b!"<![CDATA[" = true := startsWith_iff.2 ⟨_, rfl⟩
  have hu := UpTo.unique (upTo_of_findSub b!"]]>" (t ++ b!"]]>" ++ b)) h (by decide)
  unfold matchCData
  simp only [hs, hd, Bool.not_true, Bool.false_eq_true, if_false]
  cases hf : findSub b!"]]>" (t ++ b!"]]>" ++ b) with
  | none => rw [hf] at hu; simp at hu
  | some k => rw [hf] at hu; simp at hu; simp [hu]

theorem matchCData_open {t : Bytes} (h : ∀ k, ¬ OccursAt b!"]]>" t k) :
    matchCData (b!"<![CDATA[" ++ t) = ⟨9 + t.length, false⟩ := by
  have hd : (b!"<![CDATA[" ++ t).drop 9 = t := List.drop_left' rfl
  have hs : startsWith (b!"<![CDATA[" ++ t) b!"<![CDATA[" = true := startsWith_iff.2 ⟨_, rfl⟩
  have hu := findSub_spec b!"]]>" t
  unfold matchCData
  simp only [hs, hd, Bool.not_true, Bool.false_eq_true, if_false]
  cases hf : findSub b!"]]>" t with
  | none => simp; omega
  | some k =>
    rw [hf] at hu
    exact absurd hu.1 (h k)

theorem cdata_first (t : Bytes) : ¬ Comment (b!"<![CDATA[" ++ t) ∧ ¬ BeginsLower b!"<!doctype" (b!"<![CDATA[" ++ t) :=
  ⟨no_comment (by simp), by simp [BeginsLower, lower]⟩

theorem cdata_goes {t : Bytes} (h : UpTo b!"]]>" (t ++ b!"]]>" ++ b) t.length) :
    Goes' css js env T .content (b!"<![CDATA[" ++ t ++ b!"]]>") [⟨0, 9, .name_macro⟩, ⟨9 + t.length, 3, .name_macro⟩] b .content := by
  refine goes_tag (by rfl) ⟨[⟨0, 9, .name_macro, .normal⟩, ⟨9 + t.length, 3, .name_macro, .normal⟩], rfl, fun i out hi hb n hn => ?_⟩
  have e : b!"<![CDATA[" ++ t ++ b!"]]>" ++ b = b!"<![CDATA[" ++ (t ++ b!"]]>" ++ b) := by simp
  have hx := cdata_first (t ++ b!"]]>" ++ b)
  refine wp_main hn (by simp) (wp_else (noComment (by rw [e]; exact hx.1)) (wp_else (noDoctype (by rw [e]; exact hx.2)) (wp_here ?_)))
  unfold expectCData
  rw [wp_bind, wp_rem]
  have hm := matchCData_closed h
  rw [← e] at hm
  simp only [hm]
  have hl : i + (12 + t.length + b.length) = env.src.length := by simp at hi; omega
  rw [if_pos (by simp), wp_bind, wp_index, wp_bind, wp_emitAt' (by simp) (by dsimp only; omega), if_pos trivial, wp_bind,
    wp_emitAt' (by simp) (by dsimp only; omega), wp_bind, wp_skip (by simp; omega), wp_pure]
  refine ⟨rfl, trivial, ?_⟩
  have := hb.1 (n - 1) (by simp at hn ⊢; omega)
  refine wp_at this (by simp; omega) ?_
  simp [Emit.moved]
  omega

theorem openCdata_goes {t : Bytes} (h : ∀ k, ¬ OccursAt b!"]]>" t k) :
    Goes' css js env T .content (b!"<![CDATA[" ++ t) [⟨0, 9, .name_macro⟩] [] .content := by
  refine goes_tag (by rfl) ⟨[⟨0, 9, .name_macro, .normal⟩], rfl, fun i out hi hb n hn => ?_⟩
  have e : b!"<![CDATA[" ++ t ++ [] = b!"<![CDATA[" ++ t := by simp
  have hx := cdata_first t
  refine wp_main hn (by simp) (wp_else (noComment (by rw [e]; exact hx.1)) (wp_else (noDoctype (by rw [e]; exact hx.2)) (wp_here ?_)))
  unfold expectCData
  rw [wp_bind, wp_rem]
  have hm := matchCData_open h
  rw [← e] at hm
  simp only [hm]
  have hl : i + (9 + t.length) = env.src.length := by simp at hi; omega
  rw [if_pos (by simp), wp_bind, wp_index, wp_bind, wp_emitAt' (by simp) (by dsimp only; omega), if_neg (by simp), wp_bind,
    wp_skip (by simp; omega), wp_pure]
  refine ⟨rfl, trivial, ?_⟩
  have := hb.1 (n - 1) (by simp at hn ⊢; omega)
  refine wp_at this (by simp; omega) ?_
  simp [Emit.moved]

/-! ### Tags -/

/-- The first character with a property. -/
theorem find_if_first {p : UInt8 → Bool} {q t : Bytes} {c : UInt8} (ha : ∀ d ∈ a, p d = false) (hc : p c = true) {k : Nat}
    (hk : q.length = k) : Ascii.find_if (q ++ (a ++ c :: t)) p k = some (k + a.length) := by
  subst hk
  have hd : (q ++ (a ++ c :: t)).drop q.length = a ++ c :: t := List.drop_left' rfl
  have hl : Longest (fun c => p c = false) (a ++ c :: t) a.length := ⟨by simpa using ha, by simp [hc]⟩
  rcases find_if_longest (q ++ (a ++ c :: t)) p (fun c => p c = false) (fun _ => Iff.rfl) q.length (by simp) with
    ⟨j, d, h1, h2, h3, _, _, h4⟩ | ⟨_, h4⟩
  · rw [hd] at h4
    have := Longest.unique h4 hl (by simp at h3 ⊢; omega) (by simp)
    rw [h1, show j = q.length + a.length by omega]
  · rw [hd] at h4
    have := Longest.unique h4 hl (by simp) (by simp)
    simp at this

theorem endName_iff (c : UInt8) : (isHtmlWhitespace c || c = c!">" : Bool) = false ↔ ¬ Space c ∧ c ≠ c!">" := by
  simp [isSpace_iff, ← Bool.not_eq_true]

theorem matchEndTag_closed {w : Bytes} (h : w ≠ []) (h' : ∀ c ∈ w, ¬ Space c ∧ c ≠ c!">") :
    matchEndTag (b!"</" ++ (w ++ (b!">" ++ b))) = (w.length + 3, w.length) := by
  have hs : startsWith (b!"</" ++ (w ++ (b!">" ++ b))) b!"</" = true := startsWith_iff.2 ⟨_, rfl⟩
  have hf := find_if_first (p := fun c => isHtmlWhitespace c || c = c!">") (q := b!"</") (a := w) (c := c!">") (t := b)
    (fun c hc => (endName_iff c).2 (h' c hc)) (by decide) rfl
  have hl := List.length_pos_iff.2 h
  simp only [List.cons_append, List.nil_append, List.length_cons, List.length_nil] at *
  unfold matchEndTag
  simp only [hs, hf, Bool.not_true, Bool.false_eq_true, if_false]
  rw [if_neg (by omega), if_pos (by rw [show 0 + 1 + 1 + w.length = w.length + 2 by omega]; simp)]
  simp
  omega

theorem matchEndTag_more {w u : Bytes} {c : UInt8} (h : w ≠ []) (h' : ∀ c ∈ w, ¬ Space c ∧ c ≠ c!">")
    (hs : ∀ d, (u ++ [c]).head? = some d → Space d) (hu : c!">" ∉ u ++ [c]) :
    matchEndTag (b!"</" ++ (w ++ (u ++ [c] ++ c!">" :: b))) = (w.length + 2 + u.length + 1, w.length) := by
  obtain ⟨d, v, e⟩ : ∃ d v, u ++ [c] = d :: v := List.exists_cons_of_ne_nil (by simp)
  have hlen : u.length + 1 = v.length + 1 := by simpa using congrArg List.length e
  rw [e] at hs hu ⊢
  have hd : Space d := hs d (by rfl)
  have hw : startsWith (b!"</" ++ (w ++ (d :: (v ++ c!">" :: b)))) b!"</" = true := startsWith_iff.2 ⟨_, rfl⟩
  have hf := find_if_first (p := fun c => isHtmlWhitespace c || c = c!">") (q := b!"</") (a := w) (c := d) (t := v ++ c!">" :: b)
    (fun c hc => (endName_iff c).2 (h' c hc)) (by simp [isSpace_iff, hd]) rfl
  have hl := List.length_pos_iff.2 h
  have hg := findSub_one (t := b) hu
  simp only [List.cons_append, List.nil_append, List.length_cons, List.length_nil] at *
  unfold matchEndTag
  simp only [hw, Bool.not_true, Bool.false_eq_true, if_false, hf]
  have hx : (c!"<" :: c!"/" :: (w ++ d :: (v ++ c!">" :: b))).drop (0 + 1 + 1 + w.length) = d :: (v ++ c!">" :: b) := by
    rw [show 0 + 1 + 1 + w.length = w.length + 2 by omega]
    simp
  rw [if_neg (by omega), if_neg (by
    rw [show 0 + 1 + 1 + w.length = w.length + 2 by omega]
    simp
    rintro rfl
    simp at hu), hx, hg]
  simp
  omega

/-- An end tag is none of what is expected before it. -/
theorem end_first (t : Bytes) : ¬ Comment (b!"</" ++ t) ∧ ¬ BeginsLower b!"<!doctype" (b!"</" ++ t) ∧ ¬ b!"<![CDATA[" <+: b!"</" ++ t :=
  ⟨fun h => by simpa using comment_head h, by simp [BeginsLower, lower], by simp⟩

theorem wp_endTag {s : Bytes} {n m : Nat} {Q : Bool → HS Unit → Prop} (hm : matchEndTag (b!"</" ++ s) = (m, n)) (h0 : 0 < n) (h1 : n + 2 ≤ m)
    (h2 : m ≤ s.length + 2) (hi : i + (s.length + 2) = env.src.length)
    (hq : Q true ⟨(b!"</" ++ s).drop m, i + m, out ++ [⟨i, 2, .symbol_punc, .normal⟩, ⟨i + 2, n, .markup_tag, .normal⟩,
      ⟨i + m - 1, 1, .symbol_punc, .normal⟩], ()⟩) : wp expectEndTag Q env ⟨b!"</" ++ s, i, out, ()⟩ := by
  unfold expectEndTag
  rw [wp_bind, wp_rem]
  simp only [hm]
  rw [if_neg (by omega), wp_bind]
  refine wp_dassert (by simp; omega) ?_
  rw [wp_bind, wp_index, wp_bind, wp_emitAt' (by simp) (by dsimp only; omega), wp_bind, wp_emitAt' h0 (by dsimp only; omega), wp_bind,
    wp_emitAt' (by simp) (by dsimp only; omega), wp_bind, wp_advance_iff (by simp; omega), wp_pure]
  simpa [HS.adv] using hq

theorem endTag_goes {w : Bytes} (h : w ≠ []) (h' : ∀ c ∈ w, ¬ Space c ∧ c ≠ c!">") :
    Goes' css js env T .content (b!"</" ++ w ++ b!">")
      (parts 0 [(b!"</", .symbol_punc), (w, .markup_tag), (b!">", .symbol_punc)]) b .content := by
  refine goes_tag_parts (by rfl) fun i out hi hb n hn => ?_
  rw [show b!"</" ++ w ++ b!">" ++ b = b!"</" ++ (w ++ (b!">" ++ b)) by simp] at hi hn ⊢
  have hx := end_first (w ++ (b!">" ++ b))
  have hl := List.length_pos_iff.2 h
  refine wp_main hn (by simp) (wp_else (noComment hx.1) (wp_else (noDoctype hx.2.1) (wp_else (noCData hx.2.2) (wp_here ?_))))
  refine wp_endTag (matchEndTag_closed h h') hl (by omega) (by simp) (by simp at hi ⊢; omega) ?_
  refine ⟨rfl, rfl, ?_⟩
  have := hb.1 (n - 1) (by simp at hn ⊢; omega)
  rw [show (b!"</" ++ (w ++ (b!">" ++ b))).drop (w.length + 3) = b by simp]
  refine wp_at this (by simp) ?_
  simp [partsEmit, optEmit, h, show i + (w.length + 3) - 1 = i + 1 + 1 + w.length by omega]

theorem endTagMore_goes {w u : Bytes} {c : UInt8} (h : w ≠ []) (h' : ∀ c ∈ w, ¬ Space c ∧ c ≠ c!">")
    (hs : ∀ d, (u ++ [c]).head? = some d → Space d) (hu : c!">" ∉ u ++ [c]) (hb : b.head? = some c!">") :
    Goes' css js env T .content (b!"</" ++ w ++ u ++ [c])
      [⟨0, 2, .symbol_punc⟩, ⟨2, w.length, .markup_tag⟩, ⟨2 + w.length + u.length, 1, .symbol_punc⟩] b .content := by
  refine goes_tag (by rfl) ⟨[⟨0, 2, .symbol_punc, .normal⟩, ⟨2, w.length, .markup_tag, .normal⟩,
    ⟨2 + w.length + u.length, 1, .symbol_punc, .normal⟩], rfl, fun i out hi hr n hn => ?_⟩
  obtain ⟨b, rfl⟩ : ∃ b', b = c!">" :: b' := by
    cases b with
    | nil => simp at hb
    | cons d b => simp at hb; exact ⟨b, by rw [hb]⟩
  rw [show b!"</" ++ w ++ u ++ [c] ++ c!">" :: b = b!"</" ++ (w ++ (u ++ [c] ++ c!">" :: b)) by simp] at hi hn ⊢
  have hx := end_first (w ++ (u ++ [c] ++ c!">" :: b))
  have hl := List.length_pos_iff.2 h
  refine wp_main hn (by simp) (wp_else (noComment hx.1) (wp_else (noDoctype hx.2.1) (wp_else (noCData hx.2.2) (wp_here ?_))))
  refine wp_endTag (matchEndTag_more h h' hs hu) hl (by omega) (by simp; omega) (by simp at hi ⊢; omega) ?_
  refine ⟨rfl, rfl, ?_⟩
  have := hr.1 (n - 1) (by simp at hn ⊢; omega)
  rw [show (b!"</" ++ (w ++ (u ++ [c] ++ c!">" :: b))).drop (w.length + 2 + u.length + 1) = c!">" :: b by
    rw [show b!"</" ++ (w ++ (u ++ [c] ++ c!">" :: b)) = (b!"</" ++ w ++ u ++ [c]) ++ c!">" :: b by simp]
    exact List.drop_left' (by simp; omega)]
  refine wp_at this (by simp; omega) ?_
  simp [Emit.moved]
  omega

theorem matchTagName_eq {w : Bytes} (h : LongestChars TagChar (w ++ b) w.length) : matchTagName (w ++ b) = .ok w.length := by
  obtain ⟨n, h1, _, h2⟩ := matchTagName_spec (w ++ b)
  rw [h1, chars_unique h2 h]

theorem less_goes (comment : ¬ Comment (b!"<" ++ b)) (doctype : ¬ BeginsLower b!"<!doctype" (b!"<" ++ b))
    (cdata : ¬ b!"<![CDATA[" <+: b!"<" ++ b) (end_ : ¬ EndTag (b!"<" ++ b)) (tag : LongestChars TagChar b 0) :
    Goes' css js env T .content b!"<" [⟨0, 1, .symbol_punc⟩] b .content := by
  refine goes_tag (by rfl) ⟨[⟨0, 1, .symbol_punc, .normal⟩], rfl, fun i out hi hr n hn => ?_⟩
  refine wp_main hn (by simp) (wp_else (noComment comment) (wp_else (noDoctype doctype) (wp_else (noCData cdata)
    (wp_else (noEndTag end_) (wp_here ?_)))))
  unfold expectStartTag
  rw [wp_bind, wp_rem]
  simp only [startsWith_iff (s := b!"<" ++ b) (p := b!"<").2 ⟨_, rfl⟩, Bool.not_true, Bool.false_eq_true, if_false]
  rw [wp_bind, wp_emit (by rfl) (by simp) hi, wp_bind, wp_rem, wp_bind, wp_lift]
  refine ⟨_, matchTagName_eq (w := []) tag, ?_⟩
  rw [if_pos (by rfl), wp_pure]
  refine ⟨rfl, trivial, ?_⟩
  have := hr.1 (n - 1) (by simp at hn ⊢; omega)
  exact wp_at this (by simp) (by simp [Emit.moved])

/-- A start tag is nothing else. -/
theorem tag_first {w : Bytes} (h : w ≠ []) (h' : LongestChars TagChar (w ++ b) w.length) :
    ∃ c t, w = c :: t ∧ c ≠ c!"!" ∧ c ≠ c!"/" := by
  obtain ⟨c, t, rfl⟩ := List.exists_cons_of_ne_nil h
  have hc := (longestChars_bytes h').1 c (by simp)
  have no : ∀ c ∈ ([0x21, 0x2F] : List UInt8), isTagNameChar c.toNat = false := by decide +kernel
  have key : ∀ d ∈ ([0x21, 0x2F] : List UInt8), c ≠ d := by
    rintro d hd rfl
    have h1 := (tagChar_iff c.toNat).2 (hc (by
      have : ∀ c ∈ ([0x21, 0x2F] : List UInt8), c.toNat < 0x80 := by decide
      exact this c hd))
    rw [no c hd] at h1
    cases h1
  exact ⟨c, t, rfl, key _ (by simp), key _ (by simp)⟩

theorem startTag_goes {w : Bytes} (h : w ≠ []) (h' : LongestChars TagChar (w ++ b) w.length) :
    Goes' css js env T .content (b!"<" ++ w) (parts 0 [(b!"<", .symbol_punc), (w, .markup_tag)]) b (.tag w) := by
  refine goes_tag_parts (by rfl) fun i out hi hr n hn => ?_
  have hl := List.length_pos_iff.2 h
  have hx : ¬ Comment (b!"<" ++ w ++ b) ∧ ¬ BeginsLower b!"<!doctype" (b!"<" ++ w ++ b) ∧ ¬ b!"<![CDATA[" <+: b!"<" ++ w ++ b ∧
      ¬ EndTag (b!"<" ++ w ++ b) := by
    obtain ⟨c, t, rfl, h1, h2⟩ := tag_first h h'
    refine ⟨fun h => by simpa [h1.symm] using comment_head h, fun h => h1 (by simpa using (doctype_head h).2), by simp [h1.symm], fun h => ?_⟩
    have := endTag_head h
    simp [h2.symm] at this
  rw [List.append_assoc] at *
  refine wp_main hn (by simp) (wp_else (noComment hx.1) (wp_else (noDoctype hx.2.1) (wp_else (noCData hx.2.2.1)
    (wp_else (noEndTag hx.2.2.2) (wp_here ?_)))))
  unfold expectStartTag
  rw [wp_bind, wp_rem]
  simp only [startsWith_iff (s := b!"<" ++ (w ++ b)) (p := b!"<").2 ⟨_, rfl⟩, Bool.not_true, Bool.false_eq_true, if_false]
  rw [wp_bind, wp_emit (by rfl) (by simp) hi, wp_bind, wp_rem, wp_bind, wp_lift]
  refine ⟨_, matchTagName_eq h', ?_⟩
  rw [if_neg (by omega), wp_bind, wp_emit rfl hl (by simp at hi ⊢; omega), wp_bind]
  have := hr (w ++ b).length.succ (n - 1) (by simp; omega) (by simp at hn ⊢; omega)
  unfold InTag at this
  rw [show List.take w.length (w ++ b) = w from List.take_left' rfl]
  refine wp_at (wp_mono this ?_) (by simp; omega) (by simp [partsEmit, optEmit, h])
  intro c s h
  split <;> rename_i hd
  · rw [if_pos hd] at h
    refine wp_mono h fun r s hr => ⟨hr.1, trivial, hr.2⟩
  · rw [if_neg hd] at h
    refine wp_mono h fun r s hr => ⟨hr.1, trivial, hr.2⟩

/-! ### Text -/

theorem wp_loop_iff {body : β → HM σ (β ⊕ α)} {m : Nat} {c : β} {s : HS σ} {Q : α → HS σ → Prop} (hm : 0 < m) :
    wp (HM.loop m body c) Q env s ↔ wp (body c) (fun r s => match r with
      | .inl c' => wp (HM.loop (m - 1) body c') Q env s
      | .inr a => Q a s) env s := by
  obtain ⟨m, rfl⟩ : ∃ k, m = k + 1 := ⟨m - 1, by omega⟩
  conv => lhs; unfold HM.loop
  rw [wp_bind]
  constructor <;> intro h <;> refine wp_mono h ?_ <;> intro r s h <;> cases r with
  | inl c => exact h
  | inr a => first | exact (wp_pure _).2 h | exact (wp_pure _).1 h

theorem noReference {s : Bytes} {o : List Emit} (h : NoRef s 0) : expectReference env ⟨s, i, o, ()⟩ = .ok (false, ⟨s, i, o, ()⟩) := by
  have : matchReference s = 0 := (noRef_iff s 0).1 h
  show (if matchReference s ≠ 0 then _ else pure false : HM Unit Bool) env _ = _
  rw [this, if_neg (by simp)]
  rfl

theorem text_loop {t : Bytes} (h : ∀ k, k < t.length → NoRef (t ++ b) k) (h' : c!"<" ∉ t)
    (hb : b = [] ∨ b.head? = some c!"<" ∨ RefHere b) (hat : At css js env T .content b (i + t.length) out) (m n : Nat)
    (hm : (t ++ b).length < m) (hn : b.length < n) : wp (HM.loop m textStep ()) (Back css js env T n) env ⟨t ++ b, i, out, ()⟩ := by
  induction t generalizing i m with
  | nil => exact hat.2 m n hm hn
  | cons c t ih =>
    refine wp_loop_more (by omega) ?_
    unfold textStep
    rw [wp_bind, wp_rem]
    simp only [List.cons_append, List.isEmpty_cons, Bool.false_eq_true, if_false]
    have hf := find_if_longest (c :: (t ++ b)) (fun c => c = c!"<" || c = c!"&") (fun c => c ≠ c!"<" ∧ c ≠ c!"&") (by simp) 0 (by simp)
    have hb0 : ∀ d, b.head? = some d → d = c!"<" ∨ d = c!"&" := by
      intro d hd
      rcases hb with rfl | hb | ⟨k, w, u, _, rfl, _⟩
      · simp at hd
      · rw [hb] at hd
        simp at hd
        exact Or.inl hd.symm
      · simp at hd
        exact Or.inr hd.symm
    have plain : ∀ j, (∀ d ∈ (c :: (t ++ b)).take j, d ≠ c!"<" ∧ d ≠ c!"&") → j ≤ t.length + 1 + b.length → j ≤ t.length + 1 := by
      intro j hj hl
      apply Classical.byContradiction
      intro hc
      cases b with
      | nil => simp at hl; omega
      | cons d b =>
        have := hj d (by
          refine List.mem_of_getElem? (i := t.length + 1) ?_
          rw [List.getElem?_take_of_lt (by omega)]
          simp)
        rcases hb0 d (by rfl) with rfl | rfl <;> simp at this
    rcases hf with ⟨j, d, h1, _, h3, h4, h5, h6⟩ | ⟨h1, h2⟩
    · simp only [h1]
      have hj := plain j (by simpa using h6.1) (by simp at h3; omega)
      by_cases hd : (c :: (t ++ b))[j]? = some c!"<"
      · have : j = t.length + 1 := by
          apply Classical.byContradiction
          intro hne
          rw [show c :: (t ++ b) = (c :: t) ++ b by rfl, List.getElem?_append_left (by simp; omega)] at hd
          exact h' (List.mem_of_getElem? hd)
        subst this
        rw [if_pos hd, wp_bind, show c :: (t ++ b) = (c :: t) ++ b by rfl, wp_skip (by simp), wp_pure]
        exact ⟨rfl, hat.1 n hn⟩
      · rw [if_neg hd]
        rw [wp_bind]
        have := noReference (env := env) (i := i) (o := out) (h 0 (by simp))
        refine (wp_of_ok this).2 ?_
        rw [if_neg (by simp), wp_bind, List.cons_append, wp_skip_byte, wp_pure]
        refine ih (fun k hk => ?_) (by simp at h'; exact h'.2) (by simpa [Nat.add_assoc, Nat.add_comm 1] using hat) _ (by simp at hm ⊢; omega)
        simpa [NoRef] using h (k + 1) (by simp; omega)
    · simp only [h1]
      have hj := plain (t.length + 1 + b.length) (by simpa [Nat.add_right_comm] using h2.1) (by omega)
      have : b = [] := List.eq_nil_of_length_eq_zero (by omega)
      subst this
      rw [wp_bind, show c :: (t ++ []) = (c :: t) ++ [] by rfl, wp_skip (by simp), wp_pure]
      exact ⟨rfl, wp_at (hat.1 n hn) (by simp) rfl⟩

theorem text_goes {t : Bytes} (h : t ≠ []) (h' : ∀ k, k < t.length → NoRef (t ++ b) k) (h'' : c!"<" ∉ t)
    (hb : b = [] ∨ b.head? = some c!"<" ∨ RefHere b) : Goes' css js env T .content t [] b .content := by
  refine goes_none fun i out hi hat => ⟨fun n hn => ?_, fun m n hm hn => text_loop h' h'' hb hat m n hm (by simp at hn; omega)⟩
  have hl := List.length_pos_iff.2 h
  refine wp_plain hn (by simp [h]) ?_ ?_
  · cases t with
    | nil => exact absurd rfl h
    | cons c t =>
      simp at h'' ⊢
      exact fun e => h''.1 e.symm
  · unfold expectText
    rw [wp_bind, wp_rem]
    exact text_loop h' h'' hb hat _ _ (by simp) (by simp at hn; omega)

theorem ref_loop {w : Bytes} (h : RefContent w) (hi : i + (b!"&" ++ w ++ b!";" ++ b).length = env.src.length)
    (hat : At css js env T .content b (i + (w.length + 2)) (out ++ [⟨i, w.length + 2, .string_escape, .normal⟩])) (m n : Nat)
    (hm : (b!"&" ++ w ++ b!";" ++ b).length < m) (hn : b.length < n) :
    wp (HM.loop m textStep ()) (Back css js env T n) env ⟨b!"&" ++ w ++ b!";" ++ b, i, out, ()⟩ := by
  refine wp_loop_more (by omega) ?_
  unfold textStep
  rw [wp_bind, wp_rem]
  have hf : Ascii.find_if (b!"&" ++ w ++ b!";" ++ b) (fun c => c = c!"<" || c = c!"&") = some 0 :=
    find_if_first (q := []) (a := []) (by simp) (by decide) rfl
  rw [if_neg (by simp)]
  simp only [hf]
  rw [if_neg (by simp), wp_bind]
  unfold expectReference
  rw [wp_bind, wp_rem]
  simp only [ref_eq h]
  rw [if_pos (by simp), wp_bind, wp_emit (by simp) (by simp) hi, wp_pure, if_pos rfl, wp_pure]
  exact hat.2 _ _ (by simp at hm ⊢; omega) hn

theorem reference_goes {w : Bytes} (h : RefContent w) :
    Goes' css js env T .content (b!"&" ++ w ++ b!";") [⟨0, w.length + 2, .string_escape⟩] b .content := by
  refine goes_one (mode := .normal) fun i out hi hat => ?_
  have hat : At css js env T .content b (i + (w.length + 2)) (out ++ [⟨i, w.length + 2, .string_escape, .normal⟩]) := by simpa using hat
  refine ⟨fun n hn => ?_, fun m n hm hn => ref_loop h hi hat m n hm (by simp at hn; omega)⟩
  refine wp_plain hn (by simp) (by simp) ?_
  unfold expectText
  rw [wp_bind, wp_rem]
  exact ref_loop h hi hat _ _ (by simp) (by simp at hn; omega)

/-! ### Start tags -/

theorem matchWhitespace_eq {w : Bytes} (h : Longest Space (w ++ b) w.length) : matchWhitespace (w ++ b) = w.length := by
  unfold matchWhitespace
  refine length_if_eq ⟨fun c hc => (isSpace_iff c).2 (h.1 c hc), fun c hc hs => h.2 c hc ((isSpace_iff c).1 hs)⟩ (by simp)

theorem wp_whitespace {w : Bytes} {Q : Bool → HS Unit → Prop} (h : Longest Space (w ++ b) w.length)
    (hq : ∀ r, Q r ⟨b, i + w.length, out, ()⟩) : wp expectWhitespace Q env ⟨w ++ b, i, out, ()⟩ := by
  unfold expectWhitespace
  rw [wp_bind, wp_rem]
  simp only [matchWhitespace_eq h]
  cases w with
  | nil =>
    rw [if_neg (by simp), wp_pure]
    exact hq false
  | cons c w =>
    rw [if_pos (by simp), wp_bind, wp_skip rfl, wp_pure]
    exact hq true

/-- An iteration of the loop over the attributes, without the whitespace. -/
def attribute' : HM Unit (Unit ⊕ Bool) := do
  let r ← HM.rem
  if startsWith r b!"/>" then do
    HM.emitAdv 2 .symbol_punc
    pure (.inr true)
  else if startsWith r b!">" then do
    HM.emitAdv 1 .symbol_punc
    pure (.inr true)
  else if ← expectAttribute then pure (.inl ())
  else pure (.inr false)

theorem wp_attributes {w : Bytes} {Q : Unit ⊕ Bool → HS Unit → Prop} (h : Longest Space (w ++ b) w.length) (h0 : w ++ b ≠ []) :
    wp attributesStep Q env ⟨w ++ b, i, out, ()⟩ ↔ wp attribute' Q env ⟨b, i + w.length, out, ()⟩ := by
  unfold attributesStep
  rw [wp_bind, wp_rem, if_neg (by simpa using h0), wp_bind]
  unfold expectWhitespace
  rw [wp_bind, wp_rem]
  simp only [matchWhitespace_eq h]
  cases w with
  | nil =>
    rw [if_neg (by simp), wp_pure]
    exact Iff.rfl
  | cons c w =>
    rw [if_pos (by simp), wp_bind, wp_skip rfl, wp_pure]
    exact Iff.rfl

theorem lower_name {w name : Bytes} (hn : name.map lower = name) : Ascii.equalsIgnoreCase w name = true ↔ w.map lower = name := by
  rw [(Ascii.C19_ignore_case w name).1, lower_eq, hn]

theorem matchRawText_nil (name : Bytes) : matchRawText [] name = .ok 0 := by simp [matchRawText, rawTextLoop]

theorem consumeNothing (h : Highlight) (s : HS Unit) : consumeNested h 0 env s = .ok ((), s) := by simp [consumeNested]

/-- At the end of the source, elements have no content. -/
theorem wp_content_nil {name : Bytes} {Q : Bool → HS Unit → Prop} :
    wp (elementContent css js name) Q env ⟨[], i, out, ()⟩ ↔ Q true ⟨[], i, out, ()⟩ := by
  refine wp_of_ok ?_
  unfold elementContent
  show (if _ then _ else _ : HM Unit Bool) env _ = _
  split
  · rfl
  split
  · show (HM.lift (matchRawText [] b!"script") >>= _ : HM Unit Bool) env _ = _
    rw [matchRawText_nil]
    rfl
  split
  · show (HM.lift (matchRawText [] b!"style") >>= _ : HM Unit Bool) env _ = _
    rw [matchRawText_nil]
    rfl
  · rfl

/-- After the start tag. -/
theorem wp_content {name : Bytes} (h : At css js env T (after name) b i out) (n : Nat) (hn : b.length < n) :
    wp (elementContent css js name) (Back css js env T n) env ⟨b, i, out, ()⟩ := by
  unfold elementContent
  rw [wp_bind, wp_rem]
  simp only [Bool.or_eq_true, lower_name (show b!"textarea".map lower = _ by decide), lower_name (show b!"title".map lower = _ by decide),
    lower_name (show b!"script".map lower = _ by decide), lower_name (show b!"style".map lower = _ by decide)]
  unfold after at h
  by_cases h1 : name.map lower ∈ [b!"textarea", b!"title"]
  · rw [if_pos h1] at h
    rw [if_pos (by simpa using h1)]
    exact h name rfl _ _ (by simp) hn
  · rw [if_neg h1] at h
    rw [if_neg (by simpa using h1)]
    by_cases h2 : name.map lower = b!"script"
    · rw [if_pos h2]
      rw [if_pos (by simp [h2]), h2] at h
      exact h (by simp) n hn
    · rw [if_neg h2]
      by_cases h3 : name.map lower = b!"style"
      · rw [if_pos h3]
        rw [if_pos (by simp [h3]), h3] at h
        exact h (by simp) n hn
      · rw [if_neg h3, wp_pure]
        rw [if_neg (by simp [h2, h3])] at h
        exact ⟨rfl, h.1 n hn⟩

theorem longest_none (h : ∀ c, b.head? = some c → ¬ Space c) : Longest Space ([] ++ b) ([] : Bytes).length := by
  refine ⟨by simp, ?_⟩
  intro c hc
  exact h c (by rw [List.head?_eq_getElem?]; exact hc)

theorem space_goes {w name : Bytes} (h : w ≠ []) (h' : Longest Space (w ++ b) w.length) :
    Goes' css js env T (.tag name) w [] b (.tag name) := by
  refine goes_none fun i out hi hat m n hm hn => ?_
  have hl := List.length_pos_iff.2 h
  have hat := hat m n (by simp at hm; omega) (by simp at hn; omega)
  unfold InTag at hat ⊢
  rw [wp_loop_iff (by omega)] at hat ⊢
  rw [wp_attributes h' (by simp [h])]
  cases b with
  | nil =>
    unfold attributesStep at hat
    rw [wp_bind, wp_rem, if_pos (by rfl), wp_pure] at hat
    simp only [if_true] at hat
    rw [wp_content_nil] at hat
    unfold attribute'
    rw [wp_bind, wp_rem, if_neg (by simp [startsWith]), if_neg (by simp [startsWith]), wp_bind]
    unfold expectAttribute
    rw [wp_bind, wp_rem, wp_bind, wp_lift]
    refine ⟨0, by rfl, ?_⟩
    rw [if_pos rfl, wp_pure, if_neg (by simp), wp_pure]
    simpa using hat
  | cons c b =>
    rwa [show c :: b = [] ++ c :: b by rfl, wp_attributes (longest_none ?_) (by simp)] at hat
    intro d hd
    simp at hd
    subst hd
    exact h'.2 c (by simp)

theorem close_goes {name : Bytes} : Goes' css js env T (.tag name) b!">" [⟨0, 1, .symbol_punc⟩] b (after name) := by
  refine goes_one (mode := .normal) fun i out hi hat m n hm hn => ?_
  unfold InTag
  rw [wp_loop_iff (by omega), show b!">" ++ b = [] ++ (b!">" ++ b) by rfl, wp_attributes (longest_none (by simp [Space])) (by simp)]
  unfold attribute'
  rw [wp_bind, wp_rem, if_neg (by simp [startsWith]), if_pos (by simp [startsWith]), wp_bind, wp_emit (by rfl) (by simp) (by simpa using hi), wp_pure]
  simp only [if_true]
  exact wp_content hat n (by simp at hn; omega)

theorem closeEmpty_goes {name : Bytes} : Goes' css js env T (.tag name) b!"/>" [⟨0, 2, .symbol_punc⟩] b (after name) := by
  refine goes_one (mode := .normal) fun i out hi hat m n hm hn => ?_
  unfold InTag
  rw [wp_loop_iff (by omega), show b!"/>" ++ b = [] ++ (b!"/>" ++ b) by rfl, wp_attributes (longest_none (by simp [Space])) (by simp)]
  unfold attribute'
  rw [wp_bind, wp_rem, if_pos (by simp [startsWith]), wp_bind, wp_emit (by rfl) (by simp) (by simpa using hi), wp_pure]
  simp only [if_true]
  exact wp_content hat n (by simp at hn; omega)

theorem matchAttrName_eq {w : Bytes} (h : LongestChars AttrChar (w ++ b) w.length) : matchAttrName (w ++ b) = .ok w.length := by
  obtain ⟨n, h1, _, h2⟩ := matchAttrName_spec (w ++ b)
  rw [h1, chars_unique h2 h]

theorem attr_first {w : Bytes} (h : w ≠ []) (h' : LongestChars AttrChar (w ++ b) w.length) :
    ∃ c t, w = c :: t ∧ ¬ Space c ∧ c ≠ c!">" ∧ c ≠ c!"/" := by
  obtain ⟨c, t, rfl⟩ := List.exists_cons_of_ne_nil h
  have hc := (longestChars_bytes h').1 c (by simp)
  have no : ∀ c ∈ ([0x20, 0x09, 0x0A, 0x0C, 0x0D, 0x3E, 0x2F] : List UInt8), isAttrNameChar c.toNat = false ∧ c.toNat < 0x80 := by
    decide +kernel
  have key : ∀ d ∈ ([0x20, 0x09, 0x0A, 0x0C, 0x0D, 0x3E, 0x2F] : List UInt8), c ≠ d := by
    rintro d hd rfl
    have h1 := (attrChar_iff c.toNat).2 (hc (no c hd).2)
    rw [(no c hd).1] at h1
    cases h1
  refine ⟨c, t, rfl, fun hs => ?_, key _ (by simp), key _ (by simp)⟩
  refine key c ?_ rfl
  unfold Space at hs
  exact List.mem_append_left [0x3E, 0x2F] hs

theorem wp_attribute {w : Bytes} {m : Nat} {Q : Bool → HS Unit → Prop} (h : w ≠ []) (h' : LongestChars AttrChar (w ++ b) w.length) (hm : 0 < m)
    (h'' : wp expectAttribute (fun r s => r = true ∧ wp (HM.loop (m - 1) (fun _ => attributesStep) ()) Q env s) env ⟨w ++ b, i, out, ()⟩) :
    wp (HM.loop m (fun _ => attributesStep) ()) Q env ⟨w ++ b, i, out, ()⟩ := by
  obtain ⟨c, t, rfl, h1, h2, h3⟩ := attr_first h h'
  rw [wp_loop_iff hm, show c :: t ++ b = [] ++ (c :: t ++ b) by rfl, wp_attributes (longest_none (by simpa using h1)) (by simp)]
  unfold attribute'
  rw [wp_bind, wp_rem, if_neg (by simp [startsWith, h3.symm]), if_neg (by simp [startsWith, h2.symm]), wp_bind]
  refine wp_mono h'' ?_
  rintro _ s ⟨rfl, h⟩
  rw [if_pos rfl, wp_pure]
  exact h

theorem attribute_goes {w s name : Bytes} (h : w ≠ []) (h' : LongestChars AttrChar (w ++ (s ++ b)) w.length)
    (hs : Longest Space (s ++ b) s.length) (hb : b.head? ≠ some c!"=") :
    Goes' css js env T (.tag name) (w ++ s) [⟨0, w.length, .markup_attr⟩] b (.tag name) := by
  refine goes_one (mode := .normal) fun i out hi hat m n hm hn => ?_
  have hl := List.length_pos_iff.2 h
  rw [List.append_assoc] at hi hm hn ⊢
  unfold InTag
  refine wp_attribute h h' (by omega) ?_
  unfold expectAttribute
  rw [wp_bind, wp_rem, wp_bind, wp_lift]
  refine ⟨_, matchAttrName_eq h', ?_⟩
  rw [if_neg (by omega), wp_bind, wp_emit rfl hl hi, wp_bind]
  refine wp_whitespace hs fun r => ?_
  rw [wp_bind, wp_rem, if_neg (by rw [startsWith_one_false (by rwa [← List.head?_eq_getElem?])]; simp), wp_pure]
  refine ⟨rfl, ?_⟩
  have := hat (m - 1) n (by simp at hm; omega) (by simp at hn; omega)
  exact wp_at this (by simp; omega) rfl

/-- The bytes of an attribute before its value. -/
theorem wp_attribute_value {w s s' : Bytes} {Q : Bool → HS Unit → Prop} (h : w ≠ [])
    (h' : LongestChars AttrChar (w ++ (s ++ (b!"=" ++ (s' ++ b)))) w.length)
    (hs : ∀ c ∈ s, Space c) (hs' : Longest Space (s' ++ b) s'.length)
    (hi : i + (w ++ (s ++ (b!"=" ++ (s' ++ b)))).length = env.src.length)
    (hq : wp (HM.or (HM.or (expectQuoted c!"\"") (expectQuoted c!"'")) expectUnquoted) Q env
      ⟨b, i + (w.length + s.length + 1 + s'.length), out ++ [⟨i, w.length, .markup_attr, .normal⟩, ⟨i + (w.length + s.length), 1, .symbol_punc, .normal⟩], ()⟩) :
    wp expectAttribute Q env ⟨w ++ (s ++ (b!"=" ++ (s' ++ b))), i, out, ()⟩ := by
  have hl := List.length_pos_iff.2 h
  unfold expectAttribute
  rw [wp_bind, wp_rem, wp_bind, wp_lift]
  refine ⟨_, matchAttrName_eq h', ?_⟩
  rw [if_neg (by omega), wp_bind, wp_emit rfl hl hi, wp_bind]
  refine wp_whitespace ⟨by simpa using hs, by simp [Space]⟩ fun r => ?_
  rw [wp_bind, wp_rem, if_pos (by simp [startsWith]), wp_bind, wp_emit (by rfl) (by simp) (by simp at hi ⊢; omega), wp_bind]
  refine wp_whitespace hs' fun r => ?_
  exact wp_at hq (by omega) (by simp; omega)

theorem noQuoted {s : Bytes} {q : UInt8} {o : List Emit} (h : s.head? ≠ some q) :
    expectQuoted q env ⟨s, i, o, ()⟩ = .ok (false, ⟨s, i, o, ()⟩) := by
  show (if startsWith s [q] then _ else pure false : HM Unit Bool) env _ = _
  rw [startsWith_one_false (by rwa [← List.head?_eq_getElem?]), if_neg (by simp)]
  rfl

theorem value_goes {w s s' name : Bytes} {y : Place} (h : w ≠ []) (h' : LongestChars AttrChar (w ++ (s ++ (b!"=" ++ (s' ++ b)))) w.length)
    (hs : ∀ c ∈ s, Space c) (hs' : Longest Space (s' ++ b) s'.length)
    (hb : (∃ d, b.head? = some (mark d) ∧ y = .quoted d name) ∨
      (∃ c, b.head? = some c ∧ ¬ UnquotedEnd c ∧ y = .unquoted true name) ∨
      ((∀ c, b.head? = some c → UnquotedEnd c ∧ c ≠ c!"\"" ∧ c ≠ c!"'") ∧ y = .tag name)) :
    Goes' css js env T (.tag name) (w ++ s ++ b!"=" ++ s') [⟨0, w.length, .markup_attr⟩, ⟨w.length + s.length, 1, .symbol_punc⟩] b y := by
  refine ⟨[⟨0, w.length, .markup_attr, .normal⟩, ⟨w.length + s.length, 1, .symbol_punc, .normal⟩], rfl, fun i out hi hat m n hm hn => ?_⟩
  have hl := List.length_pos_iff.2 h
  rw [show w ++ s ++ b!"=" ++ s' ++ b = w ++ (s ++ (b!"=" ++ (s' ++ b))) by simp] at hi hm hn ⊢
  have hat : At css js env T y b (i + (w.length + s.length + 1 + s'.length))
      (out ++ [⟨i, w.length, .markup_attr, .normal⟩, ⟨i + (w.length + s.length), 1, .symbol_punc, .normal⟩]) := by
    rw [show i + (w.length + s.length + 1 + s'.length) = i + (w ++ s ++ b!"=" ++ s').length by simp; omega,
      Nat.add_comm i (w.length + s.length)]
    simpa [Emit.moved] using hat
  unfold InTag
  refine wp_attribute h h' (by omega) (wp_attribute_value h h' hs hs' hi ?_)
  have hm' : b.length < m - 1 := by simp at hm; omega
  have hn' : b.length < n := by simp at hn; omega
  rcases hb with ⟨d, h1, rfl⟩ | ⟨c, h1, h2, rfl⟩ | ⟨h1, rfl⟩
  · have hne : b ≠ [] := by rintro rfl; simp at h1
    have := hat hne (2 * b.length + 2) (m - 1) n (by omega) hm' hn'
    have hq : wp (expectQuoted (mark d)) (fun c s => c = true ∧ InTag css js env T name (m - 1) n s) env
        ⟨b, i + (w.length + s.length + 1 + s'.length), out ++ [⟨i, w.length, .markup_attr, .normal⟩, ⟨i + (w.length + s.length), 1, .symbol_punc, .normal⟩], ()⟩ := by
      unfold expectQuoted
      rw [wp_bind, wp_rem, if_pos]
      · exact this
      · cases b with
        | nil => exact absurd rfl hne
        | cons c b => simp at h1; simp [startsWith, h1]
    refine wp_here ?_
    refine wp_mono (Q := fun c s => c = true ∧ InTag css js env T name (m - 1) n s) ?_ fun r s h => ⟨h.1, rfl, h.2⟩
    cases d with
    | true =>
      refine wp_here (wp_mono hq fun r s h => ⟨h.1, rfl, h.2⟩)
    | false => exact wp_else (noQuoted (by rw [h1]; decide)) hq
  · have hne : b ≠ [] := by rintro rfl; simp at h1
    have hq : ∀ q ∈ b!"\"'", b.head? ≠ some q := by
      intro q hq e
      rw [h1] at e
      cases e
      exact h2 (Or.inr (List.mem_append_left b!"=<>`" hq))
    refine wp_else ((or_ok (noQuoted (hq c!"\"" (by simp)))).trans (noQuoted (hq c!"'" (by simp)))) ?_
    unfold expectUnquoted
    rw [wp_bind, wp_rem]
    exact hat hne (2 * b.length + 2) (m - 1) n (by omega) hm' hn'
  · refine wp_else ((or_ok (noQuoted fun e => (h1 _ e).2.1 rfl)).trans (noQuoted fun e => (h1 _ e).2.2 rfl)) ?_
    unfold expectUnquoted
    rw [wp_bind, wp_rem]
    refine wp_loop_more (by omega) ?_
    unfold unquotedStep
    rw [wp_bind, wp_rem]
    have := hat (m - 1) n hm' hn'
    cases b with
    | nil =>
      simp only [List.getElem?_nil]
      unfold HM.emitAdvIf
      rw [wp_bind, if_neg (by simp), wp_pure, wp_pure]
      exact ⟨rfl, this⟩
    | cons c b =>
      simp only [List.getElem?_cons_zero]
      rw [if_pos ((unquotedEnd_iff c).2 (h1 c rfl).1)]
      unfold HM.emitAdvIf
      rw [wp_bind, if_neg (by simp), wp_pure, wp_pure]
      exact ⟨rfl, this⟩

theorem endOfTag_goes {a : Bytes} {ts : List Token} {name : Bytes} {y : Place} (h : Goes' css js env T .content a ts b y)
    (h' : LongestChars AttrChar (a ++ b) 0) (hs : ∀ c, (a ++ b).head? = some c → ¬ Space c ∧ c ≠ c!">") (hc : ¬ b!"/>" <+: a ++ b) :
    Goes' css js env T (.tag name) a ts b y := by
  refine h.of fun i out hi hat m n hm hn => ?_
  unfold InTag
  rw [wp_loop_iff (by omega)]
  generalize a ++ b = s at *
  cases s with
  | nil =>
    unfold attributesStep
    rw [wp_bind, wp_rem, if_pos (by rfl), wp_pure]
    simp only [if_true]
    rw [wp_content_nil]
    exact ⟨rfl, hat.1 n hn⟩
  | cons c s =>
    rw [show c :: s = [] ++ c :: s by rfl, wp_attributes (longest_none fun c hc => (hs c hc).1) (by simp)]
    unfold attribute'
    rw [wp_bind, wp_rem, if_neg (fun h => hc (by obtain ⟨t, e⟩ := startsWith_iff.1 h; exact ⟨t, e.symm⟩)),
      if_neg (by rw [startsWith_one_false]; simp; simpa using (hs c rfl).2), wp_bind]
    unfold expectAttribute
    rw [wp_bind, wp_rem, wp_bind, wp_lift]
    refine ⟨0, matchAttrName_eq (w := []) h', ?_⟩
    rw [if_pos rfl, wp_pure, if_neg (by simp), wp_pure]
    simp only [Bool.false_eq_true, if_false]
    rw [wp_pure]
    exact ⟨rfl, hat.1 n hn⟩

/-! ### Attribute values -/

theorem ref_zero {s : Bytes} {k : Nat} (h : NoRef s k) : matchReference (s.drop k) = 0 := (noRef_iff s k).1 h

theorem noRef_behind {p s : Bytes} {k : Nat} (h : NoRef s k) : NoRef (p ++ s) (p.length + k) := by
  unfold NoRef
  rw [show (p ++ s).drop (p.length + k) = s.drop k by
    rw [← List.drop_drop, List.drop_left' rfl]]
  exact h

/-- The loop over a value in quotation marks goes over plain text. -/
theorem quoted_text {c : UInt8} {t r : Bytes} {d : Bool} {Q : Bool → HS Unit → Prop} {f : Nat} (h : mark d ∉ t)
    (h' : ∀ k, k < t.length → NoRef (t ++ r) k) (hf : t.length ≤ f)
    (hq : wp (HM.loop (f - t.length) (quotedStep (mark d)) (1 + t.length)) Q env ⟨c :: (t ++ r), i, out, ()⟩) :
    wp (HM.loop f (quotedStep (mark d)) 1) Q env ⟨c :: (t ++ r), i, out, ()⟩ := by
  refine wp_loop_counts t.length hf (fun k hk => ?_) hq
  unfold quotedStep
  have hg : (c :: (t ++ r))[1 + k]? = some t[k] := by
    rw [Nat.add_comm, List.getElem?_cons_succ, List.getElem?_append_left hk, List.getElem?_eq_getElem hk]
  have hr : matchReference ((c :: (t ++ r)).drop (1 + k)) = 0 := by
    rw [Nat.add_comm]
    simpa using ref_zero (h' k hk)
  rw [wp_bind, wp_rem]
  simp only [hg, hr]
  rw [if_neg (fun e : t[k] = mark d => h (e ▸ List.getElem_mem hk)), if_neg (by simp), wp_pure]
  exact ⟨rfl, rfl⟩

theorem mark_ne (d : Bool) : c!"&" ≠ mark d := by cases d <;> decide

theorem quotedEnd_goes {c : UInt8} {t name : Bytes} {d : Bool} (h : mark d ∉ t) (h' : ∀ k, k < t.length → NoRef (t ++ [mark d] ++ b) k) :
    Goes' css js env T (.quoted d name) ([c] ++ t ++ [mark d]) [⟨0, 1 + t.length + 1, .string⟩] b (.tag name) := by
  refine goes_one (mode := .normal) fun i out hi hat _ f m n hf hm hn => ?_
  rw [show [c] ++ t ++ [mark d] ++ b = c :: (t ++ ([mark d] ++ b)) by simp] at *
  rw [List.append_assoc] at h'
  refine quoted_text h h' (by simp at hf; omega) (wp_loop_more (by simp at hf; omega) ?_)
  unfold quotedStep
  have hg : (c :: (t ++ ([mark d] ++ b)))[1 + t.length]? = some (mark d) := by
    rw [Nat.add_comm, List.getElem?_cons_succ]
    simp
  rw [wp_bind, wp_rem]
  simp only [hg, if_true]
  rw [wp_bind, show c :: (t ++ ([mark d] ++ b)) = ([c] ++ t ++ [mark d]) ++ b by simp, wp_emitNonempty (by simp; omega) (by simpa using hi), wp_pure]
  refine ⟨rfl, ?_⟩
  have := hat m n (by simp at hm; omega) (by simp at hn; omega)
  exact wp_at this (by simp; omega) (by simp [optEmit]; omega)

theorem quotedOpen_goes {c : UInt8} {t name : Bytes} {d : Bool} (h : mark d ∉ t) (h' : ∀ k, k < t.length → NoRef t k) :
    Goes' css js env T (.quoted d name) ([c] ++ t) [⟨0, 1 + t.length, .string⟩] [] (.tag name) := by
  refine goes_one (mode := .normal) fun i out hi hat _ f m n hf hm hn => ?_
  rw [show [c] ++ t ++ [] = c :: (t ++ []) by simp] at *
  refine quoted_text h (by simpa using h') (by simp at hf; omega) (wp_loop_more (by simp at hf; omega) ?_)
  unfold quotedStep
  have hg : (c :: (t ++ []))[1 + t.length]? = none := by simp; omega
  rw [wp_bind, wp_rem]
  simp only [hg]
  rw [wp_bind, show c :: (t ++ []) = ([c] ++ t) ++ [] by simp, wp_emitNonempty (by simp; omega) (by simpa using hi), wp_pure]
  refine ⟨rfl, ?_⟩
  have := hat m n (by simp at hm ⊢; omega) (by simp at hn ⊢; omega)
  exact wp_at this (by simp; omega) (by simp [optEmit]; omega)

theorem quotedReference_goes {c : UInt8} {t w name : Bytes} {d : Bool} (h : mark d ∉ t)
    (h' : ∀ k, k < t.length → NoRef (t ++ (b!"&" ++ w ++ b!";" ++ b)) k) (hw : RefContent w) (hb : b ≠ []) :
    Goes' css js env T (.quoted d name) ([c] ++ t ++ (b!"&" ++ w ++ b!";"))
      (parts 0 [([c] ++ t, .string), (b!"&" ++ w ++ b!";", .string_escape)]) b (.quoted d name) := by
  refine goes_parts fun i out hi hat _ f m n hf hm hn => ?_
  rw [show [c] ++ t ++ (b!"&" ++ w ++ b!";") ++ b = c :: (t ++ (b!"&" ++ w ++ b!";" ++ b)) by simp] at *
  refine quoted_text h h' (by simp at hf; omega) (wp_loop_more (by simp at hf; omega) ?_)
  unfold quotedStep
  have hg : (c :: (t ++ (b!"&" ++ w ++ b!";" ++ b)))[1 + t.length]? = some c!"&" := by
    rw [Nat.add_comm, List.getElem?_cons_succ]
    simp
  have hd : (c :: (t ++ (b!"&" ++ w ++ b!";" ++ b))).drop (1 + t.length) = b!"&" ++ w ++ b!";" ++ b := by
    rw [Nat.add_comm]
    simp
  rw [wp_bind, wp_rem]
  simp only [hg, hd, ref_eq hw]
  rw [if_neg (mark_ne d), if_pos (by simp), wp_bind, show c :: (t ++ (b!"&" ++ w ++ b!";" ++ b)) = ([c] ++ t) ++ (b!"&" ++ w ++ b!";" ++ b) by simp,
    wp_emitNonempty (by simp; omega) (by simpa using hi), wp_bind, wp_emit (by simp) (by simp) (by simp at hi ⊢; omega), wp_pure]
  have := hat hb (f - t.length - 1) m n (by simp at hf; omega) (by simp at hm; omega) (by simp at hn; omega)
  refine wp_at this (by simp; omega) ?_
  simp [partsEmit, optEmit]
  omega

/-- The loop over a value without quotation marks goes over plain text. -/
theorem unquoted_text {p t r : Bytes} {Q : Bool → HS Unit → Prop} {f : Nat}
    (h' : ∀ k, k < t.length → NoRef (t ++ r) k) (h'' : ∀ c ∈ t, ¬ UnquotedEnd c) (hf : t.length ≤ f)
    (hq : wp (HM.loop (f - t.length) unquotedStep (p.length + t.length)) Q env ⟨p ++ (t ++ r), i, out, ()⟩) :
    wp (HM.loop f unquotedStep p.length) Q env ⟨p ++ (t ++ r), i, out, ()⟩ := by
  refine wp_loop_counts t.length hf (fun k hk => ?_) hq
  unfold unquotedStep
  have hg : (p ++ (t ++ r))[p.length + k]? = some t[k] := by
    rw [List.getElem?_append_right (by omega), Nat.add_sub_cancel_left, List.getElem?_append_left hk, List.getElem?_eq_getElem hk]
  have hr : matchReference ((p ++ (t ++ r)).drop (p.length + k)) = 0 := ref_zero (noRef_behind (h' k hk))
  rw [wp_bind, wp_rem]
  simp only [hg, hr]
  rw [if_neg (fun e => h'' _ (List.getElem_mem hk) ((unquotedEnd_iff _).1 e)), if_neg (by simp), wp_pure]
  exact ⟨rfl, rfl⟩

theorem unquotedEnd_goes {p t name : Bytes} {first : Bool} (h : p.length = if first then 0 else 1) (h0 : p ++ t ≠ [])
    (h' : ∀ k, k < t.length → NoRef (t ++ b) k) (h'' : ∀ c ∈ t, ¬ UnquotedEnd c) (hb : ∀ c, b.head? = some c → UnquotedEnd c) :
    Goes' css js env T (.unquoted first name) (p ++ t) [⟨0, (p ++ t).length, .string⟩] b (.tag name) := by
  refine goes_one (mode := .normal) fun i out hi hat _ f m n hf hm hn => ?_
  have hl := List.length_pos_iff.2 h0
  rw [← h]
  rw [List.append_assoc] at *
  refine unquoted_text h' h'' (by simp at hf; omega) (wp_loop_more (by simp at hf; omega) ?_)
  unfold unquotedStep
  have hg : (p ++ (t ++ b))[p.length + t.length]? = b.head? := by
    rw [List.getElem?_append_right (by omega), Nat.add_sub_cancel_left, List.getElem?_append_right (by omega), Nat.sub_self, List.head?_eq_getElem?]
  have := hat m n (by simp at hm hl; omega) (by simp at hn hl; omega)
  have key : wp (HM.emitAdvIf (p.length + t.length) .string) (fun _ s => InTag css js env T name m n s) env ⟨p ++ (t ++ b), i, out, ()⟩ := by
    rw [← List.append_assoc, wp_emitNonempty (by simp) (by simpa using hi)]
    have e : optEmit i (p ++ t) .string = [⟨i, (p ++ t).length, .string, .normal⟩] := by
      unfold optEmit
      rw [if_neg (by omega)]
    rw [e]
    exact wp_at this (by simp) rfl
  rw [wp_bind, wp_rem]
  simp only [hg]
  cases hc : b.head? with
  | none =>
    simp only
    rw [wp_bind]
    exact wp_mono key fun _ s h => (wp_pure _).2 ⟨rfl, h⟩
  | some c =>
    simp only
    rw [if_pos ((unquotedEnd_iff c).2 (hb c hc)), wp_bind]
    exact wp_mono key fun _ s h => (wp_pure _).2 ⟨rfl, h⟩

theorem unquotedReference_goes {p t w name : Bytes} {first : Bool} (h : p.length = if first then 0 else 1)
    (h' : ∀ k, k < t.length → NoRef (t ++ (b!"&" ++ w ++ b!";" ++ b)) k) (h'' : ∀ c ∈ t, ¬ UnquotedEnd c)
    (hw : RefContent w) (hb : b ≠ []) :
    Goes' css js env T (.unquoted first name) (p ++ t ++ (b!"&" ++ w ++ b!";"))
      (parts 0 [(p ++ t, .string), (b!"&" ++ w ++ b!";", .string_escape)]) b (.unquoted false name) := by
  refine goes_parts fun i out hi hat _ f m n hf hm hn => ?_
  have hp : p.length ≤ 1 := by rw [h]; split <;> simp
  rw [← h]
  rw [show p ++ t ++ (b!"&" ++ w ++ b!";") ++ b = p ++ (t ++ (b!"&" ++ w ++ b!";" ++ b)) by simp] at *
  refine unquoted_text h' h'' (by simp at hf; omega) (wp_loop_more (by simp at hf; omega) ?_)
  unfold unquotedStep
  have hg : (p ++ (t ++ (b!"&" ++ w ++ b!";" ++ b)))[p.length + t.length]? = some c!"&" := by
    rw [List.getElem?_append_right (by omega), Nat.add_sub_cancel_left, List.getElem?_append_right (by omega), Nat.sub_self]
    rfl
  have hd : (p ++ (t ++ (b!"&" ++ w ++ b!";" ++ b))).drop (p.length + t.length) = b!"&" ++ w ++ b!";" ++ b := by
    rw [← List.append_assoc]
    exact List.drop_left' (by simp)
  rw [wp_bind, wp_rem]
  simp only [hg, hd, ref_eq hw]
  rw [if_neg (by decide), if_pos (by simp), wp_bind, ← List.append_assoc,
    wp_emitNonempty (by simp) (by simpa using hi), wp_bind, wp_emit (by simp) (by simp) (by simp at hi ⊢; omega), wp_pure]
  have := hat hb (f - t.length - 1) m n (by simp at hf; omega) (by simp at hm; omega) (by simp at hn; omega)
  refine wp_at this (by simp; omega) ?_
  simp [partsEmit, optEmit]

/-! ### The content of special elements -/

theorem occurs_zero {p s : Bytes} : OccursAt p s 0 ↔ ∃ t, s = p ++ t := occursAt_zero.trans startsWith_iff

theorem noRef_tail {c : UInt8} {s : Bytes} {k : Nat} (h : NoRef (c :: s) (k + 1)) : NoRef s k := by simpa [NoRef] using h

theorem nameAt_tail {c : UInt8} {s name : Bytes} {k : Nat} : NameAt name (c :: s) (k + 1) ↔ NameAt name s k := by
  simpa [Nat.add_comm] using (nameAt_drop (name := name) (s := c :: s) (j := 1) (k := k) (by simp)).symm

theorem within_tail {c : UInt8} {t r name : Bytes} (h : Within name (c :: t) r) : Within name t r :=
  fun k hk hn => h (k + 1) (by simp; omega) (nameAt_tail.2 hn)

theorem within_zero {t r name : Bytes} (h : Within (name.map lower) (c!"<" :: c!"/" :: t) r) :
    Ascii.startsWithIgnoreCase (t ++ r) name = false := by
  have := h 0 (by simp)
  rw [← Bool.not_eq_true, beginsLower_iff]
  exact fun hb => this ⟨occurs_zero.2 ⟨_, rfl⟩, by simpa using hb⟩

theorem escapable_plain {c : UInt8} {s name : Bytes} {f l : Nat} (h0 : matchReference (c :: s) = 0)
    (hs : startsWith (c :: s) b!"</" = false) : escapableLoop name (f + 1) l (c :: s) = escapableLoop name f (l + 1) s := by
  conv => lhs; unfold escapableLoop
  split
  · rfl
  · simp only [h0, hs, ne_eq, not_true_eq_false, if_false, Bool.not_false, if_true]

theorem escapable_slash {s name : Bytes} {f l : Nat} (h : Ascii.startsWithIgnoreCase s name = false) :
    escapableLoop name (f + 1) l (c!"<" :: c!"/" :: s) = escapableLoop name f (l + 2) s := by
  have hr : matchReference (c!"<" :: c!"/" :: s) = 0 := ref_zero (s := c!"<" :: c!"/" :: s) (k := 0) (noRef_of_ne (by simp))
  have hs : startsWith (c!"<" :: c!"/" :: s) b!"</" = true := startsWith_iff.2 ⟨s, rfl⟩
  conv => lhs; unfold escapableLoop
  rw [if_neg (by simp)]
  simp only [hr, hs, h, ne_eq, not_true_eq_false, if_false, Bool.not_true, Bool.not_false, Bool.false_eq_true, if_true,
    List.drop_succ_cons, List.drop_zero]

/-- The loop over the text goes over what is neither a reference nor the end of the element. -/
theorem escapable_text {name r : Bytes} (hr : r.head? ≠ some c!"/") (N : Nat) : ∀ (t : Bytes) (f l : Nat), t.length = N →
    (∀ k, k < t.length → NoRef (t ++ r) k) → Within (name.map lower) t r → (t ++ r).length ≤ f →
    ∃ f', r.length ≤ f' ∧ escapableLoop name f l (t ++ r) = escapableLoop name f' (l + t.length) r := by
  induction N using Nat.strongRecOn with
  | ind N ih =>
    intro t f l hN h h' hf
    match t, hN, h, h', hf with
    | [], _, _, _, hf => exact ⟨f, by simpa using hf, rfl⟩
    | c :: t, hN, h, h', hf =>
      have hl : N = t.length + 1 := by simpa using hN.symm
      obtain ⟨f, rfl⟩ : ∃ g, f = g + 1 := ⟨f - 1, by simp at hf; omega⟩
      have next : ∃ f', r.length ≤ f' ∧ escapableLoop name f (l + 1) (t ++ r) = escapableLoop name f' (l + (c :: t).length) r := by
        obtain ⟨f', h1, h2⟩ := ih t.length (by omega) t f (l + 1) rfl (fun k hk => noRef_tail (h (k + 1) (by simp; omega))) (within_tail h')
          (by simp at hf ⊢; omega)
        exact ⟨f', h1, by rw [h2]; simp [Nat.add_assoc, Nat.add_comm 1]⟩
      have h0 : matchReference (c :: (t ++ r)) = 0 := ref_zero (h 0 (by simp))
      rw [List.cons_append]
      cases hs : startsWith (c :: (t ++ r)) b!"</" with
      | true =>
        obtain ⟨u, e⟩ := startsWith_iff.1 hs
        obtain ⟨rfl, e'⟩ := List.cons.inj (show c :: (t ++ r) = c!"<" :: (c!"/" :: u) from e)
        clear e hs next h0
        cases t with
        | nil => rw [List.nil_append] at e'; rw [e'] at hr; simp at hr
        | cons d t =>
          obtain ⟨rfl, rfl⟩ := List.cons.inj (show d :: (t ++ r) = c!"/" :: u from e')
          rw [List.cons_append, escapable_slash (within_zero h')]
          obtain ⟨f', h1, h2⟩ := ih t.length (by simp at hl; omega) t f (l + 2) rfl
            (fun k hk => noRef_tail (noRef_tail (h (k + 2) (by simp; omega)))) (within_tail (within_tail h')) (by simp at hf ⊢; omega)
          exact ⟨f', h1, by rw [h2]; simp [Nat.add_assoc, Nat.add_comm 2]⟩
      | false =>
        rw [escapable_plain h0 hs]
        exact next

theorem escapable_end {name r : Bytes} {f l : Nat} (h : Closes (name.map lower) r 0) (hf : r.length ≤ f) : escapableLoop name f l r = (l, 0) := by
  obtain ⟨⟨h1, h2⟩, c, h3, h4⟩ := h
  obtain ⟨t, rfl⟩ := occurs_zero.1 h1
  obtain ⟨f, rfl⟩ : ∃ g, f = g + 1 := ⟨f - 1, by simp at hf; omega⟩
  have h2 : Ascii.startsWithIgnoreCase t name = true := (beginsLower_iff t name).2 (by simpa using h2)
  have hr : matchReference (c!"<" :: c!"/" :: t) = 0 := ref_zero (s := c!"<" :: c!"/" :: t) (k := 0) (noRef_of_ne (by simp))
  have hs : startsWith (c!"<" :: c!"/" :: t) b!"</" = true := startsWith_iff.2 ⟨t, rfl⟩
  show escapableLoop name (f + 1) l (c!"<" :: c!"/" :: t) = _
  unfold escapableLoop
  rw [if_neg (by simp)]
  simp only [hr, hs, h2, ne_eq, not_true_eq_false, if_false, List.drop_succ_cons, List.drop_zero, Bool.not_true, Bool.false_eq_true]
  have hd : t[name.length]? = some c := by
    rw [show 0 + 2 + (name.map lower).length = name.length + 2 by simp; omega] at h3
    simpa using h3
  rw [List.drop_eq_getElem_cons (List.getElem?_eq_some_iff.1 hd).1]
  simp only [(List.getElem?_eq_some_iff.1 hd).2, (isRawEnd_iff c).2 h4, if_true]

theorem ended_slash {name r : Bytes} (h : Ended name r) : r.head? ≠ some c!"/" := by
  rcases h with rfl | ⟨⟨h, _⟩, _⟩
  · simp
  · obtain ⟨t, rfl⟩ := occurs_zero.1 h
    simp

theorem escapable_ended {name r : Bytes} {f l : Nat} (h : Ended (name.map lower) r) (hf : r.length ≤ f) : escapableLoop name f l r = (l, 0) := by
  rcases h with rfl | h
  · cases f <;> rfl
  · exact escapable_end h hf

theorem rawText_goes {t lo : Bytes} (h : t ≠ []) (h' : ∀ k, k < t.length → NoRef (t ++ b) k) (h'' : Within lo t b) (hb : Ended lo b) :
    Goes' css js env T (.escapable lo) t [] b (.escapable lo) := by
  refine goes_none fun i out hi hat name hname m n hm hn => ?_
  subst hname
  have hl := List.length_pos_iff.2 h
  have hm' : matchEscapable (t ++ b) name = (t.length, 0) := by
    unfold matchEscapable
    obtain ⟨f, h1, h2⟩ := escapable_text (ended_slash hb) _ t (t ++ b).length 0 rfl h' h'' (Nat.le_refl _)
    rw [h2, escapable_ended hb h1, Nat.zero_add]
  refine wp_loop_more (by omega) ?_
  unfold escapableStep
  rw [wp_bind, wp_rem]
  simp only [hm']
  rw [if_pos (by simp [h]), wp_bind, wp_skip rfl, wp_bind]
  unfold HM.emitAdvIf
  rw [if_neg (by simp), wp_pure, wp_pure]
  exact hat name rfl (m - 1) n (by simp at hm; omega) (by simp at hn; omega)

theorem rawReference_goes {t w lo : Bytes} (h' : ∀ k, k < t.length → NoRef (t ++ (b!"&" ++ w ++ b!";" ++ b)) k)
    (h'' : Within lo t (b!"&" ++ w ++ b!";" ++ b)) (hw : RefContent w) :
    Goes' css js env T (.escapable lo) (t ++ (b!"&" ++ w ++ b!";")) [⟨t.length, w.length + 2, .string_escape⟩] b (.escapable lo) := by
  refine ⟨[⟨t.length, w.length + 2, .string_escape, .normal⟩], rfl, fun i out hi hat name hname m n hm hn => ?_⟩
  subst hname
  rw [List.append_assoc] at hi hm hn ⊢
  have hm' : matchEscapable (t ++ (b!"&" ++ w ++ b!";" ++ b)) name = (t.length, w.length + 2) := by
    unfold matchEscapable
    obtain ⟨f, h1, h2⟩ := escapable_text (by simp) _ t (t ++ (b!"&" ++ w ++ b!";" ++ b)).length 0 rfl h' h'' (Nat.le_refl _)
    obtain ⟨f, rfl⟩ : ∃ g, f = g + 1 := ⟨f - 1, by simp at h1; omega⟩
    have := ref_eq hw b
    rw [h2, Nat.zero_add]
    show escapableLoop name (f + 1) t.length (c!"&" :: (w ++ b!";" ++ b)) = _
    unfold escapableLoop
    rw [if_neg (by simp)]
    simp only [show matchReference (c!"&" :: (w ++ b!";" ++ b)) = w.length + 2 from this]
    rw [if_pos (by simp)]
  refine wp_loop_more (by omega) ?_
  unfold escapableStep
  rw [wp_bind, wp_rem]
  simp only [hm']
  rw [if_pos (by simp), wp_bind, wp_skip rfl, wp_bind, wp_emitNonempty (by simp) (by simp at hi ⊢; omega), wp_pure]
  have := hat name rfl (m - 1) n (by simp at hm; omega) (by simp at hn; omega)
  refine wp_at this (by simp; omega) (by simp [Emit.moved, optEmit]; omega)

theorem rawEnd_goes {a lo : Bytes} {ts : List Token} {y : Place} (h : Goes' css js env T .content a ts b y) (h' : Closes lo (a ++ b) 0) :
    Goes' css js env T (.escapable lo) a ts b y := by
  refine h.of fun i out hi hat name hname m n hm hn => ?_
  subst hname
  refine wp_loop_more (by omega) ?_
  unfold escapableStep
  rw [wp_bind, wp_rem]
  have : matchEscapable (a ++ b) name = (0, 0) := escapable_end h' (Nat.le_refl _)
  simp only [this]
  rw [if_neg (by simp), wp_pure]
  exact ⟨rfl, hat.1 n hn⟩

/-- The loop over raw text goes up to the end of the element. -/
theorem raw_text {lo r : Bytes} (hlo : lo.map lower = lo) (hr : Ended lo r) (N : Nat) : ∀ (t : Bytes) (f l : Nat), t.length = N →
    Within lo t r → (t ++ r).length < f → rawTextLoop lo f l (t ++ r) = .ok (l + t.length) := by
  induction N using Nat.strongRecOn with
  | ind N ih =>
    intro t f l hN h hf
    obtain ⟨f, rfl⟩ : ∃ g, f = g + 1 := ⟨f - 1, by omega⟩
    conv => lhs; unfold rawTextLoop
    split
    · rename_i he
      simp at he
      simp [he.1]
    have hs := findSub_spec b!"</" (t ++ r)
    cases hf' : findSub b!"</" (t ++ r) with
    | none =>
      rw [hf'] at hs
      rcases hr with rfl | ⟨⟨hr, _⟩, _⟩
      · simp
      · obtain ⟨u, rfl⟩ := occurs_zero.1 hr
        exact absurd ⟨t, u, by simp⟩ (hs t.length)
    | some k =>
      rw [hf'] at hs
      obtain ⟨⟨x, y, e, rfl⟩, hs⟩ := hs
      have hk : x.length ≤ t.length := by
        apply Classical.byContradiction
        intro hk
        rcases hr with rfl | ⟨⟨hr, _⟩, _⟩
        · have := congrArg List.length e
          simp at this
          omega
        · obtain ⟨u, rfl⟩ := occurs_zero.1 hr
          exact hs t.length (by omega) ⟨t, u, by simp, rfl⟩
      have hd : (t ++ r).drop (x.length + 2) = y := by
        rw [e]
        exact List.drop_left' (by simp)
      have e' : t ++ r = x ++ (b!"</" ++ y) := by rw [e]; simp
      simp only [hd]
      by_cases hk' : x.length = t.length
      · obtain ⟨rfl, rfl⟩ := List.append_inj e' hk'.symm
        obtain ⟨⟨_, h2⟩, c, h3, h4⟩ : Closes lo (b!"</" ++ y) 0 := by
          rcases hr with hr | hr
          · simp at hr
          · exact hr
        have h2 : Ascii.startsWithIgnoreCase y lo = true := (beginsLower_iff y lo).2 (by rw [hlo]; simpa using h2)
        simp only [h2, Bool.not_true, Bool.false_eq_true, if_false]
        have hd : y[lo.length]? = some c := by
          rw [show 0 + 2 + lo.length = lo.length + 2 by omega] at h3
          simpa using h3
        rw [List.drop_eq_getElem_cons (List.getElem?_eq_some_iff.1 hd).1]
        cases List.drop (lo.length + 1) y <;> simp only [(List.getElem?_eq_some_iff.1 hd).2, (isRawEnd_iff c).2 h4, if_true]
      · obtain ⟨u, v, rfl, hu, -⟩ := split_at (show x.length ≤ t.length by omega)
        rw [List.append_assoc] at e'
        obtain ⟨rfl, e''⟩ := List.append_inj e' hu
        match v, e'' with
        | [], _ => simp at hk'
        | [c], e'' =>
          obtain ⟨_, rfl⟩ := List.cons.inj (show c :: r = c!"<" :: (c!"/" :: y) from e'')
          exact absurd rfl (ended_slash hr)
        | c :: d :: v, e'' =>
          obtain ⟨rfl, e1⟩ := List.cons.inj (show c :: d :: (v ++ r) = c!"<" :: (c!"/" :: y) from e'')
          obtain ⟨rfl, rfl⟩ := List.cons.inj e1
          have hw : Ascii.startsWithIgnoreCase (v ++ r) lo = false := by
            rw [← Bool.not_eq_true, beginsLower_iff, hlo]
            intro hb
            refine h u.length (by simp) ⟨⟨u, v ++ r, by simp, rfl⟩, ?_⟩
            rw [show (u ++ c!"<" :: c!"/" :: v ++ r).drop (u.length + 2) = v ++ r by
              rw [show u ++ c!"<" :: c!"/" :: v ++ r = (u ++ b!"</") ++ (v ++ r) by simp]
              exact List.drop_left' (by simp)]
            exact hb
          simp only [hw, Bool.not_false, if_true]
          rw [ih v.length (by simp at hN; omega) v f _ rfl ?_ (by simp at hf ⊢; omega)]
          · simp [Nat.add_assoc, Nat.add_comm 2]
          · intro k hk hn
            refine h (u.length + 2 + k) (by simp; omega) ?_
            rw [← nameAt_drop (by simp)]
            rw [show (u ++ c!"<" :: c!"/" :: v ++ r).drop (u.length + 2) = v ++ r by
              rw [show u ++ c!"<" :: c!"/" :: v ++ r = (u ++ b!"</") ++ (v ++ r) by simp]
              exact List.drop_left' (by simp)]
            exact hn

/-- The tokens of nested code, by another highlighter with a buffer for 1024 tokens. -/
def Nested (css js : Highlight) (opts : Opts) (name t : Bytes) (ts : List Token) : Prop :=
  ∀ debug, ∃ es bs, (if name = b!"script" then js else css) debug opts t = .ok (true, es) ∧
    deliver opts.coalescing 1024 es = .ok bs ∧ bs.flatten = ts

theorem code_lower {lo : Bytes} (h : lo ∈ [b!"script", b!"style"]) : lo.map lower = lo := by
  have : ∀ lo ∈ [b!"script", b!"style"], lo.map lower = lo := by decide
  exact this lo h

theorem code_goes {t lo : Bytes} {ts : List Token} (h : t ≠ []) (h' : Within lo t b) (hb : Ended lo b) (hn : Nested css js env.opts lo t ts) :
    Goes' css js env T (.code lo) t ts b .content := by
  obtain ⟨es, bs, h1, h2, rfl⟩ := hn env.debug
  have hl := List.length_pos_iff.2 h
  refine ⟨bs.flatten.map fun t => ⟨t.beg, t.len, t.ty, .raw⟩, ?_, fun i out hi hat hlo n hn => ?_⟩
  · rw [List.map_map]
    exact (List.map_id _).symm
  rw [wp_bind, wp_lift]
  refine ⟨t.length, ?_, ?_⟩
  · simpa [matchRawText] using raw_text (code_lower hlo) hb _ t ((t ++ b).length + 1) 0 rfl h' (by omega)
  rw [wp_bind]
  have : consumeNested (if lo = b!"script" then js else css) t.length env ⟨t ++ b, i, out, ()⟩ =
      .ok ((), ⟨b, i + t.length, out ++ (bs.flatten.map fun t => (⟨t.beg, t.len, t.ty, .raw⟩ : Emit)).map (Emit.moved i), ()⟩) := by
    unfold consumeNested
    rw [if_neg (by omega)]
    simp only [List.take_left' (show t.length = t.length from rfl), h1, h2]
    simp [HM.advance, Emit.moved, Function.comp_def, Nat.add_comm]
  refine (wp_of_ok this).2 ?_
  rw [wp_pure]
  exact ⟨rfl, hat.1 n (by simp at hn; omega)⟩

theorem codeEnd_goes {a lo : Bytes} {ts : List Token} {y : Place} (h : Goes' css js env T .content a ts b y) (h' : Closes lo (a ++ b) 0) :
    Goes' css js env T (.code lo) a ts b y := by
  refine h.of fun i out hi hat hlo n hn => ?_
  rw [wp_bind, wp_lift]
  refine ⟨0, ?_, ?_⟩
  · simpa [matchRawText] using raw_text (code_lower hlo) (Or.inr h') _ [] ((a ++ b).length + 1) 0 rfl (by simp [Within]) (by simp)
  rw [wp_bind]
  refine (wp_of_ok (consumeNothing _ _)).2 ?_
  rw [wp_pure]
  exact ⟨rfl, hat.1 n hn⟩

/-! ### Whole documents -/

theorem element_goes {x y : Place} {a : Bytes} {ts : List Token} (h : Element (Nested css js env.opts) x a ts b y) :
    Goes' css js env T x a ts b y := by
  induction h with
  | bom =>
    refine goes_none fun i out hi hat => ?_
    show wp _ _ _ _
    rw [wp_bind]
    unfold expectBom
    rw [wp_bind, wp_rem, if_pos (by simp [startsWith]), wp_bind, wp_skip (by rfl), wp_pure, wp_bind, wp_rem]
    exact hat.1 _ (by simp)
  | begin h h' ih =>
    refine ih.of fun i out hi hat => ?_
    show wp _ _ _ _
    rw [wp_bind]
    unfold expectBom
    rw [wp_bind, wp_rem, if_neg (fun h => h' (by obtain ⟨t, e⟩ := startsWith_iff.1 h; exact ⟨t, e.symm⟩)), wp_pure, wp_bind, wp_rem]
    exact hat.1 _ (by simp)
  | comment h h' h'' => exact comment_goes h h' h''
  | openComment h h' h'' => exact openComment_goes h h' h''
  | doctype h h' => exact doctype_goes h h'
  | openDoctype h h' => exact openDoctype_goes h h'
  | cdata h => exact cdata_goes h
  | openCdata h => exact openCdata_goes h
  | endTag h h' => exact endTag_goes h h'
  | endTagMore h h' hs hu hb => exact endTagMore_goes h h' hs hu hb
  | less comment doctype cdata end_ tag => exact less_goes comment doctype cdata end_ tag
  | startTag h h' => exact startTag_goes h h'
  | text h h' h'' hb => exact text_goes h h' h'' hb
  | reference h => exact reference_goes h
  | space h h' => exact space_goes h h'
  | close => exact close_goes
  | closeEmpty => exact closeEmpty_goes
  | «attribute» h h' hs hb => exact attribute_goes h h' hs hb
  | value h h' hs hs' hb => exact value_goes h h' hs hs' hb
  | endOfTag h h' hs hc ih => exact endOfTag_goes ih h' hs hc
  | quotedEnd h h' => exact quotedEnd_goes h h'
  | quotedReference h h' hw hb => exact quotedReference_goes h h' hw hb
  | quotedOpen h h' => exact quotedOpen_goes h h'
  | unquotedEnd h h0 h' h'' hb => exact unquotedEnd_goes h h0 h' h'' hb
  | unquotedReference h h' h'' hw hb => exact unquotedReference_goes h h' h'' hw hb
  | rawText h h' h'' hb => exact rawText_goes h h' h'' hb
  | rawReference h' h'' hw => exact rawReference_goes h' h'' hw
  | rawEnd h h' ih => exact rawEnd_goes ih h'
  | code h h' hb hn => exact code_goes h h' hb hn
  | codeEnd h h' ih => exact codeEnd_goes ih h'

theorem at_end (x : Place) (h : out.map Emit.token = T) : At css js env T x [] i out := by
  have main : ∀ n, 0 < n → wp (HM.whileNotEof n (step css js)) (Done T) env ⟨[], i, out, ()⟩ := fun n hn => done_main hn h
  cases x with
  | start =>
    show wp _ _ _ _
    rw [wp_bind]
    unfold expectBom
    rw [wp_bind, wp_rem, if_neg (by simp [startsWith]), wp_pure, wp_bind, wp_rem]
    exact main _ (by simp)
  | content =>
    refine ⟨fun n hn => main n (by omega), fun m n hm hn => wp_loop_more (by omega) ?_⟩
    unfold textStep
    rw [wp_bind, wp_rem, if_pos (by rfl), wp_pure]
    exact ⟨rfl, main n (by omega)⟩
  | tag name =>
    refine fun m n hm hn => wp_loop_more (by omega) ?_
    unfold attributesStep
    rw [wp_bind, wp_rem, if_pos (by rfl), wp_pure]
    simp only [if_true]
    rw [wp_content_nil]
    exact ⟨rfl, main n (by omega)⟩
  | quoted d name => exact fun h => absurd rfl h
  | unquoted first name => exact fun h => absurd rfl h
  | escapable name =>
    refine fun name _ m n hm hn => wp_loop_more (by omega) ?_
    unfold escapableStep
    rw [wp_bind, wp_rem]
    rw [if_neg (by simp [matchEscapable, escapableLoop]), wp_pure]
    exact ⟨rfl, main n (by omega)⟩
  | code name =>
    refine fun _ n hn => ?_
    rw [wp_bind, wp_lift]
    refine ⟨0, matchRawText_nil _, ?_⟩
    rw [wp_bind]
    refine (wp_of_ok (consumeNothing _ _)).2 ?_
    rw [wp_pure]
    exact ⟨rfl, main n (by omega)⟩

/-- HTML documents get exactly the tokens of their lexical elements, whatever the highlighters for CSS and JavaScript are. -/
theorem C58_html (css js : Highlight) : ExactIn (highlight css js) (fun opts => Element (Nested css js opts)) .start := by
  intro opts src ts hp debug
  have := at_program (At := At css js ⟨debug, opts, src⟩ ts) (L := src.length) (T := ts) (fun _ _ _ _ _ h => element_goes h)
    (fun x i out _ h => at_end x h) hp 0 [] (by simp) (by simp [shift])
  have : wp (run css js) (fun r s => r = true ∧ s.out.map Emit.token = ts) ⟨debug, opts, src⟩ ⟨src, 0, [], ()⟩ := by
    unfold run
    change wp _ _ _ _ at this
    rw [wp_bind] at this ⊢
    refine wp_mono this ?_
    intro r s h
    rw [wp_bind, wp_rem] at h ⊢
    rw [wp_bind]
    refine wp_mono h ?_
    intro _ s h
    rw [wp_pure]
    exact ⟨rfl, h⟩
  obtain ⟨r, s, h1, rfl, h2⟩ := this
  exact ⟨s.out, by simp [highlight, HM.runAll, h1], h2⟩

theorem tag_of_match {s : Bytes} {n : Nat} (h : matchTagName s = .ok n) : LongestChars TagChar s n := by
  obtain ⟨m, h1, _, h2⟩ := matchTagName_spec s
  rw [h] at h1
  cases h1
  exact h2

theorem attr_of_match {s : Bytes} {n : Nat} (h : matchAttrName s = .ok n) : LongestChars AttrChar s n := by
  obtain ⟨m, h1, _, h2⟩ := matchAttrName_spec s
  rw [h] at h1
  cases h1
  exact h2

theorem noRef_of_match {s : Bytes} {n : Nat} (h : ∀ k, k < n → matchReference (s.drop k) = 0) (k : Nat) (hk : k < n) : NoRef s k :=
  (noRef_iff s k).2 (h k hk)

/-- The document `<p a="b&lt;c">d<!--e--></p>`. -/
example (css js : Highlight) : ∃ es, highlight css js true {} b!"<p a=\"b&lt;c\">d<!--e--></p>" = .ok (true, es) ∧ es.map Emit.token =
    [⟨0, 1, .symbol_punc⟩, ⟨1, 1, .markup_tag⟩, ⟨3, 1, .markup_attr⟩, ⟨4, 1, .symbol_punc⟩, ⟨5, 2, .string⟩, ⟨7, 4, .string_escape⟩,
     ⟨11, 2, .string⟩, ⟨13, 1, .symbol_punc⟩, ⟨15, 4, .comment_delim⟩, ⟨19, 1, .comment⟩, ⟨20, 3, .comment_delim⟩,
     ⟨23, 2, .symbol_punc⟩, ⟨25, 1, .markup_tag⟩, ⟨26, 1, .symbol_punc⟩] := by
  have hp : ProgramIn (Element (Nested css js {})) .content [] [] := .nil
  have hp := hp.before b!"</p>" (.endTag (w := b!"p") (by decide) (by simp [Space]))
  have hp := hp.before b!"<!--e-->" (.comment (t := b!"e") ⟨upTo_of_findSub b!"-->" b!"e--></p>", by simp [occursAt_iff, startsWith],
    by simp [occursAt_iff, startsWith]⟩ (by simp) (by simp))
  have hp := hp.before b!"d" (.text (by decide) (noRef_of_match (by decide +kernel)) (by decide) (.inr (.inl rfl)))
  have hp := hp.before b!">" (x := .tag b!"p") .close
  have hp := hp.before b!"c\"" (.quotedEnd (c := c!"c") (t := []) (d := true) (by simp) (by simp))
  have hp := hp.before b!"\"b&lt;" (.quotedReference (c := c!"\"") (t := b!"b") (w := b!"lt") (d := true) (by decide)
    (noRef_of_match (by decide +kernel)) (.inr (.inr ⟨by decide, by simp [Letter]⟩)) (by simp))
  have hp := hp.before b!"a=" (.value (w := b!"a") (s := []) (s' := []) (by decide) (attr_of_match (by decide +kernel))
    (by simp) ⟨by simp, by simp [Space]⟩ (.inl ⟨true, rfl, rfl⟩))
  have hp := hp.before b!" " (.space (by decide) ⟨by simp [Space], by simp [Space]⟩)
  have hp := hp.before b!"<p" (.begin (.startTag (w := b!"p") (by decide) (tag_of_match (by decide +kernel))) (by simp))
  exact (C58_html css js).of_program ⟨_, hp, rfl⟩ _

/-- The document `<style>a{}</style>`. -/
example (js : Highlight) : ∃ es, highlight Css.highlight js true {} b!"<style>a{}</style>" = .ok (true, es) ∧ es.map Emit.token =
    [⟨0, 1, .symbol_punc⟩, ⟨1, 5, .markup_tag⟩, ⟨6, 1, .symbol_punc⟩, ⟨7, 1, .markup_tag⟩, ⟨8, 1, .symbol_brace⟩,
     ⟨9, 1, .symbol_brace⟩, ⟨10, 2, .symbol_punc⟩, ⟨12, 5, .markup_tag⟩, ⟨17, 1, .symbol_punc⟩] := by
  have hp : ProgramIn (Element (Nested Css.highlight js {})) .content [] [] := .nil
  have hp := hp.before b!"</style>" (.endTag (w := b!"style") (by decide) (by simp [Space]))
  have hp := hp.before b!"a{}" (x := .code b!"style") (.code (by decide) (by
    intro k hk
    have : k = 0 ∨ k = 1 ∨ k = 2 := by simp at hk; omega
    rcases this with rfl | rfl | rfl <;> simp [NameAt, occursAt_iff, startsWith])
    (.inr ⟨⟨occurs_zero.2 ⟨_, rfl⟩, by unfold BeginsLower; decide⟩, c!">", rfl, by simp⟩)
    (ts := [⟨0, 1, .markup_tag⟩, ⟨1, 1, .symbol_brace⟩, ⟨2, 1, .symbol_brace⟩])
    (by
      intro debug
      refine ⟨[⟨0, 1, .markup_tag, .forced⟩, ⟨1, 1, .symbol_brace, .normal⟩, ⟨2, 1, .symbol_brace, .normal⟩],
        [[⟨0, 1, .markup_tag⟩, ⟨1, 1, .symbol_brace⟩, ⟨2, 1, .symbol_brace⟩]], ?_, by decide +kernel, by decide⟩
      rw [if_neg (by decide)]
      cases debug <;> decide +kernel))
  have hp := hp.before b!">" (x := .tag b!"style") .close
  have hp := hp.before b!"<style" (.begin (.startTag (w := b!"style") (by decide) (tag_of_match (by decide +kernel))) (by simp))
  exact (C58_html Css.highlight js).of_program ⟨_, hp, rfl⟩ _

end Ulight.Html
