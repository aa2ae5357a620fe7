import Verif.Lang.Ebnf
import Verif.Spec.Lang.Ebnf
import Verif.Hl.Lemmas
import Verif.Hl.Scan

/-!
# C36: highlighting of EBNF
-/

namespace Ulight.Ebnf

open Spec Spec.Ebnf

/-- The place that a state stands for. -/
def St.place : St → Place
  | .leftBeforeName => ⟨true, false⟩
  | .leftInName => ⟨true, true⟩
  | .rightBeforeName => ⟨false, false⟩
  | .rightInName => ⟨false, true⟩

/-- The change of the state is a step of the specification. -/
def Stepped (prev : UInt8) (s s' : HS St) : Prop :=
  ∃ u us, Step s.ext.place prev s.rem u us s'.ext.place ∧ s.rem = u ++ s'.rem ∧ u ≠ [] ∧
    s'.idx = s.idx + u.length ∧
    s'.out.map Emit.token = s.out.map Emit.token ++ shift s.idx us

section

variable {env : HEnv} {s : HS St} {prev : UInt8}

theorem letter_iff (c : UInt8) : isAlpha c = true ↔ Letter c := by
  simp only [isAlpha, isLower, isUpper, Letter, Bool.or_eq_true, Bool.and_eq_true,
    decide_eq_true_eq, UInt8.le_iff_toNat_le]
  grind

theorem digit_iff (c : UInt8) : isDigit c = true ↔ Digit c := by
  simp only [isDigit, Digit, Bool.and_eq_true, decide_eq_true_eq, UInt8.le_iff_toNat_le]
  grind

/-- One token. -/
theorem stepped_emit {u r : Bytes} {ty : HT} {m : Mode} {q : St}
    (hr : s.rem = u ++ r) (hu : u ≠ [])
    (h : Step s.ext.place prev s.rem u [⟨0, u.length, ty⟩] q.place) :
    Stepped prev s ⟨s.rem.drop u.length, s.idx + u.length, s.out ++ [⟨s.idx, u.length, ty, m⟩], q⟩ :=
  ⟨u, _, h, by simp [hr], hu, rfl, by simp [Emit.token, shift]⟩

theorem emitAdv_spec {u r : Bytes} {n : Nat} {ty : HT} {m : Mode}
    (hl : s.idx + s.rem.length = env.src.length) (hr : s.rem = u ++ r) (hn : n = u.length)
    (hu : u ≠ []) (h : Step s.ext.place prev s.rem u [⟨0, u.length, ty⟩] s.ext.place) :
    wp (HM.emitAdv n ty m) (fun _ s' => Stepped prev s s') env s := by
  subst hn
  rw [wp_emitAdv_iff hl (List.length_pos_iff.2 hu) (by rw [hr]; simp)]
  exact stepped_emit hr hu h

theorem setEmit_spec {u r : Bytes} {n : Nat} {ty : HT} {m : Mode} (q : St)
    (hl : s.idx + s.rem.length = env.src.length) (hr : s.rem = u ++ r) (hn : n = u.length)
    (hu : u ≠ []) (h : Step s.ext.place prev s.rem u [⟨0, u.length, ty⟩] q.place) :
    wp (do HM.set q; HM.emitAdv n ty m) (fun _ s' => Stepped prev s s') env s := by
  subst hn
  rw [wp_bind, wp_set_iff, wp_emitAdv_iff (s := s.withExt q) hl (List.length_pos_iff.2 hu)
    (by simp [HS.withExt, hr])]
  exact stepped_emit hr hu h

theorem rightEmit_spec {u r : Bytes} {n : Nat} {ty : HT}
    (hl : s.idx + s.rem.length = env.src.length) (hr : s.rem = u ++ r) (hn : n = u.length)
    (hu : u ≠ []) (h : Symbol u r ty) :
    wp (rightEmit n ty) (fun _ s' => Stepped prev s s') env s :=
  setEmit_spec .rightBeforeName hl hr hn hu (hr ▸ .symbol h)

theorem digit_spec {c : UInt8} {r : Bytes} (hl : s.idx + s.rem.length = env.src.length)
    (hr : s.rem = c :: r) (hc : Digit c) :
    wp digit (fun _ s' => Stepped prev s s') env s := by
  unfold digit
  rw [wp_bind, wp_get]
  have h : Step s.ext.place prev s.rem [c]
      [⟨0, 1, if s.ext.place.inName then s.ext.place.nameType else .number⟩] s.ext.place := by
    rw [hr]; exact .digit hc
  cases he : s.ext <;> simp only <;>
    exact emitAdv_spec (u := [c]) hl hr rfl (by simp) (by simpa [he, St.place, Place.nameType] using h)

theorem letter_spec {c : UInt8} {r : Bytes} (hl : s.idx + s.rem.length = env.src.length)
    (hr : s.rem = c :: r) (hc : Letter c ∨ c = c!"_") :
    wp letter (fun _ s' => Stepped prev s s') env s := by
  unfold letter
  rw [wp_bind, wp_get]
  have h : Step s.ext.place prev s.rem [c]
      [⟨0, 1, s.ext.place.nameType⟩] { s.ext.place with inName := true } := by
    rw [hr]; exact .letter hc
  cases he : s.ext <;> simp only <;> simp [he, St.place, Place.nameType] at h
  · exact setEmit_spec (u := [c]) _ hl hr rfl (by simp) (by simpa [he, St.place] using h)
  · exact emitAdv_spec (u := [c]) hl hr rfl (by simp) (by simpa [he, St.place] using h)
  · exact setEmit_spec (u := [c]) _ hl hr rfl (by simp) (by simpa [he, St.place] using h)
  · exact emitAdv_spec (u := [c]) hl hr rfl (by simp) (by simpa [he, St.place] using h)

theorem relaxed_iff (c : UInt8) : isRelaxedMetaIdentifier c = true ↔
    Letter c ∨ Digit c ∨ c = c!"_" ∨ c = c!"-" := by
  rw [← letter_iff, ← digit_iff]
  simp only [isRelaxedMetaIdentifier, isAlnum, Bool.or_eq_true, decide_eq_true_eq]
  simp
  grind

theorem hyphen_spec {r : Bytes} (hl : s.idx + s.rem.length = env.src.length)
    (hr : s.rem = c!"-" :: r) :
    wp (hyphen prev) (fun _ s' => Stepped prev s s') env s := by
  unfold hyphen
  rw [wp_bind, wp_get]
  have hm : (s.ext.place.inName = false ∨ isRelaxedMetaIdentifier prev = false) →
      wp (rightEmit 1 .symbol_op) (fun _ s' => Stepped prev s s') env s := by
    intro h
    refine setEmit_spec (u := b!"-") .rightBeforeName hl hr rfl (by simp) ?_
    rw [hr]
    refine .minus ?_
    rw [← relaxed_iff]
    simpa using h
  have hh : s.ext.place.inName = true → isRelaxedMetaIdentifier prev = true →
      wp (HM.emitAdv 1 s.ext.place.nameType .forced) (fun _ s' => Stepped prev s s') env s := by
    intro h1 h2
    refine emitAdv_spec (u := b!"-") hl hr rfl (by simp) ?_
    rw [hr]
    exact .hyphen h1 ((relaxed_iff _).1 h2)
  cases he : s.ext <;> simp only [he, St.place, Place.nameType] at hm hh ⊢
  · exact hm (by simp)
  · exact wp_ite (fun h => hh (by simp) h) (fun h => hm (by simpa using h))
  · exact hm (by simp)
  · exact wp_ite (fun h => hh (by simp) h) (fun h => hm (by simpa using h))

/-- What `consume_delimited` does. -/
theorem consumeDelimited_spec {o c t : Bytes} {ty1 ty2 ty3 : HT} (ho : o ≠ []) (hc : c ≠ [])
    (hl : s.idx + s.rem.length = env.src.length) (hr : s.rem = o ++ t)
    (P : HS St → Prop)
    (h1 : ∀ body r s', t = body ++ c ++ r → (∀ k, OccursAt c t k → body.length ≤ k) →
      s'.rem = r → s'.idx = s.idx + (o ++ body ++ c).length → s'.ext = s.ext →
      s'.out.map Emit.token = s.out.map Emit.token ++ shift s.idx ([⟨0, o.length, ty1⟩] ++
        opt o.length body ty2 ++ [⟨o.length + body.length, c.length, ty3⟩]) →
      P s')
    (h2 : ∀ s', (∀ k, ¬ OccursAt c t k) → s'.rem = [] → s'.idx = s.idx + (o ++ t).length →
      s'.ext = s.ext →
      s'.out.map Emit.token = s.out.map Emit.token ++ shift s.idx ([⟨0, o.length, ty1⟩] ++
        opt o.length t ty2) → P s') :
    wp (consumeDelimited o c ty1 ty2 ty3) (fun _ s' => P s') env s := by
  have hlen : s.rem.length = o.length + t.length := by rw [hr]; simp
  have hol := List.length_pos_iff.2 ho
  have hcl := List.length_pos_iff.2 hc
  have hd : s.rem.drop o.length = t := by rw [hr]; simp
  unfold consumeDelimited
  simp only [wp_bind, wp_rem, wp_hassert, hd]
  refine ⟨startsWith_iff.2 ⟨t, hr⟩, ?_⟩
  rw [wp_emitAdv_iff hl hol (by omega)]
  have hl1 : (s.emitted o.length ty1 .normal).idx + (s.emitted o.length ty1 .normal).rem.length =
      env.src.length := by simp only [HS.emitted, List.length_drop]; omega
  have hr1 : (s.emitted o.length ty1 .normal).rem = t := hd
  have hspec := findSub_spec c t
  cases hf : findSub c t with
  | none =>
    rw [hf] at hspec
    simp only [Option.map_none, wp_bind, wp_rem, hr1]
    unfold HM.emitAdvIf
    by_cases ht : t = []
    · subst ht
      simp only [List.length_nil, ne_eq, not_true_eq_false, if_false, wp_pure]
      exact h2 _ hspec hr1 (by simp [HS.emitted]) rfl (by simp [HS.emitted, Emit.token, shift, opt])
    · rw [if_pos (by simpa using ht), wp_emitAdv_iff hl1 (List.length_pos_iff.2 ht) (by rw [hr1]; omega)]
      refine h2 _ hspec ?_ ?_ rfl ?_
      · simp only [HS.emitted, hd]; simp
      · simp [HS.emitted]; omega
      · simp [HS.emitted, Emit.token, shift, opt, ht]
  | some k =>
    rw [hf] at hspec
    obtain ⟨⟨body, r, ht, rfl⟩, hmin⟩ := hspec
    have htl : t.length = body.length + c.length + r.length := by rw [ht]; simp; omega
    have hfirst : ∀ k, OccursAt c t k → body.length ≤ k := by
      intro k hk
      exact Nat.le_of_not_lt fun h => hmin k h hk
    simp only [Option.map_some, wp_bind, Nat.add_sub_cancel]
    have hbr : t.drop body.length = c ++ r := by rw [ht]; simp
    unfold HM.emitAdvIf
    by_cases hb : body = []
    · subst hb
      simp only [List.length_nil, ne_eq, not_true_eq_false, if_false, wp_pure]
      rw [wp_emitAdv_iff hl1 hcl (by rw [hr1]; omega)]
      refine h1 [] r _ ht hfirst ?_ ?_ rfl ?_
      · simp only [HS.emitted, hd, ht]; simp
      · simp [HS.emitted]; omega
      · simp [HS.emitted, Emit.token, shift, opt]
    · rw [if_pos (by simpa using hb),
        wp_emitAdv_iff hl1 (List.length_pos_iff.2 hb) (by rw [hr1]; omega),
        wp_emitAdv_iff (by simp only [HS.emitted, List.length_drop]; omega) hcl
          (by simp only [HS.emitted, List.length_drop]; omega)]
      refine h1 body r _ ht hfirst ?_ ?_ rfl ?_
      · simp only [HS.emitted, hd, hbr]; simp
      · simp [HS.emitted]; omega
      · simp [HS.emitted, Emit.token, shift, opt, hb]; omega

theorem consumeComment_spec {t : Bytes} (hl : s.idx + s.rem.length = env.src.length)
    (hr : s.rem = b!"(*" ++ t) :
    wp consumeComment (fun _ s' => Stepped prev s s') env s := by
  refine consumeDelimited_spec (by simp) (by simp) hl hr _ ?_ ?_
  · intro body r s' ht hf hr' hi he ho
    refine ⟨_, _, ?_, ?_, ?_, hi, ho⟩
    · rw [hr, he, ht, ← List.append_assoc, ← List.append_assoc]
      exact .comment (ht ▸ hf)
    · rw [hr, hr', ht]; simp
    · simp
  · intro s' hn hr' hi he ho
    refine ⟨_, _, ?_, ?_, ?_, hi, ho⟩
    · rw [hr, he]
      exact .openComment hn
    · rw [hr, hr']; simp
    · simp

theorem occursAt_one {c : UInt8} {s : Bytes} {k : Nat} : OccursAt [c] s k ↔ s[k]? = some c := by
  constructor
  · rintro ⟨a, b, rfl, rfl⟩
    simp
  · intro h
    obtain ⟨hk, e⟩ := List.getElem?_eq_some_iff.1 h
    refine ⟨s.take k, s.drop (k + 1), ?_, by simp; omega⟩
    rw [List.append_assoc, List.singleton_append, ← e, ← List.drop_eq_getElem_cons hk,
      List.take_append_drop]

theorem consumeString_spec {c : UInt8} {t : Bytes} (hl : s.idx + s.rem.length = env.src.length)
    (hr : s.rem = c :: t) (hq : c ∈ b!"'\"`") :
    wp (do HM.set .rightBeforeName; consumeString c) (fun _ s' => Stepped prev s s') env s := by
  rw [wp_bind, wp_set_iff]
  refine consumeDelimited_spec (s := s.withExt .rightBeforeName) (o := [c]) (t := t) (by simp) (by simp) hl
    (by simpa [HS.withExt] using hr) _ ?_ ?_
  · intro body r s' ht hf hr' hi he ho
    refine ⟨_, _, ?_, ?_, ?_, hi, ho⟩
    · rw [hr, he, ht]
      have : Step s.ext.place prev (c :: (body ++ c :: r)) (c :: (body ++ [c])) _ right :=
        .string hq (fun hm => ?_)
      · simpa [HS.withExt, St.place, right] using this
      · obtain ⟨k, hk, e⟩ := List.mem_iff_getElem.1 hm
        have := hf k (occursAt_one.2 (by rw [ht]; simp [hk, e, List.getElem?_append]))
        omega
    · rw [hr, hr', ht]; simp
    · simp
  · intro s' hn hr' hi he ho
    refine ⟨_, _, ?_, ?_, ?_, hi, ho⟩
    · rw [hr, he]
      have : Step s.ext.place prev (c :: t) (c :: t) _ right :=
        .openString hq (fun hm => ?_)
      · simpa [HS.withExt, St.place, right] using this
      · obtain ⟨k, hk, e⟩ := List.mem_iff_getElem.1 hm
        exact hn k (occursAt_one.2 (by simp [hk, e]))
    · rw [hr, hr']; simp
    · simp

theorem length_until_cons (c : UInt8) (t : Bytes) :
    (∃ body r, t = body ++ c :: r ∧ c ∉ body ∧
      Ascii.length_until (c :: t) c 1 = body.length + 2) ∨
    (c ∉ t ∧ Ascii.length_until (c :: t) c 1 = t.length + 1) := by
  have h := Ascii.findLoop_spec (· == c) true 1 t
  unfold Ascii.length_until
  simp only [List.drop_succ_cons, List.drop_zero]
  cases hf : Ascii.findLoop (· == c) true 1 t with
  | none =>
    rw [hf] at h
    right
    exact ⟨fun hm => by simpa using h c hm, rfl⟩
  | some k =>
    rw [hf] at h
    left
    obtain ⟨h1, ⟨d, h2, h3⟩, h4⟩ := h
    obtain ⟨hk, e⟩ := List.getElem?_eq_some_iff.1 h2
    have hd : d = c := by simpa using h3
    subst hd
    refine ⟨t.take (k - 1), t.drop (k - 1 + 1), ?_, ?_, ?_⟩
    · rw [← e, ← List.drop_eq_getElem_cons hk, List.take_append_drop]
    · intro hm
      obtain ⟨j, hj, e'⟩ := List.mem_iff_getElem.1 hm
      simp at hj e'
      exact h4 j d (by omega) (by simp [e', List.getElem?_eq_some_iff]; omega) (by simp)
    · simp; omega

theorem consumeSpecial_spec {t : Bytes} (hl : s.idx + s.rem.length = env.src.length)
    (hr : s.rem = c!"?" :: t) :
    wp (do HM.set .rightBeforeName; consumeSpecialSequence) (fun _ s' => Stepped prev s s') env s := by
  rw [wp_bind, wp_set_iff]
  unfold consumeSpecialSequence
  simp only [wp_bind, wp_rem, wp_hassert]
  have hr' : (s.withExt .rightBeforeName).rem = c!"?" :: t := hr
  refine ⟨startsWith_iff.2 ⟨t, hr'⟩, ?_⟩
  rcases length_until_cons c!"?" t with ⟨body, r, rfl, h1, h2⟩ | ⟨h1, h2⟩
  · have e : body.length + 2 = (c!"?" :: (body ++ [c!"?"])).length := by simp
    rw [hr', h2, e, wp_emitAdv_iff (s := s.withExt .rightBeforeName) hl (by simp)
      (by simp [hr'])]
    refine stepped_emit (s := s) (r := r) (by simp [hr]) (by simp) ?_
    rw [hr, ← e]
    exact .special h1
  · have e : t.length + 1 = (c!"?" :: t).length := by simp
    rw [hr', h2, e, wp_emitAdv_iff (s := s.withExt .rightBeforeName) hl (by simp)
      (by simp [hr'])]
    refine stepped_emit (s := s) (r := []) (by simp [hr]) (by simp) ?_
    rw [hr, ← e]
    exact .openSpecial h1

theorem advance_spec {c : UInt8} {r : Bytes} (hr : s.rem = c :: r) (hc : Space c) :
    wp (HM.advance 1) (fun _ s' => Stepped prev s s') env s := by
  rw [wp_advance_iff (by simp [hr])]
  refine ⟨[c], [], ?_, by simp [HS.adv, hr], by simp, rfl, by simp [HS.adv, shift]⟩
  rw [hr]
  exact .space hc

theorem not_startsWith_two {c d : UInt8} {t : Bytes} (h : ¬ startsWith (c :: t) [c, d] = true) :
    t.head? ≠ some d := by
  intro hd
  apply h
  cases t with
  | nil => simp at hd
  | cons e t =>
    simp at hd
    subst hd
    exact startsWith_iff.2 ⟨t, rfl⟩

theorem startsWith_two {c d : UInt8} {t : Bytes} (h : startsWith (c :: t) [c, d] = true) :
    ∃ t', c :: t = [c, d] ++ t' := startsWith_iff.1 h

theorem dispatch_spec {c : UInt8} {t : Bytes} (hl : s.idx + s.rem.length = env.src.length)
    (hr : s.rem = c :: t) :
    wp (dispatch prev c (c :: t)) (fun _ s' => Stepped prev s s') env s := by
  have one : ∀ ty : HT, Symbol [c] t ty → wp (rightEmit 1 ty) (fun _ s' => Stepped prev s s') env s :=
    fun ty h => rightEmit_spec (u := [c]) hl hr rfl (by simp) h
  have two : ∀ (u t' : Bytes) (ty : HT), u.length = 2 → c :: t = u ++ t' → Symbol u t' ty →
      wp (rightEmit 2 ty) (fun _ s' => Stepped prev s s') env s := by
    intro u t' ty hu e h
    exact rightEmit_spec (u := u) hl (by rw [hr, e]) hu.symm (by intro h; simp [h] at hu) h
  unfold dispatch
  apply wp_ite
  · intro h; exact one _ (.op (by simpa using h))
  intro n1
  apply wp_ite
  · rintro rfl
    apply wp_ite
    · intro h
      obtain ⟨t', e⟩ := startsWith_two h
      refine emitAdv_spec (u := b!"*)") hl (by rw [hr, e]) rfl (by simp) ?_
      rw [hr, e]
      exact .strayClose
    · intro h; exact one _ (.starSlashColon (by simp) (not_startsWith_two h))
  intro n2
  apply wp_ite
  · rintro rfl
    apply wp_ite
    · intro h; obtain ⟨t', e⟩ := startsWith_two h; exact two _ t' _ rfl e .parensClose
    · intro h; exact one _ (.starSlashColon (by simp) (not_startsWith_two h))
  intro n3
  apply wp_ite
  · rintro rfl
    apply wp_ite
    · intro h; obtain ⟨t', e⟩ := startsWith_two h; exact two _ t' _ rfl e .braceClose
    · intro h; exact one _ (.starSlashColon (by simp) (not_startsWith_two h))
  intro n4
  apply wp_ite
  · intro h; exact one _ (.square (by simpa using h))
  intro n5
  apply wp_ite
  · intro h; exact one _ (.brace (by simpa using h))
  intro n6
  apply wp_ite
  · intro h; exact consumeString_spec hl hr (by simpa using h)
  intro n7
  apply wp_ite
  · intro h
    refine setEmit_spec (u := [c]) .leftBeforeName hl hr rfl (by simp) ?_
    rw [hr]
    exact .ruleEnd (by simpa using h)
  intro n8
  apply wp_ite
  · rintro rfl; exact one _ .equals
  intro n9
  apply wp_ite
  · intro h; exact advance_spec hr (by simpa [Space] using h)
  intro n10
  apply wp_ite
  · rintro rfl
    apply wp_ite
    · intro h; obtain ⟨t', e⟩ := startsWith_two h; exact consumeComment_spec hl (by rw [hr, e])
    intro m1
    apply wp_ite
    · intro h; obtain ⟨t', e⟩ := startsWith_two h; exact two _ t' _ rfl e .braceOpen
    intro m2
    apply wp_ite
    · intro h; obtain ⟨t', e⟩ := startsWith_two h; exact two _ t' _ rfl e .parensOpen
    intro m3
    refine one _ (.open ?_)
    intro d hd
    have m1 := not_startsWith_two m1
    have m2 := not_startsWith_two m2
    have m3 := not_startsWith_two m3
    simp [hd] at m1 m2 m3 ⊢
    grind
  intro n11
  apply wp_ite
  · rintro rfl; exact one _ .close
  intro n12
  apply wp_ite
  · rintro rfl; exact consumeSpecial_spec hl hr
  intro n13
  apply wp_ite
  · intro h; exact digit_spec hl hr ((digit_iff c).1 h)
  intro n14
  apply wp_ite
  · intro h
    refine letter_spec hl hr ?_
    rw [← letter_iff]
    simpa using h
  intro n15
  apply wp_ite
  · rintro rfl; exact hyphen_spec hl hr
  intro n16
  refine emitAdv_spec (u := [c]) hl hr rfl (by simp) ?_
  rw [hr]
  refine .other ?_ ?_ ?_ ?_
  · simpa [Space] using n10
  · rw [← letter_iff]; intro h; simp [h] at n15
  · rw [← digit_iff]; simpa using n14
  · simp at n15 ⊢
    grind

end

/-- The output so far, followed by the tokens of the remaining text, is right. -/
def Inv (env : HEnv) (prev : UInt8) (s : HS St) : Prop :=
  s.idx + s.rem.length = env.src.length ∧
  ∀ ts, Tokens s.ext.place prev s.idx s.rem ts →
    Tokens start 0 0 env.src (s.out.map Emit.token ++ ts)

/-- C36: the EBNF language never fails, and its tokens are those of the specification. -/
theorem C36_ebnf (debug : Bool) (opts : Opts) (src : Bytes) :
    ∃ es, highlight debug opts src = .ok (true, es) ∧ Tokens start 0 0 src (es.map Emit.token) := by
  have : wp run (fun b s => b = true ∧ Tokens start 0 0 src (s.out.map Emit.token))
      ⟨debug, opts.seen, src⟩ ⟨src, 0, [], .leftBeforeName⟩ := by
    unfold run
    simp only [wp_bind, wp_rem]
    refine wp_loop (Inv ⟨debug, opts.seen, src⟩) (fun _ s => s.rem.length) ?_ _ _ _ ?_ ?_
    · intro prev s h
      unfold step
      rw [wp_bind, wp_rem]
      cases hr : s.rem with
      | nil =>
        simp only [wp_pure, true_and]
        have := h.2 []
        rw [hr] at this
        simpa using this .nil
      | cons c t =>
        simp only [wp_bind, wp_pure]
        refine wp_mono (dispatch_spec h.1 hr) ?_
        rintro _ s' ⟨u, us, hstep, he, hu, hi, ho⟩
        have hul := List.length_pos_iff.2 hu
        have hlen : s.rem.length = u.length + s'.rem.length := by rw [he]; simp
        rw [← hr]
        refine ⟨⟨by have := h.1; omega, fun ts hts => ?_⟩, by omega⟩
        rw [ho, List.append_assoc]
        apply h.2
        obtain ⟨d, u', rfl⟩ := List.exists_cons_of_ne_nil hu
        have hdc : d = c := by rw [hr] at he; simp at he; exact he.1.symm
        subst hdc
        exact .step he rfl hstep (hi ▸ hts)
    · exact ⟨by simp, fun ts h => by simpa [St.place, start] using h⟩
    · simp
  obtain ⟨b, s', h1, rfl, h2⟩ := this
  exact ⟨s'.out, by simp [highlight, HM.run, HM.runAll, h1], h2⟩

/-- Consecutive nonempty tokens from `a` to `b`. -/
inductive Contig : Nat → List Token → Nat → Prop where
  | nil {a} : Contig a [] a
  | cons {a n ty ts b} (h0 : 0 < n) (ht : ty ≠ .none) (h : Contig (a + n) ts b) :
      Contig a (⟨a, n, ty⟩ :: ts) b

theorem contig_opt {a b : Nat} {s : Bytes} {ty : HT} {ts : List Token} (ht : ty ≠ .none)
    (h : Contig (a + s.length) ts b) : Contig a (opt a s ty ++ ts) b := by
  unfold opt
  split
  · subst_vars; simpa using h
  · rename_i hs; exact .cons (List.length_pos_iff.2 hs) ht h

theorem step_contig {q q' : Place} {prev : UInt8} {s u : Bytes} {us : List Token}
    (h : Step q prev s u us q') :
    Contig 0 us u.length ∨ (us = [] ∧ ∃ c, u = [c] ∧ Space c) := by
  have nt : ∀ q : Place, q.nameType ≠ .none := by
    intro q; unfold Place.nameType; split <;> decide
  have nl : ∀ {n : Nat} {ty : HT}, 0 < n → ty ≠ .none → Contig 0 [⟨0, n, ty⟩] n := by
    intro n ty h1 h2
    exact .cons h1 h2 (by rw [Nat.zero_add]; exact .nil)
  cases h with
  | space h => exact Or.inr ⟨rfl, _, rfl, h⟩
  | symbol h =>
    left
    refine nl ?_ ?_
    · cases h <;> simp
    · cases h <;> decide
  | ruleEnd | strayClose | other => left; exact nl (by simp) (by decide)
  | minus => left; exact nl (by simp) (by decide)
  | letter | hyphen => left; exact nl (by simp) (nt _)
  | digit => left; refine nl (by simp) ?_; split; exact nt _; decide
  | special | openSpecial => left; simp; exact nl (by omega) (by decide)
  | @comment body r =>
    left
    refine .cons (by decide) (by decide) ?_
    refine contig_opt (by decide) (.cons (by decide) (by decide) ?_)
    simp
    rw [show 2 + body.length + 2 = body.length + 2 + 1 + 1 by omega]
    exact .nil
  | @openComment body =>
    left
    refine .cons (by decide) (by decide) ?_
    rw [← List.append_nil (opt _ _ _)]
    refine contig_opt (by decide) ?_
    simp
    rw [show 2 + body.length = body.length + 1 + 1 by omega]
    exact .nil
  | @string _ body r =>
    left
    refine .cons (by decide) (by decide) ?_
    refine contig_opt (by decide) (.cons (by decide) (by decide) ?_)
    simp
    rw [show 1 + body.length + 1 = body.length + 1 + 1 by omega]
    exact .nil
  | @openString _ body =>
    left
    refine .cons (by decide) (by decide) ?_
    rw [← List.append_nil (opt _ _ _)]
    refine contig_opt (by decide) ?_
    simp
    rw [show 1 + body.length = body.length + 1 by omega]
    exact .nil

theorem contig_wf {a b n p : Nat} {ts us : List Token} (h : Contig a ts b) (hb : p + b ≤ n)
    (hu : WellFormedFrom n (p + b) us) : WellFormedFrom n (p + a) (shift p ts ++ us) := by
  induction h with
  | nil => simpa [shift] using hu
  | @cons a m ty ts b h0 ht h ih =>
    have hab : a + m ≤ b := by
      clear ih hu hb
      generalize a + m = x at h
      induction h with
      | nil => omega
      | cons => omega
    refine ⟨by simp, h0, by simp only; omega, ht, ?_⟩
    rw [Nat.add_assoc]
    exact ih hb hu

theorem contig_covers {a b : Nat} {ts : List Token} (h : Contig a ts b) (k : Nat) (h1 : a ≤ k)
    (h2 : k < b) : ∃ t ∈ ts, Covers t k := by
  induction h with
  | nil => omega
  | @cons a m ty ts b h0 ht h ih =>
    by_cases hk : k < a + m
    · exact ⟨_, List.mem_cons_self, h1, hk⟩
    · obtain ⟨t, ht, hc⟩ := ih (by omega) h2
      exact ⟨t, by simp [ht], hc⟩

/-- The tokens are well-formed. -/
theorem wellFormed {q : Place} {prev : UInt8} {p : Nat} {s : Bytes} {ts : List Token}
    (h : Tokens q prev p s ts) : WellFormedFrom (p + s.length) p ts := by
  induction h with
  | nil => trivial
  | @step q prev p s u c u' us r q' ts e hu h _ ih =>
    have hl : s.length = u.length + r.length := by rw [e]; simp
    rw [Nat.add_assoc, ← hl] at ih
    rcases step_contig h with h | ⟨rfl, c, rfl, _⟩
    · exact contig_wf h (by omega) ih
    · simp only [shift, List.map_nil, List.nil_append]
      cases ts with
      | nil => trivial
      | cons t ts => exact ⟨by have := ih.1; simp at this; omega, ih.2⟩

/-- C36: every byte except whitespace is covered by a token. -/
theorem C36_ebnf_covers {p : Nat} {q : Place} {prev : UInt8} {s : Bytes} {ts : List Token}
    (h : Tokens q prev p s ts) (k : Nat) (c : UInt8) (hk : s[k]? = some c) (hc : ¬ Space c) :
    ∃ t ∈ ts, Covers t (p + k) := by
  induction h generalizing k with
  | nil => simp at hk
  | @step q prev p s u d u' us r q' ts e hu h _ ih =>
    by_cases hlt : k < u.length
    · rcases step_contig h with h | ⟨rfl, d, rfl, hs⟩
      · obtain ⟨t, ht, h1, h2⟩ := contig_covers h k (by omega) hlt
        exact ⟨⟨p + t.beg, t.len, t.ty⟩, by simp [shift]; exact Or.inl ⟨t, ht, rfl, rfl, rfl⟩,
          by simp only; omega, by simp only; omega⟩
      · simp at hlt
        subst hlt
        simp [e] at hk
        subst hk
        exact absurd hs hc
    · obtain ⟨t, ht, hcov⟩ := ih (k - u.length) (by
        rw [← hk, e, List.getElem?_append_right (by omega)])
      exact ⟨t, by simp [ht], by rwa [show p + u.length + (k - u.length) = p + k by omega] at hcov⟩

/-- Names are declarations on the left-hand side and references on the right-hand side of a rule. -/
example : highlight true {} b!"a-1 = b, 'x' (*;*) ; c" = .ok (true, [
    ⟨0, 1, .name_nonterminal_decl, .normal⟩, ⟨1, 1, .name_nonterminal_decl, .forced⟩,
    ⟨2, 1, .name_nonterminal_decl, .forced⟩, ⟨4, 1, .symbol_punc, .normal⟩,
    ⟨6, 1, .name_nonterminal, .normal⟩, ⟨7, 1, .symbol_op, .normal⟩, ⟨9, 1, .string_delim, .normal⟩,
    ⟨10, 1, .string, .normal⟩, ⟨11, 1, .string_delim, .normal⟩, ⟨13, 2, .comment_delim, .normal⟩,
    ⟨15, 1, .comment, .normal⟩, ⟨16, 2, .comment_delim, .normal⟩, ⟨19, 1, .symbol_punc, .normal⟩,
    ⟨21, 1, .name_nonterminal_decl, .normal⟩]) := by
  decide +kernel

end Ulight.Ebnf
