import Verif.Props.Program.CppMatch

/-!
# C58 for C and C++: numbers
-/

namespace Ulight.Cpp

open Spec Spec.Cpp Utf8

/-! ## The extent -/

/-- The text goes on with a preprocessing number, which ends before `b`. -/
inductive PpText (b : Bytes) : Bytes → Prop where
  | nil (h : PpEnd b) : PpText b []
  | char {c t} (h : Nondigit c) (hs : ExponentLetter c → NotFirst b!"+-" (t ++ b)) (ht : PpText b t) : PpText b (c :: t)
  | separator {d t} (h : Nondigit d) (ht : PpText b t) : PpText b (c!"'" :: d :: t)
  | sign {c d t} (h : ExponentLetter c) (h' : d ∈ b!"+-") (ht : PpText b t) : PpText b (c :: d :: t)
  | point {t} (ht : PpText b t) : PpText b (c!"." :: t)

theorem nondigit_facts (c : UInt8) (h : isAsciiXidContinue c = true) :
    (c ≠ c!"'" ∧ c ≠ c!"." ∧ c ∉ b!"+-") ∧ isIdContinue c.toNat = true ∧ c.toNat < 0x80 := by
  revert h
  revert c
  apply forall_byte
  decide +kernel

theorem ppLoop_end {b : Bytes} (h : PpEnd b) (fuel : Nat) : ppLoop fuel b = 0 := by
  cases fuel with
  | zero => rfl
  | succ fuel =>
    obtain ⟨h1, h2, h3⟩ := h
    match b, h1, h2, h3 with
    | [], _, _, _ => rfl
    | c :: t, h1, h2, h3 =>
      unfold ppLoop
      simp at h1
      by_cases hq : c = c!"'"
      · subst hq
        cases t with
        | nil => simp
        | cons d t =>
          have := h2 rfl d rfl
          rw [← nondigit_iff] at this
          simp [this]
      · have he : c ∉ b!"eEpP" := by
          intro he
          obtain ⟨e1, e2⟩ := exponent_continue he
          exact h3 c.toNat [c] t rfl (firstChar_ascii e1 t) e2
        have hd : isIdContinue (decodeOrReplacement (c :: t)).1 = false := by
          rw [Bool.eq_false_iff, ne_eq, cppContinue_iff]
          obtain ⟨p, rest, e, _, hf⟩ := firstChar_decode (s := c :: t) (by simp)
          exact h3 _ p rest e hf
        simp only [hq, he, h1, if_false]
        simp [hd]

theorem ppLoop_text {b t : Bytes} (h : PpText b t) (fuel : Nat) (hf : t.length ≤ fuel) : ppLoop fuel (t ++ b) = t.length := by
  induction h generalizing fuel with
  | nil h => exact ppLoop_end h _
  | @char c t h hs _ ih =>
    obtain ⟨fuel, rfl⟩ : ∃ k, fuel = k + 1 := ⟨fuel - 1, by simp at hf; omega⟩
    simp at hf
    rw [← nondigit_iff] at h
    obtain ⟨⟨h1, h2, _⟩, h3, h4⟩ := nondigit_facts c h
    have hd : decodeOrReplacement (c :: (t ++ b)) = (c.toNat, 1) := by
      obtain ⟨p, rest, e, e1, hf⟩ := firstChar_decode (s := c :: (t ++ b)) (by simp)
      obtain ⟨e2, rfl, _⟩ := firstChar_unique hf (firstChar_ascii h4 (t ++ b)) (by simpa using e.symm)
      exact Prod.ext e2 e1
    show ppLoop (fuel + 1) (c :: (t ++ b)) = _
    unfold ppLoop
    simp only [h1, h2, if_false]
    by_cases he : c ∈ b!"eEpP"
    · have := hs he
      have hn : ((t ++ b)[0]?.any fun d => d = c!"-" || d = c!"+") = false := by
        generalize t ++ b = r at this
        cases r with
        | nil => rfl
        | cons d r =>
          rw [notFirst_cons] at this
          simp at this
          simp [this]
      simp only [he, if_true, hn]
      rw [if_neg (by simp), ih fuel hf]
      simp; omega
    · simp [he, hd, h3, ih fuel hf]
      omega
  | @separator d t h _ ih =>
    obtain ⟨fuel, rfl⟩ : ∃ k, fuel = k + 1 := ⟨fuel - 1, by simp at hf; omega⟩
    simp at hf
    rw [← nondigit_iff] at h
    show ppLoop (fuel + 1) (c!"'" :: d :: (t ++ b)) = _
    unfold ppLoop
    simp [h, ih fuel (by omega)]
    omega
  | @sign c d t h h' _ ih =>
    obtain ⟨fuel, rfl⟩ : ∃ k, fuel = k + 1 := ⟨fuel - 1, by simp at hf; omega⟩
    simp at hf
    show ppLoop (fuel + 1) (c :: d :: (t ++ b)) = _
    unfold ppLoop
    have hc : c ≠ c!"'" := by rintro rfl; simp [ExponentLetter] at h
    have hd : (d = c!"-" || d = c!"+") = true := by simp at h' ⊢; exact h'.symm
    unfold ExponentLetter at h
    simp only [hc, h, if_true, if_false]
    simp at hd
    simp [hd, ih fuel (by omega)]
    omega
  | @point t _ ih =>
    obtain ⟨fuel, rfl⟩ : ∃ k, fuel = k + 1 := ⟨fuel - 1, by simp at hf; omega⟩
    simp at hf
    show ppLoop (fuel + 1) (c!"." :: (t ++ b)) = _
    unfold ppLoop
    simp [ih fuel hf]
    omega


/-- If the last character of `t` could begin an exponent, then no sign follows. -/
def LastOk (b t : Bytes) : Prop := ∀ c, t.getLast? = some c → ExponentLetter c → NotFirst b!"+-" b

theorem LastOk.of_append {b s t : Bytes} (h : LastOk b (s ++ t)) : LastOk b t := by
  intro c hc
  refine h c ?_
  rw [List.getLast?_append, hc]
  rfl

theorem PpText.first {b t : Bytes} (h : PpText b t) (ht : t ≠ []) : NotFirst b!"+-" (t ++ b) := by
  cases h with
  | nil => exact absurd rfl ht
  | char h =>
    rw [← nondigit_iff] at h
    exact notFirst_cons.2 (nondigit_facts _ h).1.2.2
  | separator => exact notFirst_cons.2 (by decide)
  | sign h => exact notFirst_cons.2 (by rintro hc; simp [ExponentLetter] at h hc; rcases hc with rfl | rfl <;> simp at h)
  | point => exact notFirst_cons.2 (by decide)

theorem PpText.chars {b g t : Bytes} (h : PpText b t) (hg : ∀ c ∈ g, Nondigit c) (hl : LastOk b (g ++ t)) : PpText b (g ++ t) := by
  induction g with
  | nil => exact h
  | cons c g ih =>
    have ih := ih (fun d hd => hg d (by simp [hd])) (LastOk.of_append (s := [c]) hl)
    refine .char (hg c (by simp)) (fun he => ?_) ih
    by_cases hn : g ++ t = []
    · have := hl c (by simp [hn]) he
      show NotFirst _ ((g ++ t) ++ b)
      rw [hn]
      exact this
    · exact ih.first hn

theorem nondigit_of_digit {base : Nat} {c : UInt8} (h : c ∈ digitsOf base) : Nondigit c := by
  rw [← nondigit_iff]
  have : ∀ base ∈ [2, 8, 10, 16], ∀ c ∈ digitsOf base, isAsciiXidContinue c = true := by decide
  by_cases hb : base ∈ [2, 8, 10, 16]
  · exact this _ hb _ h
  · simp at hb
    simp [digitsOf, hb] at h

theorem PpText.group {b t : Bytes} {g : Bytes} {gs : List Bytes} (h : PpText b t) (hg : ∀ c ∈ g, Nondigit c)
    (hgs : ∀ g ∈ gs, g ≠ [] ∧ ∀ c ∈ g, Nondigit c) (hl : LastOk b ((Cpp.groups (g :: gs)).flatMap Prod.fst ++ t)) :
    PpText b ((Cpp.groups (g :: gs)).flatMap Prod.fst ++ t) := by
  induction gs generalizing g with
  | nil => simpa [Cpp.groups] using h.chars hg (by simpa [Cpp.groups] using hl)
  | cons g' gs ih =>
    have e : (Cpp.groups (g :: g' :: gs)).flatMap Prod.fst ++ t =
        g ++ (c!"'" :: ((Cpp.groups (g' :: gs)).flatMap Prod.fst ++ t)) := by
      simp [Cpp.groups]
    rw [e] at hl ⊢
    refine PpText.chars ?_ hg hl
    have hl : LastOk b ((Cpp.groups (g' :: gs)).flatMap Prod.fst ++ t) :=
      LastOk.of_append (s := [c!"'"]) (LastOk.of_append hl)
    obtain ⟨h1, h2⟩ := hgs g' (by simp)
    obtain ⟨d, r, rfl⟩ : ∃ d r, g' = d :: r := List.exists_cons_of_ne_nil h1
    have e : (Cpp.groups ((d :: r) :: gs)).flatMap Prod.fst ++ t = d :: ((Cpp.groups (r :: gs)).flatMap Prod.fst ++ t) := by
      cases gs <;> simp [Cpp.groups]
    rw [e] at hl ⊢
    exact .separator (h2 d (by simp)) (ih (fun c hc => h2 c (by simp [hc])) (fun x hx => hgs x (by simp [hx]))
      (LastOk.of_append (s := [d]) hl))

theorem PpText.groups {b t : Bytes} {base : Nat} {gs : List Bytes} (h : PpText b t) (hg : ∀ g ∈ gs, Digits base g)
    (hl : LastOk b ((Cpp.groups gs).flatMap Prod.fst ++ t)) : PpText b ((Cpp.groups gs).flatMap Prod.fst ++ t) := by
  have hg' : ∀ g ∈ gs, ∀ c ∈ g, Nondigit c := fun g hm c hc => nondigit_of_digit ((hg g hm).2 c hc)
  cases gs with
  | nil => exact h
  | cons g gs => exact h.group (hg' g (by simp)) (fun x hx => ⟨(hg x (by simp [hx])).1, hg' x (by simp [hx])⟩) hl

/-- The part of a number after its prefix. -/
def tail (n : Number) : Bytes :=
  (Cpp.groups n.int).flatMap Prod.fst ++ (n.point ++ ((Cpp.groups n.frac).flatMap Prod.fst ++ (n.exp ++ (n.digits ++ n.suf))))

theorem text_eq (n : Number) : n.text = n.pre ++ tail n := by
  simp [Number.text, Number.parts, tail]

theorem suffix_ppText {n : Number} {b : Bytes} (h : n.Valid b) (hl : LastOk b (n.exp ++ (n.digits ++ n.suf))) :
    PpText b (n.exp ++ (n.digits ++ n.suf)) := by
  have h1 : PpText b n.suf := by
    have := PpText.chars (g := n.suf) (t := []) (.nil h.end_) h.suf.1 (by simpa using LastOk.of_append (LastOk.of_append hl))
    simpa using this
  rcases h.exp with ⟨e1, e2⟩ | ⟨_, he, sign, ds, e, hs, hd⟩
  · rw [e1, e2]
    exact h1
  · rw [e, List.append_assoc] at hl ⊢
    have h2 : PpText b (ds ++ n.suf) :=
      h1.chars (fun c hc => nondigit_of_digit (hd.2 c hc)) (LastOk.of_append (LastOk.of_append hl))
    obtain ⟨c, hc, hc'⟩ : ∃ c, n.exp = [c] ∧ ExponentLetter c := by
      split at he <;> simp at he <;> rcases he with he | he <;> exact ⟨_, he, by simp [ExponentLetter]⟩
    rw [hc]
    have hnd : Nondigit c := by
      unfold ExponentLetter at hc'
      simp at hc'
      rcases hc' with rfl | rfl | rfl | rfl <;> simp [Nondigit, Letter]
    simp at hs
    rcases hs with rfl | rfl | rfl
    · refine .char hnd (fun _ => ?_) h2
      exact h2.first (by simp [hd.1])
    · exact .sign hc' (by decide) h2
    · exact .sign hc' (by decide) h2

theorem tail_ppText {n : Number} {b : Bytes} (h : n.Valid b) : PpText b (tail n) := by
  have hl : LastOk b (tail n) := LastOk.of_append (s := n.pre) (text_eq n ▸ h.last)
  unfold tail at *
  have h1 := suffix_ppText h (LastOk.of_append (LastOk.of_append (LastOk.of_append hl)))
  have h2 := h1.groups h.frac (LastOk.of_append (LastOk.of_append hl))
  refine PpText.groups ?_ h.int hl
  rcases h.point with ⟨e, _⟩ | ⟨e, _⟩
  · rw [e]
    exact .point h2
  · rw [e]
    exact h2

theorem ppText_after {b t : Bytes} {c : UInt8} (h : PpText b (c :: t)) (hc : ¬ ExponentLetter c) (h' : Nondigit c) :
    PpText b t := by
  cases h with
  | char _ _ h => exact h
  | separator => simp [Nondigit, Letter, DecDigit] at h'
  | sign h => exact absurd h hc
  | point => simp [Nondigit, Letter, DecDigit] at h'

theorem digit_facts (base : Nat) (h : base = 2 ∨ base = 10) (c : UInt8) (hc : c ∈ digitsOf base) :
    isDigit c = true ∧ c ∉ b!"eEpP" := by
  have : ∀ base ∈ [2, 10], ∀ c ∈ digitsOf base, isDigit c = true ∧ c ∉ b!"eEpP" := by decide
  exact this base (by simpa using h) c hc

theorem nondigit_of_isDigit (c : UInt8) (h : isDigit c = true) : isAsciiXidContinue c = true ∧ c ≠ c!"." ∧ c ∉ b!"eEpP" := by
  revert h
  revert c
  apply forall_byte
  decide +kernel

theorem matchPpNumber_at {n : Number} {b : Bytes} (h : n.Valid b) :
    matchPpNumber (n.text ++ b) = n.text.length ∧ n.text ≠ [] := by
  have hT := tail_ppText h
  have key : ∀ c t, n.text = c :: t → isDigit c = true → PpText b t → matchPpNumber (n.text ++ b) = n.text.length := by
    intro c t e hc ht
    rw [e]
    obtain ⟨_, hp, _⟩ := nondigit_of_isDigit c hc
    unfold matchPpNumber
    have : startsWith (c :: t ++ b) b!"." = false := startsWith_one_false (by simp [hp])
    rw [this]
    simp [hc]
    rw [ppLoop_text ht _ (by omega)]
    omega
  rw [text_eq]
  by_cases hp : n.pre = []
  · have hbase : n.base = 10 := by simp [Number.base, Number.Hex, Number.Binary, hp]
    have e : n.text = tail n := by rw [text_eq, hp]; rfl
    have hdig : ∀ {g : Bytes} {gs : List Bytes}, (∀ x ∈ g :: gs, Digits n.base x) → ∃ c r, isDigit c = true ∧
        ∀ t, (Cpp.groups (g :: gs)).flatMap Prod.fst ++ t = c :: (r ++ t) := by
      intro g gs hg
      obtain ⟨h1, h2⟩ := hg g (by simp)
      obtain ⟨c, g, rfl⟩ := List.exists_cons_of_ne_nil h1
      refine ⟨c, (Cpp.groups (g :: gs)).flatMap Prod.fst, (digit_facts _ (.inr hbase) c (h2 c (by simp))).1, fun t => ?_⟩
      cases gs <;> simp [Cpp.groups]
    by_cases hi : n.int = []
    · obtain ⟨h1, h2⟩ := h.nonempty.resolve_left (fun h => h hi)
      obtain ⟨g, gs, hfr⟩ := List.exists_cons_of_ne_nil h2
      obtain ⟨c, r, hc, hr⟩ := hdig (hfr ▸ h.frac)
      have e' : tail n = c!"." :: c :: (r ++ (n.exp ++ (n.digits ++ n.suf))) := by
        unfold tail
        rw [hi, h1, hfr, hr]
        rfl
      rw [hp, e']
      rw [e'] at hT
      refine ⟨?_, by simp⟩
      have h3 : PpText b (r ++ (n.exp ++ (n.digits ++ n.suf))) := by
        obtain ⟨k1, _, k2⟩ := nondigit_of_isDigit c hc
        cases hT with
        | char h => simp [Nondigit, Letter, DecDigit] at h
        | sign h => simp [ExponentLetter] at h
        | point h => exact ppText_after h k2 ((nondigit_iff c).1 k1)
      unfold matchPpNumber
      simp [startsWith_cons_cons, hc]
      rw [← List.append_assoc n.digits, ← List.append_assoc n.exp, ← List.append_assoc r,
        ppLoop_text h3 _ (by simp; omega)]
      simp
      omega
    · obtain ⟨g, gs, hgs⟩ := List.exists_cons_of_ne_nil hi
      obtain ⟨c, r, hc, hr⟩ := hdig (hgs ▸ h.int)
      obtain ⟨k1, _, k2⟩ := nondigit_of_isDigit c hc
      have e' := hr (n.point ++ ((Cpp.groups n.frac).flatMap Prod.fst ++ (n.exp ++ (n.digits ++ n.suf))))
      rw [← hgs] at e'
      rw [← text_eq, e]
      rw [← e]
      refine ⟨key _ _ (e.trans e') hc (ppText_after (e' ▸ hT) k2 ((nondigit_iff c).1 k1)), ?_⟩
      rw [e.trans e']
      simp
  · have hz : ∃ x, n.pre = [c!"0", x] ∧ Nondigit x ∧ ¬ ExponentLetter x := by
      rcases h.pre.resolve_left hp with (e | e) | (e | e) <;> exact ⟨_, e, by simp [Nondigit, Letter], by simp [ExponentLetter]⟩
    obtain ⟨x, hx, hx', hx''⟩ := hz
    rw [← text_eq]
    have e : n.text = c!"0" :: x :: tail n := by rw [text_eq, hx]; rfl
    exact ⟨key _ _ e rfl (.char hx' (fun hc => absurd hc hx'') hT), by simp [e]⟩

/-! ## The parts -/

/-- After some digits that have not been emitted, the loop highlights the text `r` before `b` with the given parts. -/
def Loops (hex : Bool) (b r : Bytes) (ps : List (Bytes × HT)) : Prop :=
  ∀ (p : Bytes) (i : Nat) (out : List Emit) (x : Bool) (env : HEnv) (Q : Unit → HS Bool → Prop),
    i + (p ++ (r ++ b)).length = env.src.length →
    Q () ⟨b, i + (p.length + r.length), out ++ optEmit i p .number ++ partsEmit (i + p.length) ps, x⟩ →
    wp (numberLoop hex p.length r) Q env ⟨p ++ (r ++ b), i, out, x⟩

/-- The same if there are no such digits. -/
def Loops0 (hex : Bool) (b r : Bytes) (ps : List (Bytes × HT)) : Prop :=
  ∀ (i : Nat) (out : List Emit) (x : Bool) (env : HEnv) (Q : Unit → HS Bool → Prop),
    i + (r ++ b).length = env.src.length → Q () ⟨b, i + r.length, out ++ partsEmit i ps, x⟩ →
    wp (numberLoop hex 0 r) Q env ⟨r ++ b, i, out, x⟩

variable {hex : Bool} {b r : Bytes} {ps : List (Bytes × HT)}

theorem Loops.start (h : Loops hex b r ps) : Loops0 hex b r ps := by
  intro i out x env Q hl hQ
  exact h [] i out x env Q (by simpa using hl) (by simpa [optEmit] using hQ)

/-- The digits of a number. -/
def isPlain (hex : Bool) (c : UInt8) : Bool := c ∈ b!"+-0123456789" || hex && isHexDigit c

theorem plain_facts (c : UInt8) :
    (c ∈ b!"+-0123456789" → c ∉ b!"'eEpP.") ∧ (isHexDigit c = true → c ∉ b!"'pP.") := by
  revert c
  apply forall_byte
  decide +kernel

theorem numberLoop_digits {g : Bytes} (hg : ∀ c ∈ g, isPlain hex c = true) (k : Nat) (r : Bytes) :
    numberLoop hex k (g ++ r) = numberLoop hex (k + g.length) r := by
  induction g generalizing k with
  | nil => rfl
  | cons c g ih =>
    have ih := ih (fun d hd => hg d (by simp [hd])) (k + 1)
    have hc := hg c (by simp)
    obtain ⟨h1, h2⟩ := plain_facts c
    rw [show k + (c :: g).length = k + 1 + g.length by simp; omega, ← ih]
    show numberLoop hex k (c :: (g ++ r)) = _
    simp only [isPlain, Bool.or_eq_true, decide_eq_true_eq, Bool.and_eq_true] at hc
    rw [numberLoop]
    rcases hc with hc | ⟨rfl, hc⟩
    · have := h1 hc
      simp at this
      simp only [this, hc]
      simp
    · have := h2 hc
      simp at this
      by_cases he : c = c!"e" ∨ c = c!"E"
      · simp [this, he]
      · simp at he
        simp [this, he, hc]

theorem Loops.digits {g : Bytes} (h : Loops hex b r ps) (hg : ∀ c ∈ g, isPlain hex c = true) :
    Loops0 hex b (g ++ r) ((g, .number) :: ps) := by
  intro i out x env Q hl hQ
  rw [numberLoop_digits hg, Nat.zero_add]
  have := h g i out x env Q (by simpa using hl) (by simpa [partsEmit] using hQ)
  simpa using this

theorem Loops0.delim (h : Loops0 hex b r ps) {d : UInt8}
    (hd : ∀ k, numberLoop hex k (d :: r) = (do
      HM.emitAdvIf k .number
      HM.emitAdv 1 .number_delim
      numberLoop hex 0 r)) : Loops hex b (d :: r) (([d], .number_delim) :: ps) := by
  intro p i out x env Q hl hQ
  rw [hd, wp_bind, wp_emitAdvIf_iff (by simpa using hl) (by simp), wp_bind,
    wp_emitAdv_iff (by simp at hl ⊢; omega) (by simp) (by simp)]
  have := h (i + p.length + 1) (out ++ optEmit i p .number ++ optEmit (i + p.length) [d] .number_delim) x env Q
    (by simp at hl ⊢; omega) (by simpa [partsEmit, Nat.add_assoc, Nat.add_comm, Nat.add_left_comm] using hQ)
  simpa [HS.emitted, optEmit] using this

theorem Loops.point (h : Loops0 hex b r ps) : Loops hex b (c!"." :: r) ((b!".", .number_delim) :: ps) :=
  h.delim fun k => by rw [numberLoop]; simp

theorem Loops.separator (h : Loops0 hex b r ps) : Loops hex b (c!"'" :: r) ((b!"'", .number_delim) :: ps) :=
  h.delim fun k => by rw [numberLoop]; simp

theorem Loops.group {g : Bytes} {gs : List Bytes} (h : Loops hex b r ps) (hg : ∀ x ∈ g :: gs, ∀ c ∈ x, isPlain hex c = true) :
    Loops0 hex b ((Cpp.groups (g :: gs)).flatMap Prod.fst ++ r) (Cpp.groups (g :: gs) ++ ps) := by
  induction gs generalizing g with
  | nil => simpa [Cpp.groups] using h.digits (hg g (by simp))
  | cons g' gs ih =>
    have := Loops.digits (Loops.separator (ih (g := g') (fun x hx => hg x (by simp at hx ⊢; right; exact hx)))) (hg g (by simp))
    simpa [Cpp.groups] using this

theorem Loops.groups {gs : List Bytes} (h : Loops hex b r ps) (hg : ∀ x ∈ gs, ∀ c ∈ x, isPlain hex c = true) :
    Loops0 hex b ((Cpp.groups gs).flatMap Prod.fst ++ r) (Cpp.groups gs ++ ps) := by
  cases gs with
  | nil => exact h.start
  | cons g gs => exact h.group hg

theorem Loops.nil : Loops hex b [] [] := by
  intro p i out x env Q hl hQ
  rw [numberLoop, wp_emitAdvIf_iff (by simpa using hl) (by simp)]
  simpa [optEmit, partsEmit] using hQ

theorem Loops.suffix {c : UInt8} {s : Bytes} (hd : ∀ k, numberLoop hex k (c :: s) = (do
      HM.emitAdvIf k .number
      HM.emitAdv (s.length + 1) .number_decor)) : Loops hex b (c :: s) [(c :: s, .number_decor)] := by
  intro p i out x env Q hl hQ
  rw [hd, wp_bind, wp_emitAdvIf_iff (by simpa using hl) (by simp),
    wp_emitAdv_iff (by simp at hl ⊢; omega) (by simp) (by simp)]
  simpa [HS.emitted, optEmit, partsEmit, Nat.add_assoc, Nat.add_comm, Nat.add_left_comm] using hQ

theorem Loops.skip {ty : HT} (h : Loops hex b r ps) : Loops hex b r (([], ty) :: ps) := by
  intro p i out x env Q hl hQ
  exact h p i out x env Q hl (by simpa [optEmit, partsEmit] using hQ)

theorem plain_of_digits {n : Number} {g : Bytes} (hh : hex = decide n.Hex) (hg : Digits n.base g) : ∀ c ∈ g, isPlain hex c = true := by
  have key : (∀ c ∈ digitsOf 16, isPlain true c = true) ∧ ∀ hex, (∀ c ∈ digitsOf 10, isPlain hex c = true) ∧
      ∀ c ∈ digitsOf 2, isPlain hex c = true := by decide
  intro c hc
  have := hg.2 c hc
  unfold Number.base at this
  by_cases h : n.Hex
  · simp [h] at hh this
    subst hh
    exact key.1 c this
  · simp [h] at this
    split at this
    · exact (key.2 hex).2 c this
    · exact (key.2 hex).1 c this

theorem suffix_hex (c : UInt8) (h : Nondigit c ∧ ¬ Spec.Hex c ∧ c ∉ b!"pP") :
    c ∉ b!"'.eEpP" ∧ c ∉ b!"+-0123456789" ∧ isHexDigit c = false := by
  unfold Nondigit Letter Spec.Hex DecDigit at *
  revert c
  apply forall_byte
  decide +kernel

theorem suffix_plain (c : UInt8) (h : Nondigit c ∧ ¬ DecDigit c ∧ c ∉ b!"eE") :
    (c ≠ c!"'" ∧ c ≠ c!"." ∧ c ∉ b!"+-0123456789") ∧ c ≠ c!"e" ∧ c ≠ c!"E" := by
  unfold Nondigit Letter DecDigit at *
  revert c
  apply forall_byte
  decide +kernel

theorem suffix_loops {n : Number} {b : Bytes} (h : n.Valid b) : Loops (decide n.Hex) b n.suf [(n.suf, .number_decor)] := by
  obtain ⟨h1, h2⟩ := h.suf
  cases hs : n.suf with
  | nil => exact Loops.skip Loops.nil
  | cons c s =>
    rw [hs] at h1 h2
    have h2 := h2 c rfl
    have h1 := h1 c (by simp)
    refine Loops.suffix fun k => ?_
    rw [numberLoop]
    by_cases hh : n.Hex
    · rw [if_pos hh] at h2
      obtain ⟨e1, e2, e3⟩ := suffix_hex c ⟨h1, h2⟩
      simp at e1
      simp only [e1, e2, e3, if_false]
      simp
    · rw [if_neg hh] at h2
      obtain ⟨⟨e1, e2, e3⟩, e4⟩ := suffix_plain c ⟨h1, h2⟩
      simp only [e1, e2, e3, e4, if_false]
      simp [hh]

theorem exponent_loops {n : Number} {b : Bytes} (h : n.Valid b) :
    Loops (decide n.Hex) b (n.exp ++ (n.digits ++ n.suf))
      [(n.exp, .number_delim), (n.digits, .number), (n.suf, .number_decor)] := by
  have h1 := suffix_loops h
  rcases h.exp with ⟨e1, e2⟩ | ⟨_, he, sign, ds, e, hs, hd⟩
  · rw [e1, e2]
    exact h1.skip.skip
  · have h10 : ∀ hex, (∀ c ∈ digitsOf 10, isPlain hex c = true ∧ startsExponent c = true) ∧
        (∀ sign ∈ [b!"", b!"+", b!"-"], ∀ c ∈ sign, isPlain hex c = true ∧ startsExponent c = true) := by decide
    have hall : ∀ c ∈ n.digits, isPlain (decide n.Hex) c = true ∧ startsExponent c = true := by
      intro c hc
      rw [e, List.mem_append] at hc
      rcases hc with hc | hc
      · exact (h10 _).2 sign hs c hc
      · exact (h10 _).1 c (hd.2 c hc)
    have hne : n.digits ≠ [] := by
      rw [e]
      simp [hd.1]
    obtain ⟨d, r, hr⟩ := List.exists_cons_of_ne_nil hne
    have h2 := h1.digits (fun c hc => (hall c hc).1)
    have hx : ((n.digits ++ n.suf)[0]?.any startsExponent) = true := by
      rw [hr]
      simpa using (hall d (by simp [hr])).2
    generalize n.digits ++ n.suf = T at h2 hx ⊢
    by_cases hh : n.Hex
    · simp [hh] at he
      rcases he with he | he
      all_goals
        rw [he]
        refine Loops0.delim h2 fun k => ?_
        rw [numberLoop]
        simp only [hx]
        simp [hh]
    · simp [hh] at he
      rcases he with he | he
      all_goals
        rw [he]
        refine Loops0.delim h2 fun k => ?_
        rw [numberLoop]
        simp only [hx]
        simp [hh]

theorem tail_loops {n : Number} {b : Bytes} (h : n.Valid b) : Loops0 (decide n.Hex) b (tail n)
    (Cpp.groups n.int ++ ((n.point, .number_delim) :: (Cpp.groups n.frac ++
      [(n.exp, .number_delim), (n.digits, .number), (n.suf, .number_decor)]))) := by
  have h1 := exponent_loops h
  have hg : ∀ gs : List Bytes, (∀ g ∈ gs, Digits n.base g) → ∀ g ∈ gs, ∀ c ∈ g, isPlain (decide n.Hex) c = true :=
    fun gs hgs g hm => plain_of_digits rfl (hgs g hm)
  refine Loops.groups ?_ (hg _ h.int)
  rcases h.point with ⟨e, _⟩ | ⟨e, e'⟩
  · rw [e]
    exact Loops.point (h1.groups (hg _ h.frac))
  · rw [e, e']
    exact h1.skip

theorem prefix_facts {n : Number} {b : Bytes} (h : n.Valid b) :
    (startsWith n.text b!"0x" || startsWith n.text b!"0X") = decide n.Hex ∧
      (startsWith n.text b!"0b" || startsWith n.text b!"0B") = decide n.Binary := by
  by_cases hp : n.pre = []
  · have hN := fun p h' => not_startsWith (h.plain hp p h')
    rw [hN _ (by simp), hN _ (by simp), hN _ (by simp), hN _ (by simp)]
    simp [Number.Hex, Number.Binary, hp]
  · rw [text_eq]
    rcases h.pre.resolve_left hp with (e | e) | (e | e) <;> rw [e] <;>
      simp [Number.Hex, Number.Binary, e, startsWith_cons_cons]

theorem wp_number {n : Number} {b : Bytes} (h : n.Valid b) {i : Nat} {out : List Emit} {x : Bool} {env : HEnv}
    (hl : i + (n.text ++ b).length = env.src.length) :
    wp expectPpNumber (fun r s => r = true ∧ s = ⟨b, i + n.text.length, out ++ partsEmit i n.parts, false⟩) env
      ⟨n.text ++ b, i, out, x⟩ := by
  obtain ⟨h1, h2⟩ := matchPpNumber_at h
  obtain ⟨h3, h4⟩ := prefix_facts h
  have h5 := tail_loops h
  have hps : n.parts = (n.pre, .number_decor) :: (Cpp.groups n.int ++ ((n.point, .number_delim) :: (Cpp.groups n.frac ++
      [(n.exp, .number_delim), (n.digits, .number), (n.suf, .number_decor)]))) := by
    simp [Number.parts]
  have key : ∀ Q, Q () ⟨b, i + n.text.length, out ++ partsEmit i n.parts, x⟩ →
      wp (highlightPpNumber n.text) Q env ⟨n.text ++ b, i, out, x⟩ := by
    intro Q hQ
    unfold highlightPpNumber
    simp only [wp_bind, h3, h4]
    simp [h2]
    by_cases hp : n.pre = []
    · have e : n.text = tail n := by rw [text_eq, hp]; rfl
      have : ¬ n.Hex ∧ ¬ n.Binary := by simp [Number.Hex, Number.Binary, hp]
      simp [this]
      simp [this] at h5
      rw [e] at hl hQ ⊢
      exact h5 i out x env _ hl (by simpa [hps, hp, partsEmit, optEmit] using hQ)
    · have hp' := h.pre.resolve_left hp
      have h6 : n.pre.length = 2 := by rcases hp' with (e | e) | (e | e) <;> simp [e]
      simp [hp']
      rw [wp_emitAdv_iff (by simpa using hl) (by simp) (by simp [text_eq, h6])]
      have e : n.text = n.pre ++ tail n := text_eq n
      have e2 : (n.pre ++ (tail n ++ b)).drop 2 = tail n ++ b := by rw [← h6, List.drop_left]
      have e3 : (n.pre ++ tail n).drop 2 = tail n := by rw [← h6, List.drop_left]
      rw [e] at hl hQ ⊢
      simp only [HS.emitted, List.append_assoc, e2, e3]
      refine h5 _ _ _ _ _ (by simp at hl ⊢; omega) ?_
      rw [hps] at hQ
      simpa [partsEmit, optEmit, h6, Nat.add_assoc] using hQ
  unfold expectPpNumber
  simp only [wp_bind, wp_rem, h1]
  rw [if_neg (by simp [h2])]
  simp only [wp_bind, wp_index, List.take_left]
  refine key _ ?_
  simp
  exact (wp_of_ok rfl).2 rfl

end Ulight.Cpp
