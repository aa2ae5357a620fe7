import Lean.Elab.Tactic
import Verif.Hl.Safe
import Verif.Props.Numbers
import Verif.Props.Escapes

/-!
# Tactics for proofs about highlighters

`hm` walks through a highlighter: it applies the rules for `wp` to the first statement, tries to
discharge the side conditions, and leaves what it cannot prove.

* `hm_len` proves side conditions about lengths,
* `hm_tok` proves that a token or gap obeys the rules of the language, by trying the constructors
  of the rule with `hm_text`,
* calls of a member function `f` use the lemma `f_spec`,
* `hm_done` proves postconditions.

The tactics only look for proofs, which the kernel checks as usual.
-/

namespace Ulight

open Spec

variable {σ α β : Type} {R : Rules} {env : HEnv} {s : HS σ}

/-- The postcondition of a function that may have consumed something, and has if it returns
`true`. -/
def Post (R : Rules) (env : HEnv) (s : HS σ) (b : Bool) (s' : HS σ) : Prop :=
  Moved R env s s' ∧ (b = true → s.idx < s'.idx)

/-- `m` keeps good states good and moves forward by at least one byte. -/
def Eats (R : Rules) (m : HM σ α) : Prop :=
  ∀ env s, Good R env s → wp m (fun _ s' => Moved R env s s' ∧ s.idx < s'.idx) env s

/-- `m` moves forward by at least one byte and returns `true`, or it changes nothing and returns
`false`. -/
def Expects (R : Rules) (m : HM σ Bool) : Prop :=
  ∀ env s, Good R env s → wp m (fun b s' => (b = true ∧ Good R env s' ∧ s.idx < s'.idx) ∨
    (b = false ∧ s' = s)) env s

theorem wp_call_expects {m : HM σ Bool} {Q : Bool → HS σ → Prop} (h : Expects R m) (g : Good R env s)
    (k : ∀ s', Good R env s' → s'.idx + s'.rem.length = env.src.length → s.idx < s'.idx → Q true s')
    (k' : Q false s) : wp m Q env s := by
  refine wp_mono (h env s g) ?_
  rintro a s' (⟨rfl, g', h⟩ | ⟨rfl, rfl⟩)
  · exact k s' g' g'.len h
  · exact k'

/-- As `Expects`, and `F` holds if nothing was found. -/
def ExpectsOr (R : Rules) (m : HM σ Bool) (F : HS σ → Prop) : Prop :=
  ∀ env s, Good R env s → wp m (fun b s' => (b = true ∧ Good R env s' ∧ s.idx < s'.idx) ∨
    (b = false ∧ s' = s ∧ F s)) env s

theorem wp_call_expectsOr {m : HM σ Bool} {F : HS σ → Prop} {Q : Bool → HS σ → Prop}
    (h : ExpectsOr R m F) (g : Good R env s)
    (k : ∀ s', Good R env s' → s'.idx + s'.rem.length = env.src.length → s.idx < s'.idx → Q true s')
    (k' : F s → Q false s) : wp m Q env s := by
  refine wp_mono (h env s g) ?_
  rintro a s' (⟨rfl, g', h⟩ | ⟨rfl, rfl, h⟩)
  · exact k s' g' g'.len h
  · exact k' h

/-- As `ExpectsOr`, in one state. -/
def ExpectsAt (R : Rules) (env : HEnv) (s : HS σ) (m : HM σ Bool) (F : Prop) : Prop :=
  wp m (fun b s' => (b = true ∧ Good R env s' ∧ s.idx < s'.idx) ∨ (b = false ∧ s' = s ∧ F)) env s

theorem wp_call_expectsAt {m : HM σ Bool} {F : Prop} {Q : Bool → HS σ → Prop}
    (h : ExpectsAt R env s m F)
    (k : ∀ s', Good R env s' → s'.idx + s'.rem.length = env.src.length → s.idx < s'.idx → Q true s')
    (k' : F → Q false s) : wp m Q env s := by
  refine wp_mono h ?_
  rintro a s' (⟨rfl, g', h'⟩ | ⟨rfl, rfl, h'⟩)
  · exact k s' g' g'.len h'
  · exact k' h'

theorem startsWith_cons_one (a b : UInt8) (s : Bytes) : startsWith (a :: s) [b] = decide (a = b) := by
  rw [startsWith_cons_cons, startsWith_nil_right]
  by_cases h : a = b
  · simp [h]
  · simp [h, Ne.symm h]

/-- The postcondition can be forgotten for a while. -/
theorem wp_gen_post {m : HM σ α} {Q : α → HS σ → Prop} (h : ∀ Q', Q' = Q → wp m Q' env s) :
    wp m Q env s := h Q rfl

theorem startsWith_facts {t p : Bytes} (h : startsWith t p = true) (n : Nat) (hn : p.length = n) :
    n ≤ t.length ∧ t.take n = p := by
  obtain ⟨u, rfl⟩ := startsWith_iff.1 h
  subst hn
  simp

theorem cons_facts {t u : Bytes} {c : UInt8} (h : t = c :: u) :
    t.length = u.length + 1 ∧ t.take 1 = [c] := by
  subst h
  simp

theorem startsWith_drop_facts {t : Bytes} {n : Nat} {c : UInt8} (h : startsWith (t.drop n) [c] = true) :
    t[n]? = some c := by
  obtain ⟨u, h⟩ := startsWith_iff.1 h
  rw [← List.head?_drop, h]
  rfl

theorem not_startsWith_drop_facts {t : Bytes} {n : Nat} {c : UInt8}
    (h : startsWith (t.drop n) [c] = false) : t[n]? ≠ some c := by
  intro h'
  rw [← List.head?_drop] at h'
  cases hd : t.drop n with
  | nil => simp [hd] at h'
  | cons a u =>
    simp [hd] at h'
    subst h'
    simp [hd, startsWith] at h

/-- A computation that succeeds. -/
theorem wp_lift_intro {x : Except Fault α} {P : α → Prop} {Q : α → HS σ → Prop}
    (h : ∃ a, x = .ok a ∧ P a) (k : ∀ a, P a → Q a s) : wp (HM.lift x) Q env s := by
  obtain ⟨a, h, hp⟩ := h
  exact wp_lift.2 ⟨a, h, k a hp⟩

theorem moved_facts {s s' : HS σ} (h : Moved R env s s') :
    Good R env s' ∧ s'.idx + s'.rem.length = env.src.length ∧ s.idx ≤ s'.idx :=
  ⟨h.good, h.good.len, h.le⟩

theorem take_ne_nil {t : Bytes} {n : Nat} (h : n ≠ 0) (h' : n ≤ t.length) : t.take n ≠ [] := by
  intro e
  have := congrArg List.length e
  rw [List.length_take, List.length_nil] at this
  omega

theorem take_one_iff {s : Bytes} {a : UInt8} : s.take 1 = [a] ↔ s[0]? = some a := by
  cases s <;> simp

theorem take_two_iff {s : Bytes} {a b : UInt8} :
    s.take 2 = [a, b] ↔ s[0]? = some a ∧ s[1]? = some b := by
  match s with
  | [] => simp
  | [_] => simp
  | _ :: _ :: _ => simp

theorem take_three_iff {s : Bytes} {a b c : UInt8} :
    s.take 3 = [a, b, c] ↔ s[0]? = some a ∧ s[1]? = some b ∧ s[2]? = some c := by
  match s with
  | [] => simp
  | [_] => simp
  | [_, _] => simp
  | _ :: _ :: _ :: _ => simp

theorem take_cons_drop {t : Bytes} {n : Nat} {c : UInt8} (h : t[0]? = some c) (hn : 0 < n) :
    t.take n = c :: (t.take n).drop 1 := by
  cases t with
  | nil => simp at h
  | cons a u =>
    simp at h
    subst h
    obtain ⟨m, rfl⟩ : ∃ m, n = m + 1 := ⟨n - 1, by omega⟩
    simp

theorem ne_nil_facts {t : Bytes} (h : t ≠ []) : 0 < t.length := List.length_pos_iff.2 h

theorem getElem?_facts {t : Bytes} {n : Nat} {c : UInt8} (h : t[n]? = some c) :
    n < t.length ∧ (t.drop n).take 1 = [c] := by
  have h' := h
  rw [List.getElem?_eq_some_iff] at h'
  refine ⟨h'.1, ?_⟩
  rw [← List.head?_drop] at h
  cases hd : t.drop n with
  | nil => simp [hd] at h
  | cons a u =>
    simp [hd] at h
    simp [h]

theorem getElem?_none_facts {t : Bytes} {n : Nat} (h : t[n]? = none) : t.length ≤ n := by
  simpa using h

theorem wp_bind_intro {m : HM σ β} {f : β → HM σ α} {Q : α → HS σ → Prop}
    (h : wp m (fun a s' => wp (f a) Q env s') env s) : wp (m >>= f) Q env s := (wp_bind m f).2 h

theorem wp_hassert_intro {c : Bool} {Q : Unit → HS σ → Prop} (hc : c = true) (h : Q () s) :
    wp (HM.hassert c) Q env s := wp_hassert.2 ⟨hc, h⟩

/-- A call of a function that moves forward. -/
theorem wp_call_safe {m : HM σ α} {Q : α → HS σ → Prop} (h : Safe R m) (g : Good R env s)
    (k : ∀ a s', Good R env s' → s'.idx + s'.rem.length = env.src.length → s.idx ≤ s'.idx → Q a s') :
    wp m Q env s :=
  wp_mono (h env s g) fun a s' m => k a s' m.good m.good.len m.le

theorem wp_call_expect {m : HM σ Bool} {Q : Bool → HS σ → Prop} (h : Expect R m) (g : Good R env s)
    (k : ∀ a s', Good R env s' → s'.idx + s'.rem.length = env.src.length → s.idx ≤ s'.idx →
      (a = true → s.idx < s'.idx) → Q a s') :
    wp m Q env s :=
  wp_mono (h env s g) fun a s' m => k a s' m.1.good m.1.good.len m.1.le m.2

theorem wp_call_eats {m : HM σ α} {Q : α → HS σ → Prop} (h : Eats R m) (g : Good R env s)
    (k : ∀ a s', Good R env s' → s'.idx + s'.rem.length = env.src.length → s.idx < s'.idx → Q a s') :
    wp m Q env s :=
  wp_mono (h env s g) fun a s' m => k a s' m.1.good m.1.good.len m.2

/-- A call of a function whose specification is given directly. -/
theorem wp_call {m : HM σ α} {P Q : α → HS σ → Prop} (h : wp m P env s)
    (k : ∀ a s', P a s' → Q a s') : wp m Q env s := wp_mono h k

theorem wp_step_emitAdv {n : Nat} {ty : HT} {mode : Mode} {Q : Unit → HS σ → Prop} (g : Good R env s)
    (h0 : 0 < n) (hn : n ≤ s.rem.length) (ht : ty ≠ .none) (hR : R.tok s.rem n ty)
    (k : ∀ s', Good R env s' → s'.idx + s'.rem.length = env.src.length → s'.rem = s.rem.drop n →
      s'.idx = s.idx + n → s'.ext = s.ext → Q () s') : wp (HM.emitAdv n ty mode) Q env s :=
  wp_emitAdv g h0 hn ht hR fun s' a b c d => k s' a a.len b c d

theorem wp_step_emitAdvIf {n : Nat} {ty : HT} {mode : Mode} {Q : Unit → HS σ → Prop} (g : Good R env s)
    (hn : n ≤ s.rem.length) (ht : ty ≠ .none) (hR : 0 < n → R.tok s.rem n ty)
    (k : ∀ s', Good R env s' → s'.idx + s'.rem.length = env.src.length → s'.rem = s.rem.drop n →
      s'.idx = s.idx + n → s'.ext = s.ext → Q () s') : wp (HM.emitAdvIf n ty mode) Q env s :=
  wp_emitAdvIf g hn ht hR fun s' c => k s' c.1 c.1.len c.2.1 c.2.2.1 c.2.2.2

theorem wp_step_advance {n : Nat} {Q : Unit → HS σ → Prop} (g : Good R env s)
    (hn : n ≤ s.rem.length) (hR : R.gap s.rem n)
    (k : ∀ s', Good R env s' → s'.idx + s'.rem.length = env.src.length → s'.rem = s.rem.drop n →
      s'.idx = s.idx + n → s'.ext = s.ext → Q () s') : wp (HM.advance n) Q env s :=
  wp_advance g hn hR fun s' a b c d => k s' a a.len b c d

theorem wp_step_set {x : σ} {Q : Unit → HS σ → Prop} (g : Good R env s)
    (k : ∀ s', Good R env s' → s'.idx + s'.rem.length = env.src.length → s'.rem = s.rem →
      s'.idx = s.idx → s'.ext = x → Q () s') : wp (HM.set x) Q env s :=
  wp_set g fun s' a b c d => k s' (a.good c.symm) (a.good c.symm).len b c d

theorem wp_step_modify {f : σ → σ} {Q : Unit → HS σ → Prop} (g : Good R env s)
    (k : ∀ s', Good R env s' → s'.idx + s'.rem.length = env.src.length → s'.rem = s.rem →
      s'.idx = s.idx → s'.ext = f s.ext → Q () s') : wp (HM.modify f) Q env s :=
  wp_modify g fun s' a b c d => k s' (a.good c.symm) (a.good c.symm).len b c d

theorem wp_step_or {a b : HM σ Bool} {Q : Bool → HS σ → Prop}
    (h : wp a (fun r s' => if r = true then Q true s' else wp b Q env s') env s) :
    wp (HM.or a b) Q env s := by
  unfold HM.or
  rw [wp_bind]
  refine wp_mono h ?_
  intro r s' h
  cases r <;> simpa using h

theorem take_all_succ {P : UInt8 → Prop} {t : Bytes} {n : Nat} {c : UInt8}
    (h : ∀ c ∈ t.take n, P c) (hc : t[n]? = some c) (hp : P c) : ∀ c ∈ t.take (n + 1), P c := by
  intro x hx
  rw [List.take_add_one, hc] at hx
  simp at hx
  rcases hx with hx | rfl
  · exact h x hx
  · exact hp

/-- `HM.loop` with a pending length: the local variable is the number of bytes at the start of the
remainder that have been looked at. -/
theorem wp_scan {body : Nat → HM σ (Nat ⊕ α)} {Q : α → HS σ → Prop} (I : Nat → HS σ → Prop)
    (step : ∀ n s1, Good R env s1 → s1.idx + s1.rem.length = env.src.length → s.idx ≤ s1.idx →
      n ≤ s1.rem.length → I n s1 → wp (body n) (fun r s' => match r with
        | .inl n' => Good R env s' ∧ s1.idx ≤ s'.idx ∧ n' ≤ s'.rem.length ∧ s1.idx + n < s'.idx + n' ∧
            I n' s'
        | .inr a => Q a s') env s1)
    {fuel n : Nat} (g : Good R env s) (hn : n ≤ s.rem.length) (hi : I n s)
    (hf : s.rem.length - n < fuel) : wp (HM.loop fuel body n) Q env s := by
  refine wp_loop (fun n s' => Good R env s' ∧ s.idx ≤ s'.idx ∧ n ≤ s'.rem.length ∧ I n s')
    (fun n s' => s'.rem.length - n) ?_ fuel n s ⟨g, Nat.le_refl _, hn, hi⟩ hf
  rintro n s1 ⟨g1, h1, h2, h3⟩
  refine wp_mono (step n s1 g1 g1.len h1 h2 h3) ?_
  intro r s' h
  match r with
  | .inl n' =>
    obtain ⟨g', a, b, c, d⟩ := h
    refine ⟨⟨g', by omega, b, d⟩, ?_⟩
    have := g'.len
    have := g1.len
    show s'.rem.length - n' < s1.rem.length - n
    omega
  | .inr a => exact h

/-- `HM.loop` whose body moves forward. -/
theorem wp_loop_moved {body : β → HM σ (β ⊕ α)} {Q : α → HS σ → Prop} (I : β → HS σ → Prop)
    (step : ∀ b s1, Good R env s1 → s1.idx + s1.rem.length = env.src.length → s.idx ≤ s1.idx →
      I b s1 → wp (body b) (fun r s' => match r with
        | .inl b' => Good R env s' ∧ s1.idx < s'.idx ∧ I b' s'
        | .inr a => Q a s') env s1)
    {fuel : Nat} {b : β} (g : Good R env s) (hi : I b s)
    (hf : s.rem.length < fuel) : wp (HM.loop fuel body b) Q env s := by
  refine wp_loop (fun b s' => Good R env s' ∧ s.idx ≤ s'.idx ∧ I b s')
    (fun _ s' => s'.rem.length) ?_ fuel b s ⟨g, Nat.le_refl _, hi⟩ hf
  rintro b s1 ⟨g1, h1, h3⟩
  refine wp_mono (step b s1 g1 g1.len h1 h3) ?_
  intro r s' h
  match r with
  | .inl n' =>
    obtain ⟨g', a, d⟩ := h
    refine ⟨⟨g', by omega, d⟩, ?_⟩
    have := g'.len
    have := g1.len
    show s'.rem.length < s1.rem.length
    omega
  | .inr a => exact h

/-- `while (!eof())` whose body moves forward. -/
theorem wp_while_moved {body : HM σ Unit} {Q : Unit → HS σ → Prop} (I : HS σ → Prop)
    (step : ∀ s1, Good R env s1 → s1.idx + s1.rem.length = env.src.length → s.idx ≤ s1.idx →
      s1.rem ≠ [] → I s1 → wp body (fun _ s' => Good R env s' ∧ s1.idx < s'.idx ∧ I s') env s1)
    {fuel : Nat} (g : Good R env s) (hi : I s) (hf : s.rem.length < fuel)
    (post : ∀ s', Good R env s' → s'.idx + s'.rem.length = env.src.length → s.idx ≤ s'.idx →
      s'.rem = [] → I s' → Q () s') :
    wp (HM.whileNotEof fuel body) Q env s := by
  refine wp_whileNotEof (fun s' => Good R env s' ∧ s.idx ≤ s'.idx ∧ I s') ⟨g, Nat.le_refl _, hi⟩ hf ?_ ?_
  · rintro s1 ⟨g1, h1, h2⟩ hne
    refine wp_mono (step s1 g1 g1.len h1 hne h2) ?_
    rintro _ s' ⟨g', h', i'⟩
    have := g'.len
    have := g1.len
    exact ⟨⟨g', by omega, i'⟩, by omega⟩
  · rintro s1 ⟨g1, h1, h2⟩ he
    exact post s1 g1 g1.len h1 he h2

theorem wp_ite_prop {c : Prop} [Decidable c] {p q : Prop} (h1 : c → p) (h2 : ¬ c → q) :
    if c then p else q := by
  split
  · exact h1 (by assumption)
  · exact h2 (by assumption)

/-! ## Tactics -/

open Lean Meta Elab Tactic

/-- Adds a fact to the context. -/
def hmAssert (g : MVarId) (pf : Expr) : MetaM (FVarId × MVarId) := do
  let ty ← instantiateMVars (← inferType pf)
  let name ← mkFreshUserName `h
  (← g.assert name ty pf).intro1P

/-- The length of a list literal. -/
partial def hmListLength (e : Expr) : MetaM (Option Nat) := do
  let e ← whnfR e
  match_expr e with
  | List.nil _ => return some 0
  | List.cons _ _ t => return (← hmListLength t).map (· + 1)
  | _ => return none

/-- Splits conjunctions and adds facts about lengths. -/
partial def hmHyp (g : MVarId) (h : FVarId) : MetaM MVarId := g.withContext do
  let ty ← whnfR (← instantiateMVars (← h.getType))
  match_expr ty with
  | And _ _ =>
    let (h1, g) ← hmAssert g (← mkAppM ``And.left #[.fvar h])
    let (h2, g) ← g.withContext do hmAssert g (← mkAppM ``And.right #[.fvar h])
    let g ← g.tryClear h
    let g ← hmHyp g h1
    hmHyp g h2
  | Moved _ _ _ _ _ =>
    let (h1, g) ← hmAssert g (← mkAppM ``moved_facts #[.fvar h])
    let g ← g.tryClear h
    hmHyp g h1
  | Ne _ _ r =>
    if (← whnfR r).isAppOf ``List.nil then
      try
        let (_, g) ← hmAssert g (← mkAppM ``ne_nil_facts #[.fvar h])
        return g
      catch _ => return g
    else return g
  | Not a =>
    match_expr (← whnfR a) with
    | Eq _ _ r =>
      if (← whnfR r).isAppOf ``List.nil then
        try
          let (_, g) ← hmAssert g (← mkAppM ``ne_nil_facts #[.fvar h])
          return g
        catch _ => return g
      else return g
    | _ => return g
  | Eq _ l r =>
    try
      let l ← whnfR l
      let r ← whnfR r
      if l.isAppOf ``startsWith && r.isConstOf ``Bool.true then
        if let some n ← hmListLength l.appArg! then
          let pf ← mkAppM ``startsWith_facts #[.fvar h, mkNatLit n, ← mkEqRefl (mkNatLit n)]
          let (h1, g) ← hmAssert g pf
          let g ← hmHyp g h1
          if n == 1 && l.appFn!.appArg!.isAppOf ``List.drop then g.withContext do
            let (_, g) ← hmAssert g (← mkAppM ``startsWith_drop_facts #[.fvar h])
            return g
          else return g
        else
          let (_, g) ← hmAssert g (← mkAppM ``startsWith_length #[.fvar h])
          return g
      else if l.isAppOf ``startsWith && r.isConstOf ``Bool.false then
        if (← hmListLength l.appArg!) == some 1 && l.appFn!.appArg!.isAppOf ``List.drop then
          let (_, g) ← hmAssert g (← mkAppM ``not_startsWith_drop_facts #[.fvar h])
          return g
        else return g
      else if r.isAppOf ``List.cons && !l.isAppOf ``List.take then
        let (h1, g) ← hmAssert g (← mkAppM ``cons_facts #[.fvar h])
        hmHyp g h1
      else if l.isAppOf ``GetElem?.getElem? && r.isAppOf ``Option.some then
        let (h1, g) ← hmAssert g (← mkAppM ``getElem?_facts #[.fvar h])
        hmHyp g h1
      else if l.isAppOf ``GetElem?.getElem? && r.isAppOf ``Option.none then
        let (_, g) ← hmAssert g (← mkAppM ``getElem?_none_facts #[.fvar h])
        return g
      else return g
    catch _ => return g
  | _ => return g

/-- Splits conjunctions in a hypothesis and adds facts about lengths. -/
elab "hm_hyp " h:ident : tactic => withMainContext do
  let f ← getFVarId h
  replaceMainGoal [← hmHyp (← getMainGoal) f]

/-- Makes a new hypothesis usable. -/
syntax "hm_simp " ident : tactic
macro_rules | `(tactic| hm_simp $h) => `(tactic| (
  (try simp only [Bool.and_eq_true, Bool.or_eq_true, Bool.not_eq_true', Bool.not_eq_true,
    Bool.not_eq_false', Bool.not_eq_false, bne_iff_ne, beq_iff_eq, decide_eq_true_eq, not_and, not_or,
    Decidable.not_not, Bool.not_not, Bool.and_eq_false_iff, decide_eq_false_iff_not,
    Bool.false_eq_true, not_false_eq_true, not_true_eq_false, List.isEmpty_iff,
    List.isEmpty_eq_false_iff, false_implies, true_implies, bne_self_eq_false] at $h:ident)
  <;> hm_hyp $h))

/-- Introduces a hypothesis and makes it usable. -/
syntax "hm_intro" : tactic
macro_rules | `(tactic| hm_intro) => `(tactic| (intro hnew; hm_simp hnew))

/-- `split` at the program, with usable hypotheses. -/
elab "hm_split" : tactic => withMainContext do
  let old ← getLCtx
  evalTactic (← `(tactic| (refine wp_gen_post ?_; intro Q' hQ'; split <;> subst hQ')))
  let gs ← getGoals
  let mut out := #[]
  for g in gs do
    let g' ← g.withContext do
      let mut g := g
      for d in (← getLCtx) do
        unless old.contains d.fvarId || d.isImplementationDetail do
          if ← isProp d.type then
            g ← hmHyp g d.fvarId
      return g
    out := out.push g'
  setGoals out.toList

/-- Runs a tactic that has to close the goal. -/
elab "hm_close " t:tacticSeq : tactic => do
  let g :: rest ← getGoals | throwError "no goals"
  setGoals [g]
  Tactic.withoutRecover (evalTactic t)
  unless (← getUnsolvedGoals).isEmpty do throwError "hm: open goals"
  setGoals rest

/-- Side conditions about lengths. -/
syntax "hm_len" : tactic
macro_rules | `(tactic| hm_len) => `(tactic| first
  | omega
  | (simp only [*, List.length_drop] at *; omega)
  | grind)

/-- Side conditions about token types. -/
syntax "hm_ty" : tactic
macro_rules | `(tactic| hm_ty) => `(tactic| first | decide | assumption | (split <;> decide))

/-- Rules about texts. -/
syntax "hm_text" : tactic
macro_rules | `(tactic| hm_text) => `(tactic| first
  | assumption
  | (hm_close simp only [*, List.mem_cons, true_or, or_true])
  | (hm_close simp [*])
  | (hm_close simp only [*, List.mem_cons, take_one_iff, take_two_iff, take_three_iff,
      List.getElem?_drop, Nat.reduceAdd, and_self, true_or, or_true])
  | (hm_close (simp only [*, List.take_succ_cons, List.take_zero]; decide))
  | (hm_close grind))

/-- Rules of the language: the first constructor whose conditions `hm_text` can prove. -/
elab "hm_ctor" : tactic => withMainContext do
  let g :: rest ← getGoals | throwError "no goals"
  let t ← whnf (← instantiateMVars (← g.getType))
  let .const n _ := t.getAppFn | throwError "hm_ctor: not an inductive type"
  let some (.inductInfo info) := (← getEnv).find? n | throwError "hm_ctor: not an inductive type"
  for c in info.ctors do
    let s ← saveState
    try
      let gs ← g.apply (← mkConstWithFreshMVarLevels c)
      for g in gs do
        unless ← g.isAssigned do
          setGoals [g]
          evalTactic (← `(tactic| hm_text))
          unless (← getGoals).isEmpty do throwError "hm_ctor: open goals"
      setGoals rest
      return
    catch _ => s.restore
  throwError "hm_ctor: no constructor fits"

/-- Rules of the language. -/
syntax "hm_tok" : tactic
macro_rules | `(tactic| hm_tok) => `(tactic| first
  | trivial | hm_ctor | (hm_close (intro c hc; simp [*] at hc ⊢; grind)))

/-- Invariants of loops. -/
syntax "hm_inv" : tactic
macro_rules | `(tactic| hm_inv) => `(tactic| first
  | exact take_all_succ (by assumption) (by assumption) (by hm_close grind)
  | (hm_close simp))

/-- Side conditions of lemmas. -/
syntax "hm_side" : tactic
macro_rules | `(tactic| hm_side) => `(tactic| first
  | assumption
  | (hm_close simp [*])
  | hm_len
  | (hm_close simp [*, startsWith_cons_one, -startsWith_cons_cons])
  | exact take_ne_nil (by hm_len) (by hm_len))

/-- Parts of postconditions. -/
syntax "hm_post" : tactic
macro_rules | `(tactic| hm_post) => `(tactic| first
  | assumption
  | omega
  | trivial
  | (hm_close (intros; omega))
  | hm_inv
  | hm_len)

/-- Splits postconditions. -/
elab "hm_and" : tactic => withMainContext do
  let g ← getMainGoal
  let t := (← instantiateMVars (← g.getType)).consumeMData
  if t.isAppOf ``And then evalTactic (← `(tactic| apply And.intro))
  else if t.isAppOf ``Moved then evalTactic (← `(tactic| apply Moved.mk))
  else if t.isAppOf ``Or && (t.getArg! 0).isAppOf ``And then
    evalTactic (← `(tactic| first | refine Or.inl ⟨rfl, ?_⟩ | refine Or.inr ⟨rfl, ?_⟩))
  else throwError "hm_and: not a conjunction"

/-- Postconditions. -/
syntax "hm_done" : tactic
macro_rules | `(tactic| hm_done) => `(tactic| ((repeat' hm_and) <;> try hm_post))

/-- Applies a rule; `ts` are for the first premises, `last` for the other premises. -/
def hmRule (rule : Name) (ts : List (TacticM Unit)) (last : TacticM Unit) : TacticM Unit := do
  let g :: rest ← getGoals | throwError "no goals"
  let gs ← g.apply (← mkConstWithFreshMVarLevels rule)
  let mut side := #[]
  let mut main := #[]
  let mut ts := ts
  for g in gs do
    if ← g.isAssigned then continue
    let isProp ← g.withContext do isProp (← g.getType)
    unless isProp do continue
    setGoals [g]
    match ts with
    | t :: ts' =>
      ts := ts'
      t
      side := side ++ (← getUnsolvedGoals)
    | [] =>
      last
      main := main ++ (← getUnsolvedGoals)
  setGoals (main.toList ++ side.toList ++ rest)

/-- Tries a tactic. -/
def hmTry (t : TSyntax `tactic) : TacticM Unit := do
  evalTactic (← `(tactic| first | $t:tactic | skip))

/-- Applies a lemma and tries to prove its premises. -/
def hmApply (e : Expr) : TacticM Unit := do
  let g ← getMainGoal
  let gs ← g.apply e
  let mut out := #[]
  for g in gs do
    if ← g.isAssigned then continue
    setGoals [g]
    hmTry (← `(tactic| hm_side))
    out := out ++ (← getUnsolvedGoals)
  setGoals out.toList

/-- Applies a lemma and tries to prove its premises. -/
def hmLemma (n : Name) : TacticM Unit := do hmApply (← mkConstWithFreshMVarLevels n)

/-- The lemma about a function. -/
def hmSpec (c : Name) : TacticM (Name × Option Name) := do
  let n := c.appendAfter "_spec"
  let some info := (← getEnv).find? n | throwError "hm: there is no {n}"
  let res ← forallTelescope info.type fun _ b => return b.getAppFn.constName?
  return (n, res)

/-- The lemma about a member function. -/
def hmCall (c : Name) : TacticM Unit := do
  let (n, res) ← hmSpec c
  let assumption := do evalTactic (← `(tactic| assumption))
  let intros (t : TSyntax `tactic) : TacticM Unit := evalTactic t
  if res == some ``Eats then
    hmRule ``wp_call_eats [hmLemma n, assumption] (intros (← `(tactic| intro _ _ _ _ _)))
  else if res == some ``Expect then
    hmRule ``wp_call_expect [hmLemma n, assumption] (intros (← `(tactic| intro _ _ _ _ _ _)))
  else if res == some ``Expects then
    hmRule ``wp_call_expects [hmLemma n, assumption] (intros (← `(tactic| try intro _ _ _ _)))
  else if res == some ``ExpectsOr then
    hmRule ``wp_call_expectsOr [hmLemma n, assumption]
      (intros (← `(tactic| first | intro _ _ _ _ | hm_intro)))
  else if res == some ``ExpectsAt then
    hmRule ``wp_call_expectsAt [hmLemma n] (intros (← `(tactic| first | intro _ _ _ _ | hm_intro)))
  else if res == some ``Safe then
    hmRule ``wp_call_safe [hmLemma n, assumption] (intros (← `(tactic| intro _ _ _ _ _)))
  else if res == some ``wp then
    hmRule ``wp_call [hmLemma n] (intros (← `(tactic| (intro _ _; hm_intro))))
  else throwError "hm: cannot use {n}"

/-- The hypothesis about a function that is a parameter. -/
def hmLocal (f : FVarId) : TacticM Unit := do
  for d in (← getLCtx) do
    unless d.isImplementationDetail do
      let found ← forallTelescope d.type fun _ b =>
        return b.isAppOf ``wp && b.getAppArgs[2]!.getAppFn == mkFVar f
      if found then
        let intro_ := do evalTactic (← `(tactic| (intro _ _; hm_intro)))
        hmRule ``wp_call [hmApply (.fvar d.fvarId)] intro_
        return
  throwError "hm: no hypothesis"

/-- One step. -/
elab "hm1" : tactic => withMainContext do
  let g ← getMainGoal
  let t := (← instantiateMVars (← g.getType)).consumeMData
  let t' ← if t.isAppOf ``wp then pure t else whnfCore t
  if t'.isForall then
    throwError "hm: quantifier"
  if t'.isAppOf ``ite then
    evalTactic (← `(tactic| first
      | rw [if_pos rfl] | rw [if_neg Bool.false_ne_true] | refine wp_ite_prop ?_ ?_ <;> hm_intro))
    return
  unless t'.isAppOf ``wp do
    if t' == t then throwError "hm: not a program"
    replaceMainGoal [← g.change t']
    return
  let args := t'.getAppArgs
  let m ← whnfCore args[2]!
  let t' := mkAppN t'.getAppFn (args.set! 2 m)
  let g ← if t' == t then pure g else g.change t'
  replaceMainGoal [g]
  if (← matchMatcherApp? m).isSome then
    evalTactic (← `(tactic| hm_split))
    return
  if let .fvar f := m.getAppFn then
    hmLocal f
    return
  let .const c _ := m.getAppFn | throwError "hm: no head"
  let assumption := do evalTactic (← `(tactic| assumption))
  let len := do hmTry (← `(tactic| hm_len))
  let ty := do hmTry (← `(tactic| hm_ty))
  let bare := (← getOptions).getBool `hm.bare
  let tok := do
    if bare then hmTry (← `(tactic| trivial)) else hmTry (← `(tactic| hm_tok))
  let tokIf := do
    if bare then hmTry (← `(tactic| (intro hpos; trivial))) else hmTry (← `(tactic| (intro hpos; hm_tok)))
  let asrt := do hmTry (← `(tactic| first
    | assumption | (hm_close simp [*]) | (hm_close (simp; omega)) | hm_close grind))
  let cond := do evalTactic (← `(tactic| hm_intro))
  let intros := do evalTactic (← `(tactic| intro _ _ _ _ _ _))
  if c == ``Bind.bind then evalTactic (← `(tactic| refine wp_bind_intro ?_))
  else if c == ``Pure.pure then evalTactic (← `(tactic| refine (wp_pure _).2 ?_))
  else if c == ``HM.rem then evalTactic (← `(tactic| refine wp_rem.2 ?_))
  else if c == ``HM.index then evalTactic (← `(tactic| refine wp_index.2 ?_))
  else if c == ``HM.eof then evalTactic (← `(tactic| refine wp_eof.2 ?_))
  else if c == ``HM.opts then evalTactic (← `(tactic| refine wp_opts.2 ?_))
  else if c == ``HM.get then evalTactic (← `(tactic| refine wp_get.2 ?_))
  else if c == ``HM.or then evalTactic (← `(tactic| refine wp_step_or ?_))
  else if c == ``ite then hmRule ``wp_ite [] cond
  else if c == ``HM.set then hmRule ``wp_step_set [assumption] intros
  else if c == ``HM.modify then hmRule ``wp_step_modify [assumption] intros
  else if c == ``HM.dassert then hmRule ``wp_dassert [asrt] (pure ())
  else if c == ``HM.hassert then hmRule ``wp_hassert_intro [asrt] (pure ())
  else if c == ``HM.emitAdv then hmRule ``wp_step_emitAdv [assumption, len, len, ty, tok] intros
  else if c == ``HM.emitAdvIf then hmRule ``wp_step_emitAdvIf [assumption, len, ty, tokIf] intros
  else if c == ``HM.advance then hmRule ``wp_step_advance [assumption, len, tok] intros
  else if c == ``HM.fault then evalTactic (← `(tactic| (exfalso; hm_close grind)))
  else if c == ``HM.lift then
    let .const f _ := m.appArg!.getAppFn | throwError "hm: no head"
    let (n, _) ← hmSpec f
    let intro_ := do evalTactic (← `(tactic| (intro _; hm_intro)))
    hmRule ``wp_lift_intro [hmLemma n] intro_
  else hmCall c

/-- As many steps as possible. -/
syntax "hm" : tactic
macro_rules | `(tactic| hm) => `(tactic| ((repeat' hm1) <;> hm_done))

/-- As `hm`, but leaves the rules of the language unless they are hypotheses. -/
elab "hm_bare" : tactic => do
  Lean.withOptions (·.setBool `hm.bare true) (evalTactic (← `(tactic| hm)))

end Ulight
