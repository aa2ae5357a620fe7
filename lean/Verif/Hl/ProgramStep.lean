import Verif.Hl.ProgramTotal
import Verif.Hl.Program
import Verif.Hl.Fits

/-!
# Steps of the main loops, for C58
-/

namespace Ulight

open Spec

variable {σ : Type} {env : HEnv} {s t : HS σ}

theorem wp_else {a b : HM σ Bool} {Q : Bool → HS σ → Prop} (h : a env s = .ok (false, s)) (h' : wp b Q env s) :
    wp (HM.or a b) Q env s := by
  refine wp_step_or ((wp_of_ok h).2 ?_)
  simpa using h'

theorem or_ok {a b : HM σ Bool} (h : a env s = .ok (false, s)) : HM.or a b env s = b env s := by
  unfold HM.or
  show HM.bind a _ env s = _
  unfold HM.bind
  rw [h]
  rfl

theorem wp_this {a b : HM σ Bool} (h : wp a (fun r s => r = true ∧ s = t) env s) :
    wp (HM.or a b) (fun r s => r = true ∧ s = t) env s := by
  refine wp_step_or (wp_mono h ?_)
  rintro _ _ ⟨rfl, rfl⟩
  simp

/-- What is done for one element. -/
def Found (m : HM σ α) (opts : Opts) (x : σ) (a : Bytes) (ts : List Token) (b : Bytes) (y : σ) : Prop :=
  ∃ es : List Emit, ts = es.map Emit.token ∧ Does m opts x a es b y

variable {m : HM σ α} {opts : Opts} {x y : σ} {a b : Bytes}

theorem found_of {es : List Emit}
    (h : ∀ (env : HEnv) i out, env.opts = opts → i + (a ++ b).length = env.src.length →
      wp m (fun _ s => s = ⟨b, i + a.length, out ++ es.map (Emit.moved i), y⟩) env ⟨a ++ b, i, out, x⟩) :
    Found m opts x a (es.map Emit.token) b y :=
  ⟨es, rfl, fun debug src i out hi => h ⟨debug, opts, src⟩ i out rfl hi⟩

theorem found_parts {ps : List (Bytes × HT)}
    (h : ∀ (env : HEnv) i out, env.opts = opts → i + (a ++ b).length = env.src.length →
      wp m (fun _ s => s = ⟨b, i + a.length, out ++ partsEmit i ps, y⟩) env ⟨a ++ b, i, out, x⟩) :
    Found m opts x a (parts 0 ps) b y := by
  rw [← partsEmit_token]
  refine found_of fun env i out h1 h2 => ?_
  rw [partsEmit_moved]
  simpa using h env i out h1 h2

theorem found_one {n : Nat} {ty : HT} {mode : Mode}
    (h : ∀ (env : HEnv) i out, env.opts = opts → i + (a ++ b).length = env.src.length →
      wp m (fun _ s => s = ⟨b, i + a.length, out ++ [⟨i, n, ty, mode⟩], y⟩) env ⟨a ++ b, i, out, x⟩) :
    Found m opts x a [⟨0, n, ty⟩] b y := by
  refine found_of (es := [⟨0, n, ty, mode⟩]) fun env i out h1 h2 => ?_
  simpa [Emit.moved] using h env i out h1 h2

theorem found_none
    (h : ∀ (env : HEnv) i out, env.opts = opts → i + (a ++ b).length = env.src.length →
      wp m (fun _ s => s = ⟨b, i + a.length, out, y⟩) env ⟨a ++ b, i, out, x⟩) :
    Found m opts x a [] b y := by
  refine found_of (es := []) fun env i out h1 h2 => ?_
  simpa using h env i out h1 h2

theorem exactIn_of_found {body : HM σ Unit} {τ : Type} {R : τ → σ} {E : Opts → τ → Bytes → List Token → Bytes → τ → Prop}
    (hE : ∀ o, E o.seen = E o)
    (h : ∀ opts u a ts b v, E opts u a ts b v → a ≠ [] ∧ Found body opts (R u) a ts b (R v)) {u : τ} :
    ExactIn (HM.run (do let r ← HM.rem; HM.whileNotEof (r.length + 1) body; pure true) (R u)) E u := by
  refine exactIn_of_step (R := fun u x => x = R u) hE ?_ rfl
  rintro opts u a ts b v _ he rfl
  obtain ⟨h1, es, h2, h3⟩ := h opts u a ts b v he
  exact ⟨h1, es, R v, rfl, h2, h3⟩

/-- One token. -/
theorem wp_emit {n i : Nat} {ty : HT} {mode : Mode} {out : List Emit} {Q : Unit → HS σ → Prop} (hn : a.length = n) (h0 : 0 < n)
    (hi : i + (a ++ b).length = env.src.length) :
    wp (HM.emitAdv n ty mode) Q env ⟨a ++ b, i, out, x⟩ ↔ Q () ⟨b, i + n, out ++ [⟨i, n, ty, mode⟩], x⟩ := by
  subst hn
  rw [wp_emitAdv_iff (by simpa using hi) h0 (by simp)]
  simp [HS.emitted]

/-- A token for one byte. -/
theorem wp_emit_byte {c : UInt8} {i : Nat} {ty : HT} {mode : Mode} {out : List Emit} {Q : Unit → HS σ → Prop}
    (hi : i + (c :: b).length = env.src.length) :
    wp (HM.emitAdv 1 ty mode) Q env ⟨c :: b, i, out, x⟩ ↔ Q () ⟨b, i + 1, out ++ [⟨i, 1, ty, mode⟩], x⟩ :=
  wp_emit (a := [c]) rfl (by simp) hi

/-- One token, if it is not empty. -/
theorem wp_emitNonempty {n i : Nat} {ty : HT} {out : List Emit} {Q : Unit → HS σ → Prop} (hn : a.length = n)
    (hi : i + (a ++ b).length = env.src.length) :
    wp (HM.emitAdvIf n ty) Q env ⟨a ++ b, i, out, x⟩ ↔ Q () ⟨b, i + n, out ++ optEmit i a ty, x⟩ := by
  subst hn
  rw [wp_emitAdvIf_iff (by simpa using hi) (by simp)]
  simp [optEmit]

theorem wp_skip {n i : Nat} {out : List Emit} {Q : Unit → HS σ → Prop} (hn : a.length = n) :
    wp (HM.advance n) Q env ⟨a ++ b, i, out, x⟩ ↔ Q () ⟨b, i + n, out, x⟩ := by
  subst hn
  rw [wp_advance_iff (by simp)]
  simp [HS.adv]

theorem wp_skip_byte {c : UInt8} {i : Nat} {out : List Emit} {Q : Unit → HS σ → Prop} :
    wp (HM.advance 1) Q env ⟨c :: b, i, out, x⟩ ↔ Q () ⟨b, i + 1, out, x⟩ := wp_skip (a := [c]) rfl

theorem wp_put {z : σ} {i : Nat} {out : List Emit} {Q : Unit → HS σ → Prop} :
    wp (HM.set z) Q env ⟨a, i, out, x⟩ ↔ Q () ⟨a, i, out, z⟩ := wp_of_ok rfl

theorem wp_written_at {n : Written} {sep : Option UInt8} {i : Nat} {out : List Emit} {Q : Unit → HS σ → Prop} {separated : Bool}
    (h0 : sep = some c!"_" ∨ sep = none ∧ separated = false) (hd : Separated n separated)
    (hi : i + (n.text ++ b).length = env.src.length) :
    wp (HM.highlightNumber n.result sep) Q env ⟨n.text ++ b, i, out, x⟩ ↔
      Q () ⟨b, i + n.text.length, out ++ partsEmit i n.parts, x⟩ := by
  have key : ∀ gs : List Bytes, (∀ g ∈ gs, ∀ c ∈ g, c ∈ digitsOf 16) → (separated = false → gs.length ≤ 1) → Splits sep gs := by
    intro gs h1 h2
    rcases h0 with rfl | ⟨rfl, h⟩
    · refine ⟨.inl rfl, ?_⟩
      rintro x hx g hg c hc
      cases hx
      exact no_underscore c (h1 g hg c hc)
    · exact ⟨.inr (h2 h), nofun⟩
  exact wp_highlightNumber_iff hi (by rcases h0 with rfl | ⟨rfl, _⟩ <;> simp)
    (key _ (fun g hg => hd.1 g (by simp [hg])) fun h => (hd.2 h).1)
    (key _ (fun g hg => hd.1 g (by simp [hg])) fun h => (hd.2 h).2)
    (key _ (fun g hg => hd.1 g (by simp at hg; simp [hg])) (by simp))

end Ulight
