import Verif.Model.ScrollBarWidget
import Mathlib.Tactic.Common
import Mathlib.Tactic.Linarith
import Mathlib.Tactic.FieldSimp
import Mathlib.Tactic.Ring
import Mathlib.Tactic.Positivity

/-! C158: the scrollbar widget. -/

namespace Textual.ScrollBarWidget

open Scrollbar (thumbBounds trunc)

/-! ### Specification -/

/-- The pointer's place along a bar drawn in `r`. -/
def along (vertical : Bool) (x y : Int) (r : Region) : Int := if vertical then y - r.y else x - r.x

/-- In the bar `b`, this event is a press on the thumb, `grip` cells from the thumb's start. -/
def Takes (b : Bar) (grip : Int) : Event → Prop
  | .mouse .down x y r => r.containsPoint x y = true ∧ (b.thumb r).1 ≤ along b.vertical x y r ∧
      along b.vertical x y r < (b.thumb r).2 ∧ grip = along b.vertical x y r - (b.thumb r).1
  | _ => False

/-- The button is released over the bar, or the application ends the press. -/
def LetsGo : Event → Prop
  | .mouse .up x y r => r.containsPoint x y = true
  | .setActive on => on = false
  | _ => False

/-! ### Holding -/

theorem step_vertical (b : Bar) (e : Event) : (b.step e).1.vertical = b.vertical := by
  cases e <;> simp only [Bar.step]
  · unfold Bar.onMouse
    split
    · split <;> rfl
    · dsimp only
      split <;> (try split) <;> (try split) <;> (try split) <;> rfl
  · unfold Bar.update; dsimp only; split <;> rfl
  · unfold Bar.setHover; split <;> rfl
  · unfold Bar.setActive; split <;> (try split) <;> rfl
  · unfold Bar.clearHover; split <;> rfl

/-- One event: who holds afterwards. -/
theorem step_holds (b : Bar) (e : Event) (g : Int) :
    (b.step e).1.state = .grabbed g ↔
      Takes b g e ∨ (b.state = .grabbed g ∧ ¬ LetsGo e ∧ ∀ g', ¬ Takes b g' e) := by
  cases e with
  | mouse k x y r =>
    by_cases hin : r.containsPoint x y = true
    · have h0 : ¬ r.containsPoint x y = false := by simp [hin]
      simp only [Bar.step]
      unfold Bar.onMouse
      rw [if_neg h0]
      cases k
      · dsimp only
        cases hs : b.state <;> simp [Takes, LetsGo, hs]
      · dsimp only
        by_cases ht : (b.thumb r).1 ≤ along b.vertical x y r ∧ along b.vertical x y r < (b.thumb r).2
        · have e1 : decide ((if b.vertical = true then y - r.y else x - r.x) ≥ (b.thumb r).1 ∧
              (if b.vertical = true then y - r.y else x - r.x) < (b.thumb r).2) = true := by
            simpa [along] using ht
          rw [e1]
          simp only [if_true, Takes, hin, ht, true_and, LetsGo, not_false_eq_true]
          constructor
          · intro h
            left
            injection h with h
            rw [← h]; rfl
          · rintro (h | ⟨_, h⟩)
            · rw [h]; rfl
            · exact absurd rfl (h _)
        · have e1 : decide ((if b.vertical = true then y - r.y else x - r.x) ≥ (b.thumb r).1 ∧
              (if b.vertical = true then y - r.y else x - r.x) < (b.thumb r).2) = false := by
            simpa [along] using ht
          rw [e1]
          have e2 : ∀ g', ¬ Takes b g' (.mouse .down x y r) := by
            intro g' h
            exact ht ⟨h.2.1, h.2.2.1⟩
          simp only [Bool.false_eq_true, if_false, e2, not_false_eq_true, implies_true, and_true, false_or, LetsGo]
          split <;> split <;> rfl
      · dsimp only
        cases hs : b.state <;> simp [Takes, LetsGo, hs]
      · dsimp only
        cases hs : b.state <;> simp [Takes, LetsGo, hs, hin]
      all_goals simp [Takes, LetsGo]
    · have h0 : r.containsPoint x y = false := by simpa using hin
      simp only [Bar.step]
      unfold Bar.onMouse
      rw [if_pos h0]
      dsimp only
      have e2 : ∀ g', ¬ Takes b g' (.mouse k x y r) := by
        intro g' h
        cases k <;> simp [Takes, h0] at h
      have e3 : ¬ LetsGo (.mouse k x y r) := by
        intro h
        cases k <;> simp [LetsGo, h0] at h
      simp only [e2, e3, not_false_eq_true, implies_true, and_true, false_or]
      split
      · rename_i h; simp [h]
      · rfl
  | update v w p =>
    simp only [Bar.step, Takes, LetsGo, false_or, not_false_eq_true, implies_true, and_true]
    unfold Bar.update; dsimp only; split <;> rfl
  | setHover on =>
    simp only [Bar.step, Takes, LetsGo, false_or, not_false_eq_true, implies_true, and_true]
    unfold Bar.setHover
    split
    · rfl
    · rename_i h
      cases on <;> simp <;> exact h g
  | setActive on =>
    simp only [Bar.step, Takes, LetsGo, false_or, not_false_eq_true, implies_true, and_true]
    unfold Bar.setActive
    cases on
    · cases hs : b.state <;> simp [hs]
    · simp
  | clearHover =>
    simp only [Bar.step, Takes, LetsGo, false_or, not_false_eq_true, implies_true, and_true]
    unfold Bar.clearHover
    split
    · rfl
    · rename_i h
      simp; exact h g

theorem run_append (b : Bar) (es fs : List Event) : b.run (es ++ fs) = (b.run es).run fs := by
  unfold Bar.run; rw [List.foldl_append]

/-- C158: the bar is held, `grip` cells from the start of the thumb, just if this is where it was last taken hold of
and nobody has let go of it since. Hovering, drawing, scrolling and drags do not matter. The rest of the property is
that releasing the button elsewhere counts too; see `release_counterexample`. -/
theorem held_partial (b : Bar) (es : List Event) (grip : Int) (hb : b.active = false) :
    (b.run es).state = .grabbed grip ↔ ∃ before e after, es = before ++ e :: after ∧ Takes (b.run before) grip e ∧
      (∀ f ∈ after, ¬ LetsGo f) ∧
      ∀ after1 f after2, after = after1 ++ f :: after2 → ∀ g, ¬ Takes (b.run (before ++ e :: after1)) g f := by
  induction es using List.reverseRecOn with
  | nil =>
    constructor
    · intro h
      unfold Bar.active at hb
      simp only [Bar.run, List.foldl_nil] at h
      rw [h] at hb
      simp at hb
    · rintro ⟨_, _, _, h, _⟩
      simp at h
  | append_singleton es e ih =>
    rw [run_append]
    show ((b.run es).step e).1.state = _ ↔ _
    rw [step_holds, ih]
    constructor
    · rintro (h | ⟨⟨b1, e1, a1, rfl, h1, h2, h3⟩, h4, h5⟩)
      · exact ⟨es, e, [], rfl, h, by simp, by simp⟩
      · refine ⟨b1, e1, a1 ++ [e], by simp, h1, ?_, ?_⟩
        · intro f hf
          rcases List.mem_append.1 hf with hf | hf
          · exact h2 f hf
          · rw [List.mem_singleton.1 hf]; exact h4
        · intro x f y hxy g
          rcases List.eq_nil_or_concat y with rfl | ⟨y', z, rfl⟩
          · obtain ⟨rfl, h⟩ := List.append_inj' hxy rfl
            rw [← List.singleton_inj.1 h]
            exact h5 g
          · have h : a1 ++ [e] = (x ++ f :: y') ++ [z] := by simpa using hxy
            obtain ⟨rfl, _⟩ := List.append_inj' h rfl
            exact h3 x f y' rfl g
    · rintro ⟨b1, e1, a1, h0, h1, h2, h3⟩
      rcases List.eq_nil_or_concat a1 with rfl | ⟨a2, z, rfl⟩
      · obtain ⟨rfl, h⟩ := List.append_inj' h0 rfl
        rw [List.singleton_inj.1 h]
        exact Or.inl h1
      · right
        have h : es ++ [e] = (b1 ++ e1 :: a2) ++ [z] := by simpa using h0
        obtain ⟨rfl, hz⟩ := List.append_inj' h rfl
        obtain rfl := List.singleton_inj.1 hz
        refine ⟨⟨b1, e1, a2, rfl, h1, fun f hf => h2 f (by simp [hf]), ?_⟩, h2 e (by simp), fun g => ?_⟩
        · intro x f y hxy g
          exact h3 x f (y ++ [e]) (by simp [hxy]) g
        · exact h3 a2 e [] (by simp) g

/-- C158 is false when the button is released beside the bar: it stays held, and a later drag that began elsewhere
scrolls. -/
theorem release_counterexample :
    let b : Bar := { vertical := true, windowSize := 10 }
    let r : Region := ⟨0, 0, 1, 10⟩
    let es : List Event := [.mouse .down 0 0 r, .mouse .up 5 3 r, .mouse .down 5 3 r]
    (b.run es).active = true ∧ ((b.run es).step (.mouse .drag 0 4 r)).2 = some (.scrollTo none (some 40)) := by
  decide +kernel

example : ∃ grip, Takes { vertical := true, windowSize := 30, position := 35 } grip (.mouse .down 1 7 ⟨1, 2, 1, 10⟩) :=
  ⟨2, by unfold Takes; decide +kernel⟩

/-! ### What it asks for -/

/-- A message about the bar's own axis. -/
def Own (vertical : Bool) : Msg → Prop
  | .up | .down => vertical = true
  | .left | .right => vertical = false
  | .scrollTo x y => if vertical then x = none ∧ y.isSome else y = none ∧ x.isSome

/-- C158: the bar asks for something only on a press on it beside the thumb, on a turn of the wheel over it and on
drags while it is held; and only for its own axis. -/
theorem asks_only (b : Bar) (e : Event) (m : Msg) (h : (b.step e).2 = some m) :
    Own b.vertical m ∧ ∃ k x y r, e = .mouse k x y r ∧ r.containsPoint x y = true ∧
      ((k = .down ∧ ∀ g, ¬ Takes b g e) ∨ k = .scrollDown ∨ k = .scrollUp ∨ (k = .drag ∧ b.active = true)) := by
  cases e with
  | mouse k x y r =>
    simp only [Bar.step] at h
    unfold Bar.onMouse at h
    by_cases hin : r.containsPoint x y = true
    · rw [if_neg (by simp [hin])] at h
      cases k
      · dsimp only at h
        split at h <;> simp at h
      · dsimp only at h
        by_cases ht : decide ((if b.vertical = true then y - r.y else x - r.x) ≥ (b.thumb r).1 ∧
              (if b.vertical = true then y - r.y else x - r.x) < (b.thumb r).2) = true
        · rw [if_pos ht] at h
          simp at h
        · rw [if_neg ht] at h
          have ht' : ∀ g, ¬ Takes b g (.mouse .down x y r) := by
            intro g hg
            apply ht
            have := hg.2
            unfold along at this
            simp [this.1, this.2.1]
          refine ⟨?_, .down, x, y, r, rfl, hin, Or.inl ⟨rfl, ht'⟩⟩
          by_cases hp : (if b.vertical = true then y - r.y else x - r.x) < (b.thumb r).1
          · rw [if_pos hp] at h
            injection h with h
            subst h
            cases hv : b.vertical <;> simp [Own]
          · rw [if_neg hp] at h
            injection h with h
            subst h
            cases hv : b.vertical <;> simp [Own]
      · dsimp only at h
        split at h
        · rename_i g hg
          refine ⟨?_, .drag, x, y, r, rfl, hin, Or.inr (Or.inr (Or.inr ⟨rfl, by simp [Bar.active, hg]⟩))⟩
          simp at h
          subst h
          cases hv : b.vertical <;> simp [Own]
        · simp at h
      · dsimp only at h
        split at h <;> simp at h
      · simp at h
        refine ⟨?_, .scrollDown, x, y, r, rfl, hin, by simp⟩
        subst h
        cases hv : b.vertical <;> simp [Own]
      · simp at h
        refine ⟨?_, .scrollUp, x, y, r, rfl, hin, by simp⟩
        subst h
        cases hv : b.vertical <;> simp [Own]
      · simp at h
    · rw [if_pos (by simpa using hin)] at h
      simp at h
  | _ => simp [Bar.step] at h

/-- C158: a press on the bar before the thumb, or a turn of the wheel up, asks for one step back; a press behind it,
or a turn down, for one step on; pressing the thumb asks for nothing. Nothing else changes. -/
theorem press_asks (b : Bar) (x y : Int) (r : Region) (hin : r.containsPoint x y = true) :
    let back : Msg := if b.vertical then .up else .left
    let on : Msg := if b.vertical then .down else .right
    b.step (.mouse .scrollUp x y r) = (b, some back) ∧ b.step (.mouse .scrollDown x y r) = (b, some on) ∧
    (along b.vertical x y r < (b.thumb r).1 → b.step (.mouse .down x y r) = (b, some back)) ∧
    ((b.thumb r).1 ≤ along b.vertical x y r → (b.thumb r).2 ≤ along b.vertical x y r →
      b.step (.mouse .down x y r) = (b, some on)) ∧
    (∀ g, Takes b g (.mouse .down x y r) → (b.step (.mouse .down x y r)).2 = none) := by
  have h0 : ¬ r.containsPoint x y = false := by simp [hin]
  simp only [Bar.step]
  unfold Bar.onMouse
  simp only [if_neg h0]
  refine ⟨trivial, trivial, ?_, ?_, ?_⟩
  · intro h
    unfold along at h
    rw [if_neg (by simp only [decide_eq_true_eq]; omega), if_pos h]
  · intro h h2
    unfold along at h h2
    rw [if_neg (by simp only [decide_eq_true_eq]; omega), if_neg (by omega)]
  · intro g hg
    have := hg.2
    unfold along at this
    rw [if_pos (by simp [this.1, this.2.1])]

/-- C158: while the bar is held and the thumb is longer than a cell, a drag to a place where the thumb fits asks for a
position within the content, at which the thumb starts as far from the pointer as when it was taken hold of. -/
theorem drag_follows_partial (b : Bar) (x y : Int) (r : Region) (grip : Int) (hin : r.containsPoint x y = true)
    (hg : b.state = .grabbed grip) (hw : 0 < b.windowSize) (hwv : b.windowSize < b.virtualSize)
    (hlong : b.virtualSize ≤ b.windowSize * b.track r) (hvn : b.virtualSize ≠ b.track r)
    (h0 : 0 ≤ along b.vertical x y r - grip)
    (h1 : ((along b.vertical x y r - grip : Int) : Rat) + b.windowSize / b.virtualSize * b.track r ≤ b.track r) :
    ∃ p, b.step (.mouse .drag x y r) = (b, some (if b.vertical then .scrollTo none (some p) else .scrollTo (some p) none)) ∧
      0 ≤ p ∧ p ≤ b.virtualSize - b.windowSize ∧
      (({ b with position := p } : Bar).thumb r).1 + grip = along b.vertical x y r := by
  have hin' : ¬ r.containsPoint x y = false := by simp [hin]
  refine ⟨b.dragged r (along b.vertical x y r - grip), ?_, ?_⟩
  · simp only [Bar.step]
    unfold Bar.onMouse
    rw [if_neg hin']
    dsimp only
    rw [hg]
    rfl
  obtain ⟨v, hv⟩ : ∃ v, v = b.virtualSize := ⟨_, rfl⟩
  obtain ⟨w, hw'⟩ : ∃ w, w = b.windowSize := ⟨_, rfl⟩
  obtain ⟨s, hs⟩ : ∃ s, s = along b.vertical x y r - grip := ⟨_, rfl⟩
  obtain ⟨n, hn⟩ : ∃ n, n = b.track r := ⟨_, rfl⟩
  have ht : ∀ p, ({ b with position := p } : Bar).thumb r = thumbBounds n v w p := by
    intro p
    rw [hn, hv, hw']; rfl
  rw [ht]
  have e : b.dragged r (along b.vertical x y r - grip) = if (n : Rat) - w / v * n > 0 then s / ((n : Rat) - w / v * n) * (v - w) else 0 := by
    rw [hn, hv, hw', hs]; rfl
  rw [e]
  rw [show along b.vertical x y r = s + grip by omega]
  rw [← hs] at h0 h1
  rw [← hv] at hwv hlong hvn h1
  rw [← hw'] at hw hwv hlong h1
  rw [← hn] at hlong hvn h1
  have v0 : 0 < v := lt_trans hw hwv
  have hn0 : (0 : Rat) < n := by
    by_contra hc
    have : w * n ≤ 0 := mul_nonpos_of_nonneg_of_nonpos hw.le (by linarith)
    linarith
  have hn1 : 0 < n := by exact_mod_cast hn0
  have hr : (0 : Rat) < n - w / v * n := by
    have : w / v < 1 := by rw [div_lt_one v0]; exact hwv
    nlinarith
  rw [if_pos hr]
  have s0 : (0 : Rat) ≤ s := by exact_mod_cast h0
  have hle : (s : Rat) / (n - w / v * n) ≤ 1 := by rw [div_le_one hr]; linarith
  have hge : (0 : Rat) ≤ (s : Rat) / (n - w / v * n) := div_nonneg s0 hr.le
  have hd : 0 < v - w := by linarith
  refine ⟨mul_nonneg hge hd.le, by nlinarith, ?_⟩
  unfold thumbBounds
  dsimp only
  rw [if_pos hwv, if_neg (by
    push Not
    exact ⟨hw, by omega, hvn, v0⟩)]
  dsimp only
  have hmax : max (w / (v / (n : Rat))) 1 = w / v * n := by
    have e1 : w / (v / (n : Rat)) = w / v * n := by field_simp
    rw [e1]
    apply max_eq_left
    rw [div_mul_eq_mul_div, le_div_iff₀ v0]
    linarith
  rw [hmax, mul_div_assoc, div_self hd.ne', mul_one, mul_div_cancel₀ _ hr.ne']
  have : trunc (s : Rat) = s := by
    unfold trunc
    rw [if_pos s0]
    simp
  rw [this]

/-- Hypotheses of `drag_follows_partial`: a bar of ten cells, held at the second cell of a thumb of three, dragged to
the end. -/
example : let b : Bar := { vertical := true, windowSize := 30, position := 35, state := .grabbed 1 }
    b.step (.mouse .drag 1 10 ⟨1, 2, 1, 10⟩) = (b, some (.scrollTo none (some 70))) := by decide +kernel

/-- C158 is false for drags beyond the ends: positions outside the content are asked for. -/
theorem range_counterexample :
    let b : Bar := { vertical := true, windowSize := 50, position := 30, state := .grabbed 2 }
    (b.step (.mouse .drag 0 0 ⟨0, 0, 1, 10⟩)).2 = some (.scrollTo none (some (-20))) ∧
    (b.step (.mouse .drag 0 9 ⟨0, 0, 1, 10⟩)).2 = some (.scrollTo none (some 70)) := by decide +kernel

/-- C158 is false between the steps of the bar: taking hold of the thumb and not moving the pointer scrolls (here from
8 back to 0). -/
theorem still_counterexample :
    let b : Bar := { vertical := true, windowSize := 10, position := 8 }
    let r : Region := ⟨0, 0, 1, 10⟩
    ((b.run [.mouse .down 0 0 r]).step (.mouse .drag 0 0 r)).2 = some (.scrollTo none (some 0)) := by decide +kernel

/-- C158 is false for long content (the thumb would be shorter than a cell): dragging to the end of the bar stops at
900 of 990. -/
theorem long_counterexample :
    let b : Bar := { vertical := true, virtualSize := 1000, windowSize := 10 }
    let r : Region := ⟨0, 0, 1, 10⟩
    ((b.run [.mouse .down 0 0 r]).step (.mouse .drag 0 9 r)).2 = some (.scrollTo none (some 900)) := by decide +kernel

end Textual.ScrollBarWidget
