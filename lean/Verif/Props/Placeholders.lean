import Verif.Model.Placeholders
import Verif.Props.Placeholder
import Verif.Props.NestOnce
import Verif.Props.Clicks
import Verif.Props.LinkClicks

/-!
# A press on a placeholder that is seen (C207)
-/

namespace Textual.Placeholders

open Placeholder (Placeholder Variant content sizeText loremText)
open Nest (Node SeenAt painted reach)
open Scroller (At OnScreen)
open Clicks (Touch)

/-- A mouse button goes down where placeholder `i` is seen. -/
def Pressed (t : Touch) (i : Nat) : Prop := (∃ f, t.event.kind = .down f) ∧ t.On i

/-- There are `n` presses on the placeholder in the history. -/
inductive Count (i : Nat) : List Touch → Nat → Prop
  | nil : Count i [] 0
  | press {ts n t} : Count i ts n → Pressed t i → Count i (ts ++ [t]) (n + 1)
  | other {ts n t} : Count i ts n → ¬ Pressed t i → Count i (ts ++ [t]) n

/-- Presses are inside the screen and the containers then as in C174. -/
def Fair (t : Touch) : Prop := (∃ f, t.event.kind = .down f) → t.Fair

theorem after_snoc (s : Nat → Placeholder) (ts : List Touch) (t : Touch) : after s (ts ++ [t]) = step (after s ts) t := by
  simp [after, List.foldl_append]

theorem give_other (e : Press.Mouse) (h : ¬ ∃ f, e.kind = .down f) (l : List (Nat × Region)) (s : Nat → Placeholder) :
    give e l s = s := by
  have hd : (eventOf e).down = false := by
    unfold eventOf
    cases hk : e.kind <;> first | rfl | exact absurd ⟨_, hk⟩ h
  unfold give
  induction l generalizing s with
  | nil => rfl
  | cons q l ih =>
    rw [List.foldl_cons]
    refine (ih _).trans ?_
    funext j
    unfold Placeholder.onMouse
    simp [hd]

/-- **C207** (partial: containers as in C174, the command palette closed). A press moves the placeholder that is seen under the
pointer on to its next variant, once, and changes no other; no other mouse event changes any. -/
theorem cycled_partial (s : Nat → Placeholder) (t : Touch) (hf : Fair t) (i : Nat) :
    (Pressed t i → step s t i = { s i with variant := (s i).variant.next, dirty := true }) ∧
    (¬ Pressed t i → step s t i = s i) := by
  by_cases hd : ∃ f, t.event.kind = .down f
  · have ht := hf hd
    have hdown : (eventOf t.event).down = true := by
      obtain ⟨f, h⟩ := hd
      simp [eventOf, h]
    have hk := Clicks.points t ht.kind
    have hg := LinkClicks.silent_good _ _ _ ht.good
    have ha := LinkClicks.silent_apart _ _ ht.apart
    constructor
    · rintro ⟨-, r, ks, hp, hs⟩
      unfold step
      rw [Nest.seen_once_partial t.viewport t.mouse ht.onScreen hk _ t.screen hg ha [] i r ks
        (by rw [LinkClicks.silent_painted]; exact hp) hs]
      have hat := hs.1
      have ho := ht.onScreen
      simp only [At] at hat
      simp only [OnScreen, Touch.mouse] at ho
      simp only [give, List.foldl_cons, List.foldl_nil, if_true, Placeholder.onMouse, hdown, true_and]
      rw [if_pos]
      simp only [eventOf]
      omega
    · intro hn
      have hx : ∀ q ∈ (reach t.viewport t.mouse (LinkClicks.silent t.node) t.screen).1, q.1 ≠ i := by
        rintro ⟨j, r⟩ hq rfl
        obtain ⟨ks, hp, hs⟩ := Nest.reached_seen_partial t.viewport t.mouse ht.onScreen hk _ t.screen ht.inside hg []
          (by simp) j r hq
        rw [LinkClicks.silent_painted] at hp
        exact hn ⟨hd, r, ks, hp, hs⟩
      unfold step give
      generalize (reach t.viewport t.mouse (LinkClicks.silent t.node) t.screen).1 = l at hx
      induction l generalizing s with
      | nil => rfl
      | cons q l ih =>
        rw [List.foldl_cons, ih _ fun p hp => hx p (List.mem_cons_of_mem _ hp)]
        exact if_neg fun e => hx q (List.mem_cons_self ..) e.symm
  · refine ⟨fun h => absurd h.1 hd, fun _ => ?_⟩
    unfold step
    rw [give_other t.event hd]

theorem after_variant (s : Nat → Placeholder) (i : Nat) (ts : List Touch) (n : Nat) (hf : ∀ t ∈ ts, Fair t)
    (hc : Count i ts n) :
    (after s ts i).variant = Nat.repeat Variant.next n (s i).variant ∧ (after s ts i).label = (s i).label ∧
    (after s ts i).id = (s i).id := by
  induction hc with
  | nil => exact ⟨rfl, rfl, rfl⟩
  | @press ts n t hc h ih =>
    obtain ⟨h1, h2, h3⟩ := ih fun t ht => hf t (by simp [ht])
    rw [after_snoc, (cycled_partial (after s ts) t (hf t (by simp)) i).1 h]
    exact ⟨congrArg Variant.next h1, h2, h3⟩
  | @other ts n t hc h ih =>
    obtain ⟨h1, h2, h3⟩ := ih fun t ht => hf t (by simp [ht])
    rw [after_snoc, (cycled_partial (after s ts) t (hf t (by simp)) i).2 h]
    exact ⟨h1, h2, h3⟩

/-- **C207** (partial, as above). Whatever the history of mouse events, each on a screen that may have changed since: after `n`
presses where it was seen a placeholder that showed its label at the beginning shows in a region `r` its label again (if `n` is
a multiple of three), its size, or the filler text. -/
theorem shows_partial (s : Nat → Placeholder) (i : Nat) (ts : List Touch) (n : Nat) (hf : ∀ t ∈ ts, Fair t)
    (hc : Count i ts n) (h0 : (s i).variant = .default) (lorem : List Grapheme) (r : Region) :
    content (after s ts i) lorem r =
      if n % 3 = 0 then content (s i) lorem r else if n % 3 = 1 then sizeText r else loremText lorem := by
  obtain ⟨h1, h2, h3⟩ := after_variant s i ts n hf hc
  rw [h0, Placeholder.variants_cycle] at h1
  generalize after s ts i = q at h1 h2 h3
  unfold content
  rw [h0]
  by_cases a : n % 3 = 0
  · rw [if_pos a] at h1 ⊢
    rw [h1, h2, h3]
  · rw [if_neg a] at h1 ⊢
    by_cases b : n % 3 = 1
    · rw [if_pos b] at h1 ⊢
      rw [h1]
    · rw [if_neg b] at h1 ⊢
      rw [h1]

/-- Every history has a number of presses. -/
theorem count_exists (i : Nat) (ts : List Touch) : ∃ n, Count i ts n := by
  induction ts using List.reverseRecOn with
  | nil => exact ⟨0, .nil⟩
  | append_singleton ts t ih =>
    obtain ⟨n, h⟩ := ih
    by_cases hc : Pressed t i
    · exact ⟨n + 1, .press h hc⟩
    · exact ⟨n, .other h hc⟩

/-- A move, a press on the scrolled card of `Nest.tree`, a release and a press on the widget below: the card shows its size,
as drawn: eight columns and six rows. -/
example : let s : Nat → Placeholder := fun _ => { label := some (Placeholder.ascii "card") }
    let ts := [Clicks.touch .moved 3 4, Clicks.touch (.down .left) 3 4, Clicks.touch (.up .left) 3 4,
      Clicks.touch (.down .left) 3 6]
    (∀ t ∈ ts, Fair t) ∧ Count 11 ts 1 ∧ content (after s ts 11) [] ⟨1, 3, 8, 6⟩ = Placeholder.ascii "8 x 6" := by
  intro s ts
  have hf : ∀ t ∈ ts, Fair t := by
    intro t ht
    simp only [ts, List.mem_cons, List.not_mem_nil, or_false] at ht
    rcases ht with rfl | rfl | rfl | rfl <;> exact fun _ => Clicks.touch_fair _ _ _ (by decide) (by decide) (by decide)
  have p10 : Clicks.Touch.On (Clicks.touch (.down .left) 3 4) 11 := by
    refine Clicks.touch_painted (.down .left) 3 4 11 (11, ⟨1, 3, 8, 6⟩, [⟨1, 1, 16, 4⟩, ⟨0, 0, 20, 10⟩]) rfl (by decide +kernel) ?_
    simp only [SeenAt, At, List.mem_cons, List.not_mem_nil, or_false, forall_eq_or_imp, forall_eq]
    omega
  have p2 : Clicks.Touch.On (Clicks.touch (.down .left) 3 6) 2 := by
    refine Clicks.touch_painted (.down .left) 3 6 2 (2, ⟨0, 6, 20, 2⟩, [⟨0, 0, 20, 10⟩]) rfl (by decide +kernel) ?_
    simp only [SeenAt, At, List.mem_cons, List.not_mem_nil, or_false, forall_eq_or_imp, forall_eq]
    omega
  have hc : Count 11 ts 1 := by
    refine .other (ts := [_, _, _]) (.other (ts := [_, _]) (.press (ts := [_]) (.other (ts := []) .nil ?_) ⟨⟨_, rfl⟩, p10⟩) ?_) ?_
    · rintro ⟨⟨f, h⟩, -⟩; cases h
    · rintro ⟨⟨f, h⟩, -⟩; cases h
    · rintro ⟨-, h⟩
      exact absurd (Clicks.on_unique _ (Clicks.touch_fair _ _ _ (by decide) (by decide) (by decide)) 11 2 h p2) (by decide)
  exact ⟨hf, hc, (shows_partial s 11 ts 1 hf hc rfl [] ⟨1, 3, 8, 6⟩).trans (by decide +kernel)⟩

/-- **C207**: every mouse button works. -/
theorem buttons_counterexample : let s : Nat → Placeholder := fun _ => {}
    (after s [Clicks.touch (.down .right) 3 4] 11).variant = .size := by decide +kernel

/-- **C207** fails for placeholders in a plain container with a border, as C196: a press on the lower row of the first changes
the second. -/
theorem border_counterexample : let s : Nat → Placeholder := fun _ => {}
    let t := Clicks.bordered (.down .left) 3 2
    Pressed t 10 ∧ (after s [t] 10).variant = .default ∧ (after s [t] 11).variant = .size := by
  refine ⟨⟨⟨_, rfl⟩, ⟨1, 1, 8, 2⟩, [⟨1, 1, 18, 6⟩, ⟨0, 0, 20, 10⟩], ?_, ?_⟩, ?_⟩
  · show _ ∈ painted ⟨80, 24⟩ (Clicks.bordered .moved 3 2).node ⟨0, 0, 20, 10⟩ []
    decide +kernel
  · simp only [SeenAt, At, Clicks.bordered, List.mem_cons, List.not_mem_nil, or_false, forall_eq_or_imp, forall_eq]
    omega
  · decide +kernel

/-- Two placeholders in the same place, in a plain container. -/
def stacked (k : Press.Kind) (x y : Int) : Touch :=
  ⟨⟨k, x, y⟩, .box (.pane {} { arrange := fun a _ => [⟨0, ⟨a.x, a.y, 8, 2⟩⟩, ⟨1, ⟨a.x, a.y, 8, 2⟩⟩] } {}) fun j => .leaf (10 + j) false,
   ⟨0, 0, 20, 10⟩, ⟨20, 10⟩⟩

/-- **C207** fails for placeholders over each other in a plain container: a press changes the covered one too. -/
theorem overlap_counterexample : let s : Nat → Placeholder := fun _ => {}
    (after s [stacked (.down .left) 3 1] 10).variant = .size ∧ (after s [stacked (.down .left) 3 1] 11).variant = .size := by
  decide +kernel

end Textual.Placeholders
