import Verif.Props.PaneMouse

/-! C109: mouse events for the children of a plain container. -/

namespace Textual.Pane

open Layout (Placement Viewport)
open Scroller (Sheet Body Overflow Mouse Kind Flags inner scrolled inView At ScreenFree OnScreen contains_iff)

theorem mem_ask (f : Nat → Bool) : ∀ (l : List Placement) (c : Placement), c ∈ ask f l → c ∈ l
  | [], _, h => h
  | d :: l, c, h => by
    unfold ask at h
    split at h
    · rw [List.mem_singleton] at h; subst h; exact List.mem_cons_self ..
    · rcases List.mem_cons.1 h with e | e
      · subst e; exact List.mem_cons_self ..
      · exact List.mem_cons_of_mem _ (mem_ask f l c e)

theorem asked_or (f : Nat → Bool) : ∀ (l : List Placement) (c : Placement), c ∈ l →
    c ∈ ask f l ∨ ∃ d ∈ ask f l, f d.childIndex = true
  | [], _, h => by cases h
  | d :: l, c, h => by
    unfold ask
    split
    · rename_i hd
      exact .inr ⟨d, List.mem_singleton.2 rfl, hd⟩
    · rcases List.mem_cons.1 h with e | e
      · subst e; exact .inl (List.mem_cons_self ..)
      · rcases asked_or f l c e with h | ⟨d', h, hd⟩
        · exact .inl (List.mem_cons_of_mem _ h)
        · exact .inr ⟨d', List.mem_cons_of_mem _ h, hd⟩

/-- Only the last child asked can have answered. -/
theorem ask_once (f : Nat → Bool) : ∀ l : List Placement, (ask f l).Pairwise fun c _ => f c.childIndex = false
  | [] => List.Pairwise.nil
  | d :: l => by
    unfold ask
    split
    · exact List.pairwise_singleton ..
    · rename_i hd
      exact List.pairwise_cons.2 ⟨fun _ _ => by simpa using hd, ask_once f l⟩

/-- **C109** (partial: no border or padding, no bar or gutter, so that the content area is the whole region, and no `vw`/`vh`
lengths; see
`border_counterexample`, `under_bar_counterexample` and `first_counterexample`). After a drawing, a mouse event other
than a turn of the wheel is given only to children drawn at the pointer, each with the region it was drawn in; each
child drawn there gets it unless one asked before has answered; and after an answer no other is asked. -/
theorem mouse_to_drawn_partial (s : Sheet) (es : List Event) (b : Body) (r : Region) (vp : Viewport) (m : Mouse)
    (answers : Nat → Bool) (htold : Told none (es ++ [.draw b r vp])) (hb : ScreenFree b) (hm : OnScreen m)
    (hk : m.kind ≠ .scrollDown ∧ m.kind ≠ .scrollUp) (hr : 0 < r.width ∧ 0 < r.height) (hi : inner s r = r)
    (hc : ((State.history s es).draw s b r vp).1.content = r) :
    let shown := (State.history s es).draw s b r vp
    let asked := (shown.2.onMouse s b m r answers).1
    (∀ c ∈ asked, c ∈ shown.1.children ∧ At c.region m.column m.row) ∧
    (∀ c ∈ shown.1.children, At r m.column m.row → At c.region m.column m.row →
      c ∈ asked ∨ ∃ d ∈ asked, answers d.childIndex = true) ∧
    asked.Pairwise fun c _ => answers c.childIndex = false := by
  intro shown asked
  have hv : Valid (State.history s es) b := told_valid s es none {} b r vp
    (fun _ _ => fun _ _ _ e => by cases e) htold
  have hsv : Valid shown.2 b := draw_valid s b _ hv r vp
  have hx : shown.2.scroll.offsetX = 0 := event_x s _ (never_sideways s es) (.draw b r vp)
  have hshown : shown = State.drawInner s b (State.history s es) r vp := by
    change State.draw s b _ r vp = _
    unfold State.draw
    rw [if_neg (by omega), hi]
  obtain ⟨e1, e2, -⟩ := drawInner_plain s b _ hv r vp
  rw [← hshown] at e1 e2
  have hcon : shown.1.content = r := hc
  have hform : ∃ c, (shown.1 = ⟨r, ((b.arrange r vp).map fun p =>
      (⟨p.childIndex, scrolled c p.region⟩ : Placement)).filter fun p => inView r p.region⟩) ∧
      shown.2.scroll = c := by
    rw [e1] at hcon
    rw [e1, e2]
    revert hcon
    unfold drawPlain
    dsimp only
    split
    · rename_i h
      intro hcon
      dsimp only at hcon
      rw [hcon] at h
      omega
    · intro hcon
      dsimp only at hcon
      exact ⟨_, by rw [hcon], rfl⟩
  obtain ⟨c, hd, hsc⟩ := hform
  rw [hsc] at hx
  have hasked : At r m.column m.row → asked = ask answers (((b.arrange r vp).map fun p =>
      (⟨p.childIndex, scrolled c p.region⟩ : Placement)).filter fun p => p.region.containsPoint m.column m.row) := by
    intro hat
    obtain ⟨p1, p2, p3⟩ := place_valid shown.2 b hsv r (Viewport.ofRegion r)
    have hcp := (contains_iff r _ _ ⟨hm.1, hm.2.1⟩ ⟨hm.2.2.1, hm.2.2.2⟩).2 hat
    change (State.onMouse s b shown.2 m r answers).1 = _
    unfold State.onMouse
    rw [if_neg (by simp [hcp]), if_neg (by simp [hk.1]), if_neg (by simp [hk.2])]
    generalize shown.2.place b r (Viewport.ofRegion r) = q at p1 p3 ⊢
    obtain ⟨ps, t⟩ := q
    dsimp only at p1 p3 ⊢
    rw [p1, hb r (Viewport.ofRegion r) vp, p3, hsc]
    simp only [scrolled, hx, sub_zero]
  have hempty : ¬ At r m.column m.row → asked = [] := by
    intro hat
    have hcp : r.containsPoint m.column m.row = false := by
      rw [← Bool.not_eq_true, contains_iff r _ _ ⟨hm.1, hm.2.1⟩ ⟨hm.2.2.1, hm.2.2.2⟩]; exact hat
    change (State.onMouse s b shown.2 m r answers).1 = _
    unfold State.onMouse
    rw [if_pos hcp]
  by_cases hat : At r m.column m.row
  · rw [hasked hat, hd]
    refine ⟨fun p hp => ?_, fun p hp _ hpt => ?_, ask_once _ _⟩
    · obtain ⟨g1, g2⟩ := List.mem_filter.1 (mem_ask _ _ _ hp)
      have g3 := (contains_iff _ _ _ ⟨hm.1, hm.2.1⟩ ⟨hm.2.2.1, hm.2.2.2⟩).1 g2
      refine ⟨List.mem_filter.2 ⟨g1, ?_⟩, g3⟩
      simp only [inView, decide_eq_true_eq, At] at *
      omega
    · exact asked_or _ _ _ (List.mem_filter.2 ⟨(List.mem_filter.1 hp).1,
        (contains_iff _ _ _ ⟨hm.1, hm.2.1⟩ ⟨hm.2.2.1, hm.2.2.2⟩).2 hpt⟩)
  · rw [hempty hat]
    exact ⟨fun _ h => (by cases h), fun _ _ h => absurd h hat, List.Pairwise.nil⟩

/-- Two children, one above the other. -/
def two : Body := { arrange := fun a _ => [⟨0, ⟨a.x, a.y, 8, 2⟩⟩, ⟨1, ⟨a.x, a.y + 2, 8, 2⟩⟩] }

def at_ (x y : Int) : Mouse := { kind := .down, column := x, row := y }

example : let s : Sheet := {}
    let r : Region := ⟨0, 0, 20, 10⟩
    Told none ([] ++ [.draw two r ⟨80, 24⟩]) ∧ ScreenFree two ∧ OnScreen (at_ 3 2) ∧ inner s r = r ∧
    ((State.history s []).draw s two r ⟨80, 24⟩).1.content = r ∧
    ((((State.history s []).draw s two r ⟨80, 24⟩).2).onMouse s two (at_ 3 2) r fun _ => true).1 =
      [⟨1, ⟨0, 2, 8, 2⟩⟩] :=
  ⟨⟨.inl rfl, trivial⟩, fun _ _ _ => rfl, by unfold OnScreen; decide, by decide, by decide +kernel, by decide +kernel⟩

/-- **C109** fails with a border: the click on the last row of the first child is given to the second child, which
is told a region one row and one column away from where it was drawn. -/
theorem border_counterexample :
    let s : Sheet := { chromeLeft := 1, chromeTop := 1, chromeRight := 1, chromeBottom := 1 }
    let r : Region := ⟨0, 0, 20, 10⟩
    let shown := (State.history s []).draw s two r ⟨80, 24⟩
    shown.1.children = [⟨0, ⟨1, 1, 8, 2⟩⟩, ⟨1, ⟨1, 3, 8, 2⟩⟩] ∧
    (shown.2.onMouse s two (at_ 3 2) r fun _ => true).1 = [⟨1, ⟨0, 2, 8, 2⟩⟩] := by decide +kernel

/-- A child filling the width, of 20 rows. -/
def wide : Body := { arrange := fun a _ => [⟨0, ⟨a.x, a.y, a.width, 20⟩⟩] }

/-- **C109** fails with a bar: a click on the bar is given to the child, which is told it is as wide as before. -/
theorem under_bar_counterexample :
    let s : Sheet := {}
    let r : Region := ⟨0, 0, 20, 10⟩
    let shown := (State.history s []).draw s wide r ⟨80, 24⟩
    shown.1.children = [⟨0, ⟨0, 0, 18, 20⟩⟩] ∧
    (shown.2.onMouse s wide (at_ 19 5) r fun _ => true).1 = [⟨0, ⟨0, 0, 20, 20⟩⟩] := by decide +kernel

/-- Of two children drawn at the pointer the one drawn first, so the one that is covered, gets the event. -/
theorem first_counterexample :
    let s : Sheet := {}
    let r : Region := ⟨0, 0, 20, 10⟩
    let shown := (State.history s []).draw s Scroller.stacked r ⟨80, 24⟩
    shown.1.children = [⟨0, ⟨0, 0, 8, 3⟩⟩, ⟨1, ⟨0, 0, 8, 3⟩⟩] ∧
    (shown.2.onMouse s Scroller.stacked (at_ 3 2) r fun _ => true).1 = [⟨0, ⟨0, 0, 8, 3⟩⟩] := by decide +kernel

end Textual.Pane
