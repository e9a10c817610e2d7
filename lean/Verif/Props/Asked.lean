import Verif.Props.ScrollSize
import Verif.Props.Nest

/-!
C155 and C179: what a container asks for when its style has a say. C174: the order in which overlapping children of a
plain container are asked.
-/

namespace Textual.Layout.Intrinsic

open Scroller (Sheet plan)

/-- What is asked for along a side with this declared size and this size of the content. -/
structure Asks (declared : Option Scalar) (own n : Nat) : Prop where
  cells : ∀ s, declared = some s → s.unit = .cells → n = toU16 s.value
  own : (declared = none ∨ ∃ s, declared = some s ∧ s.unit = .auto) → n = own
  share : ∀ s, declared = some s → s.unit ≠ .cells → s.unit ≠ .auto → n = fill

theorem side_asks (declared : Option Scalar) (own : Nat) : Asks declared own (desiredSide declared own) := by
  unfold desiredSide
  constructor
  · rintro s rfl hu
    dsimp only
    rw [hu]
  · rintro (rfl | ⟨s, rfl, hu⟩)
    · rfl
    · dsimp only
      rw [hu]
  · rintro s rfl h1 h2
    dsimp only
    split
    · exact absurd (by assumption) h1
    · exact absurd (by assumption) h2
    · rfl

/-- **C155**: a container asks for the width and the height it is given in cells, for all there is if it is given a
share, and otherwise for the size of its content. -/
theorem container_asks (style : LStyle) (layout : Kind) (ch : Chrome) (cs : List (Bool × LChild)) :
    Asks style.width (intrinsic layout ch cs).1 (desired style layout ch cs).1 ∧
    Asks style.height (intrinsic layout ch cs).2 (desired style layout ch cs).2 :=
  ⟨side_asks _ _, side_asks _ _⟩

/-- **C179**: the same for a scrolling container. -/
theorem scroller_asks (style : LStyle) (layout : Kind) (ch : Chrome) (cs : List (Bool × LChild)) (own size : Nat × Nat)
    (ho : scrollSize layout ch cs = some own) (h : desiredScroll style layout ch cs = some size) :
    Asks style.width own.1 size.1 ∧ Asks style.height own.2 size.2 := by
  unfold desiredScroll at h
  rw [ho, Option.map_some, Option.some.injEq] at h
  subst h
  exact ⟨side_asks _ _, side_asks _ _⟩

theorem auto_scroll (style : LStyle) (layout : Kind) (ch : Chrome) (cs : List (Bool × LChild))
    (hw : style.width = none ∨ ∃ s, style.width = some s ∧ s.unit = .auto)
    (hh : style.height = none ∨ ∃ s, style.height = some s ∧ s.unit = .auto) :
    desiredScroll style layout ch cs = scrollSize layout ch cs := by
  unfold desiredScroll
  cases scrollSize layout ch cs with
  | none => rfl
  | some i => rw [Option.map_some, (side_asks _ _).own hw, (side_asks _ _).own hh]

/-- **C179**, columns: a vertical scrolling container without a size of its own shows no scrollbars at the size it asks
for. -/
theorem column_asked_partial (style : LStyle) (hsw : style.width = none ∨ ∃ s, style.width = some s ∧ s.unit = .auto)
    (hsh : style.height = none ∨ ∃ s, style.height = some s ∧ s.unit = .auto)
    (keys : List String) (p : PStyle) (ch : Chrome) (cs : List (Bool × LChild)) (s : Sheet)
    (x y : Int) (vp : Viewport) (hp : p.layout = .vertical ∧ p.layers = none ∧ p.alignH = .left ∧ p.alignV = .top)
    (ho : s.overflowX ≠ .scroll ∧ s.overflowY ≠ .scroll ∧ s.stableGutter = false) (hn : Numbered cs)
    (hs : ∀ c ∈ displayed cs, Sized c) (hc : ch.border.1 + ch.padding.1 ≤ 65535)
    (hw : ∀ c ∈ displayed cs, outerWidth c + ch.border.1 + ch.padding.1 ≤ 65535)
    (hh : leading (·.top) cs + ((displayed cs).map outerHeight).sum + ch.border.2 + ch.padding.2 ≤ 65535) :
    ∃ size, desiredScroll style .vertical ch cs = some size ∧
      let area := contentArea x y ch size
      let shown := plan s (scrolled keys p cs) area vp
      shown.show_ = {} ∧ shown.content = area ∧ shown.virtualHeight + leading (·.top) cs = area.height ∧
        (displayed cs ≠ [] → ∃ c ∈ displayed cs, (outerWidth c : Int) = area.width) := by
  rw [auto_scroll style _ _ _ hsw hsh]
  exact column_no_bars_partial keys p ch cs s x y vp hp ho hn hs hc hw hh

/-- **C179**, rows. -/
theorem row_asked_partial (style : LStyle) (hsw : style.width = none ∨ ∃ s, style.width = some s ∧ s.unit = .auto)
    (hsh : style.height = none ∨ ∃ s, style.height = some s ∧ s.unit = .auto)
    (keys : List String) (p : PStyle) (ch : Chrome) (cs : List (Bool × LChild)) (s : Sheet)
    (x y : Int) (vp : Viewport) (hp : p.layout = .horizontal ∧ p.layers = none ∧ p.alignH = .left ∧ p.alignV = .top)
    (ho : s.overflowX ≠ .scroll ∧ s.overflowY ≠ .scroll ∧ s.stableGutter = false) (hn : Numbered cs)
    (hs : ∀ c ∈ displayed cs, Sized c) (hc : ch.border.2 + ch.padding.2 ≤ 65535)
    (hh : ∀ c ∈ displayed cs, outerHeight c + ch.border.2 + ch.padding.2 ≤ 65535)
    (hw : leading (·.left) cs + ((displayed cs).map outerWidth).sum + ch.border.1 + ch.padding.1 ≤ 65535) :
    ∃ size, desiredScroll style .horizontal ch cs = some size ∧
      let area := contentArea x y ch size
      let shown := plan s (scrolled keys p cs) area vp
      shown.show_ = {} ∧ shown.content = area ∧ shown.virtualWidth + leading (·.left) cs = area.width ∧
        (displayed cs ≠ [] → ∃ c ∈ displayed cs, (outerHeight c : Int) = area.height) := by
  rw [auto_scroll style _ _ _ hsw hsh]
  exact row_no_bars_partial keys p ch cs s x y vp hp ho hn hs hc hh hw

/-- A width in cells, a height by the content. -/
example : desiredScroll { width := some ⟨30, .cells⟩, height := some ⟨1, .auto⟩ } .vertical { border := (2, 2) } aRow =
    some (30, 1508) ∧ desiredScroll {} .vertical { border := (2, 2) } aRow = some (12, 1508) ∧
    desired { width := some ⟨50, .percent⟩, height := some ⟨7, .cells⟩ } .vertical {} aRow = (fill, 7) := by decide +kernel

end Textual.Layout.Intrinsic

namespace Textual.Nest

open Layout (Placement Viewport)
open Scroller (Mouse)

theorem ask_none (l : List Placement) : Pane.ask (fun _ => false) l = l := by
  induction l with
  | nil => rfl
  | cons c l ih => simp only [Pane.ask, Bool.false_eq_true, if_false, ih]

theorem ask_split (f : Nat → Bool) (l : List Placement) : ∃ rest, l = Pane.ask f l ++ rest ∧
    (∀ d ∈ (Pane.ask f l).dropLast, f d.childIndex = false) ∧
    (rest ≠ [] → ∃ d, (Pane.ask f l).getLast? = some d ∧ f d.childIndex = true) := by
  induction l with
  | nil => exact ⟨[], rfl, (fun _ h => nomatch h), fun h => absurd rfl h⟩
  | cons c l ih =>
    obtain ⟨rest, e, h1, h2⟩ := ih
    by_cases h : f c.childIndex = true
    · refine ⟨l, ?_, ?_, ?_⟩
      · simp only [Pane.ask, if_pos h]; rfl
      · simp only [Pane.ask, if_pos h]; intro d hd; cases hd
      · intro _; exact ⟨c, by simp only [Pane.ask, if_pos h]; rfl, h⟩
    · simp only [Bool.not_eq_true] at h
      have e1 : Pane.ask f (c :: l) = c :: Pane.ask f l := by
        simp only [Pane.ask, h, Bool.false_eq_true, if_false]
      rw [e1]
      refine ⟨rest, by rw [List.cons_append, ← e], ?_, ?_⟩
      · intro d hd
        cases hl : Pane.ask f l with
        | nil => rw [hl] at hd; cases hd
        | cons a as =>
          rw [hl] at hd h1
          rw [List.dropLast_cons_of_ne_nil (by simp)] at hd
          rcases List.mem_cons.1 hd with rfl | hd
          · exact h
          · exact h1 d hd
      · intro hr
        obtain ⟨d, hd, hf⟩ := h2 hr
        refine ⟨d, ?_, hf⟩
        cases hl : Pane.ask f l with
        | nil => rw [hl] at hd; cases hd
        | cons a as => rw [hl] at hd; rw [List.getLast?_cons_cons]; exact hd

/-- **C174**, overlapping children of a plain container: those under the mouse are asked in order up to the first one that
answers in its place, and that one is the last. -/
theorem asked_in_order (vp : Viewport) (r : Region) (m : Mouse) (answers : Nat → Region → Bool) (s : Scroller.Sheet)
    (b : Scroller.Body) (st : Pane.State)
    (hn : ((Box.asked vp r m (fun _ _ => false) (.pane s b st)).map (·.childIndex)).Nodup) :
    let all := Box.asked vp r m (fun _ _ => false) (.pane s b st)
    let asked := Box.asked vp r m answers (.pane s b st)
    ∃ rest, all = asked ++ rest ∧ (∀ d ∈ asked.dropLast, answers d.childIndex d.region = false) ∧
      (rest ≠ [] → ∃ d, asked.getLast? = some d ∧ answers d.childIndex d.region = true) := by
  have key : ∃ l, ∀ f, (((st.draw s b r vp).2).onMouse s b m r f).1 = Pane.ask f l := by
    unfold Pane.State.onMouse
    by_cases h1 : r.containsPoint m.column m.row = false
    · exact ⟨[], fun f => by rw [if_pos h1]; rfl⟩
    by_cases h2 : m.kind = .scrollDown ∧ (((st.draw s b r vp).2.shows s).v = true ∨ s.overflowY = .auto)
    · exact ⟨[], fun f => by rw [if_neg h1, if_pos h2]; rfl⟩
    by_cases h3 : m.kind = .scrollUp ∧ (((st.draw s b r vp).2.shows s).v = true ∨ s.overflowY = .auto)
    · exact ⟨[], fun f => by rw [if_neg h1, if_neg h2, if_pos h3]; rfl⟩
    · exact ⟨_, fun f => by rw [if_neg h1, if_neg h2, if_neg h3]⟩
  obtain ⟨l, hl⟩ := key
  have e0 : Box.asked vp r m (fun _ _ => false) (.pane s b st) = l := by
    simp only [Box.asked, hl, Bool.and_false, ask_none]
    rw [show (fun _ : Nat => l.any fun _ => false) = (fun _ : Nat => false) from funext fun _ => by simp]
    exact ask_none l
  rw [e0] at hn
  intro all asked
  have e1 : asked = Pane.ask (fun i => l.any fun c => c.childIndex == i && answers i c.region) l := by
    show Box.asked vp r m answers (.pane s b st) = _
    simp only [Box.asked, hl, ask_none]
  have own : ∀ d ∈ l, (l.any fun c => c.childIndex == d.childIndex && answers d.childIndex c.region) =
      answers d.childIndex d.region := by
    intro d hd
    have uniq : ∀ c ∈ l, c.childIndex = d.childIndex → c = d := by
      intro c hc e
      exact List.inj_on_of_nodup_map hn hc hd e
    cases hv : answers d.childIndex d.region with
    | true => exact List.any_eq_true.2 ⟨d, hd, by simp [hv]⟩
    | false =>
      refine List.any_eq_false.2 fun c hc => ?_
      intro h
      simp only [Bool.and_eq_true, beq_iff_eq] at h
      rw [uniq c hc h.1, hv] at h
      exact absurd h.2 (by decide)
  obtain ⟨rest, r1, r2, r3⟩ := ask_split (fun i => l.any fun c => c.childIndex == i && answers i c.region) l
  rw [← e1] at r1 r2 r3
  have sub : ∀ d ∈ asked, d ∈ l := fun d hd => by rw [r1]; exact List.mem_append_left _ hd
  refine ⟨rest, ?_, ?_, ?_⟩
  · show Box.asked vp r m (fun _ _ => false) (.pane s b st) = _
    rw [e0]; exact r1
  · intro d hd
    rw [← own d (sub d (List.dropLast_subset _ hd))]
    exact r2 d hd
  · intro hr
    obtain ⟨d, hd, hv⟩ := r3 hr
    exact ⟨d, hd, by rw [← own d (sub d (List.mem_of_getLast? hd))]; exact hv⟩

/-- Two cards on top of each other and one beside them. -/
def heap : Scroller.Body := { arrange := fun a _ => [⟨0, ⟨a.x, a.y, 5, 5⟩⟩, ⟨1, ⟨a.x, a.y, 8, 8⟩⟩, ⟨2, ⟨a.x, a.y, 9, 9⟩⟩] }

/-- The second answers, so the third is not asked. -/
example : (Box.asked ⟨20, 10⟩ ⟨0, 0, 20, 10⟩ ⟨.down, 2, 2, false⟩ (fun _ _ => false) (.pane {} heap {})).map (·.childIndex) =
      [0, 1, 2] ∧
    (Box.asked ⟨20, 10⟩ ⟨0, 0, 20, 10⟩ ⟨.down, 2, 2, false⟩ (fun i _ => i == 1) (.pane {} heap {})).map (·.childIndex) =
      [0, 1] := by decide +kernel

end Textual.Nest
