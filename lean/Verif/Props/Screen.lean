import Verif.Model.Screen
import Verif.Props.ScrollerMouse

/-! C111-C114: the screen. -/

namespace Textual.Screen

open Layout (Placement Viewport)
open Scroller (Sheet Body Overflow Mouse Kind Flags inner scrolled inView virtualSize State vRegion hRegion
  contentRegion drawsV drawsH At ScreenFree Apart OnScreen Monotone TooTall TooWide contains_iff virtual_tall
  find_apart)

/-! ### C111: responsive classes -/

/-- `cls` is the class for a size: its breakpoint is reached and none listed after it is; `none` if none is
reached. -/
def ClassFor (bps : List Breakpoint) (size : Nat) : Option String → Prop
  | some cls => ∃ before t after, bps = before ++ (t, cls) :: after ∧ t ≤ size ∧ ∀ b ∈ after, size < b.1
  | none => ∀ b ∈ bps, size < b.1

theorem reached_spec (bps : List Breakpoint) (size : Nat) : ClassFor bps size (reached bps size) := by
  induction bps using List.reverseRecOn with
  | nil => intro b hb; cases hb
  | append_singleton bps b ih =>
    obtain ⟨t, cls⟩ := b
    unfold reached at ih ⊢
    rw [List.filter_append]
    by_cases h : t ≤ size
    · have : (List.filter (fun b : Breakpoint => decide (size ≥ b.1)) [(t, cls)]) = [(t, cls)] := by
        simp [h]
      rw [this, List.getLast?_append_of_ne_nil _ (by simp)]
      exact ⟨bps, t, [], rfl, h, fun b hb => by cases hb⟩
    · have : (List.filter (fun b : Breakpoint => decide (size ≥ b.1)) [(t, cls)]) = [] := by
        simp; omega
      rw [this, List.append_nil]
      revert ih
      cases ((bps.filter fun b : Breakpoint => decide (size ≥ b.1)).getLast?) with
      | none =>
        intro ih b hb
        rcases List.mem_append.1 hb with hb | hb
        · exact ih b hb
        · rw [List.mem_singleton] at hb; subst hb; show size < t; omega
      | some c =>
        rintro ⟨before, t', after, h1, h2, h3⟩
        refine ⟨before, t', after ++ [(t, cls)], by rw [h1]; simp, h2, fun b hb => ?_⟩
        rcases List.mem_append.1 hb with hb | hb
        · exact h3 b hb
        · rw [List.mem_singleton] at hb; subst hb; show size < t; omega

/-- What happens to the screen. -/
inductive Event where
  | resize (width height : Nat)
  /-- The screen is drawn, and its flag taken back. -/
  | drawn

def Responsive.event (h v : List Breakpoint) (st : Responsive) : Event → Responsive
  | .resize width height => st.resize h v width height
  | .drawn => { st with dirty := false }

def Responsive.history (h v : List Breakpoint) (es : List Event) : Responsive := es.foldl (Responsive.event h v) {}

/-- **C111**. Whatever the sizes before, after a resize the screen has the classes for the new size, one for each axis
at most, and no others. -/
theorem classes_for_size (h v : List Breakpoint) (es : List Event) (width height : Nat) :
    ∃ ch cv, (Responsive.history h v (es ++ [.resize width height])).classes = ch.toList ++ cv.toList ∧
      ClassFor h width ch ∧ ClassFor v height cv := by
  refine ⟨reached h width, reached v height, ?_, reached_spec h width, reached_spec v height⟩
  simp only [Responsive.history, List.foldl_append, List.foldl_cons, List.foldl_nil, Responsive.event,
    Responsive.resize]

/-- **C111**. For breakpoints in rising order the class is that of the greatest one reached. -/
theorem greatest_reached (bps : List Breakpoint) (size : Nat) (hs : bps.Pairwise fun a b => a.1 < b.1) (t : Nat)
    (cls : String) (hm : (t, cls) ∈ bps) (ht : t ≤ size) (hmax : ∀ b ∈ bps, b.1 ≤ size → b.1 ≤ t) (c : Option String)
    (hc : ClassFor bps size c) : c = some cls := by
  cases c with
  | none => exact absurd (hc _ hm) (by show ¬ size < t; omega)
  | some c =>
    obtain ⟨before, t', after, h1, h2, h3⟩ := hc
    subst h1
    rw [List.pairwise_append] at hs
    obtain ⟨-, hs2, hs3⟩ := hs
    rw [List.pairwise_cons] at hs2
    rcases List.mem_append.1 hm with hb | hb
    · have h4 := hs3 _ hb _ (List.mem_cons_self ..)
      have h5 := hmax (t', c) (by simp) h2
      simp only at h4 h5; omega
    · rcases List.mem_cons.1 hb with e | e
      · cases e; rfl
      · have := h3 _ e; simp only at this; omega

example : ClassFor [(0, "-narrow"), (80, "-wide")] 100 (some "-wide") ∧
    (Responsive.history [(0, "-narrow"), (80, "-wide")] [(0, "-short"), (24, "-tall")]
      [.resize 100 10, .resize 79 24]).classes = ["-narrow", "-tall"] := by
  refine ⟨⟨[(0, "-narrow")], 80, [], rfl, by decide, fun b hb => by cases hb⟩, by decide +kernel⟩

/-- **C111**. If the classes are not those of the last drawing, a redraw has been asked for. -/
theorem change_asks_redraw (h v : List Breakpoint) (es rest : List Event) (hrest : ∀ e ∈ rest, e ≠ .drawn)
    (hd : (Responsive.history h v (es ++ .drawn :: rest)).dirty = false) :
    (Responsive.history h v (es ++ .drawn :: rest)).classes = (Responsive.history h v es).classes := by
  have key : ∀ (rest : List Event) (st : Responsive), (∀ e ∈ rest, e ≠ .drawn) →
      (rest.foldl (Responsive.event h v) st).dirty = false →
      st.dirty = false ∧ (rest.foldl (Responsive.event h v) st).classes = st.classes := by
    intro rest
    induction rest with
    | nil => exact fun st _ hd => ⟨hd, rfl⟩
    | cons e rest ih =>
      intro st hr hd
      obtain ⟨i1, i2⟩ := ih _ (fun e he => hr e (List.mem_cons_of_mem _ he)) hd
      cases e with
      | drawn => exact absurd rfl (hr _ (List.mem_cons_self ..))
      | resize w hh =>
        simp only [Responsive.event, Responsive.resize, Bool.or_eq_false_iff, decide_eq_false_iff_not,
          not_not] at i1
        refine ⟨i1.1, ?_⟩
        rw [List.foldl_cons, i2]
        exact i1.2.symm
  simp only [Responsive.history, List.foldl_append, List.foldl_cons] at hd ⊢
  exact (key rest _ hrest hd).2

example : (Responsive.history [(0, "-narrow"), (80, "-wide")] [] ([.resize 100 10] ++ .drawn :: [.resize 90 10])).dirty
      = false ∧
    (Responsive.history [(0, "-narrow"), (80, "-wide")] [] ([.resize 100 10] ++ .drawn :: [.resize 60 10])).dirty
      = true := by decide +kernel

end Textual.Screen
