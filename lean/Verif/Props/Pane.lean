import Verif.Model.Pane
import Verif.Props.ScrollerMouse

/-! C107-C109: plain containers. -/

namespace Textual.Pane

open Layout (Placement Viewport)
open Scroller (Sheet Body Overflow Mouse Kind Flags inner scrolled inView At ScreenFree OnScreen contains_iff)

/-! ### C107: the layout drawn is that of the present children -/

/-- What happens to a container. The children are those present at the time. -/
inductive Event where
  | draw (b : Body) (r : Region) (vp : Viewport)
  | mouse (b : Body) (r : Region) (m : Mouse) (answers : Nat → Bool)
  /-- The container is told of a change: new style, `mark_dirty`, resize. -/
  | refresh
  /-- `set_children`. -/
  | replace

/-- One event; container.rs:126-131 `set_children`, the others at the definitions used. -/
def State.event (s : Sheet) (st : State) : Event → State
  | .draw b r vp => (st.draw s b r vp).2
  | .mouse b r m answers => (st.onMouse s b m r answers).2
  | .refresh => st.refresh
  | .replace => {}

def State.history (s : Sheet) (es : List Event) : State := es.foldl (State.event s) {}

/-- The container is told before it is used with changed children; `last` are the children it last saw. -/
def Told : Option Body → List Event → Prop
  | _, [] => True
  | last, .draw b _ _ :: es => (last = none ∨ last = some b) ∧ Told (some b) es
  | last, .mouse b _ _ _ :: es => (last = none ∨ last = some b) ∧ Told (some b) es
  | _, .refresh :: es => Told none es
  | _, .replace :: es => Told none es

/-- What is remembered is the layout of `b`. -/
def Valid (st : State) (b : Body) : Prop := ∀ a vp ps, st.cache = some (a, vp, ps) → ps = b.arrange a vp

theorem place_valid (st : State) (b : Body) (h : Valid st b) (a : Region) (vp : Viewport) :
    (st.place b a vp).1 = b.arrange a vp ∧ Valid (st.place b a vp).2 b ∧ (st.place b a vp).2.scroll = st.scroll := by
  unfold State.place
  split
  · rename_i a' vp' ps e
    split
    · rename_i hc
      exact ⟨by rw [h _ _ _ e, hc.1, hc.2], h, rfl⟩
    · refine ⟨rfl, ?_, rfl⟩
      intro a1 vp1 ps1 e1
      simp only [Option.some.injEq, Prod.mk.injEq] at e1
      rw [← e1.1, ← e1.2.1, ← e1.2.2]
  · refine ⟨rfl, ?_, rfl⟩
    intro a1 vp1 ps1 e1
    simp only [Option.some.injEq, Prod.mk.injEq] at e1
    rw [← e1.1, ← e1.2.1, ← e1.2.2]

theorem refresh_valid (st : State) (b : Body) : Valid st.refresh b := fun _ _ _ e => by cases e

theorem measure_valid {st : State} {b : Body} (h : Valid st b) (z : Int × Int) (a : Region) : Valid (st.measure z a) b := h

/-- The position after the first measurement. -/
def firstScroll (b : Body) (c : ScrollState) (a : Region) (vp : Viewport) : ScrollState :=
  (c.setVirtualSize (extent b (b.arrange a vp) a).1 (extent b (b.arrange a vp) a).2).setViewport a.width a.height

/-- The bars shown for this position. -/
def flagsOf (s : Sheet) (c : ScrollState) : Flags := State.shows s { scroll := c }

/-- A drawing without memory: the area, whether the layout is done again, and the position. -/
def drawPlain (s : Sheet) (b : Body) (c : ScrollState) (a : Region) (vp : Viewport) : Drawn × ScrollState :=
  let c1 := firstScroll b c a vp
  let content := contentRegion s a (flagsOf s c1)
  if (flagsOf s c1).v = true ∧ content.width < a.width then
    let c2 := firstScroll b c1 content vp
    (⟨content, ((b.arrange content vp).map fun c => (⟨c.childIndex, scrolled c2 c.region⟩ : Placement)).filter
      fun c => inView content c.region⟩, c2)
  else
    (⟨content, ((b.arrange a vp).map fun c => (⟨c.childIndex, scrolled c1 c.region⟩ : Placement)).filter
      fun c => inView content c.region⟩, c1)

theorem drawInner_plain (s : Sheet) (b : Body) (st : State) (h : Valid st b) (a : Region) (vp : Viewport) :
    (st.drawInner s b a vp).1 = (drawPlain s b st.scroll a vp).1 ∧
    (st.drawInner s b a vp).2.scroll = (drawPlain s b st.scroll a vp).2 ∧ Valid (st.drawInner s b a vp).2 b := by
  obtain ⟨h1, h2, h3⟩ := place_valid st b h a vp
  unfold State.drawInner drawPlain
  generalize st.place b a vp = q at *
  obtain ⟨first, st1⟩ := q
  dsimp only at h1 h2 h3 ⊢
  subst h1
  have hs : (st1.measure (extent b (b.arrange a vp) a) a).scroll = firstScroll b st.scroll a vp := by
    simp only [State.measure, firstScroll, h3]
  have hf : (st1.measure (extent b (b.arrange a vp) a) a).shows s = flagsOf s (firstScroll b st.scroll a vp) := by
    simp only [State.shows, flagsOf, hs]
  rw [hf]
  have hv := measure_valid h2 (extent b (b.arrange a vp) a) a
  generalize st1.measure (extent b (b.arrange a vp) a) a = st2 at *
  split
  · obtain ⟨g1, g2, g3⟩ := place_valid st2.refresh b (refresh_valid st2 b)
      (contentRegion s a (flagsOf s (firstScroll b st.scroll a vp))) vp
    generalize st2.refresh.place b (contentRegion s a (flagsOf s (firstScroll b st.scroll a vp))) vp = q at *
    obtain ⟨again, st3⟩ := q
    dsimp only at g1 g2 g3 ⊢
    subst g1
    have e3 : st3.scroll = firstScroll b st.scroll a vp := by rw [g3]; exact hs
    refine ⟨?_, ?_, measure_valid g2 _ _⟩
    · simp only [State.measure, e3, firstScroll]
    · simp only [State.measure, e3, firstScroll]
  · exact ⟨by rw [hs], hs, hv⟩

theorem draw_valid (s : Sheet) (b : Body) (st : State) (h : Valid st b) (r : Region) (vp : Viewport) :
    Valid (st.draw s b r vp).2 b := by
  unfold State.draw
  split
  · exact h
  · exact (drawInner_plain s b st h _ _).2.2

theorem onMouse_valid (s : Sheet) (b : Body) (st : State) (h : Valid st b) (m : Mouse) (r : Region) (f : Nat → Bool) :
    Valid (st.onMouse s b m r f).2 b := by
  unfold State.onMouse
  split
  · exact h
  split
  · exact h
  split
  · exact h
  exact (place_valid st b h _ _).2.1

theorem told_valid (s : Sheet) : ∀ (es : List Event) (last : Option Body) (st : State) (b : Body) (r : Region)
    (vp : Viewport), (∀ b', last = none ∨ last = some b' → Valid st b') → Told last (es ++ [.draw b r vp]) →
    Valid (es.foldl (State.event s) st) b
  | [], last, st, b, r, vp, hv, ht => hv b ht.1
  | .draw b' r' vp' :: es, last, st, b, r, vp, hv, ht =>
    told_valid s es (some b') _ b r vp (fun c hc => by
      rcases hc with e | e
      · cases e
      · cases e; exact draw_valid s b' st (hv b' ht.1) r' vp') ht.2
  | .mouse b' r' m f :: es, last, st, b, r, vp, hv, ht =>
    told_valid s es (some b') _ b r vp (fun c hc => by
      rcases hc with e | e
      · cases e
      · cases e; exact onMouse_valid s b' st (hv b' ht.1) m r' f) ht.2
  | .refresh :: es, last, st, b, r, vp, _, ht =>
    told_valid s es none _ b r vp (fun c _ => refresh_valid st c) ht
  | .replace :: es, last, st, b, r, vp, _, ht =>
    told_valid s es none _ b r vp (fun c _ => fun _ _ _ e => by cases e) ht

/-- **C107** (partial: the container must be told of changes; see `stale_counterexample`). After any history in which
it is told of every change before it is used again, a container draws just what it would draw if it had
remembered no layout. -/
theorem drawn_current_partial (s : Sheet) (es : List Event) (b : Body) (r : Region) (vp : Viewport)
    (h : Told none (es ++ [.draw b r vp])) :
    ((State.history s es).draw s b r vp).1 = ((State.history s es).refresh.draw s b r vp).1 := by
  have hv : Valid (State.history s es) b := told_valid s es none {} b r vp
    (fun _ _ => fun _ _ _ e => by cases e) h
  unfold State.draw
  split
  · rfl
  · rw [(drawInner_plain s b _ hv _ _).1, (drawInner_plain s b _ (refresh_valid _ b) _ _).1]
    rfl

def slab (w h : Int) : Body := { arrange := fun a _ => [⟨0, ⟨a.x, a.y, w, h⟩⟩] }

example : Told none ([.draw (slab 5 3) ⟨0, 0, 20, 10⟩ ⟨80, 24⟩, .refresh] ++
    [.draw (slab 9 3) ⟨0, 0, 20, 10⟩ ⟨80, 24⟩]) := ⟨.inl rfl, .inl rfl, trivial⟩

/-- **C107** fails without that: a child that has grown is drawn at its old size. -/
theorem stale_counterexample :
    let s : Sheet := { overflowX := .hidden, overflowY := .hidden }
    let st := State.history s [.draw (slab 5 3) ⟨0, 0, 20, 10⟩ ⟨80, 24⟩]
    (st.draw s (slab 9 3) ⟨0, 0, 20, 10⟩ ⟨80, 24⟩).1.children = [⟨0, ⟨0, 0, 5, 3⟩⟩] ∧
    (st.refresh.draw s (slab 9 3) ⟨0, 0, 20, 10⟩ ⟨80, 24⟩).1.children = [⟨0, ⟨0, 0, 9, 3⟩⟩] := by
  exact ⟨by decide +kernel, by decide +kernel⟩

/-! ### C108: a plain container never scrolls sideways -/

theorem firstScroll_x (b : Body) (c : ScrollState) (a : Region) (vp : Viewport) (h : c.offsetX = 0) :
    (firstScroll b c a vp).offsetX = 0 := by
  simp only [firstScroll, ScrollState.setViewport, ScrollState.setVirtualSize, ScrollState.reclamp,
    ScrollState.maxScrollX, h]
  omega

theorem measure_x {st : State} (h : st.scroll.offsetX = 0) (z : Int × Int) (a : Region) :
    (st.measure z a).scroll.offsetX = 0 := by
  simp only [State.measure, ScrollState.setViewport, ScrollState.setVirtualSize, ScrollState.reclamp,
    ScrollState.maxScrollX, h]
  omega

theorem place_scroll (st : State) (b : Body) (a : Region) (vp : Viewport) : (st.place b a vp).2.scroll = st.scroll := by
  unfold State.place; split <;> (try split) <;> rfl

theorem event_x (s : Sheet) (st : State) (h : st.scroll.offsetX = 0) (e : Event) :
    (st.event s e).scroll.offsetX = 0 := by
  cases e with
  | draw b r vp =>
    simp only [State.event, State.draw]
    split
    · exact h
    · unfold State.drawInner
      dsimp only
      have h1 : ((st.place b (inner s r) vp).2.measure (extent b (st.place b (inner s r) vp).1 (inner s r))
          (inner s r)).scroll.offsetX = 0 := measure_x (by rw [place_scroll]; exact h) _ _
      split
      · exact measure_x (by rw [place_scroll]; exact h1) _ _
      · exact h1
  | mouse b r m f =>
    simp only [State.event, State.onMouse]
    split
    · exact h
    split
    · exact h
    split
    · exact h
    dsimp only
    rw [place_scroll]; exact h
  | refresh => exact h
  | replace => rfl

/-- **C108** is false in general: whatever happens, a plain container stays at its left edge, although with
`overflow-x: auto` it shows a horizontal scrollbar for content that is too wide. -/
theorem never_sideways (s : Sheet) (es : List Event) : (State.history s es).scroll.offsetX = 0 := by
  have key : ∀ (es : List Event) (st : State), st.scroll.offsetX = 0 →
      (es.foldl (State.event s) st).scroll.offsetX = 0 := by
    intro es
    induction es with
    | nil => exact fun _ h => h
    | cons e es ih => exact fun st h => ih _ (event_x s st h e)
  exact key es {} rfl

/-- The bar is there, and column 25 of the content cannot be seen. -/
theorem sideways_counterexample :
    let st := State.history {} [.draw (slab 30 5) ⟨0, 0, 20, 10⟩ ⟨80, 24⟩]
    (st.shows {}).h = true ∧ st.scroll.virtualWidth = 30 ∧ st.scroll.viewportWidth = 20 := by decide +kernel

end Textual.Pane
