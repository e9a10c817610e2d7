import Verif.Props.ScrollerMoves

/-! C106: mouse events reach the child drawn at the pointer. -/

namespace Textual.Scroller

open Layout (Placement Viewport)

/-- The layout does not depend on the size of the screen (no `vw` or `vh` lengths). -/
def ScreenFree (b : Body) : Prop := ∀ a v v', b.arrange a v = b.arrange a v'

/-- No cell belongs to two children. -/
def Apart (b : Body) (vp : Viewport) : Prop :=
  ∀ a, (b.arrange a vp).Pairwise fun p q => ∀ x y, ¬ (At p.region x y ∧ At q.region x y)

/-- The pointer is on the screen (`u16` coordinates). -/
def OnScreen (m : Mouse) : Prop := 0 ≤ m.column ∧ m.column < 65536 ∧ 0 ≤ m.row ∧ m.row < 65536

/-- Not the wheel, and so meant for what is under the pointer. -/
def Kind.points : Kind → Bool
  | .moved | .down | .drag | .up => true
  | _ => false

theorem contains_iff (r : Region) (x y : Int) (hx : 0 ≤ x ∧ x < 65536) (hy : 0 ≤ y ∧ y < 65536) :
    r.containsPoint x y = true ↔ At r x y := by
  have key : ∀ a b z : Int, 0 ≤ z → z < 65536 → (z < satAdd a b ↔ z < a + b) := by
    intro a b z h0 h1
    unfold satAdd
    rcases le_total (a + b) 2147483647 with h | h
    · rw [min_eq_right h]
      rcases le_total (-2147483648) (a + b) with h' | h'
      · rw [max_eq_right h']
      · rw [max_eq_left h']; omega
    · rw [min_eq_left h, max_eq_right (by decide)]; omega
  simp only [Region.containsPoint, Bool.and_eq_true, decide_eq_true_eq, At, ge_iff_le,
    key _ _ _ hx.1 hx.2, key _ _ _ hy.1 hy.2, and_assoc]

theorem plan_screen (s : Sheet) (b : Body) (r : Region) (hb : ScreenFree b) (v v' : Viewport) :
    plan s b r v = plan s b r v' := by
  have hn : ∀ f, next s b r v f = next s b r v' f := fun f => by
    simp only [next, hb (contentRegion s r f) v v']
  have hr : ∀ n f, rounds s b r v n f = rounds s b r v' n f := by
    intro n
    induction n with
    | zero => intro f; rw [rounds, rounds]; simp only [hn, hb (contentRegion s r f) v v']
    | succ n ih => intro f; rw [rounds, rounds]; simp only [hn, hb (contentRegion s r f) v v', ih]
  exact hr 2 {}

theorem laidOut_twice (st : State) (p : Plan) : (st.laidOut p).laidOut p = st.laidOut p := by
  simp only [State.laidOut, ScrollState.setVirtualSize, ScrollState.setViewport, ScrollState.reclamp,
    ScrollState.maxScrollX, ScrollState.maxScrollY]
  congr 2 <;> omega

theorem mem_drawn (st : State) (p : Plan) (c : Placement) (x y : Int) (h1 : At p.content x y)
    (h2 : At c.region x y) (hc : c ∈ p.placements.map fun c => (⟨c.childIndex, scrolled (st.laidOut p).scroll c.region⟩ : Placement)) :
    c ∈ st.drawn p := by
  refine List.mem_filter.2 ⟨hc, ?_⟩
  simp only [inView, decide_eq_true_eq, At] at *
  omega

theorem onMouse_child (s : Sheet) (b : Body) (st : State) (m : Mouse) (r : Region) (c : Placement)
    (h : (st.onMouse s b m r).2 = some c) :
    let p := plan s b (inner s r) (Viewport.ofRegion r)
    childAt (st.laidOut p).scroll p m.column m.row = some c := by
  revert h
  unfold State.onMouse
  dsimp only
  generalize plan s b (inner s r) (Viewport.ofRegion r) = p
  cases m.kind <;> dsimp only <;> (repeat' split) <;> intro h <;> first | exact h | cases h

/-- **C106** (partial: layouts without `vw`/`vh`; see `vw_counterexample`). A mouse event given to a child is given to
one that was drawn at the pointer, with the very region it was drawn in, and the pointer is in the content
area: no child gets an event for a place where it cannot be seen. -/
theorem mouse_to_drawn_partial (s : Sheet) (b : Body) (st : State) (m : Mouse) (r : Region) (vp : Viewport)
    (c : Placement) (hb : ScreenFree b) (hm : OnScreen m) (hr : 0 < r.width ∧ 0 < r.height)
    (h : ((st.event s (.draw b r vp)).onMouse s b m r).2 = some c) :
    c ∈ st.drawn (plan s b (inner s r) vp) ∧ At c.region m.column m.row ∧
    At (plan s b (inner s r) vp).content m.column m.row := by
  have h' := onMouse_child _ _ _ _ _ _ h
  dsimp only at h'
  rw [State.event, if_neg (by omega), plan_screen s b (inner s r) hb (Viewport.ofRegion r) vp, laidOut_twice] at h'
  unfold childAt at h'
  split at h'
  · rename_i hcp
    have h1 := (contains_iff _ _ _ ⟨hm.1, hm.2.1⟩ hm.2.2).1 hcp
    have h2 := (contains_iff c.region _ _ ⟨hm.1, hm.2.1⟩ hm.2.2).1 (List.find?_some (p := fun c : Placement => c.region.containsPoint m.column m.row) h')
    exact ⟨mem_drawn st _ c _ _ h1 h2 (List.mem_of_find?_eq_some h'), h2, h1⟩
  · cases h'

theorem find_apart {α : Type} (p : α → Bool) (l : List α) (c : α) (hc : c ∈ l) (hp : p c = true)
    (ha : l.Pairwise fun a b => ¬ (p a = true ∧ p b = true)) : l.find? p = some c := by
  induction l with
  | nil => cases hc
  | cons a l ih =>
    rw [List.pairwise_cons] at ha
    rcases List.mem_cons.1 hc with rfl | hm
    · rw [List.find?_cons_of_pos hp]
    · rw [List.find?_cons_of_neg (fun h => ha.1 c hm ⟨h, hp⟩), ih hm ha.2]

theorem content_off_bars (s : Sheet) (r : Region) (f : Flags) (x y : Int) (h : At (contentRegion s r f) x y) :
    (f.v = true → ¬ At (vRegion s r f.h) x y) ∧ (f.h = true → ¬ At (hRegion s r f.v) x y) := by
  constructor
  · intro hv
    simp only [At, contentRegion, vRegion, hv, true_or, if_true] at *
    omega
  · intro hh
    simp only [At, contentRegion, hRegion, hh, if_true] at *
    omega

/-- **C106** (partial: as above, children that do not overlap and layouts as in C102). While no bar is held, moving,
pressing, dragging or releasing over a child that is drawn there gives the event to that child, with the region
it was drawn in. -/
theorem drawn_gets_mouse_partial (s : Sheet) (b : Body) (st : State) (m : Mouse) (r : Region) (vp : Viewport)
    (c : Placement) (hb : ScreenFree b) (hmono : Monotone b vp) (hap : Apart b vp) (hm : OnScreen m)
    (hr : 0 < r.width ∧ 0 < r.height) (hd : st.drag = none) (hk : m.kind.points = true)
    (hc : c ∈ st.drawn (plan s b (inner s r) vp)) (h1 : At (plan s b (inner s r) vp).content m.column m.row)
    (h2 : At c.region m.column m.row) :
    ((st.event s (.draw b r vp)).onMouse s b m r).2 = some c := by
  have hbars := bars_partial s b (inner s r) vp hmono
  dsimp only at hbars
  obtain ⟨_, _, hcont, hpl, _⟩ := hbars
  have e : State.event s st (.draw b r vp) = st.laidOut (plan s b (inner s r) vp) := by
    rw [State.event, if_neg (by omega)]
  have hoff := content_off_bars s (inner s r) (plan s b (inner s r) vp).show_ m.column m.row (hcont ▸ h1)
  have hchild : childAt (st.laidOut (plan s b (inner s r) vp)).scroll (plan s b (inner s r) vp) m.column m.row =
      some c := by
    unfold childAt
    rw [if_pos ((contains_iff _ _ _ ⟨hm.1, hm.2.1⟩ hm.2.2).2 h1)]
    refine find_apart _ _ c (List.mem_filter.1 hc).1 ((contains_iff _ _ _ ⟨hm.1, hm.2.1⟩ hm.2.2).2 h2) ?_
    rw [List.pairwise_map, hpl]
    refine (hap _).imp fun {p q} hpq => ?_
    rw [contains_iff _ _ _ ⟨hm.1, hm.2.1⟩ hm.2.2, contains_iff _ _ _ ⟨hm.1, hm.2.1⟩ hm.2.2]
    have := hpq (m.column + (st.laidOut (plan s b (inner s r) vp)).scroll.offsetX)
      (m.row + (st.laidOut (plan s b (inner s r) vp)).scroll.offsetY)
    simp only [At, scrolled] at this ⊢
    omega
  rw [e]
  unfold State.onMouse
  dsimp only
  rw [plan_screen s b (inner s r) hb (Viewport.ofRegion r) vp, laidOut_twice]
  have hd' : (st.laidOut (plan s b (inner s r) vp)).drag = none := hd
  generalize plan s b (inner s r) vp = p at *
  generalize st.laidOut p = q at *
  have hV : (drawsV s p.show_ && (vRegion s (inner s r) p.show_.h).containsPoint m.column m.row) = false := by
    rw [Bool.eq_false_iff]
    intro h
    simp only [Bool.and_eq_true, drawsV] at h
    exact hoff.1 h.1.1.1 ((contains_iff _ _ _ ⟨hm.1, hm.2.1⟩ hm.2.2).1 h.2)
  have hH : (drawsH s p.show_ && (hRegion s (inner s r) p.show_.v).containsPoint m.column m.row) = false := by
    rw [Bool.eq_false_iff]
    intro h
    simp only [Bool.and_eq_true, drawsH] at h
    exact hoff.2 h.1.1.1 ((contains_iff _ _ _ ⟨hm.1, hm.2.1⟩ hm.2.2).1 h.2)
  rw [hV, hH, hd', hchild]
  cases hkind : m.kind <;> rw [hkind] at hk <;> first | rfl | cases hk

/-- Two cards below each other in a padded container, scrolled. -/
def pair : Body := { arrange := fun a _ => [⟨0, ⟨a.x, a.y, 8, 6⟩⟩, ⟨1, ⟨a.x, a.y + 6, 8, 6⟩⟩] }

def padded : Sheet := { chromeLeft := 1, chromeTop := 1, chromeRight := 1, chromeBottom := 1 }

example : ScreenFree pair ∧ Monotone pair ⟨80, 24⟩ ∧ Apart pair ⟨80, 24⟩ := by
  refine ⟨fun _ _ _ => rfl, ?_, ?_⟩
  · intro x y w h w' h' hw hh
    simp only [TooTall, TooWide, pair, List.mem_cons, List.not_mem_nil, or_false, exists_eq_or_imp, exists_eq_left]
    omega
  · intro a
    simp only [pair, List.pairwise_cons, List.mem_cons, List.not_mem_nil, or_false, forall_eq, At,
      List.Pairwise.nil, and_true, false_implies, implies_true]
    omega

example :
    let st := (State.history padded [.draw pair ⟨0, 0, 20, 10⟩ ⟨80, 24⟩, .key .down, .key .down])
    OnScreen ⟨.down, 3, 6, false⟩ ∧
    (⟨1, ⟨1, 5, 8, 6⟩⟩ : Placement) ∈ st.drawn (plan padded pair (inner padded ⟨0, 0, 20, 10⟩) ⟨80, 24⟩) ∧
    ((st.event padded (.draw pair ⟨0, 0, 20, 10⟩ ⟨80, 24⟩)).onMouse padded pair ⟨.down, 3, 6, false⟩
      ⟨0, 0, 20, 10⟩).2 = some ⟨1, ⟨1, 5, 8, 6⟩⟩ := by
  refine ⟨by unfold OnScreen; decide, by decide +kernel, by decide +kernel⟩

/-- A child half as wide as the screen (`width: 50vw`). -/
def half : Body := { arrange := fun a v => [⟨0, ⟨a.x, a.y, v.width / 2, 3⟩⟩] }

/-- **C106**, the case left out: `vw` is the screen's width when drawing and the container's own width for the
mouse. In a container of 50 columns on a screen of 80 the child is drawn 40 wide, and a press in its column 30
reaches nobody. -/
theorem vw_counterexample :
    (⟨0, ⟨0, 0, 40, 3⟩⟩ : Placement) ∈ State.drawn {} (plan {} half ⟨0, 0, 50, 10⟩ ⟨80, 24⟩) ∧
    ((State.event {} {} (.draw half ⟨0, 0, 50, 10⟩ ⟨80, 24⟩)).onMouse {} half ⟨.down, 30, 1, false⟩
      ⟨0, 0, 50, 10⟩).2 = none := by
  exact ⟨by decide +kernel, by decide +kernel⟩

/-- Two children in the same place, as on two layers. -/
def stacked : Body := { arrange := fun a _ => [⟨0, ⟨a.x, a.y, 8, 3⟩⟩, ⟨1, ⟨a.x, a.y, 8, 3⟩⟩] }

/-- **C106**, the case left out: of children that overlap the last is drawn on top, and the first gets the mouse. -/
theorem overlap_counterexample :
    (State.drawn {} (plan {} stacked ⟨0, 0, 20, 10⟩ ⟨80, 24⟩)).map (·.childIndex) = [0, 1] ∧
    ((State.event {} {} (.draw stacked ⟨0, 0, 20, 10⟩ ⟨80, 24⟩)).onMouse {} stacked ⟨.down, 3, 1, false⟩
      ⟨0, 0, 20, 10⟩).2 = some ⟨0, ⟨0, 0, 8, 3⟩⟩ := by
  exact ⟨by decide +kernel, by decide +kernel⟩

end Textual.Scroller
