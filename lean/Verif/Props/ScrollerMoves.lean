import Verif.Props.Scroller
import Verif.Props.Scroll

/-! C104: the position of a scrolling container over every history of events. -/

namespace Textual.Scroller

open Layout (Placement Viewport)

/-- What happens to a scrolling container; the content and the region may differ every time. -/
inductive Event where
  | draw (b : Body) (r : Region) (vp : Viewport)
  | key (k : Key)
  | mouse (b : Body) (r : Region) (m : Mouse)
  | leave

/-- One event (`render`, `on_event`, `on_mouse`, `clear_hover` of scrollable.rs; lines at the definitions used). -/
def State.event (s : Sheet) (st : State) : Event → State
  | .draw b r vp => if r.width ≤ 0 ∨ r.height ≤ 0 then st else st.laidOut (plan s b (inner s r) vp)
  | .key k => (st.onKey s k).1
  | .mouse b r m => (st.onMouse s b m r).1
  | .leave => st.clearHover

def State.history (s : Sheet) (es : List Event) : State := es.foldl (State.event s) {}

/-- The position is inside the content and the window is not of negative size. -/
def Fine (c : ScrollState) : Prop := c.InBounds ∧ 0 ≤ c.viewportWidth ∧ 0 ≤ c.viewportHeight

theorem page_nonneg {n : Int} (h : 0 ≤ n) : 0 ≤ page n := by
  unfold page
  have : (0 : Rat) ≤ (n : Rat) * (9 / 10) := mul_nonneg (by exact_mod_cast h) (by norm_num)
  rw [Scrollbar.trunc, if_pos this]
  exact Int.floor_nonneg.2 this

theorem fine_step {c : ScrollState} (h : Fine c) (op : ScrollState.Op) (ho : op.NonNeg)
    (hv : ∀ w h, op = .setViewport w h → 0 ≤ w ∧ 0 ≤ h) : Fine (c.step op) := by
  refine ⟨ScrollState.step_inBounds h.1 ho, ?_⟩
  cases op with
  | setViewport w h => exact hv w h rfl
  | scrollTo x y => cases x <;> cases y <;> exact h.2
  | _ => exact h.2

theorem content_size (s : Sheet) (r : Region) (f : Flags) :
    0 ≤ (contentRegion s r f).width ∧ 0 ≤ (contentRegion s r f).height := by
  simp only [contentRegion]; omega

theorem plan_content (s : Sheet) (b : Body) (r : Region) (vp : Viewport) :
    ∃ f, (plan s b r vp).content = contentRegion s r f := by
  unfold plan
  rw [rounds]; dsimp only
  split
  · exact ⟨_, rfl⟩
  rw [rounds]; dsimp only
  split
  · exact ⟨_, rfl⟩
  rw [rounds]; exact ⟨_, rfl⟩

/-- What every event does to the position: a step of `ScrollState` within an axis that may scroll, or a new layout. -/
inductive Moves (s : Sheet) : ScrollState → ScrollState → Prop
  | refl (c) : Moves s c c
  | op {c d} (o : ScrollState.Op) (hn : o.NonNeg)
      (hx : s.overflowX = .hidden → (c.step o).offsetX = c.offsetX)
      (hy : s.overflowY = .hidden → (c.step o).offsetY = c.offsetY)
      (hv : (c.step o).viewportWidth = c.viewportWidth ∧ (c.step o).viewportHeight = c.viewportHeight)
      (t : Moves s (c.step o) d) : Moves s c d
  | layout {c d} (vw vh w h : Int) (hw : 0 ≤ w) (hh : 0 ≤ h)
      (t : Moves s ((c.setVirtualSize vw vh).setViewport w h) d) : Moves s c d

theorem Moves.trans {s : Sheet} {a b c : ScrollState} (h : Moves s a b) (h' : Moves s b c) : Moves s a c := by
  induction h with
  | refl => exact h'
  | op o a1 a2 a3 a4 _ ih => exact .op o a1 a2 a3 a4 (ih h')
  | layout vw vh w h a b _ ih => exact .layout vw vh w h a b (ih h')

theorem Moves.fine {s : Sheet} {a b : ScrollState} (h : Moves s a b) (hf : Fine a) : Fine b := by
  induction h with
  | refl => exact hf
  | op o hn hx hy hv _ ih =>
    exact ih ⟨ScrollState.step_inBounds hf.1 hn, by rw [hv.1]; exact hf.2.1, by rw [hv.2]; exact hf.2.2⟩
  | layout vw vh w h hw hh _ ih =>
    exact ih ⟨ScrollState.setViewport_inBounds _ _ _, hw, hh⟩

/-- An axis that may not scroll stays at its start. -/
theorem Moves.still {s : Sheet} {a b : ScrollState} (h : Moves s a b) :
    (s.overflowX = .hidden → a.offsetX = 0 → b.offsetX = 0) ∧
    (s.overflowY = .hidden → a.offsetY = 0 → b.offsetY = 0) := by
  induction h with
  | refl => exact ⟨fun _ h => h, fun _ h => h⟩
  | op o hn hx hy hv _ ih =>
    exact ⟨fun e h0 => ih.1 e (by rw [hx e, h0]), fun e h0 => ih.2 e (by rw [hy e, h0])⟩
  | layout vw vh w h hw hh _ ih =>
    refine ⟨fun e h0 => ih.1 e ?_, fun e h0 => ih.2 e ?_⟩ <;>
      simp only [ScrollState.setViewport, ScrollState.setVirtualSize, ScrollState.reclamp, ScrollState.maxScrollX,
        ScrollState.maxScrollY, h0] <;> omega

theorem Moves.up {s : Sheet} (c : ScrollState) {n : Int} (h : s.overflowY ≠ .hidden) (hn : 0 ≤ n) :
    Moves s c (c.scrollUp n) := .op (.up n) hn (fun _ => rfl) (fun e => absurd e h) ⟨rfl, rfl⟩ (.refl _)

theorem Moves.down {s : Sheet} (c : ScrollState) {n : Int} (h : s.overflowY ≠ .hidden) (hn : 0 ≤ n) :
    Moves s c (c.scrollDown n) := .op (.down n) hn (fun _ => rfl) (fun e => absurd e h) ⟨rfl, rfl⟩ (.refl _)

theorem Moves.left {s : Sheet} (c : ScrollState) {n : Int} (h : s.overflowX ≠ .hidden) (hn : 0 ≤ n) :
    Moves s c (c.scrollLeft n) := .op (.left n) hn (fun e => absurd e h) (fun _ => rfl) ⟨rfl, rfl⟩ (.refl _)

theorem Moves.right {s : Sheet} (c : ScrollState) {n : Int} (h : s.overflowX ≠ .hidden) (hn : 0 ≤ n) :
    Moves s c (c.scrollRight n) := .op (.right n) hn (fun e => absurd e h) (fun _ => rfl) ⟨rfl, rfl⟩ (.refl _)

theorem Moves.to {s : Sheet} (c : ScrollState) (x y : Option Rat) (hx : s.overflowX = .hidden → x = none)
    (hy : s.overflowY = .hidden → y = none) : Moves s c (c.scrollTo x y) := by
  refine .op (.scrollTo x y) trivial ?_ ?_ ?_ (.refl _)
  · intro e; rw [hx e]; cases y <;> rfl
  · intro e; rw [hy e]; cases x <;> rfl
  · cases x <;> cases y <;> exact ⟨rfl, rfl⟩

/-- A bar can only be held on an axis that may scroll. -/
def DragOk (s : Sheet) (st : State) : Prop :=
  ∀ v g, st.drag = some (v, g) → if v then s.overflowY ≠ .hidden else s.overflowX ≠ .hidden

theorem onKey_moves (s : Sheet) (st : State) (hf : Fine st.scroll) (k : Key) :
    Moves s st.scroll (st.onKey s k).1.scroll ∧ (st.onKey s k).1.drag = st.drag := by
  cases k <;> simp only [State.onKey] <;> try split
  all_goals first | exact ⟨.refl _, rfl⟩ | exact ⟨.refl _, trivial⟩ | rename_i h
  · exact ⟨.up _ h (by omega), rfl⟩
  · exact ⟨.down _ h (by omega), rfl⟩
  · exact ⟨.left _ h (by omega), rfl⟩
  · exact ⟨.right _ h (by omega), rfl⟩
  · exact ⟨.up _ h (page_nonneg hf.2.2), rfl⟩
  · exact ⟨.down _ h (page_nonneg hf.2.2), rfl⟩
  · exact ⟨.to _ _ _ (fun e => by simp [e]) (fun e => by simp [e]), rfl⟩
  · exact ⟨.to _ _ _ (fun e => by simp [e]) (fun e => by simp [e]), rfl⟩

theorem next_hidden (s : Sheet) (b : Body) (r : Region) (vp : Viewport) (f : Flags) :
    ((next s b r vp f).v = true → s.overflowY ≠ .hidden) ∧ ((next s b r vp f).h = true → s.overflowX ≠ .hidden) := by
  constructor
  · rw [next_v]; rintro (h | h) <;> simp [h]
  · rw [next_h]; rintro (h | h) <;> simp [h]

theorem plan_hidden (s : Sheet) (b : Body) (r : Region) (vp : Viewport) :
    ((plan s b r vp).show_.v = true → s.overflowY ≠ .hidden) ∧
    ((plan s b r vp).show_.h = true → s.overflowX ≠ .hidden) := by
  unfold plan
  rw [rounds]; dsimp only
  split
  · exact next_hidden ..
  rw [rounds]; dsimp only
  split
  · exact next_hidden ..
  rw [rounds]; exact next_hidden ..

theorem laidOut_moves (s : Sheet) (b : Body) (r : Region) (vp : Viewport) (st : State) :
    Moves s st.scroll (st.laidOut (plan s b r vp)).scroll := by
  obtain ⟨f, hf⟩ := plan_content s b r vp
  refine .layout _ _ _ _ ?_ ?_ (.refl _)
  · rw [hf]; exact (content_size ..).1
  · rw [hf]; exact (content_size ..).2

theorem clickV_moves (s : Sheet) (st : State) (hf : Fine st.scroll) (hd : DragOk s st) (row : Int) (bar : Region)
    (h : s.overflowY ≠ .hidden) :
    Moves s st.scroll (st.clickV row bar).scroll ∧ DragOk s (st.clickV row bar) := by
  simp only [State.clickV]
  split
  · refine ⟨.refl _, ?_⟩
    intro v g e
    cases e
    exact h
  · split
    · exact ⟨.up _ h (page_nonneg hf.2.2), hd⟩
    · exact ⟨.down _ h (page_nonneg hf.2.2), hd⟩

theorem clickH_moves (s : Sheet) (st : State) (hf : Fine st.scroll) (hd : DragOk s st) (column : Int) (bar : Region)
    (h : s.overflowX ≠ .hidden) :
    Moves s st.scroll (st.clickH column bar).scroll ∧ DragOk s (st.clickH column bar) := by
  simp only [State.clickH]
  split
  · refine ⟨.refl _, ?_⟩
    intro v g e
    cases e
    exact h
  · split
    · exact ⟨.left _ h (page_nonneg hf.2.1), hd⟩
    · exact ⟨.right _ h (page_nonneg hf.2.1), hd⟩

theorem dragBar_moves (s : Sheet) (st : State) (hd : DragOk s st) (m : Mouse) (r : Region) (v : Bool) (g : Int)
    (h : st.drag = some (v, g)) :
    Moves s st.scroll (st.dragBar s m r v g).scroll ∧ DragOk s (st.dragBar s m r v g) := by
  have hv := hd v g h
  cases v <;> simp only [State.dragBar, Bool.false_eq_true, if_false, if_true] at hv ⊢ <;> split
  any_goals exact ⟨.refl _, hd⟩
  · exact ⟨.to st.scroll (some _) none (fun e => absurd e hv) (fun _ => rfl), hd⟩
  · exact ⟨.to st.scroll none (some _) (fun _ => rfl) (fun e => absurd e hv), hd⟩

theorem onMouse_moves (s : Sheet) (b : Body) (st : State) (hf : Fine st.scroll) (hd : DragOk s st) (m : Mouse)
    (r : Region) : Moves s st.scroll (st.onMouse s b m r).1.scroll ∧ DragOk s (st.onMouse s b m r).1 := by
  have hm := laidOut_moves s b (inner s r) (Viewport.ofRegion r) st
  have hp := plan_hidden s b (inner s r) (Viewport.ofRegion r)
  have hf' := hm.fine hf
  have hd' : DragOk s (st.laidOut (plan s b (inner s r) (Viewport.ofRegion r))) := hd
  suffices h : Moves s (st.laidOut (plan s b (inner s r) (Viewport.ofRegion r))).scroll
      (st.onMouse s b m r).1.scroll ∧ DragOk s (st.onMouse s b m r).1 from ⟨hm.trans h.1, h.2⟩
  unfold State.onMouse
  dsimp only
  generalize plan s b (inner s r) (Viewport.ofRegion r) = p at *
  generalize st.laidOut p = q at *
  have wheel : ∀ (c : Prop) [Decidable c] (f : ScrollState → ScrollState), (c → Moves s q.scroll (f q.scroll)) →
      Moves s q.scroll (if c then q.scrollBy f else q).scroll ∧ DragOk s (if c then q.scrollBy f else q) := by
    intro c _ f h
    split
    · rename_i hc; exact ⟨h hc, hd'⟩
    · exact ⟨.refl _, hd'⟩
  cases m.kind <;> dsimp only
  · split
    · rename_i v g e
      exact dragBar_moves s q hd' m _ v g e
    · dsimp only
      generalize (if (drawsV s p.show_ && _) = true then some true else _ : Option Bool) = hv
      split <;> exact ⟨.refl _, hd'⟩
  · split
    · rename_i h
      exact clickV_moves s q hf' hd' _ _ (hp.1 (by simp only [drawsV, Bool.and_eq_true] at h; exact h.1.1.1))
    · split
      · rename_i h
        exact clickH_moves s q hf' hd' _ _ (hp.2 (by simp only [drawsH, Bool.and_eq_true] at h; exact h.1.1.1))
      · exact ⟨.refl _, hd'⟩
  · split
    · rename_i v g e
      exact dragBar_moves s q hd' m _ v g e
    · exact ⟨.refl _, hd'⟩
  · split
    · exact ⟨.refl _, fun v g e => by cases e⟩
    · exact ⟨.refl _, hd'⟩
  · split
    · exact wheel _ _ fun h => .right _ h (by omega)
    · exact wheel _ _ fun h => .down _ h (by omega)
  · split
    · exact wheel _ _ fun h => .left _ h (by omega)
    · exact wheel _ _ fun h => .up _ h (by omega)
  · exact wheel _ _ fun h => .left _ h (by omega)
  · exact wheel _ _ fun h => .right _ h (by omega)

theorem event_moves (s : Sheet) (st : State) (hf : Fine st.scroll) (hd : DragOk s st) (e : Event) :
    Moves s st.scroll (st.event s e).scroll ∧ DragOk s (st.event s e) := by
  cases e with
  | draw b r vp =>
    simp only [State.event]
    split
    · exact ⟨.refl _, hd⟩
    · exact ⟨laidOut_moves .., hd⟩
  | key k => exact ⟨(onKey_moves s st hf k).1, by
      intro v g h; rw [State.event, (onKey_moves s st hf k).2] at h; exact hd v g h⟩
  | mouse b r m => exact onMouse_moves s b st hf hd m r
  | leave => exact ⟨.refl _, hd⟩

theorem history_good (s : Sheet) (es : List Event) (st : State) (hf : Fine st.scroll) (hd : DragOk s st) :
    Moves s st.scroll (es.foldl (State.event s) st).scroll ∧ DragOk s (es.foldl (State.event s) st) := by
  induction es generalizing st with
  | nil => exact ⟨.refl _, hd⟩
  | cons e es ih =>
    have h := event_moves s st hf hd e
    have h' := ih (st.event s e) (h.1.fine hf) h.2
    exact ⟨h.1.trans h'.1, h'.2⟩

/-- **C104**: after every history of drawing, keys and mouse events, with content and regions that change in any
way, the position lies inside the content: the window shows nothing before its start, and nothing beyond its
end unless the content is smaller than the window, which is then at the start. An axis with hidden overflow
never moves. -/
theorem position_in_content (s : Sheet) (es : List Event) :
    let c := (State.history s es).scroll
    0 ≤ c.offsetX ∧ 0 ≤ c.offsetY ∧
    (c.offsetX + c.viewportWidth ≤ c.virtualWidth ∨ c.offsetX = 0) ∧
    (c.offsetY + c.viewportHeight ≤ c.virtualHeight ∨ c.offsetY = 0) ∧
    (s.overflowX = .hidden → c.offsetX = 0) ∧ (s.overflowY = .hidden → c.offsetY = 0) := by
  have hf : Fine ({} : State).scroll := by
    unfold Fine ScrollState.InBounds; decide
  have h := (history_good s es {} hf (fun v g e => by cases e)).1
  have hb := (h.fine hf).1
  have hs := h.still
  simp only [ScrollState.InBounds] at hb
  refine ⟨hb.1, hb.2.2.1, ?_, ?_, fun e => hs.1 e rfl, fun e => hs.2 e rfl⟩ <;>
    (show _ ∨ _) <;> simp only [State.history] <;> omega

/-- Scrolled to the end, then drawn with less content: the position follows. -/
example : (State.history {} [.draw (card 10 30) ⟨0, 0, 20, 10⟩ ⟨80, 24⟩, .key .stop]).scroll.offsetY = 20 ∧
    (State.history {} [.draw (card 10 30) ⟨0, 0, 20, 10⟩ ⟨80, 24⟩, .key .stop,
      .draw (card 10 15) ⟨0, 0, 20, 10⟩ ⟨80, 24⟩]).scroll.offsetY = 5 := by decide +kernel

/-! ### Everything can be reached -/

def downs (n : Nat) : List Event := List.replicate n (.key .down)

theorem downs_offset (s : Sheet) (h : s.overflowY ≠ .hidden) (n : Nat) (st : State) (hf : Fine st.scroll) :
    ((downs n).foldl (State.event s) st).scroll =
      { st.scroll with offsetY := min (st.scroll.offsetY + n) st.scroll.maxScrollY } := by
  induction n generalizing st with
  | zero =>
    have := hf.1
    simp only [ScrollState.InBounds] at this
    have e : min (st.scroll.offsetY + (0 : Nat)) st.scroll.maxScrollY = st.scroll.offsetY := by
      simp only [ScrollState.maxScrollY]; omega
    rw [e]; rfl
  | succ n ih =>
    have hk := onKey_moves s st hf .down
    show ((downs n).foldl (State.event s) (st.event s (.key .down))).scroll = _
    rw [ih (st.event s (.key .down)) (hk.1.fine hf)]
    simp only [State.event, State.onKey, if_pos h, State.scrollBy, ScrollState.scrollDown, ScrollState.maxScrollY]
    congr 1
    push_cast
    omega

/-- **C104**: from any reachable state with a window of at least one row, every row of the content is in the window
after Home and some number of presses of Down. -/
theorem rows_reachable (s : Sheet) (es : List Event) (h : s.overflowY ≠ .hidden) (row : Int)
    (hw : 0 < (State.history s es).scroll.viewportHeight)
    (h0 : 0 ≤ row) (h1 : row < (State.history s es).scroll.virtualHeight) :
    ∃ n, let c := (State.history s (es ++ .key .home :: List.replicate n (.key .down))).scroll
      c.offsetY ≤ row ∧ row < c.offsetY + c.viewportHeight := by
  have hf0 : Fine ({} : State).scroll := by unfold Fine ScrollState.InBounds; decide
  have hf := (history_good s es {} hf0 (fun v g e => by cases e)).1.fine hf0
  refine ⟨row.toNat, ?_⟩
  show _ ∧ _
  have e : State.history s (es ++ .key .home :: List.replicate row.toNat (.key .down)) =
      (downs row.toNat).foldl (State.event s) ((State.history s es).event s (.key .home)) := by
    simp [State.history, List.foldl_append, downs]
  have hk := onKey_moves s (State.history s es) hf .home
  rw [e, downs_offset s h _ ((State.history s es).event s (.key .home)) (hk.1.fine hf)]
  generalize State.history s es = st at *
  simp only [State.event, State.onKey, if_pos (Or.inl h : s.overflowY ≠ .hidden ∨ s.overflowX ≠ .hidden), if_pos h,
    State.scrollBy, ScrollState.maxScrollY]
  have e2 : ∀ x : Option Rat, (st.scroll.scrollTo x (some 0)).offsetY = 0 ∧
      (st.scroll.scrollTo x (some 0)).virtualHeight = st.scroll.virtualHeight ∧
      (st.scroll.scrollTo x (some 0)).viewportHeight = st.scroll.viewportHeight := by
    intro x
    have : (0 : Rat).floor = 0 := rfl
    cases x <;> simp only [ScrollState.scrollTo, this, ScrollState.clamp, ScrollState.maxScrollY] <;>
      refine ⟨?_, trivial, trivial⟩ <;> split <;> (try split) <;> omega
  obtain ⟨a1, a2, a3⟩ := e2 (if s.overflowX ≠ .hidden then some 0 else none)
  rw [a1, a2, a3]
  omega

/-- Row 17 of thirty, in a window of ten rows. -/
example : ({} : Sheet).overflowY ≠ .hidden ∧
    0 < (State.history {} [.draw (card 10 30) ⟨0, 0, 20, 10⟩ ⟨80, 24⟩]).scroll.viewportHeight ∧
    17 < (State.history {} [.draw (card 10 30) ⟨0, 0, 20, 10⟩ ⟨80, 24⟩]).scroll.virtualHeight := by decide +kernel

end Textual.Scroller
