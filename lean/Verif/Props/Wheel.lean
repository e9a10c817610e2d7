import Verif.Model.Wheel
import Verif.Props.Nest
import Verif.Props.ScrollerSteps

/-!
# The wheel over containers in containers (C202)
-/

namespace Textual.Nest

open Layout (Placement Viewport)
open Scroller (Sheet Body Mouse Kind At ScreenFree OnScreen Apart Monotone Nearest inner contains_iff)

/-- The style of a container. -/
def Box.sheet : Box → Sheet
  | .scroller s _ _ | .pane s _ _ | .screen s _ _ _ => s

/-! ### What one container does -/

theorem not_points {m : Mouse} (hk : m.kind.points = false) : ∃ dx dy, m.turn = some (dx, dy) := by
  obtain ⟨k, x, y, s⟩ := m
  cases k <;> cases s <;> simp_all [Scroller.Kind.points, Scroller.Mouse.turn]

/-- A screen just drawn: it uses the turn itself, or stays where it is and hands it on. -/
theorem screen_turn (s : Sheet) (b : Body) (pinned : Nat → Bool) (st : Scroller.State) (m : Mouse) (r : Region)
    (vp : Viewport) (hx : s.overflowX = .hidden) (hmono : Monotone b vp) (hr : 0 < r.width ∧ 0 < r.height)
    (hm : OnScreen m) (hat : At r m.column m.row) (hk : m.kind.points = false) :
    let a := inner s r
    let c := Screen.after s b st.scroll a vp
    let content := (Screen.layout s b a vp).1
    let area := if ((Screen.first s b a vp).v = true ∧ content.width < a.width) then content else a
    let got := Screen.onMouse s b pinned { st with scroll := c } m r
    let y := if m.kind = .scrollDown then min (c.offsetY + 3) (max (c.virtualHeight - content.height) 0)
      else max (c.offsetY - 3) 0
    if ((Screen.first s b a vp).v = true ∧ m.sideways = false ∧ (m.kind = .scrollDown ∨ m.kind = .scrollUp)) then
      got.2 = [] ∧ got.1.scroll = { c with offsetY := y }
    else got.2 = Screen.offered b c area (Viewport.ofRegion r) m.column m.row ∧ got.1.scroll = c := by
  intro a c content area got y
  obtain ⟨n1, n2⟩ := Screen.inner_nonneg s r hr
  have hfl : Screen.shows s c = Screen.first s b a vp := Screen.flags_agree s b st.scroll a vp hx hmono n2 n1
  have hlay := Screen.layout_area s b a vp
  have hset : c.setViewport content.width content.height = c := Screen.setViewport_after s b st.scroll a vp
  have hh := Screen.first_h s b a vp hx
  have hcp := (contains_iff r m.column m.row ⟨hm.1, hm.2.1⟩ ⟨hm.2.2.1, hm.2.2.2⟩).2 hat
  have e : got = Screen.onMouse s b pinned { st with scroll := c } m r := rfl
  unfold Screen.onMouse at e
  rw [if_neg (by rw [hcp]; decide)] at e
  dsimp only at e
  rw [hfl, ← hlay, hset, hfl] at e
  have ea : area = if ((Screen.first s b a vp).v = true ∧ (Screen.layout s b a vp).1.width < a.width) then
    (Screen.layout s b a vp).1 else a := rfl
  have ec : content = (Screen.layout s b a vp).1 := rfl
  rw [← ea, ← ec] at e
  have ey : y = if m.kind = .scrollDown then min (c.offsetY + 3) (max (c.virtualHeight - content.height) 0)
    else max (c.offsetY - 3) 0 := rfl
  clear_value got c area content y
  clear ea ec hlay
  obtain ⟨k, mx, my, sw⟩ := m
  dsimp only at *
  cases k <;> (try (cases hk; done)) <;> cases sw <;> cases hv : (Screen.first s b a vp).v <;>
    simp_all [Scroller.State.scrollBy]

/-- At most one of children that do not overlap is at the pointer. -/
theorem shifted_apart (b : Body) (vp vp' : Viewport) (hb : ScreenFree b) (ha : Apart b vp) (a : Region) (k : Int)
    (m : Mouse) (hm : OnScreen m) (p q : Placement)
    (hp : p ∈ ((b.arrange a vp').map fun c =>
      (⟨c.childIndex, ⟨c.region.x, c.region.y - k, c.region.width, c.region.height⟩⟩ : Placement)).filter
      fun c => c.region.containsPoint m.column m.row)
    (hq : q ∈ ((b.arrange a vp').map fun c =>
      (⟨c.childIndex, ⟨c.region.x, c.region.y - k, c.region.width, c.region.height⟩⟩ : Placement)).filter
      fun c => c.region.containsPoint m.column m.row) : p = q := by
  have hci := fun (r : Region) => contains_iff r m.column m.row ⟨hm.1, hm.2.1⟩ ⟨hm.2.2.1, hm.2.2.2⟩
  rw [hb a vp' vp] at hp hq
  obtain ⟨hp, h1⟩ := List.mem_filter.1 hp
  obtain ⟨hq, h2⟩ := List.mem_filter.1 hq
  have h1 := (hci _).1 h1
  have h2 := (hci _).1 h2
  obtain ⟨p', hp', rfl⟩ := List.mem_map.1 hp
  obtain ⟨q', hq', rfl⟩ := List.mem_map.1 hq
  have : p' = q' := by
    rcases pairwise_mem (ha a) p' hp' q' hq' with h | h | h
    · exact h
    all_goals
      refine (h m.column (m.row + k) ?_).elim
      simp only [At] at *
      omega
  rw [this]

/-- A plain container uses the turn itself, or stays where it is and hands it on. -/
theorem pane_turn (s : Sheet) (b : Body) (st : Pane.State) (hv : Pane.Valid st b) (m : Mouse) (r : Region)
    (f : Nat → Bool) (hm : OnScreen m) (hat : At r m.column m.row) :
    if ((m.kind = .scrollDown ∨ m.kind = .scrollUp) ∧ ((st.shows s).v = true ∨ s.overflowY = .auto)) then
      (st.onMouse s b m r f).1 = [] ∧ (st.onMouse s b m r f).2.scroll =
        if m.kind = .scrollDown then st.scroll.scrollDown 3 else st.scroll.scrollUp 3
    else (st.onMouse s b m r f).1 = Pane.ask f (((b.arrange r (Viewport.ofRegion r)).map fun c =>
      (⟨c.childIndex, ⟨c.region.x, c.region.y - st.scroll.offsetY, c.region.width, c.region.height⟩⟩ :
        Placement)).filter fun c => c.region.containsPoint m.column m.row) ∧
      (st.onMouse s b m r f).2.scroll = st.scroll := by
  have hcp := (contains_iff r m.column m.row ⟨hm.1, hm.2.1⟩ ⟨hm.2.2.1, hm.2.2.2⟩).2 hat
  obtain ⟨p1, -, p3⟩ := Pane.place_valid st b hv r (Viewport.ofRegion r)
  unfold Pane.State.onMouse
  rw [hcp]
  generalize st.place b r (Viewport.ofRegion r) = q at p1 p3 ⊢
  obtain ⟨ps, t⟩ := q
  dsimp only at p1 p3 ⊢
  subst p1
  rw [p3]
  by_cases hs : (st.shows s).v = true ∨ s.overflowY = .auto <;> obtain ⟨k, mx, my, sw⟩ := m <;> cases k <;>
    simp [hs, p3]

theorem pane_outside (s : Sheet) (b : Body) (st : Pane.State) (m : Mouse) (r : Region)
    (f : Nat → Bool) (hm : OnScreen m) (hat : ¬ At r m.column m.row) : st.onMouse s b m r f = ([], st) := by
  have hcp : r.containsPoint m.column m.row = false := by
    rw [← Bool.not_eq_true, contains_iff r _ _ ⟨hm.1, hm.2.1⟩ ⟨hm.2.2.1, hm.2.2.2⟩]; exact hat
  unfold Pane.State.onMouse
  rw [if_pos hcp]

theorem screen_outside (s : Sheet) (b : Body) (pinned : Nat → Bool) (st : Scroller.State) (m : Mouse) (r : Region)
    (hm : OnScreen m) (hat : ¬ At r m.column m.row) : Screen.onMouse s b pinned st m r = (st, []) := by
  have hcp : r.containsPoint m.column m.row = false := by
    rw [← Bool.not_eq_true, contains_iff r _ _ ⟨hm.1, hm.2.1⟩ ⟨hm.2.2.1, hm.2.2.2⟩]; exact hat
  unfold Screen.onMouse
  rw [if_pos hcp]

/-! ### At most one container moves -/

/-- What is asked of a container here: no `vw`/`vh` lengths, a remembered layout that is one of the children it has, and for
a screen `overflow-x: hidden` and a layout as in C102. -/
def Box.Fit (vp : Viewport) : Box → Prop
  | .scroller _ _ _ => True
  | .pane _ b st => ScreenFree b ∧ Pane.Valid st b
  | .screen s b _ _ => s.overflowX = .hidden ∧ ScreenFree b ∧ Monotone b vp

/-- All containers of the tree are such, and none places two children over each other. -/
def Fit (vp : Viewport) : Node → Prop
  | .leaf _ _ => True
  | .box b child => b.Fit vp ∧ Apart b.body vp ∧ ∀ i, Fit vp (child i)

theorem asked_one (vp : Viewport) (r : Region) (m : Mouse) (answers : Nat → Region → Bool) (b : Box) (hf : b.Fit vp)
    (ha : Apart b.body vp) (hm : OnScreen m) (hk : m.kind.points = false) (c d : Placement)
    (hc : c ∈ b.asked vp r m answers) (hd : d ∈ b.asked vp r m answers) : c = d := by
  cases b with
  | scroller s b st =>
    obtain ⟨dx, dy, ht⟩ := not_points hk
    simp only [Box.asked, (Scroller.wheel_steps s b _ m r dx dy ht).2, Option.toList_none, List.not_mem_nil] at hc
  | pane s b st =>
    simp only [Box.asked] at hc hd
    have hv := Pane.draw_valid s b st hf.2 r vp
    by_cases hat : At r m.column m.row
    · generalize (fun i => ((Pane.State.onMouse s b (Pane.State.draw s b st r vp).2 m r fun _ => false).1.any
        fun c => c.childIndex == i && answers i c.region)) = f at hc hd
      have h := pane_turn s b _ hv m r f hm hat
      split at h
      · rw [h.1] at hc; cases hc
      · rw [h.1] at hc hd
        exact shifted_apart b vp _ hf.1 ha r _ m hm c d (Pane.mem_ask _ _ _ hc) (Pane.mem_ask _ _ _ hd)
    · rw [pane_outside s b _ m r _ hm hat] at hc; cases hc
  | screen s b pinned st =>
    simp only [Box.asked] at hc hd
    by_cases hat : At r m.column m.row
    · have hr : 0 < r.width ∧ 0 < r.height := by simp only [At] at hat; omega
      have h := screen_turn s b pinned st m r vp hf.1 hf.2.2 hr hm hat hk
      rw [Screen.draw_eq s b st r vp hr] at hc hd
      dsimp only at h hc hd
      split at h
      · rw [h.1] at hc; cases hc
      · rw [h.1] at hc hd
        exact shifted_apart b vp _ hf.2.1 ha _ _ m hm c d hc hd
    · rw [screen_outside s b pinned _ m r hm hat] at hc; cases hc

theorem moved_asked (vp : Viewport) (r : Region) (m : Mouse) (answers : Nat → Region → Bool) (b : Box) (hf : b.Fit vp)
    (hm : OnScreen m) (hk : m.kind.points = false) :
    b.asked vp r m answers = [] ∨ b.wheeled vp r m = b.position vp r := by
  cases b with
  | scroller s b st =>
    obtain ⟨dx, dy, ht⟩ := not_points hk
    simp only [Box.asked, (Scroller.wheel_steps s b _ m r dx dy ht).2, Option.toList_none, true_or]
  | pane s b st =>
    simp only [Box.asked, Box.wheeled, Box.position]
    have hv := Pane.draw_valid s b st hf.2 r vp
    by_cases hat : At r m.column m.row
    · have h := fun f => pane_turn s b _ hv m r f hm hat
      by_cases hc : (m.kind = .scrollDown ∨ m.kind = .scrollUp) ∧
        (((Pane.State.draw s b st r vp).2.shows s).v = true ∨ s.overflowY = .auto)
      · simp only [if_pos hc] at h
        exact .inl (h _).1
      · simp only [if_neg hc] at h
        exact .inr (h _).2
    · exact .inl (by rw [pane_outside s b _ m r _ hm hat])
  | screen s b pinned st =>
    simp only [Box.asked, Box.wheeled, Box.position]
    by_cases hat : At r m.column m.row
    · have hr : 0 < r.width ∧ 0 < r.height := by simp only [At] at hat; omega
      have h := screen_turn s b pinned st m r vp hf.1 hf.2.2 hr hm hat hk
      rw [Screen.draw_eq s b st r vp hr]
      dsimp only at h ⊢
      split at h
      · exact .inl h.1
      · exact .inr h.2
    · exact .inl (by rw [screen_outside s b pinned _ m r hm hat])

/-- **C202** (partial: see `Box.Fit`). A turn of the wheel, in whatever direction, moves at most one container of the
tree. -/
theorem one_moves_partial (vp : Viewport) (m : Mouse) (hm : OnScreen m) (hk : m.kind.points = false) (n : Node)
    (r : Region) (hf : Fit vp n) (t u : Turned) (ht : t ∈ turned vp m n r) (hu : u ∈ turned vp m n r) : t = u := by
  induction n generalizing r t u with
  | leaf i a => cases ht
  | box b child ih =>
    obtain ⟨h1, h2, h3⟩ := hf
    have hone := asked_one vp r m (fun i r' => (reach vp m (child i) r').2) b h1 h2 hm hk
    simp only [turned] at ht hu
    rcases moved_asked vp r m (fun i r' => (reach vp m (child i) r').2) b h1 hm hk with e | e
    · simp only [e, List.flatMap_nil, List.append_nil] at ht hu
      split at ht
      · cases ht
      · rw [if_neg (by assumption)] at hu
        rw [List.mem_singleton] at ht hu
        rw [ht, hu]
    · simp only [e, if_true, List.nil_append, List.mem_flatMap, List.mem_map] at ht hu
      obtain ⟨c, hc, t', ht', rfl⟩ := ht
      obtain ⟨d, hd, u', hu', rfl⟩ := hu
      have := hone c d hc hd
      subst this
      rw [ih _ _ (h3 _) t' u' ht' hu']

/-! ### The container that moves -/

/-- The rows a container moves by at once. -/
def Box.rows : Box → Int
  | .scroller _ _ _ => 1
  | .pane _ _ _ | .screen _ _ _ _ => 3

/-- A container that does not scroll up and down: a plain one with `overflow-y: hidden`, or a screen that wants no vertical
bar, because of that or because its children fit, and is not moved sideways. -/
def Box.Still (vp : Viewport) (r : Region) : Box → Prop
  | .scroller _ _ _ => False
  | .pane s _ _ => s.overflowY = .hidden
  | .screen s b pinned st => ¬ Scroller.Wanted s.overflowY (Scroller.TooTall b vp (inner s r)) ∧
    ((Box.screen s b pinned st).position vp r).offsetX = 0

/-- A container `b`, `p` steps down from the root, is drawn in region `q` and is at the place, and all containers around it
do not scroll, have children that do not overlap, and are as in C174. -/
inductive Under (vp : Viewport) (x y : Int) : Node → Region → List Nat → Box → Region → Prop
  | here {b child r} : At r x y → Under vp x y (.box b child) r [] b r
  | inside {b child r c p b' q} : At r x y → b.Good vp r → Apart b.body vp → b.Still vp r →
    At (b.shown vp r).1 x y → At c.region x y → c ∈ (b.shown vp r).2 →
    Under vp x y (child c.childIndex) c.region p b' q → Under vp x y (.box b child) r (c.childIndex :: p) b' q

theorem turn_kind {m : Mouse} {dy : Int} (h : m.turn = some (0, dy)) :
    m.sideways = false ∧ (m.kind = .scrollDown ∧ dy = 1 ∨ m.kind = .scrollUp ∧ dy = -1) ∧ m.kind.points = false := by
  obtain ⟨k, x, y, s⟩ := m
  cases k <;> cases s <;> simp_all [Scroller.Mouse.turn, Scroller.Kind.points]

theorem still_asked (vp : Viewport) (r : Region) (m : Mouse) (dy : Int) (answers : Nat → Region → Bool) (b : Box)
    (hg : b.Good vp r) (ha : Apart b.body vp) (hs : b.Still vp r) (hm : OnScreen m) (ht : m.turn = some (0, dy))
    (hr : At r m.column m.row) (c : Placement) (hc : c ∈ (b.shown vp r).2) (h1 : At c.region m.column m.row)
    (h2 : At (b.shown vp r).1 m.column m.row) :
    (∀ d, d ∈ b.asked vp r m answers ↔ d = c) ∧ b.wheeled vp r m = b.position vp r := by
  obtain ⟨-, hk, hp⟩ := turn_kind ht
  have hpos : 0 < r.width ∧ 0 < r.height := by simp only [At] at hr; omega
  cases b with
  | scroller s b st => cases hs
  | pane s b st =>
    have hs0 : s.overflowY = .hidden := hs
    have e : ∀ (st : Pane.State) f, st.onMouse s b m r f = st.onMouse s b { m with kind := .moved } r f := by
      intro st f
      unfold Pane.State.onMouse
      simp [hs0, Pane.State.shows]
    constructor
    · have h := asked_complete vp r { m with kind := .moved } answers (.pane s b st) hg ha hm rfl hr c hc h1 h2
      simp only [Box.asked] at h ⊢
      rw [e]
      simp only [e (Pane.State.draw s b st r vp).2]
      exact h
    · obtain ⟨g1, g2, g3, es, rfl, g4⟩ := hg
      have hv : Pane.Valid (Pane.State.history s es) b := Pane.told_valid s es none {} b r vp
        (fun _ _ => fun _ _ _ e => by cases e) g4
      have h := pane_turn s b _ (Pane.draw_valid s b _ hv r vp) m r (fun _ => false) hm hr
      rw [if_neg (by simp [hs0, Pane.State.shows])] at h
      exact h.2
  | screen s b pinned st =>
    obtain ⟨g1, g2, g3, g4, g5, g6⟩ := hg
    obtain ⟨s1, s2⟩ := hs
    obtain ⟨n1, n2⟩ := Screen.inner_nonneg s r hpos
    have h := screen_turn s b pinned st m r vp g1 g5 hpos hm hr hp
    have hv : (Screen.first s b (inner s r) vp).v = false := by
      rw [← Bool.not_eq_true, Screen.first_v]; exact s1
    obtain ⟨hpl, harea⟩ := Screen.layout_placements s b (inner s r) vp g2 (Screen.first_h s b (inner s r) vp g1) ⟨n2, n1⟩
    dsimp only at h
    rw [if_neg (by simp [hv]), harea] at h
    simp only [Box.asked, Box.wheeled, Box.position, Box.shown, Screen.draw_eq s b st r vp hpos] at hc h2 s2 ⊢
    refine ⟨fun d => ?_, h.2⟩
    have hin : c ∈ Screen.offered b (Screen.after s b st.scroll (inner s r) vp) (Screen.layout s b (inner s r) vp).1
        (Viewport.ofRegion r) m.column m.row := by
      refine List.mem_filter.2 ⟨?_, (contains_iff _ _ _ ⟨hm.1, hm.2.1⟩ ⟨hm.2.2.1, hm.2.2.2⟩).2 h1⟩
      rw [g4 _ (Viewport.ofRegion r) vp, ← hpl]
      have := (List.mem_filter.1 hc).1
      simpa only [Scroller.scrolled, s2, sub_zero] using this
    rw [h.1]
    exact ⟨fun hd => shifted_apart b vp _ g4 ha _ _ m hm d c hd hin, fun e => e ▸ hin⟩

theorem box_moves (vp : Viewport) (r : Region) (m : Mouse) (dy : Int) (answers : Nat → Region → Bool) (b : Box)
    (hf : b.Fit vp) (hb : ScreenFree b.body) (hs : b.sheet.overflowY ≠ .hidden) (hm : OnScreen m)
    (ht : m.turn = some (0, dy)) (hr : At r m.column m.row)
    (hcan : 0 ≤ (b.position vp r).offsetY + dy ∧ (b.position vp r).offsetY + dy ≤ (b.position vp r).maxScrollY) :
    b.asked vp r m answers = [] ∧ (b.wheeled vp r m).offsetX = (b.position vp r).offsetX ∧
    Nearest (b.position vp r).maxScrollY ((b.position vp r).offsetY + dy * b.rows) (b.wheeled vp r m).offsetY := by
  obtain ⟨hsw, hk, hp⟩ := turn_kind ht
  have hpos : 0 < r.width ∧ 0 < r.height := by simp only [At] at hr; omega
  cases b with
  | scroller s b st =>
    simp only [Box.asked, Box.wheeled, Box.position, Box.rows, if_neg (show ¬ (r.width ≤ 0 ∨ r.height ≤ 0) by omega),
      mul_one]
    have h := Scroller.wheel_steps s b (st.laidOut (Scroller.plan s b (inner s r) vp)) m r 0 dy ht
    rw [Scroller.plan_screen s b (inner s r) hb (Viewport.ofRegion r) vp, Scroller.laidOut_twice] at h
    have hbd := Scroller.laidOut_bounds st s b (inner s r) vp
    dsimp only at hbd
    refine ⟨by rw [h.2]; rfl, ?_, h.1.1 hs⟩
    by_cases hx : s.overflowX = .hidden
    · exact h.1.2.2.2 hx
    · have := h.1.2.2.1 hx
      unfold Nearest at this
      omega
  | pane s b st =>
    simp only [Box.asked, Box.wheeled, Box.position, Box.rows] at hcan ⊢
    have hv := Pane.draw_valid s b st hf.2 r vp
    have hbd : 0 ≤ (st.draw s b r vp).2.scroll.offsetY ∧
        (st.draw s b r vp).2.scroll.offsetY ≤ (st.draw s b r vp).2.scroll.maxScrollY := by
      unfold Pane.State.draw
      rw [if_neg (by omega), (Pane.drawInner_plain s b st hf.2 _ vp).2.1]
      unfold Pane.drawPlain
      dsimp only
      split <;>
      simp only [Pane.firstScroll, ScrollState.setViewport, ScrollState.setVirtualSize, ScrollState.reclamp,
        ScrollState.maxScrollX, ScrollState.maxScrollY] <;> omega
    generalize (st.draw s b r vp).2 = t at *
    have h := fun f => pane_turn s b t hv m r f hm hr
    have hsh : (t.shows s).v = true ∨ s.overflowY = .auto := by
      simp only [Pane.State.shows]
      change s.overflowY ≠ .hidden at hs
      cases ho : s.overflowY <;> simp_all
    have hc : (m.kind = .scrollDown ∨ m.kind = .scrollUp) ∧ ((t.shows s).v = true ∨ s.overflowY = .auto) :=
      ⟨hk.imp (·.1) (·.1), hsh⟩
    simp only [if_pos hc] at h
    refine ⟨(h _).1, ?_⟩
    rw [(h _).2]
    rcases hk with ⟨e, rfl⟩ | ⟨e, rfl⟩ <;>
    simp only [e, if_true, reduceCtorEq, if_false, ScrollState.scrollDown, ScrollState.scrollUp, Nearest, true_and] <;>
    omega
  | screen s b pinned st =>
    have h := screen_turn s b pinned st m r vp hf.1 hf.2.2 hpos hm hr hp
    obtain ⟨n1, n2⟩ := Screen.inner_nonneg s r hpos
    have hfl := Screen.flags_agree s b st.scroll (inner s r) vp hf.1 hf.2.2 n2 n1
    simp only [Box.asked, Box.wheeled, Box.position, Box.rows, Screen.draw_eq s b st r vp hpos] at hcan ⊢
    have hbd : 0 ≤ (Screen.after s b st.scroll (inner s r) vp).offsetY ∧
        (Screen.after s b st.scroll (inner s r) vp).offsetY ≤ (Screen.after s b st.scroll (inner s r) vp).maxScrollY ∧
        (Screen.after s b st.scroll (inner s r) vp).viewportHeight = (Screen.layout s b (inner s r) vp).1.height := by
      simp only [Screen.after, ScrollState.setViewport, ScrollState.setVirtualSize, ScrollState.reclamp,
        ScrollState.maxScrollX, ScrollState.maxScrollY, and_true]
      omega
    dsimp only at h
    generalize Screen.after s b st.scroll (inner s r) vp = a at *
    have hv : (Screen.first s b (inner s r) vp).v = true := by
      rw [← hfl]
      change s.overflowY ≠ .hidden at hs
      have : a.canScrollY = true := by
        simp only [ScrollState.canScrollY, decide_eq_true_eq]
        simp only [ScrollState.maxScrollY] at hbd hcan
        omega
      simp only [Screen.shows]
      cases ho : s.overflowY <;> simp_all
    rw [if_pos ⟨hv, hsw, hk.imp (·.1) (·.1)⟩] at h
    refine ⟨h.1, ?_⟩
    rw [h.2]
    simp only [ScrollState.maxScrollY] at *
    rcases hk with ⟨e, rfl⟩ | ⟨e, rfl⟩ <;>
    simp only [e, if_true, reduceCtorEq, if_false, Nearest, true_and] <;>
    omega

/-- **C202** (partial: the containers around do not scroll and are as in C174; `Box.Fit`). A turn of the wheel up or down
over a container that scrolls and has more to show in that direction moves this container, by its one or three rows or as
far as there is content, and no other. -/
theorem wheel_moves_partial (vp : Viewport) (m : Mouse) (dy : Int) (hm : OnScreen m) (ht : m.turn = some (0, dy))
    (n : Node) (r : Region) (p : List Nat) (b : Box) (q : Region) (hu : Under vp m.column m.row n r p b q)
    (hf : b.Fit vp) (hb : ScreenFree b.body) (hs : b.sheet.overflowY ≠ .hidden)
    (hcan : 0 ≤ (b.position vp q).offsetY + dy ∧ (b.position vp q).offsetY + dy ≤ (b.position vp q).maxScrollY) :
    ∃ y, Nearest (b.position vp q).maxScrollY ((b.position vp q).offsetY + dy * b.rows) y ∧
      y ≠ (b.position vp q).offsetY ∧
      ∀ t, t ∈ turned vp m n r ↔
        t = (p, ((b.position vp q).offsetX, (b.position vp q).offsetY), ((b.position vp q).offsetX, y)) := by
  induction hu with
  | @here b child r hr =>
    obtain ⟨h1, h2, h3⟩ := box_moves vp r m dy (fun i r' => (reach vp m (child i) r').2) b hf hb hs hm ht hr hcan
    have hne : (b.wheeled vp r m).offsetY ≠ (b.position vp r).offsetY := by
      have hrows : b.rows = 1 ∨ b.rows = 3 := by cases b <;> simp [Box.rows]
      obtain ⟨-, hk, -⟩ := turn_kind ht
      unfold Nearest at h3
      rcases hk with ⟨-, rfl⟩ | ⟨-, rfl⟩ <;> rcases hrows with e | e <;> rw [e] at h3 <;> omega
    refine ⟨_, h3, hne, fun t => ?_⟩
    simp only [turned, h1, List.flatMap_nil, List.append_nil, h2]
    rw [if_neg (by simp only [Prod.mk.injEq, true_and]; exact fun e => hne e.symm)]
    simp
  | @inside b child r c p b' q hr hg ha hst hin hc hmem hu ih =>
    obtain ⟨y, i1, i2, i3⟩ := ih hf hb hs hcan
    obtain ⟨h1, h2⟩ := still_asked vp r m dy (fun i r' => (reach vp m (child i) r').2) b hg ha hst hm ht hr c hmem hc hin
    refine ⟨y, i1, i2, fun t => ?_⟩
    simp only [turned, h2, if_true, List.nil_append, List.mem_flatMap, List.mem_map, h1]
    constructor
    · rintro ⟨d, rfl, u, hu', rfl⟩
      rw [(i3 u).1 hu']
    · rintro rfl
      exact ⟨c, rfl, _, (i3 _).2 rfl, rfl⟩

theorem tree_fit : Fit ⟨20, 10⟩ tree := by
  refine ⟨⟨rfl, above_ok.1, above_ok.2.1⟩, above_ok.2.2, fun i => ?_⟩
  dsimp only
  split
  · exact ⟨trivial, pair_ok.2.2, fun _ => trivial⟩
  · exact trivial

/-- The container on the screen of `tree`. -/
def cards : Box := .scroller Scroller.padded Scroller.pair { scroll := ⟨0, 4, 8, 12, 16, 4⟩ }

example : let r : Region := ⟨0, 0, 20, 10⟩
    Under ⟨20, 10⟩ 3 4 tree r [0] cards ⟨0, 0, 20, 6⟩ ∧ cards.Fit ⟨20, 10⟩ ∧ ScreenFree cards.body ∧
    cards.sheet.overflowY ≠ .hidden ∧
    ((cards.position ⟨20, 10⟩ ⟨0, 0, 20, 6⟩).offsetY, (cards.position ⟨20, 10⟩ ⟨0, 0, 20, 6⟩).maxScrollY) = (4, 8) ∧
    turned ⟨20, 10⟩ ⟨.scrollDown, 3, 4, false⟩ tree r = [([0], (0, 4), (0, 5))] ∧
    turned ⟨20, 10⟩ ⟨.scrollUp, 3, 4, false⟩ tree r = [([0], (0, 4), (0, 3))] ∧
    turned ⟨20, 10⟩ ⟨.scrollDown, 3, 7, false⟩ tree r = [] := by
  intro r
  refine ⟨?_, trivial, pair_ok.1, by decide, by decide +kernel, by decide +kernel, by decide +kernel, by decide +kernel⟩
  refine .inside (c := ⟨0, ⟨0, 0, 20, 6⟩⟩) (by decide) tree_ok.1.1 above_ok.2.2 ⟨?_, by decide +kernel⟩ (by decide +kernel)
    (by decide) (by decide +kernel) (.here (by decide))
  rintro (h | ⟨-, h⟩)
  · cases h
  · revert h
    simp only [Scroller.TooTall, above, List.mem_cons, List.not_mem_nil, or_false, exists_eq_or_imp, exists_eq_left]
    decide

/-- A layout with one child that fills the area. -/
def only : Body := { arrange := fun a _ => [⟨0, a⟩] }

/-- Twenty rows of content. -/
def long : Body := { arrange := fun a _ => [⟨0, ⟨a.x, a.y, 10, 20⟩⟩] }

/-- **C202** is false of a scrolling container in a scrolling container: the inner one is drawn at the pointer and has more
to show, and the outer one has nothing to scroll, but keeps the turn of the wheel to itself. -/
theorem nested_counterexample :
    let inside : Box := .scroller {} long {}
    let n : Node := .box (.scroller {} only {}) fun _ => .box inside fun _ => .leaf 0 false
    let r : Region := ⟨0, 0, 20, 10⟩
    ((Box.scroller {} only {}).shown ⟨20, 10⟩ r) = (r, [⟨0, r⟩]) ∧
    ((inside.position ⟨20, 10⟩ r).offsetY, (inside.position ⟨20, 10⟩ r).maxScrollY) = (0, 10) ∧
    turned ⟨20, 10⟩ ⟨.scrollDown, 3, 4, false⟩ (.box inside fun _ => .leaf 0 false) r = [([], (0, 0), (0, 1))] ∧
    turned ⟨20, 10⟩ ⟨.scrollDown, 3, 4, false⟩ n r = [] := by decide +kernel

/-- The same with a plain container around that has `overflow-y: auto` and nothing to scroll. -/
theorem auto_counterexample :
    let inside : Box := .scroller {} long {}
    let n (s : Sheet) : Node := .box (.pane s only {}) fun _ => .box inside fun _ => .leaf 0 false
    let r : Region := ⟨0, 0, 20, 10⟩
    turned ⟨20, 10⟩ ⟨.scrollDown, 3, 4, false⟩ (n { overflowX := .hidden, overflowY := .hidden }) r =
      [([0], (0, 0), (0, 1))] ∧
    turned ⟨20, 10⟩ ⟨.scrollDown, 3, 4, false⟩ (n { overflowX := .hidden, overflowY := .auto }) r = [] := by
  decide +kernel

/-- **C202** is false of children that overlap: one turn of the wheel moves two containers, also the one that is not seen at
the pointer. -/
theorem overlap_moves_counterexample :
    let inside : Box := .scroller {} long {}
    let n : Node := .box (.pane { overflowX := .hidden, overflowY := .hidden }
      { arrange := fun a _ => [⟨0, a⟩, ⟨1, a⟩] } {}) fun _ => .box inside fun _ => .leaf 0 false
    turned ⟨20, 10⟩ ⟨.scrollDown, 3, 4, false⟩ n ⟨0, 0, 20, 10⟩ = [([0], (0, 0), (0, 1)), ([1], (0, 0), (0, 1))] := by
  decide +kernel

/-- **C202** is false of Shift and the wheel over a plain container: it moves down instead of sideways. -/
theorem shift_counterexample :
    let b : Box := .pane { overflowX := .hidden } long {}
    let m : Mouse := ⟨.scrollDown, 3, 4, true⟩
    m.turn = some (1, 0) ∧
    turned ⟨20, 10⟩ m (.box b fun _ => .leaf 0 false) ⟨0, 0, 20, 10⟩ = [([], (0, 0), (0, 3))] := by decide +kernel

end Textual.Nest
