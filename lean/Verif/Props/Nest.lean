import Verif.Model.Nest
import Verif.Props.ScrollerMouse
import Verif.Props.PanePointer
import Verif.Props.ScreenMouse

/-!
# The mouse reaches the widget seen under the pointer, at any depth (C174)
-/

namespace Textual.Nest

open Layout (Placement Viewport)
open Scroller (Sheet Body Mouse At ScreenFree OnScreen Apart Monotone inner)

/-- The container is one for which C106, C109 or C113 holds in region `r`. -/
def Box.Good (vp : Viewport) (r : Region) : Box → Prop
  | .scroller _ b st => ScreenFree b ∧ Monotone b vp ∧ st.drag = none
  | .pane s b st =>
    ScreenFree b ∧ inner s r = r ∧ (st.draw s b r vp).1.content = r ∧
    ∃ es, st = Pane.State.history s es ∧ Pane.Told none (es ++ [.draw b r vp])
  | .screen s b pinned st =>
    s.overflowX = .hidden ∧ s.stableGutter = false ∧ (∀ i, pinned i = false) ∧ ScreenFree b ∧ Monotone b vp ∧
    st.drag = none

/-- The layout of the children. -/
def Box.body : Box → Body
  | .scroller _ b _ | .pane _ b _ | .screen _ b _ _ => b

/-- All containers of the tree, each in the region it is drawn in. -/
def Good (vp : Viewport) : Node → Region → Prop
  | .leaf _ _, _ => True
  | .box b child, r => b.Good vp r ∧ ∀ c ∈ (b.shown vp r).2, Good vp (child c.childIndex) c.region

/-- No container places two children over each other. -/
def NoOverlap (vp : Viewport) : Node → Prop
  | .leaf _ _ => True
  | .box b child => Apart b.body vp ∧ ∀ i, NoOverlap vp (child i)

/-- The leaf shows at the place: it is in the region of the leaf and in all areas the leaf is clipped to. -/
def SeenAt (p : Painted) (x y : Int) : Prop := At p.2.1 x y ∧ ∀ k ∈ p.2.2, At k x y

theorem points_ne {k : Scroller.Kind} (h : k.points = true) : k ≠ .scrollDown ∧ k ≠ .scrollUp := by
  cases k <;> simp_all [Scroller.Kind.points]

theorem asked_sound (vp : Viewport) (r : Region) (m : Mouse) (answers : Nat → Region → Bool) (b : Box)
    (hg : b.Good vp r) (hm : OnScreen m) (hk : m.kind.points = true) (hr : At r m.column m.row) (c : Placement)
    (hc : c ∈ b.asked vp r m answers) :
    c ∈ (b.shown vp r).2 ∧ At c.region m.column m.row ∧ At (b.shown vp r).1 m.column m.row := by
  have hpos : 0 < r.width ∧ 0 < r.height := by simp only [At] at hr; omega
  cases b with
  | scroller s b st =>
    obtain ⟨h1, h2, h3⟩ := hg
    have h := Scroller.mouse_to_drawn_partial s b st m r vp c h1 hm hpos (by
      simpa [Box.asked, Scroller.State.event] using hc)
    simp only [Box.shown]
    rw [if_neg (by omega)]
    exact h
  | pane s b st =>
    obtain ⟨h1, h2, h3, es, rfl, h4⟩ := hg
    simp only [Box.asked] at hc
    have h := fun f => Pane.mouse_to_drawn_partial s es b r vp m f h4 h1 hm (points_ne hk) hpos h2 h3
    have := (h _).1 c hc
    exact ⟨this.1, this.2, by simp only [Box.shown]; rw [h3]; exact hr⟩
  | screen s b pinned st =>
    obtain ⟨h1, h2, h3, h4, h5, h6⟩ := hg
    obtain ⟨d, e, h, -⟩ := Screen.mouse_to_drawn_partial s b pinned st m r vp h1 h2 h3 h4 h5 hm hpos h6 hk
    simp only [Box.shown, e]
    exact h c hc

/-- The content area of a container that draws something is inside its region. -/
theorem shown_in (vp : Viewport) (r : Region) (b : Box) (hg : b.Good vp r) (x y : Int) (h0 : (b.shown vp r).2 ≠ [])
    (h : At (b.shown vp r).1 x y) : At r x y := by
  cases b with
  | scroller s b st =>
    obtain ⟨h1, h2, h3⟩ := hg
    simp only [Box.shown] at h h0
    split at h
    · exact h
    · rename_i hr
      obtain ⟨-, -, e, -, -⟩ := Scroller.bars_partial s b (inner s r) vp h2
      dsimp only at h
      rw [e] at h
      exact (Screen.content_in s r _ x y (by omega) h).2
  | pane s b st =>
    obtain ⟨h1, h2, h3, es, rfl, h4⟩ := hg
    simp only [Box.shown] at h
    rwa [h3] at h
  | screen s b pinned st =>
    by_cases hr : r.width ≤ 0 ∨ r.height ≤ 0
    · simp only [Box.shown, Screen.draw, if_pos hr] at h
      exact h
    · simp only [Box.shown, Screen.draw_eq s b st r vp (by omega), Screen.layout_area] at h
      exact (Screen.content_in s r _ x y (by omega) h).2

theorem pairwise_mem {α : Type} {R : α → α → Prop} {l : List α} (h : l.Pairwise R) :
    ∀ p ∈ l, ∀ q ∈ l, p = q ∨ R p q ∨ R q p := by
  induction h with
  | nil => simp
  | cons h1 _ ih =>
    intro p hp q hq
    rcases List.mem_cons.1 hp with rfl | hp' <;> rcases List.mem_cons.1 hq with rfl | hq'
    · exact .inl rfl
    · exact .inr (.inl (h1 q hq'))
    · exact .inr (.inr (h1 p hp'))
    · exact ih p hp' q hq'

theorem scrolled_apart (b : Body) (vp : Viewport) (ha : Apart b vp) (a k : Region) (c : ScrollState) (x y : Int)
    (p q : Placement)
    (hp : p ∈ ((b.arrange a vp).map fun p => (⟨p.childIndex, Scroller.scrolled c p.region⟩ : Placement)).filter
      fun p => Scroller.inView k p.region)
    (hq : q ∈ ((b.arrange a vp).map fun p => (⟨p.childIndex, Scroller.scrolled c p.region⟩ : Placement)).filter
      fun p => Scroller.inView k p.region)
    (h1 : At p.region x y) (h2 : At q.region x y) : p = q := by
  obtain ⟨p', hp', rfl⟩ := List.mem_map.1 (List.mem_filter.1 hp).1
  obtain ⟨q', hq', rfl⟩ := List.mem_map.1 (List.mem_filter.1 hq).1
  have : p' = q' := by
    rcases pairwise_mem (ha a) p' hp' q' hq' with h | h | h
    · exact h
    all_goals
      refine (h (x + c.offsetX) (y + c.offsetY) ?_).elim
      simp only [At, Scroller.scrolled] at *
      omega
  rw [this]

theorem asked_complete (vp : Viewport) (r : Region) (m : Mouse) (answers : Nat → Region → Bool) (b : Box)
    (hg : b.Good vp r) (ha : Apart b.body vp) (hm : OnScreen m) (hk : m.kind.points = true)
    (hr : At r m.column m.row) (c : Placement) (hc : c ∈ (b.shown vp r).2) (h1 : At c.region m.column m.row)
    (h2 : At (b.shown vp r).1 m.column m.row) (d : Placement) : d ∈ b.asked vp r m answers ↔ d = c := by
  have hpos : 0 < r.width ∧ 0 < r.height := by simp only [At] at hr; omega
  cases b with
  | scroller s b st =>
    obtain ⟨g1, g2, g3⟩ := hg
    simp only [Box.shown] at hc h2
    rw [if_neg (by omega)] at hc h2
    have h := Scroller.drawn_gets_mouse_partial s b st m r vp c g1 g2 ha hm hpos g3 hk hc h2 h1
    simp only [Scroller.State.event] at h
    simp only [Box.asked, h, Option.mem_toList, Option.some.injEq, eq_comm]
  | pane s b st =>
    have hsound := asked_sound vp r m answers (.pane s b st) hg hm hk hr
    obtain ⟨g1, g2, g3, es, rfl, g4⟩ := hg
    have hv : Pane.Valid (Pane.State.history s es) b := Pane.told_valid s es none {} b r vp
      (fun _ _ => fun _ _ _ e => by cases e) g4
    obtain ⟨e1, -, -⟩ := Pane.drawInner_plain s b _ hv r vp
    have e : (Pane.State.draw s b (Pane.State.history s es) r vp).1 =
        (Pane.drawPlain s b (Pane.State.history s es).scroll r vp).1 := by
      unfold Pane.State.draw
      rw [if_neg (by omega), g2]; exact e1
    have huniq : ∀ d ∈ (Pane.State.draw s b (Pane.State.history s es) r vp).1.children,
        At d.region m.column m.row → d = c := by
      intro d hd hat
      simp only [Box.shown] at hc
      rw [e] at hd hc
      revert hd hc
      unfold Pane.drawPlain
      dsimp only
      split <;> exact fun hc hd => scrolled_apart b vp ha _ _ _ _ _ d c hd hc hat h1
    constructor
    · intro hd
      obtain ⟨i1, i2, -⟩ := hsound d hd
      exact huniq d i1 i2
    · rintro rfl
      simp only [Box.asked] at hsound ⊢
      have h := fun f => Pane.mouse_to_drawn_partial s es b r vp m f g4 g1 hm (points_ne hk) hpos g2 g3
      rcases (h _).2.1 d hc hr h1 with h | ⟨d', h, -⟩
      · exact h
      · obtain ⟨i1, i2, -⟩ := hsound d' h
        rwa [huniq d' i1 i2] at h
  | screen s b pinned st =>
    obtain ⟨g1, g2, g3, g4, g5, g6⟩ := hg
    obtain ⟨d', e, -, h⟩ := Screen.mouse_to_drawn_partial s b pinned st m r vp g1 g2 g3 g4 g5 hm hpos g6 hk
    simp only [Box.shown, e] at hc h2
    simp only [Box.asked, h ha c hc h1 h2, List.mem_singleton]

/-- **C174** (partial: containers as in C106, C109 and C113). A mouse event other than a turn of the wheel reaches, through
any number of containers, only widgets that were drawn at the pointer and are not clipped away there, each with the region
it was drawn in. -/
theorem reached_seen_partial (vp : Viewport) (m : Mouse) (hm : OnScreen m) (hk : m.kind.points = true) (n : Node)
    (r : Region) (hr : At r m.column m.row) (hg : Good vp n r) (clips : List Region)
    (hcl : ∀ k ∈ clips, At k m.column m.row) (id : Nat) (r' : Region) (h : (id, r') ∈ (reach vp m n r).1) :
    ∃ ks, (id, r', ks) ∈ painted vp n r clips ∧ SeenAt (id, r', ks) m.column m.row := by
  induction n generalizing r clips with
  | leaf i a =>
    simp only [reach, List.mem_singleton, Prod.mk.injEq] at h
    obtain ⟨rfl, rfl⟩ := h
    exact ⟨clips, by simp [painted], hr, hcl⟩
  | box b child ih =>
    obtain ⟨c, hc, hin⟩ := List.mem_flatMap.1 h
    obtain ⟨h1, h2, h3⟩ := asked_sound vp r m _ b hg.1 hm hk hr c hc
    obtain ⟨ks, hp, hs⟩ := ih _ _ h2 (hg.2 c h1) ((b.shown vp r).1 :: clips) (by
      intro k hk'
      rcases List.mem_cons.1 hk' with rfl | hk'
      · exact h3
      · exact hcl k hk') hin
    exact ⟨ks, List.mem_flatMap.2 ⟨c, h1, hp⟩, hs⟩

theorem clips_kept (vp : Viewport) (n : Node) (r : Region) (clips : List Region) (p : Painted)
    (hp : p ∈ painted vp n r clips) : ∀ k ∈ clips, k ∈ p.2.2 := by
  induction n generalizing r clips with
  | leaf i a =>
    simp only [painted, List.mem_singleton] at hp
    subst hp
    exact fun k h => h
  | box b child ih =>
    obtain ⟨c, hc, hin⟩ := List.mem_flatMap.1 hp
    exact fun k hk => ih _ _ _ hin k (List.mem_cons_of_mem _ hk)

theorem painted_in (vp : Viewport) (n : Node) (r : Region) (hg : Good vp n r) (clips : List Region) (p : Painted)
    (hp : p ∈ painted vp n r clips) (x y : Int) (hs : SeenAt p x y) : At r x y := by
  cases n with
  | leaf i a =>
    simp only [painted, List.mem_singleton] at hp
    subst hp
    exact hs.1
  | box b child =>
    obtain ⟨c, hc, hin⟩ := List.mem_flatMap.1 hp
    refine shown_in vp r b hg.1 x y (List.ne_nil_of_mem hc) (hs.2 _ ?_)
    exact clips_kept vp _ _ _ p hin _ (List.mem_cons_self ..)

/-- **C174** (partial: containers as in C106, C109 and C113, no child placed over another). A widget that is drawn at the
pointer and not clipped away there gets the event, through any number of containers, and no other does. -/
theorem seen_reached_partial (vp : Viewport) (m : Mouse) (hm : OnScreen m) (hk : m.kind.points = true) (n : Node)
    (r : Region) (hg : Good vp n r) (ha : NoOverlap vp n) (clips : List Region) (id : Nat) (r' : Region)
    (ks : List Region) (hp : (id, r', ks) ∈ painted vp n r clips) (hs : SeenAt (id, r', ks) m.column m.row) :
    ∀ x, x ∈ (reach vp m n r).1 ↔ x = (id, r') := by
  induction n generalizing r clips with
  | leaf i a =>
    simp only [painted, List.mem_singleton, Prod.mk.injEq] at hp
    obtain ⟨rfl, rfl, -⟩ := hp
    simp [reach]
  | box b child ih =>
    have hr := painted_in vp _ r hg clips _ hp _ _ hs
    obtain ⟨c, hc, hin⟩ := List.mem_flatMap.1 hp
    have h1 := painted_in vp _ _ (hg.2 c hc) _ _ hin _ _ hs
    have h2 := hs.2 _ (clips_kept vp _ _ _ _ hin _ (List.mem_cons_self ..))
    have hd := asked_complete vp r m (fun i r' => (reach vp m (child i) r').2) b hg.1 ha.1 hm hk hr c hc h1 h2
    have hi := ih _ _ (hg.2 c hc) (ha.2 _) _ hin
    intro x
    simp only [reach, List.mem_flatMap]
    constructor
    · rintro ⟨d, hd', hx⟩
      rw [(hd d).1 hd'] at hx
      exact (hi x).1 hx
    · intro hx
      exact ⟨c, (hd c).2 rfl, (hi x).2 hx⟩

/-- A scrolling container above a widget on a screen. -/
def above : Body := { arrange := fun a _ => [⟨0, ⟨a.x, a.y, 20, 6⟩⟩, ⟨1, ⟨a.x, a.y + 6, 20, 2⟩⟩] }

/-- On the screen a padded container with two cards, scrolled by two rows, and a widget below it. -/
def tree : Node :=
  .box (.screen { overflowX := .hidden } above (fun _ => false) {}) fun i =>
    if i = 0 then
      .box (.scroller Scroller.padded Scroller.pair { scroll := ⟨0, 4, 8, 12, 16, 4⟩ }) fun j => .leaf (10 + j) true
    else .leaf 2 true

example : let r : Region := ⟨0, 0, 20, 10⟩
    painted ⟨20, 10⟩ tree r [] =
      [(10, ⟨1, -3, 8, 6⟩, [⟨1, 1, 16, 4⟩, ⟨0, 0, 20, 10⟩]), (11, ⟨1, 3, 8, 6⟩, [⟨1, 1, 16, 4⟩, ⟨0, 0, 20, 10⟩]),
       (2, ⟨0, 6, 20, 2⟩, [⟨0, 0, 20, 10⟩])] ∧
    (reach ⟨20, 10⟩ ⟨.down, 3, 4, false⟩ tree r).1 = [(11, ⟨1, 3, 8, 6⟩)] ∧
    (reach ⟨20, 10⟩ ⟨.down, 3, 6, false⟩ tree r).1 = [(2, ⟨0, 6, 20, 2⟩)] := by decide +kernel

theorem above_ok : ScreenFree above ∧ Monotone above ⟨20, 10⟩ ∧ Apart above ⟨20, 10⟩ := by
  refine ⟨fun _ _ _ => rfl, ?_, ?_⟩
  · intro x y w h w' h' hw hh
    simp only [Scroller.TooTall, Scroller.TooWide, above, List.mem_cons, List.not_mem_nil, or_false, exists_eq_or_imp,
      exists_eq_left]
    omega
  · intro a
    simp only [above, List.pairwise_cons, List.mem_cons, List.not_mem_nil, or_false, forall_eq, At,
      List.Pairwise.nil, and_true, false_implies, implies_true]
    omega

theorem pair_ok : ScreenFree Scroller.pair ∧ Monotone Scroller.pair ⟨20, 10⟩ ∧ Apart Scroller.pair ⟨20, 10⟩ := by
  refine ⟨fun _ _ _ => rfl, ?_, ?_⟩
  · intro x y w h w' h' hw hh
    simp only [Scroller.TooTall, Scroller.TooWide, Scroller.pair, List.mem_cons, List.not_mem_nil, or_false,
      exists_eq_or_imp, exists_eq_left]
    omega
  · intro a
    simp only [Scroller.pair, List.pairwise_cons, List.mem_cons, List.not_mem_nil, or_false, forall_eq, At,
      List.Pairwise.nil, and_true, false_implies, implies_true]
    omega

theorem tree_ok : Good ⟨20, 10⟩ tree ⟨0, 0, 20, 10⟩ ∧ NoOverlap ⟨20, 10⟩ tree := by
  refine ⟨⟨⟨?_, rfl, fun _ => rfl, above_ok.1, above_ok.2.1, rfl⟩, fun c _ => ?_⟩, above_ok.2.2, fun i => ?_⟩
  · rfl
  · dsimp only
    split
    · exact ⟨⟨pair_ok.1, pair_ok.2.1, rfl⟩, fun _ _ => trivial⟩
    · exact trivial
  · dsimp only
    split
    · exact ⟨pair_ok.2.2, fun _ => trivial⟩
    · exact trivial

/-- **C174** fails for a plain container with a border, here one in a scrolling container: the first card is drawn on rows
1 and 2, and a press on row 2 is given to the second. -/
theorem border_counterexample :
    let card : Node := .box (.pane { chromeLeft := 1, chromeTop := 1, chromeRight := 1, chromeBottom := 1 }
      { arrange := fun a _ => [⟨0, ⟨a.x, a.y, 8, 2⟩⟩, ⟨1, ⟨a.x, a.y + 2, 8, 2⟩⟩] } {}) fun j => .leaf (10 + j) true
    let n : Node := .box (.scroller {} { arrange := fun a _ => [⟨0, ⟨a.x, a.y, 20, 8⟩⟩] } {}) fun _ => card
    let r : Region := ⟨0, 0, 20, 10⟩
    painted ⟨80, 24⟩ n r [] =
      [(10, ⟨1, 1, 8, 2⟩, [⟨1, 1, 18, 6⟩, ⟨0, 0, 20, 10⟩]), (11, ⟨1, 3, 8, 2⟩, [⟨1, 1, 18, 6⟩, ⟨0, 0, 20, 10⟩])] ∧
    (reach ⟨80, 24⟩ ⟨.down, 3, 2, false⟩ n r).1 = [(11, ⟨0, 2, 8, 2⟩)] := by decide +kernel

end Textual.Nest
