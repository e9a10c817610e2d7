import Verif.Props.Nest

/-!
# The widget under the pointer gets a mouse event once (C174)
-/

namespace Textual.Nest

open Layout (Placement Viewport)
open Scroller (Mouse At OnScreen Body Apart ScreenFree)

theorem short_of_apart {l : List Placement} {x y : Int} (h : l.Pairwise fun p q => ∀ x y, ¬ (At p.region x y ∧ At q.region x y))
    (hat : ∀ p ∈ l, At p.region x y) : l.length ≤ 1 := by
  match l, h, hat with
  | [], _, _ => simp
  | [_], _, _ => simp
  | p :: q :: _, h, hat =>
    exact absurd ⟨hat p (by simp), hat q (by simp)⟩ ((List.pairwise_cons.1 h).1 q (by simp) x y)

theorem ask_short (answers : Nat → Bool) (l : List Placement) : (Pane.ask answers l).length ≤ l.length := by
  induction l with
  | nil => simp [Pane.ask]
  | cons c l ih =>
    unfold Pane.ask
    split
    · simp
    · simpa using ih

/-- A plain container whose children do not overlap asks at most one. -/
theorem pane_short (s : Scroller.Sheet) (b : Body) (st : Pane.State) (hv : Pane.Valid st b) (hb : ScreenFree b) (vp : Viewport)
    (ha : Apart b vp) (m : Mouse) (hm : OnScreen m) (r : Region) (answers : Nat → Bool) :
    (st.onMouse s b m r answers).1.length ≤ 1 := by
  unfold Pane.State.onMouse
  split
  · simp
  split
  · simp
  split
  · simp
  · obtain ⟨p1, -, -⟩ := Pane.place_valid st b hv r (Viewport.ofRegion r)
    generalize st.place b r (Viewport.ofRegion r) = q at p1 ⊢
    obtain ⟨ps, t⟩ := q
    dsimp only at p1 ⊢
    refine Nat.le_trans (ask_short _ _) (short_of_apart (x := m.column) (y := m.row) ?_ ?_)
    · refine List.Pairwise.filter _ ?_
      rw [p1, hb r (Viewport.ofRegion r) vp, List.pairwise_map]
      refine (ha r).imp ?_
      intro p q h x y hxy
      refine h x (y + t.scroll.offsetY) ?_
      simp only [At] at *
      omega
    · intro p hp
      exact (Scroller.contains_iff _ _ _ ⟨hm.1, hm.2.1⟩ ⟨hm.2.2.1, hm.2.2.2⟩).1 (List.mem_filter.1 hp).2

theorem single {α : Type} {l : List α} {a : α} (h : ∀ x, x ∈ l ↔ x = a) (hl : l.length ≤ 1) : l = [a] := by
  match l, h, hl with
  | [], h, _ => exact absurd ((h a).2 rfl) (by simp)
  | [x], h, _ => rw [(h x).1 (by simp)]
  | _ :: _ :: _, _, hl => simp at hl

/-- A container asks the child at the pointer once. -/
theorem asked_once (vp : Viewport) (r : Region) (m : Mouse) (answers : Nat → Region → Bool) (b : Box)
    (hg : b.Good vp r) (ha : Apart b.body vp) (hm : OnScreen m) (hk : m.kind.points = true)
    (hr : At r m.column m.row) (c : Placement) (hc : c ∈ (b.shown vp r).2) (h1 : At c.region m.column m.row)
    (h2 : At (b.shown vp r).1 m.column m.row) : b.asked vp r m answers = [c] := by
  refine single (asked_complete vp r m answers b hg ha hm hk hr c hc h1 h2) ?_
  have hpos : 0 < r.width ∧ 0 < r.height := by simp only [At] at hr; omega
  cases b with
  | scroller s b st =>
    simp only [Box.asked]
    generalize (Scroller.State.onMouse s b _ m r).2 = o
    cases o <;> simp
  | pane s b st =>
    obtain ⟨g1, g2, g3, es, rfl, g4⟩ := hg
    have hv : Pane.Valid (Pane.State.history s es) b := Pane.told_valid s es none {} b r vp
      (fun _ _ => fun _ _ _ e => by cases e) g4
    exact pane_short s b _ (Pane.draw_valid s b _ hv r vp) g1 vp ha m hm r _
  | screen s b pinned st =>
    obtain ⟨g1, g2, g3, g4, g5, g6⟩ := hg
    obtain ⟨d', e, -, h⟩ := Screen.mouse_to_drawn_partial s b pinned st m r vp g1 g2 g3 g4 g5 hm hpos g6 hk
    simp only [Box.shown, e] at hc h2
    simp only [Box.asked, h ha c hc h1 h2, List.length_singleton, Nat.le_refl]

/-- **C174** (partial, as `seen_reached_partial`). A widget that is drawn at the pointer and not clipped away there gets the
event exactly once, with the region it was drawn in, and no other gets it. -/
theorem seen_once_partial (vp : Viewport) (m : Mouse) (hm : OnScreen m) (hk : m.kind.points = true) (n : Node)
    (r : Region) (hg : Good vp n r) (ha : NoOverlap vp n) (clips : List Region) (id : Nat) (r' : Region)
    (ks : List Region) (hp : (id, r', ks) ∈ painted vp n r clips) (hs : SeenAt (id, r', ks) m.column m.row) :
    (reach vp m n r).1 = [(id, r')] := by
  induction n generalizing r clips with
  | leaf i a =>
    simp only [painted, List.mem_singleton, Prod.mk.injEq] at hp
    obtain ⟨rfl, rfl, -⟩ := hp
    rfl
  | box b child ih =>
    have hr := painted_in vp _ r hg clips _ hp _ _ hs
    obtain ⟨c, hc, hin⟩ := List.mem_flatMap.1 hp
    have h1 := painted_in vp _ _ (hg.2 c hc) _ _ hin _ _ hs
    have h2 := hs.2 _ (clips_kept vp _ _ _ _ hin _ (List.mem_cons_self ..))
    simp only [reach, asked_once vp r m (fun i r' => (reach vp m (child i) r').2) b hg.1 ha.1 hm hk hr c hc h1 h2,
      List.flatMap_cons, List.flatMap_nil, List.append_nil]
    exact ih _ _ (hg.2 c hc) (ha.2 _) _ hin

/-- A press on the scrolled card. -/
example : (reach ⟨20, 10⟩ ⟨.down, 3, 4, false⟩ tree ⟨0, 0, 20, 10⟩).1 = [(11, ⟨1, 3, 8, 6⟩)] := by
  refine seen_once_partial ⟨20, 10⟩ ⟨.down, 3, 4, false⟩ (by unfold OnScreen; decide) rfl tree ⟨0, 0, 20, 10⟩ tree_ok.1 tree_ok.2 []
    11 ⟨1, 3, 8, 6⟩ [⟨1, 1, 16, 4⟩, ⟨0, 0, 20, 10⟩] (by decide +kernel) ?_
  simp only [SeenAt, At, List.mem_cons, List.not_mem_nil, or_false, forall_eq_or_imp, forall_eq]
  omega

end Textual.Nest
