import Verif.Props.ScreenMouse

/-! C114: reaching the rows of the screen. -/

namespace Textual.Screen

open Layout (Placement Viewport)
open Scroller (Sheet Body Overflow Mouse Kind Flags inner scrolled inView virtualSize State vRegion hRegion
  contentRegion drawsV drawsH At ScreenFree OnScreen Monotone TooTall Wanted contains_iff virtual_tall)

/-- `n` times the same mouse event. -/
def turns (s : Sheet) (b : Body) (pinned : Nat → Bool) (r : Region) (m : Mouse) (st : State) : Nat → State
  | 0 => st
  | n + 1 => (onMouse s b pinned (turns s b pinned r m st n) m r).1

/-- The position `k` rows down. -/
abbrev down (c : ScrollState) (k : Int) : ScrollState := { c with offsetY := k }

theorem after_idem (s : Sheet) (b : Body) (c : ScrollState) (a : Region) (vp : Viewport) (k : Int) (h0 : 0 ≤ k)
    (h1 : k ≤ max ((layout s b a vp).2.2.2 - (layout s b a vp).1.height) 0) :
    after s b (down (after s b c a vp) k) a vp = down (after s b c a vp) k := by
  unfold after down
  simp only [ScrollState.setVirtualSize, ScrollState.setViewport, ScrollState.reclamp,
    ScrollState.maxScrollX, ScrollState.maxScrollY]
  congr 1 <;> omega

theorem virtual_le (b : Body) (ps : List Placement) (base : Region) (p : Placement) (h : p ∈ ps) :
    p.region.y - base.y + p.region.height + b.marginBottom p.childIndex ≤ (virtualSize b ps base).2 := by
  unfold virtualSize
  suffices H : ∀ acc : Int × Int, acc.2 ≤ (ps.foldl (fun (acc : Int × Int) p =>
      let w := (p.region.x - base.x) + p.region.width + b.marginRight p.childIndex
      let h := (p.region.y - base.y) + p.region.height + b.marginBottom p.childIndex
      (if w > acc.1 then w else acc.1, if h > acc.2 then h else acc.2)) acc).2 ∧
      (p ∈ ps → p.region.y - base.y + p.region.height + b.marginBottom p.childIndex ≤
        (ps.foldl (fun (acc : Int × Int) p =>
      let w := (p.region.x - base.x) + p.region.width + b.marginRight p.childIndex
      let h := (p.region.y - base.y) + p.region.height + b.marginBottom p.childIndex
      (if w > acc.1 then w else acc.1, if h > acc.2 then h else acc.2)) acc).2) from (H (0, 0)).2 h
  clear h
  induction ps with
  | nil => intro acc; exact ⟨le_refl _, fun h => by cases h⟩
  | cons q ps ih =>
    intro acc
    rw [List.foldl_cons]
    refine ⟨le_trans ?_ (ih _).1, fun h => ?_⟩
    · dsimp only; split <;> omega
    · rcases List.mem_cons.1 h with e | e
      · subst e
        refine le_trans ?_ (ih _).1
        dsimp only; split <;> omega
      · exact (ih _).2 e

/-- One turn of the wheel after a drawing. -/
theorem one_turn (s : Sheet) (b : Body) (pinned : Nat → Bool) (c : ScrollState) (m : Mouse) (r : Region)
    (vp : Viewport) (st : State) (k : Int) (hx : s.overflowX = .hidden) (hmono : Monotone b vp)
    (hr : 0 < r.width ∧ 0 < r.height) (hm : OnScreen m) (hat : At r m.column m.row) (hs : m.sideways = false)
    (hv : (first s b (inner s r) vp).v = true)
    (hst : st.scroll = down (after s b c (inner s r) vp) k) (h0 : 0 ≤ k)
    (h1 : k ≤ max ((layout s b (inner s r) vp).2.2.2 - (layout s b (inner s r) vp).1.height) 0) :
    (m.kind = .scrollUp → (onMouse s b pinned st m r).1.scroll = down (after s b c (inner s r) vp) (max (k - 3) 0)) ∧
    (m.kind = .scrollDown → (onMouse s b pinned st m r).1.scroll = down (after s b c (inner s r) vp)
      (min (k + 3) (max ((layout s b (inner s r) vp).2.2.2 - (layout s b (inner s r) vp).1.height) 0))) := by
  obtain ⟨n1, n2⟩ := inner_nonneg s r hr
  have hfl : shows s st.scroll = first s b (inner s r) vp := by
    rw [hst]; exact flags_agree s b c (inner s r) vp hx hmono n2 n1
  have hlay := layout_area s b (inner s r) vp
  have hset : st.scroll.setViewport (layout s b (inner s r) vp).1.width (layout s b (inner s r) vp).1.height =
      st.scroll := by
    rw [hst]
    unfold after down
    simp only [ScrollState.setVirtualSize, ScrollState.setViewport, ScrollState.reclamp,
      ScrollState.maxScrollX, ScrollState.maxScrollY]
    congr 1 <;> omega
  have hc := (contains_iff r m.column m.row ⟨hm.1, hm.2.1⟩ ⟨hm.2.2.1, hm.2.2.2⟩).2 hat
  unfold onMouse
  rw [if_neg (by rw [hc]; decide)]
  dsimp only
  rw [hfl, ← hlay, hset, hfl]
  constructor
  · intro hk
    rw [hk]
    simp only [hs, hv, if_true, Bool.false_eq_true, if_false, State.scrollBy, hst]
  · intro hk
    rw [hk]
    simp only [hs, hv, if_true, Bool.false_eq_true, if_false, State.scrollBy, hst]
    rfl

/-- **C114** (partial: `overflow-x: hidden`, no room kept free, layouts as in C102, an area of three rows or more, no
negative margins; see the counterexamples). Each cell of each child in a column of the area of the children can be
brought into view by turning the wheel anywhere on the screen: up often enough and then down. -/
theorem rows_reachable_partial (s : Sheet) (b : Body) (pinned : Nat → Bool) (st : State) (r : Region) (vp : Viewport)
    (m1 m2 : Mouse) (hx : s.overflowX = .hidden) (ho : s.overflowY ≠ .hidden) (hg : s.stableGutter = false)
    (hmono : Monotone b vp) (hr : 0 < r.width ∧ 0 < r.height) (hi : 3 ≤ (inner s r).height)
    (hmargin : ∀ i, 0 ≤ b.marginBottom i) (h0 : st.scroll.offsetX = 0)
    (hm1 : OnScreen m1 ∧ At r m1.column m1.row ∧ m1.sideways = false ∧ m1.kind = .scrollUp)
    (hm2 : OnScreen m2 ∧ At r m2.column m2.row ∧ m2.sideways = false ∧ m2.kind = .scrollDown) :
    ∃ d, (draw s b st r vp).1 = some d ∧ ∀ c ∈ b.arrange d.content vp, ∀ x y, At c.region x y → d.content.y ≤ y →
      d.content.x ≤ x → x < d.content.x + d.content.width →
      ∃ up down dy d', (draw s b (turns s b pinned r m2 (turns s b pinned r m1 (draw s b st r vp).2 up) down) r vp).1 =
          some d' ∧ d'.content = d.content ∧ At d'.content x (y - dy) ∧
        (⟨c.childIndex, { c.region with y := c.region.y - dy }⟩ : Placement) ∈ d'.children := by
  obtain ⟨n1, n2⟩ := inner_nonneg s r hr
  refine ⟨_, by rw [draw_eq s b st r vp hr], ?_⟩
  rw [draw_eq s b st r vp hr]
  dsimp only
  intro c hc x y hat hy hx1 hx2
  have hh := first_h s b (inner s r) vp hx
  obtain ⟨hpl, -⟩ := layout_placements s b (inner s r) vp hg hh ⟨n2, n1⟩
  have hlay := layout_area s b (inner s r) vp
  have hch : (layout s b (inner s r) vp).1.height = (inner s r).height := by
    rw [hlay]; exact content_height s (inner s r) _ hh n2
  have hvirt : (layout s b (inner s r) vp).2.2 =
      virtualSize b (b.arrange (layout s b (inner s r) vp).1 vp) (layout s b (inner s r) vp).1 := by
    rw [← hpl]
    have hl2 := (layout_placements s b (inner s r) vp hg hh ⟨n2, n1⟩).2
    rw [hlay] at hl2
    unfold layout
    dsimp only
    change (if (first s b (inner s r) vp).v = true ∧
      (contentRegion s (inner s r) (first s b (inner s r) vp)).width < (inner s r).width then _ else _ :
      Region × List Placement × (Int × Int)).2.2 = _
    change _ = virtualSize b (if (first s b (inner s r) vp).v = true ∧
      (contentRegion s (inner s r) (first s b (inner s r) vp)).width < (inner s r).width then _ else _ :
      Region × List Placement × (Int × Int)).2.1 (if (first s b (inner s r) vp).v = true ∧
      (contentRegion s (inner s r) (first s b (inner s r) vp)).width < (inner s r).width then _ else _ :
      Region × List Placement × (Int × Int)).1
    by_cases hcd : (first s b (inner s r) vp).v = true ∧
      (contentRegion s (inner s r) (first s b (inner s r) vp)).width < (inner s r).width
    · rw [if_pos hcd]
    · rw [if_neg hcd] at hl2
      rw [if_neg hcd]
      dsimp only
      congr 1
  have hmax := virtual_le b _ (layout s b (inner s r) vp).1 c hc
  rw [← hvirt] at hmax
  have hmg := hmargin c.childIndex
  have hidem := after_idem s b st.scroll (inner s r) vp
  -- the position after turning
  have hturn : ∃ up dn k, (turns s b pinned r m2 (turns s b pinned r m1
        { st with scroll := after s b st.scroll (inner s r) vp } up) dn).scroll =
        down (after s b st.scroll (inner s r) vp) k ∧ 0 ≤ k ∧
        k ≤ max ((layout s b (inner s r) vp).2.2.2 - (layout s b (inner s r) vp).1.height) 0 ∧
        (layout s b (inner s r) vp).1.y ≤ y - k ∧
        y - k < (layout s b (inner s r) vp).1.y + (layout s b (inner s r) vp).1.height := by
    have hoff : 0 ≤ (after s b st.scroll (inner s r) vp).offsetY ∧ (after s b st.scroll (inner s r) vp).offsetY ≤
        max ((layout s b (inner s r) vp).2.2.2 - (layout s b (inner s r) vp).1.height) 0 := by
      unfold after
      simp only [ScrollState.setVirtualSize, ScrollState.setViewport, ScrollState.reclamp,
        ScrollState.maxScrollX, ScrollState.maxScrollY]
      omega
    simp only [At] at hat
    by_cases hv : (first s b (inner s r) vp).v = true
    · have one := one_turn s b pinned st.scroll (vp := vp) (r := r) (hx := hx) (hmono := hmono) (hr := hr) (hv := hv)
      generalize hM : max ((layout s b (inner s r) vp).2.2.2 - (layout s b (inner s r) vp).1.height) 0 = M at *
      have ups : ∀ n : Nat, (turns s b pinned r m1 { st with scroll := after s b st.scroll (inner s r) vp } n).scroll =
          down (after s b st.scroll (inner s r) vp) (max ((after s b st.scroll (inner s r) vp).offsetY - 3 * n) 0) := by
        intro n
        induction n with
        | zero =>
          rw [turns]
          have : max ((after s b st.scroll (inner s r) vp).offsetY - 3 * ((0 : Nat) : Int)) 0 =
              (after s b st.scroll (inner s r) vp).offsetY := by omega
          rw [this]
        | succ n ih =>
          rw [turns, (one (m := m1) (st := _) (k := _) (hm := hm1.1) (hat := hm1.2.1) (hs := hm1.2.2.1) (hst := ih)
            (by omega) (by omega)).1 hm1.2.2.2]
          have : max (max ((after s b st.scroll (inner s r) vp).offsetY - 3 * (n : Int)) 0 - 3) 0 =
              max ((after s b st.scroll (inner s r) vp).offsetY - 3 * ((n + 1 : Nat) : Int)) 0 := by omega
          rw [this]
      have downs : ∀ t : State, t.scroll = down (after s b st.scroll (inner s r) vp) 0 → ∀ n : Nat,
          (turns s b pinned r m2 t n).scroll =
          down (after s b st.scroll (inner s r) vp) (min (3 * (n : Int)) M) := by
        intro t ht n
        induction n with
        | zero =>
          rw [turns, ht]
          have : min (3 * ((0 : Nat) : Int)) M = 0 := by omega
          rw [this]
        | succ n ih =>
          rw [turns, (one (m := m2) (st := _) (k := _) (hm := hm2.1) (hat := hm2.2.1) (hs := hm2.2.2.1) (hst := ih)
            (by omega) (by omega)).2 hm2.2.2.2]
          have : min (min (3 * (n : Int)) M + 3) M = min (3 * ((n + 1 : Nat) : Int)) M := by omega
          rw [this]
      refine ⟨(after s b st.scroll (inner s r) vp).offsetY.toNat,
        ((y - (layout s b (inner s r) vp).1.y) / 3).toNat, _, downs _ ?_ _, ?_, ?_, ?_, ?_⟩
      · rw [ups]
        congr 1
        omega
      all_goals omega
    · have hfit : ¬ TooTall b vp (inner s r) := by
        intro h
        apply hv
        rw [first_v]
        unfold Wanted
        cases hoy : s.overflowY <;> simp_all
      have heq : (layout s b (inner s r) vp).1 = inner s r := by
        have := (layout_placements s b (inner s r) vp hg hh ⟨n2, n1⟩).2
        rw [if_neg (by simp [hv])] at this
        exact this.symm
      have : ¬ (layout s b (inner s r) vp).2.2.2 > (inner s r).height := by
        rw [hvirt, heq, virtual_tall]; exact hfit
      refine ⟨0, 0, (after s b st.scroll (inner s r) vp).offsetY, rfl, hoff.1, hoff.2, ?_, ?_⟩ <;> omega
  obtain ⟨up, dn, k, e, k0, k1, k2, k3⟩ := hturn
  refine ⟨up, dn, k, _, by rw [draw_eq s b _ r vp hr], rfl, ?_, ?_⟩
  · simp only [At]; omega
  · dsimp only
    rw [e, hidem k k0 k1, hpl]
    have hxz : (after s b st.scroll (inner s r) vp).offsetX = 0 := by
      unfold after
      simp only [ScrollState.setVirtualSize, ScrollState.setViewport, ScrollState.reclamp,
        ScrollState.maxScrollX, ScrollState.maxScrollY, h0]
      omega
    refine List.mem_filter.2 ⟨List.mem_map.2 ⟨c, hc, ?_⟩, ?_⟩
    · simp only [scrolled, hxz, sub_zero]
    · simp only [At] at hat
      simp only [inView, decide_eq_true_eq]
      omega

example : Monotone (card 10 25) ⟨20, 10⟩ ∧ 3 ≤ (inner plain ⟨0, 0, 20, 10⟩).height ∧
    (let st := (draw plain (card 10 25) {} ⟨0, 0, 20, 10⟩ ⟨20, 10⟩).2
     (draw plain (card 10 25) (turns plain (card 10 25) (fun _ => false) ⟨0, 0, 20, 10⟩ (at_ .scrollDown 4 4) st 7)
       ⟨0, 0, 20, 10⟩ ⟨20, 10⟩).1.map (·.children)) = some [⟨0, ⟨0, -15, 10, 25⟩⟩] := by
  refine ⟨?_, by decide, by decide +kernel⟩
  intro x y w h w' h' h1 h2
  simp only [TooTall, Scroller.TooWide, card, List.mem_cons, List.not_mem_nil, or_false, exists_eq_left]
  omega

/-- **C114** fails with `overflow-x: auto`: the last row of the child is under the horizontal bar or below the screen,
whatever the position. -/
theorem last_row_counterexample (st : State) :
    ∃ d, (draw {} (card 19 25) st ⟨0, 0, 20, 10⟩ ⟨20, 10⟩).1 = some d ∧ d.hBar = some ⟨0, 9, 18, 1⟩ ∧
      ∀ c ∈ d.children, 9 ≤ c.region.y + c.region.height - 1 := by
  have hi : inner {} (⟨0, 0, 20, 10⟩ : Region) = ⟨0, 0, 20, 10⟩ := by decide
  have hl : layout {} (card 19 25) ⟨0, 0, 20, 10⟩ ⟨20, 10⟩ = (⟨0, 0, 18, 10⟩, [⟨0, ⟨0, 0, 19, 25⟩⟩], (19, 25)) := by
    decide +kernel
  refine ⟨_, by rw [draw_eq _ _ _ _ _ (by decide)], ?_⟩
  dsimp only
  rw [hi]
  have hs : shows {} (after {} (card 19 25) st.scroll ⟨0, 0, 20, 10⟩ ⟨20, 10⟩) = { v := true, h := true } := by
    unfold after; rw [hl]; rfl
  rw [hs, hl]
  refine ⟨by decide, ?_⟩
  intro c hc
  have := (List.mem_filter.1 hc).1
  simp only [List.map_cons, List.map_nil, List.mem_singleton] at this
  subst this
  simp only [scrolled, after, hl, ScrollState.setVirtualSize, ScrollState.setViewport, ScrollState.reclamp,
    ScrollState.maxScrollX, ScrollState.maxScrollY]
  omega

/-- **C114** fails for an area of one row: however the wheel is turned, the fifth row of a child of six is not shown. -/
theorem small_counterexample (ks : List Bool) :
    let r : Region := ⟨0, 0, 20, 1⟩
    let st := ks.foldl (fun st k => (onMouse plain (card 10 6) (fun _ => false) st
      (at_ (if k then .scrollDown else .scrollUp) 0 0) r).1) (draw plain (card 10 6) {} r ⟨20, 1⟩).2
    (draw plain (card 10 6) st r ⟨20, 1⟩).1.map (·.children) ≠ some [⟨0, ⟨0, -4, 10, 6⟩⟩] := by
  intro r st
  let L : List State := [0, 2, 3, 5].flatMap fun k => [true, false].map fun d =>
    { scroll := ⟨0, k, 10, 6, 18, 1⟩, dirty := d }
  have step : ∀ st ∈ L, ∀ k : Bool, (onMouse plain (card 10 6) (fun _ => false) st
      (at_ (if k then .scrollDown else .scrollUp) 0 0) r).1 ∈ L := by decide +kernel
  have all : ∀ (ks : List Bool) (st : State), st ∈ L → ks.foldl (fun st k => (onMouse plain (card 10 6)
      (fun _ => false) st (at_ (if k then .scrollDown else .scrollUp) 0 0) r).1) st ∈ L := by
    intro ks
    induction ks with
    | nil => exact fun _ h => h
    | cons k ks ih => exact fun st h => ih _ (step st h k)
  have h : st ∈ L := all ks _ (by decide +kernel)
  have fin : ∀ st ∈ L, (draw plain (card 10 6) st r ⟨20, 1⟩).1.map (·.children) ≠ some [⟨0, ⟨0, -4, 10, 6⟩⟩] := by
    decide +kernel
  exact fin st h

end Textual.Screen
