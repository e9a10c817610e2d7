import Verif.Spec.Arrange
import Verif.Props.Horizontal
import Verif.Props.Vertical
import Verif.Props.GridRegions
import Mathlib.Tactic.Common
import Mathlib.Data.List.Perm.Basic
import Mathlib.Data.List.Nodup

/-! C26, C27, C28, C48-C50: docked, aligned, layered, absolute children. -/

namespace Textual.Layout

/-! ### Docked children -/

theorem dockLoop_fst (a : Region) (s : DockSpacing) (cs : List LChild) (h : ∀ c ∈ cs, c.style.dock.isSome) :
    (dockLoop a s cs).1.length = cs.length ∧ ∀ (i : Nat) (c : LChild) (d : Dock), cs[i]? = some c → c.style.dock = some d →
      (dockLoop a s cs).1[i]? = some ⟨c.index, dockRegion d c a⟩ := by
  induction cs generalizing s with
  | nil => simp [dockLoop]
  | cons c cs ih =>
    obtain ⟨d, hd⟩ := Option.isSome_iff_exists.1 (h c (by simp))
    obtain ⟨h1, h2⟩ := ih (dockSpace d c s) fun c hc => h c (by simp [hc])
    rw [dockLoop, hd]
    refine ⟨by simp [h1], ?_⟩
    intro i c' d' hi hd'
    cases i with
    | zero => simp at hi; subst hi; rw [hd] at hd'; cases hd'; simp
    | succ i => simpa using h2 i c' d' (by simpa using hi) hd'

theorem dockSpace_mono (s : DockSpacing) (c : LChild) (d e : Dock) : s.at e ≤ (dockSpace d c s).at e := by
  cases d <;> cases e <;> simp [dockSpace, DockSpacing.at]

theorem dockSpace_self (s : DockSpacing) (c : LChild) (d : Dock) : (thickness c d : Int) ≤ (dockSpace d c s).at d := by
  cases d <;> simp [dockSpace, DockSpacing.at, thickness]

theorem dockSpace_from (s : DockSpacing) (c : LChild) (d e : Dock) :
    (dockSpace d c s).at e = s.at e ∨ (d = e ∧ (dockSpace d c s).at e = thickness c d) := by
  cases d <;> cases e <;> simp [dockSpace, DockSpacing.at, thickness] <;> omega

theorem dockLoop_snd (a : Region) (s : DockSpacing) (cs : List LChild) :
    (∀ e, s.at e ≤ (dockLoop a s cs).2.at e) ∧
    (∀ c ∈ cs, ∀ d, c.style.dock = some d → (thickness c d : Int) ≤ (dockLoop a s cs).2.at d) ∧
    (∀ e, (dockLoop a s cs).2.at e = s.at e ∨
      ∃ c ∈ cs, c.style.dock = some e ∧ (dockLoop a s cs).2.at e = thickness c e) := by
  induction cs generalizing s with
  | nil => simp [dockLoop]
  | cons c cs ih =>
    rw [dockLoop]
    cases hd : c.style.dock with
    | none =>
      obtain ⟨h1, h2, h3⟩ := ih s
      refine ⟨h1, ?_, ?_⟩
      · intro c' hc' d hd'
        rcases List.mem_cons.1 hc' with rfl | hc'
        · rw [hd] at hd'; cases hd'
        · exact h2 c' hc' d hd'
      · intro e
        rcases h3 e with h | ⟨c', hc', h⟩
        · exact Or.inl h
        · exact Or.inr ⟨c', by simp [hc'], h⟩
    | some d =>
      obtain ⟨h1, h2, h3⟩ := ih (dockSpace d c s)
      refine ⟨fun e => le_trans (dockSpace_mono s c d e) (h1 e), ?_, ?_⟩
      · intro c' hc' d' hd'
        rcases List.mem_cons.1 hc' with rfl | hc'
        · rw [hd] at hd'; cases hd'
          exact le_trans (dockSpace_self s c' d) (h1 d)
        · exact h2 c' hc' d' hd'
      · intro e
        rcases h3 e with h | ⟨c', hc', h⟩
        · simp only
          rcases dockSpace_from s c d e with h' | ⟨rfl, h'⟩
          · left; rw [h, h']
          · right; exact ⟨c, by simp, hd, by rw [h, h']⟩
        · exact Or.inr ⟨c', by simp [hc'], h⟩

/-- C26: every docked child lies along its edge with the thickness it asks for. -/
theorem docked_hugs_edge (docked : List LChild) (a : Region) (h : ∀ c ∈ docked, c.style.dock.isSome)
    (i : Nat) (c : LChild) (d : Dock) (hc : docked[i]? = some c) (hd : c.style.dock = some d) :
    ∃ r, (arrangeDocked docked a).1[i]? = some ⟨c.index, r⟩ ∧ HugsEdge a r d ∧ regionThickness r d = thickness c d := by
  refine ⟨_, (dockLoop_fst a _ docked h).2 i c d hc hd, ?_, ?_⟩
  · cases d <;> simp [HugsEdge, dockRegion]
  · cases d <;> simp [regionThickness, dockRegion, thickness]

/-- C26: the content region is what remains of the container after taking, at each edge, the thickest widget
docked there. -/
theorem content_region_exact (docked : List LChild) (a : Region) :
    ∃ t r b l : Int, contentRegion a (arrangeDocked docked a).2 = ⟨a.x + l, a.y + t, a.width - l - r, a.height - t - b⟩ ∧
      ∀ e n, (e, n) ∈ [(Dock.top, t), (Dock.right, r), (Dock.bottom, b), (Dock.left, l)] →
        0 ≤ n ∧ (∀ c ∈ docked, c.style.dock = some e → (thickness c e : Int) ≤ n) ∧
        (n = 0 ∨ ∃ c ∈ docked, c.style.dock = some e ∧ n = thickness c e) := by
  obtain ⟨h1, h2, h3⟩ := dockLoop_snd a ⟨0, 0, 0, 0⟩ docked
  refine ⟨(arrangeDocked docked a).2.at .top, (arrangeDocked docked a).2.at .right,
    (arrangeDocked docked a).2.at .bottom, (arrangeDocked docked a).2.at .left, ?_, ?_⟩
  · simp only [contentRegion, DockSpacing.at, Region.mk.injEq, true_and]; omega
  · have key : ∀ e, 0 ≤ (arrangeDocked docked a).2.at e ∧
        (∀ c ∈ docked, c.style.dock = some e → (thickness c e : Int) ≤ (arrangeDocked docked a).2.at e) ∧
        ((arrangeDocked docked a).2.at e = 0 ∨
          ∃ c ∈ docked, c.style.dock = some e ∧ (arrangeDocked docked a).2.at e = thickness c e) := by
      intro e
      have h0 : (⟨0, 0, 0, 0⟩ : DockSpacing).at e = 0 := by cases e <;> rfl
      have g1 := h1 e
      have g3 := h3 e
      rw [h0] at g1 g3
      exact ⟨g1, fun c hc hd => h2 c hc e hd, g3⟩
    intro e n hm
    simp only [List.mem_cons, Prod.mk.injEq, List.not_mem_nil, or_false] at hm
    rcases hm with ⟨rfl, rfl⟩ | ⟨rfl, rfl⟩ | ⟨rfl, rfl⟩ | ⟨rfl, rfl⟩ <;> exact key _

/-- C26: no cell of the content region is covered by a docked child. -/
theorem content_avoids_docked (docked : List LChild) (a : Region) (h : ∀ c ∈ docked, c.style.dock.isSome)
    (p : Placement) (hp : p ∈ (arrangeDocked docked a).1) (x y : Int) :
    ¬ (Inside (contentRegion a (arrangeDocked docked a).2) x y ∧ Inside p.region x y) := by
  obtain ⟨i, hi⟩ := List.getElem?_of_mem hp
  have hlt : i < docked.length := by
    have := (List.getElem?_eq_some_iff.1 hi).1
    rwa [arrangeDocked, (dockLoop_fst a _ docked h).1] at this
  have hc : docked[i]? = some docked[i] := List.getElem?_eq_getElem hlt
  obtain ⟨d, hd⟩ := Option.isSome_iff_exists.1 (h _ (List.getElem_mem hlt))
  obtain ⟨r, hr, hug, hth⟩ := docked_hugs_edge docked a h i _ d hc hd
  rw [hr] at hi
  cases hi
  have hle := (dockLoop_snd a ⟨0, 0, 0, 0⟩ docked).2.1 _ (List.getElem_mem hlt) d hd
  have hl0 := (dockLoop_snd a ⟨0, 0, 0, 0⟩ docked).1
  have l0 : 0 ≤ (arrangeDocked docked a).2.left := hl0 .left
  have t0 : 0 ≤ (arrangeDocked docked a).2.top := hl0 .top
  change (thickness docked[i] d : Int) ≤ (arrangeDocked docked a).2.at d at hle
  simp only [Inside, contentRegion]
  cases d <;> simp only [HugsEdge, regionThickness, DockSpacing.at] at hug hth hle <;> omega

/-! ### Alignment -/

/-- C27: alignment moves all placements by one vector that is not negative. -/
theorem alignment_rigid (ps : List Placement) (cs : List LChild) (h : AlignH) (v : AlignV) (a : Region) :
    ∃ dx dy : Int, 0 ≤ dx ∧ 0 ≤ dy ∧ applyAlignment ps cs h v a = ps.map (·.move dx dy) := by
  have h0 : ps = ps.map (·.move 0 0) := by simp [Placement.move]
  unfold applyAlignment
  split
  · exact ⟨0, 0, le_refl _, le_refl _, h0⟩
  · split
    · exact ⟨0, 0, le_refl _, le_refl _, h0⟩
    · refine ⟨alignX h a.width (bounds cs ps).width, alignY v a.height (bounds cs ps).height, ?_, ?_, ?_⟩
      · cases h <;> simp only [alignX]
        · exact le_refl _
        · exact Int.tdiv_nonneg (by omega) (by omega)
        · omega
      · cases v <;> simp only [alignY]
        · exact le_refl _
        · exact Int.tdiv_nonneg (by omega) (by omega)
        · omega
      · simp only
        split
        · rfl
        · rename_i hz
          push Not at hz
          rw [hz.1, hz.2]; exact h0

/-- One step of the bounding box. -/
abbrev boundStep (cs : List LChild) (b : Int × Int × Int × Int) (q : Placement) : Int × Int × Int × Int :=
  (min b.1 (outer cs q).1, min b.2.1 (outer cs q).2.1, max b.2.2.1 (outer cs q).2.2.1, max b.2.2.2 (outer cs q).2.2.2)

theorem boundFold (cs : List LChild) (ps : List Placement) (b : Int × Int × Int × Int) :
    (∀ q ∈ ps, (ps.foldl (boundStep cs) b).1 ≤ (outer cs q).1 ∧ (ps.foldl (boundStep cs) b).2.1 ≤ (outer cs q).2.1 ∧
      (outer cs q).2.2.1 ≤ (ps.foldl (boundStep cs) b).2.2.1 ∧ (outer cs q).2.2.2 ≤ (ps.foldl (boundStep cs) b).2.2.2) ∧
    (ps.foldl (boundStep cs) b).1 ≤ b.1 ∧ (ps.foldl (boundStep cs) b).2.1 ≤ b.2.1 ∧
    b.2.2.1 ≤ (ps.foldl (boundStep cs) b).2.2.1 ∧ b.2.2.2 ≤ (ps.foldl (boundStep cs) b).2.2.2 ∧
    ((ps.foldl (boundStep cs) b).1 = b.1 ∨ ∃ q ∈ ps, (ps.foldl (boundStep cs) b).1 = (outer cs q).1) ∧
    ((ps.foldl (boundStep cs) b).2.1 = b.2.1 ∨ ∃ q ∈ ps, (ps.foldl (boundStep cs) b).2.1 = (outer cs q).2.1) ∧
    ((ps.foldl (boundStep cs) b).2.2.1 = b.2.2.1 ∨ ∃ q ∈ ps, (ps.foldl (boundStep cs) b).2.2.1 = (outer cs q).2.2.1) ∧
    ((ps.foldl (boundStep cs) b).2.2.2 = b.2.2.2 ∨ ∃ q ∈ ps, (ps.foldl (boundStep cs) b).2.2.2 = (outer cs q).2.2.2) := by
  induction ps generalizing b with
  | nil => simp
  | cons p ps ih =>
    obtain ⟨h1, h2, h3, h4, h5, h6, h7, h8, h9⟩ := ih (boundStep cs b p)
    rw [List.foldl_cons]
    generalize List.foldl (boundStep cs) (boundStep cs b p) ps = f at *
    simp only [boundStep] at h2 h3 h4 h5 h6 h7 h8 h9
    have g : f.1 ≤ b.1 ∧ f.1 ≤ (outer cs p).1 ∧ f.2.1 ≤ b.2.1 ∧ f.2.1 ≤ (outer cs p).2.1 ∧ b.2.2.1 ≤ f.2.2.1 ∧
        (outer cs p).2.2.1 ≤ f.2.2.1 ∧ b.2.2.2 ≤ f.2.2.2 ∧ (outer cs p).2.2.2 ≤ f.2.2.2 := by
      clear h6 h7 h8 h9; omega
    obtain ⟨g1, g2, g3, g4, g5, g6, g7, g8⟩ := g
    refine ⟨?_, g1, g3, g5, g7, ?_, ?_, ?_, ?_⟩
    · intro q hq
      rcases List.mem_cons.1 hq with rfl | hq
      · exact ⟨g2, g4, g6, g8⟩
      · exact h1 q hq
    · rcases h6 with h | ⟨q, hq, h⟩
      · rcases min_choice b.1 (outer cs p).1 with h' | h' <;> rw [h'] at h
        · exact Or.inl h
        · exact Or.inr ⟨p, by simp, h⟩
      · exact Or.inr ⟨q, by simp [hq], h⟩
    · rcases h7 with h | ⟨q, hq, h⟩
      · rcases min_choice b.2.1 (outer cs p).2.1 with h' | h' <;> rw [h'] at h
        · exact Or.inl h
        · exact Or.inr ⟨p, by simp, h⟩
      · exact Or.inr ⟨q, by simp [hq], h⟩
    · rcases h8 with h | ⟨q, hq, h⟩
      · rcases max_choice b.2.2.1 (outer cs p).2.2.1 with h' | h' <;> rw [h'] at h
        · exact Or.inl h
        · exact Or.inr ⟨p, by simp, h⟩
      · exact Or.inr ⟨q, by simp [hq], h⟩
    · rcases h9 with h | ⟨q, hq, h⟩
      · rcases max_choice b.2.2.2 (outer cs p).2.2.2 with h' | h' <;> rw [h'] at h
        · exact Or.inl h
        · exact Or.inr ⟨p, by simp, h⟩
      · exact Or.inr ⟨q, by simp [hq], h⟩

/-- The bounding box is the smallest box holding all placements with their margins. -/
theorem bounds_spec (cs : List LChild) (ps : List Placement) (hne : ps ≠ []) :
    (∀ q ∈ ps, (bounds cs ps).x ≤ (outer cs q).1 ∧ (bounds cs ps).y ≤ (outer cs q).2.1 ∧
      (outer cs q).2.2.1 ≤ (bounds cs ps).x + (bounds cs ps).width ∧
      (outer cs q).2.2.2 ≤ (bounds cs ps).y + (bounds cs ps).height) ∧
    (∃ q ∈ ps, (bounds cs ps).x = (outer cs q).1) ∧ (∃ q ∈ ps, (bounds cs ps).y = (outer cs q).2.1) ∧
    (∃ q ∈ ps, (bounds cs ps).x + (bounds cs ps).width = (outer cs q).2.2.1) ∧
    (∃ q ∈ ps, (bounds cs ps).y + (bounds cs ps).height = (outer cs q).2.2.2) := by
  cases ps with
  | nil => exact absurd rfl hne
  | cons p ps =>
    have hb : bounds cs (p :: ps) = ⟨(ps.foldl (boundStep cs) (outer cs p)).1, (ps.foldl (boundStep cs) (outer cs p)).2.1,
        (ps.foldl (boundStep cs) (outer cs p)).2.2.1 - (ps.foldl (boundStep cs) (outer cs p)).1,
        (ps.foldl (boundStep cs) (outer cs p)).2.2.2 - (ps.foldl (boundStep cs) (outer cs p)).2.1⟩ := rfl
    rw [hb]
    obtain ⟨h1, h2, h3, h4, h5, h6, h7, h8, h9⟩ := boundFold cs ps (outer cs p)
    generalize List.foldl (boundStep cs) (outer cs p) ps = f at *
    have e : ∀ u v : Int, u + (v - u) = v := fun u v => by omega
    simp only [e]
    refine ⟨?_, ?_, ?_, ?_, ?_⟩
    · intro q hq
      rcases List.mem_cons.1 hq with rfl | hq
      · exact ⟨h2, h3, h4, h5⟩
      · exact h1 q hq
    · rcases h6 with h | ⟨q, hq, h⟩
      · exact ⟨p, by simp, h⟩
      · exact ⟨q, by simp [hq], h⟩
    · rcases h7 with h | ⟨q, hq, h⟩
      · exact ⟨p, by simp, h⟩
      · exact ⟨q, by simp [hq], h⟩
    · rcases h8 with h | ⟨q, hq, h⟩
      · exact ⟨p, by simp, h⟩
      · exact ⟨q, by simp [hq], h⟩
    · rcases h9 with h | ⟨q, hq, h⟩
      · exact ⟨p, by simp, h⟩
      · exact ⟨q, by simp [hq], h⟩

/-- Placements and margins begin at the left of the container. -/
def StartsLeft (cs : List LChild) (ps : List Placement) (a : Region) : Prop :=
  (∀ q ∈ ps, a.x ≤ (outer cs q).1) ∧ ∃ q ∈ ps, (outer cs q).1 = a.x

theorem move_outer (cs : List LChild) (q : Placement) (dx dy : Int) :
    outer cs (q.move dx dy) =
      ((outer cs q).1 + dx, (outer cs q).2.1 + dy, (outer cs q).2.2.1 + dx, (outer cs q).2.2.2 + dy) := by
  simp only [outer, Placement.move, Prod.mk.injEq]
  omega

/-- The horizontal part of the alignment, when something is to be aligned. -/
theorem applyAlignment_eq (ps : List Placement) (cs : List LChild) (h : AlignH) (v : AlignV) (a : Region)
    (hne : ps ≠ []) :
    applyAlignment ps cs h v a =
      ps.map (·.move (alignX h a.width (bounds cs ps).width) (alignY v a.height (bounds cs ps).height)) := by
  have h0 : ps = ps.map (·.move 0 0) := by simp [Placement.move]
  unfold applyAlignment
  split
  · rename_i hl
    rw [hl.1, hl.2]; exact h0
  · rw [if_neg (by simpa using hne)]
    simp only
    split
    · rfl
    · rename_i hz
      push Not at hz
      rw [hz.1, hz.2]; exact h0

/-- C27: content that starts at the left of the container and fits stays inside; its free space is on the right
(left aligned), halved up to one cell (centred) or on the left (right aligned). -/
theorem alignment_horizontal (ps : List Placement) (cs : List LChild) (h : AlignH) (v : AlignV) (a : Region)
    (hs : StartsLeft cs ps a) (hfit : ∀ q ∈ ps, (outer cs q).2.2.1 ≤ a.x + a.width) :
    ∃ l r : Int, 0 ≤ l ∧ 0 ≤ r ∧
      (∀ q ∈ applyAlignment ps cs h v a, a.x + l ≤ (outer cs q).1 ∧ (outer cs q).2.2.1 ≤ a.x + a.width - r) ∧
      (∃ q ∈ applyAlignment ps cs h v a, (outer cs q).1 = a.x + l) ∧
      (∃ q ∈ applyAlignment ps cs h v a, (outer cs q).2.2.1 = a.x + a.width - r) ∧
      (match h with
        | .left => l = 0
        | .center => l = r ∨ l + 1 = r
        | .right => r = 0) := by
  obtain ⟨q0, hq0, hx0⟩ := hs.2
  have hne : ps ≠ [] := by rintro rfl; simp at hq0
  obtain ⟨b1, ⟨q1, hq1, hx1⟩, _, ⟨q3, hq3, hx3⟩, _⟩ := bounds_spec cs ps hne
  have hbx : (bounds cs ps).x = a.x := by
    have := (b1 q0 hq0).1; have := hs.1 q1 hq1; omega
  have hbw : (bounds cs ps).width ≤ a.width := by
    have := hfit q3 hq3; omega
  rw [applyAlignment_eq ps cs h v a hne]
  generalize alignY v a.height (bounds cs ps).height = dy
  have hd : 0 ≤ alignX h a.width (bounds cs ps).width ∧
      alignX h a.width (bounds cs ps).width ≤ a.width - (bounds cs ps).width ∧
      (match h with
        | .left => alignX h a.width (bounds cs ps).width = 0
        | .center => alignX h a.width (bounds cs ps).width =
              a.width - (bounds cs ps).width - alignX h a.width (bounds cs ps).width ∨
            alignX h a.width (bounds cs ps).width + 1 =
              a.width - (bounds cs ps).width - alignX h a.width (bounds cs ps).width
        | .right => alignX h a.width (bounds cs ps).width = a.width - (bounds cs ps).width) := by
    have e : (max (a.width - (bounds cs ps).width) 0).tdiv 2 = (a.width - (bounds cs ps).width) / 2 := by
      rw [max_eq_left (by omega)]; exact Int.tdiv_eq_ediv_of_nonneg (by omega)
    cases h <;> simp only [alignX] <;> first | omega | (rw [e]; omega) | (simp; omega)
  generalize alignX h a.width (bounds cs ps).width = dx at *
  refine ⟨dx, a.width - (bounds cs ps).width - dx, by omega, by omega, ?_, ?_, ?_, ?_⟩
  · intro q hq
    obtain ⟨p, hp, rfl⟩ := List.mem_map.1 hq
    rw [move_outer]
    have := b1 p hp
    simp only
    omega
  · exact ⟨_, List.mem_map_of_mem hq0, by rw [move_outer]; simp only; omega⟩
  · exact ⟨_, List.mem_map_of_mem hq3, by rw [move_outer]; simp only; omega⟩
  · cases h <;> simp only at hd ⊢ <;> omega

/-- Placements and margins begin at the top of the container. -/
def StartsTop (cs : List LChild) (ps : List Placement) (a : Region) : Prop :=
  (∀ q ∈ ps, a.y ≤ (outer cs q).2.1) ∧ ∃ q ∈ ps, (outer cs q).2.1 = a.y

/-- C27, vertically. -/
theorem alignment_vertical (ps : List Placement) (cs : List LChild) (h : AlignH) (v : AlignV) (a : Region)
    (hs : StartsTop cs ps a) (hfit : ∀ q ∈ ps, (outer cs q).2.2.2 ≤ a.y + a.height) :
    ∃ t b : Int, 0 ≤ t ∧ 0 ≤ b ∧
      (∀ q ∈ applyAlignment ps cs h v a, a.y + t ≤ (outer cs q).2.1 ∧ (outer cs q).2.2.2 ≤ a.y + a.height - b) ∧
      (∃ q ∈ applyAlignment ps cs h v a, (outer cs q).2.1 = a.y + t) ∧
      (∃ q ∈ applyAlignment ps cs h v a, (outer cs q).2.2.2 = a.y + a.height - b) ∧
      (match v with
        | .top => t = 0
        | .middle => t = b ∨ t + 1 = b
        | .bottom => b = 0) := by
  obtain ⟨q0, hq0, hx0⟩ := hs.2
  have hne : ps ≠ [] := by rintro rfl; simp at hq0
  obtain ⟨b1, _, ⟨q1, hq1, hx1⟩, _, ⟨q3, hq3, hx3⟩⟩ := bounds_spec cs ps hne
  have hbx : (bounds cs ps).y = a.y := by
    have := (b1 q0 hq0).2.1; have := hs.1 q1 hq1; omega
  have hbw : (bounds cs ps).height ≤ a.height := by
    have := hfit q3 hq3; omega
  rw [applyAlignment_eq ps cs h v a hne]
  generalize alignX h a.width (bounds cs ps).width = dx
  have hd : 0 ≤ alignY v a.height (bounds cs ps).height ∧
      alignY v a.height (bounds cs ps).height ≤ a.height - (bounds cs ps).height ∧
      (match v with
        | .top => alignY v a.height (bounds cs ps).height = 0
        | .middle => alignY v a.height (bounds cs ps).height =
              a.height - (bounds cs ps).height - alignY v a.height (bounds cs ps).height ∨
            alignY v a.height (bounds cs ps).height + 1 =
              a.height - (bounds cs ps).height - alignY v a.height (bounds cs ps).height
        | .bottom => alignY v a.height (bounds cs ps).height = a.height - (bounds cs ps).height) := by
    have e : (max (a.height - (bounds cs ps).height) 0).tdiv 2 = (a.height - (bounds cs ps).height) / 2 := by
      rw [max_eq_left (by omega)]; exact Int.tdiv_eq_ediv_of_nonneg (by omega)
    cases v <;> simp only [alignY] <;> first | omega | (rw [e]; omega) | (simp; omega)
  generalize alignY v a.height (bounds cs ps).height = dy at *
  refine ⟨dy, a.height - (bounds cs ps).height - dy, by omega, by omega, ?_, ?_, ?_, ?_⟩
  · intro q hq
    obtain ⟨p, hp, rfl⟩ := List.mem_map.1 hq
    rw [move_outer]
    have := b1 p hp
    simp only
    omega
  · exact ⟨_, List.mem_map_of_mem hq0, by rw [move_outer]; simp only; omega⟩
  · exact ⟨_, List.mem_map_of_mem hq3, by rw [move_outer]; simp only; omega⟩
  · cases v <;> simp only at hd ⊢ <;> omega

end Textual.Layout
