import Verif.Props.Arrange
import Mathlib.Data.List.Lemmas
import Mathlib.Data.List.Infix

/-! C28, C48-C51: layers; every child placed once; absolute children and offsets do not disturb siblings. -/

namespace Textual.Layout

/-! ### Every child is placed exactly once -/

theorem applyOffset_index (ps : List Placement) (cs : List LChild) (vp : Viewport) :
    (applyOffset ps cs vp).map (·.childIndex) = ps.map (·.childIndex) := by
  unfold applyOffset
  rw [List.map_map]
  apply List.map_congr_left
  intro p _
  simp only [Function.comp]
  split
  · split <;> rfl
  · rfl

theorem applyAlignment_index (ps : List Placement) (cs : List LChild) (h : AlignH) (v : AlignV) (a : Region) :
    (applyAlignment ps cs h v a).map (·.childIndex) = ps.map (·.childIndex) := by
  obtain ⟨dx, dy, _, _, e⟩ := alignment_rigid ps cs h v a
  rw [e, List.map_map]
  rfl

theorem dockLoop_index (a : Region) (s : DockSpacing) (cs : List LChild) (h : ∀ c ∈ cs, c.style.dock.isSome) :
    (dockLoop a s cs).1.map (·.childIndex) = cs.map (·.index) := by
  induction cs generalizing s with
  | nil => rfl
  | cons c cs ih =>
    obtain ⟨d, hd⟩ := Option.isSome_iff_exists.1 (h c (by simp))
    rw [dockLoop, hd]
    simp [ih (dockSpace d c s) fun c hc => h c (by simp [hc])]

theorem runLayout_index (mc : Option Nat) (p : PStyle) (cs : List LChild) (a : Region) (vp : Viewport)
    (hl : p.layout ≠ .grid) : (runLayout mc p cs a vp).map (·.childIndex) = cs.map (·.index) := by
  unfold runLayout
  cases h : p.layout with
  | grid => exact absurd h hl
  | vertical => exact Vertical.arrange_index cs a vp
  | horizontal => exact Horizontal.arrange_index cs a vp

theorem arrange_perm (p : PStyle) (cs : List LChild) (a : Region) (vp : Viewport)
    (h : ∀ flow content, (∀ c ∈ flow, c ∈ cs) →
      (runLayout none p flow content vp).map (·.childIndex) = flow.map (·.index)) :
    ((arrangeChildren p cs a vp).map (·.childIndex)).Perm (cs.map (·.index)) := by
  unfold arrangeChildren
  simp only [List.map_append, applyOffset_index, applyAlignment_index, arrangeDocked]
  rw [dockLoop_index _ _ _ (by simp), h _ _ (by intro c hc; exact List.mem_of_mem_filter (List.mem_of_mem_filter hc))]
  have e : List.map (fun x : Placement => x.childIndex) (List.map (fun c => absolutePlacement c
      (contentRegion a (dockLoop a ⟨0, 0, 0, 0⟩ (List.filter (fun c => c.style.dock.isSome) cs)).2) vp)
        (List.filter (fun c => c.style.absolute) (List.filter (fun c => !c.style.dock.isSome) cs))) =
      (List.filter (fun c => c.style.absolute) (List.filter (fun c => !c.style.dock.isSome) cs)).map (·.index) := by
    rw [List.map_map]; rfl
  rw [e, ← List.map_append, ← List.map_append]
  apply List.Perm.map
  rw [List.append_assoc]
  refine List.Perm.trans (List.Perm.append_left _ ?_) (List.filter_append_perm (fun c : LChild => c.style.dock.isSome) cs)
  refine List.Perm.trans List.perm_append_comm ?_
  exact List.filter_append_perm (fun c : LChild => c.style.absolute) _

/-- C48: in a row or column every child (docked, absolute or in the flow) gets exactly one placement. -/
theorem arrange_every_child (p : PStyle) (cs : List LChild) (a : Region) (vp : Viewport) (hl : p.layout ≠ .grid) :
    ((arrangeChildren p cs a vp).map (·.childIndex)).Perm (cs.map (·.index)) :=
  arrange_perm p cs a vp fun flow content _ => runLayout_index none p flow content vp hl

/-- C48: so does a grid with at least one column and no fixed number of rows, whose children span one cell. The
restriction is needed: `Grid.shows_all_spans_counterexample`. -/
theorem arrange_every_child_grid_partial (p : PStyle) (cs : List LChild) (a : Region) (vp : Viewport)
    (hl : p.layout = .grid) (hr : p.grid.grid.rows = none) (hc : 0 < p.grid.grid.columns.getD 1)
    (hu : ∀ c ∈ cs, c.style.rowSpan ≤ 1 ∧ c.style.columnSpan ≤ 1) :
    ((arrangeChildren p cs a vp).map (·.childIndex)).Perm (cs.map (·.index)) := by
  apply arrange_perm
  intro flow content hm
  unfold runLayout
  rw [hl]
  exact Grid.arrange_shows_all_partial none p.grid flow content hr hc fun c h => hu c (hm c h)

/-! ### Absolute children -/

theorem runLayout_mem (mc : Option Nat) (p : PStyle) (cs : List LChild) (a : Region) (vp : Viewport) (q : Placement)
    (hq : q ∈ runLayout mc p cs a vp) : q.childIndex ∈ cs.map (·.index) := by
  by_cases hl : p.layout = .grid
  · unfold runLayout at hq
    rw [hl] at hq
    simp only [Grid.arrange] at hq
    split at hq
    · simp at hq
    · obtain ⟨⟨c, s⟩, hcs, rfl⟩ := List.mem_map.1 hq
      obtain ⟨k, hk⟩ := List.getElem?_of_mem hcs
      have := (Grid.placeLoop_get _ _ cs _ _ _ k c s hk).1
      exact List.mem_map.2 ⟨c, List.mem_of_getElem? this, rfl⟩
  · rw [← runLayout_index mc p cs a vp hl]
    exact List.mem_map.2 ⟨q, hq, rfl⟩

theorem find_index {cs : List LChild} (h : (cs.map (·.index)).Nodup) {c : LChild} (hc : c ∈ cs) :
    cs.find? (fun d => d.index == c.index) = some c := by
  induction cs with
  | nil => simp at hc
  | cons d ds ih =>
    rw [List.map_cons, List.nodup_cons] at h
    rcases List.mem_cons.1 hc with rfl | hc
    · simp
    · have hne : d.index ≠ c.index := fun e => h.1 (e ▸ List.mem_map_of_mem hc)
      rw [List.find?_cons_of_neg (by simpa using hne)]
      exact ih h.2 hc

theorem applyOffset_congr (ps : List Placement) (cs ds : List LChild) (vp : Viewport) (hn : (cs.map (·.index)).Nodup)
    (hs : ds.Sublist cs) (h : ∀ p ∈ ps, p.childIndex ∈ ds.map (·.index)) :
    applyOffset ps ds vp = applyOffset ps cs vp := by
  unfold applyOffset
  apply List.map_congr_left
  intro p hp
  obtain ⟨c, hc, hi⟩ := List.mem_map.1 (h p hp)
  have h1 := find_index (hs.map (·.index) |>.nodup hn) hc
  have h2 := find_index hn (hs.mem hc)
  rw [← hi, h1, h2]

/-- C50: absolutely positioned children do not take part in the layout of their siblings: removing them leaves
all other placements as they are. -/
theorem absolute_no_effect (p : PStyle) (cs : List LChild) (a : Region) (vp : Viewport)
    (hn : (cs.map (·.index)).Nodup) :
    ∃ abs, arrangeChildren p cs a vp =
        arrangeChildren p (cs.filter fun c => c.style.dock.isSome || !c.style.absolute) a vp ++ abs ∧
      abs.map (·.childIndex) =
        (cs.filter fun c => !(c.style.dock.isSome || !c.style.absolute)).map (·.index) := by
  have f1 : (cs.filter fun c => c.style.dock.isSome || !c.style.absolute).filter (fun c => c.style.dock.isSome) =
      cs.filter (fun c => c.style.dock.isSome) := by
    rw [List.filter_filter]; congr 1; funext c; cases c.style.dock.isSome <;> simp
  have f2 : ((cs.filter fun c => c.style.dock.isSome || !c.style.absolute).filter
      (fun c => !c.style.dock.isSome)).filter (fun c => c.style.absolute) = [] := by
    rw [List.filter_filter, List.filter_filter, List.filter_eq_nil_iff]
    intro c _; cases c.style.dock.isSome <;> cases c.style.absolute <;> simp
  have f3 : ((cs.filter fun c => c.style.dock.isSome || !c.style.absolute).filter
      (fun c => !c.style.dock.isSome)).filter (fun c => !c.style.absolute) =
      (cs.filter (fun c => !c.style.dock.isSome)).filter (fun c => !c.style.absolute) := by
    simp only [List.filter_filter]; congr 1; funext c
    cases c.style.dock.isSome <;> cases c.style.absolute <;> rfl
  have f4 : (cs.filter (fun c => !c.style.dock.isSome)).filter (fun c => c.style.absolute) =
      cs.filter fun c => !(c.style.dock.isSome || !c.style.absolute) := by
    rw [List.filter_filter]; congr 1; funext c
    cases c.style.dock.isSome <;> cases c.style.absolute <;> rfl
  refine ⟨applyOffset (((cs.filter (fun c => !c.style.dock.isSome)).filter (fun c => c.style.absolute)).map fun c =>
    absolutePlacement c (contentRegion a (arrangeDocked (cs.filter (fun c => c.style.dock.isSome)) a).2) vp) cs vp,
    ?_, ?_⟩
  · unfold arrangeChildren
    simp only [f1, f2, f3]
    rw [List.map_nil, show applyOffset [] _ vp = [] from rfl, List.append_nil]
    refine congrArg₂ (· ++ ·) (congrArg₂ (· ++ ·) (applyOffset_congr _ _ _ _ hn List.filter_sublist ?_).symm
      (applyOffset_congr _ _ _ _ hn List.filter_sublist ?_).symm) rfl
    · intro q hq
      have : q.childIndex ∈ (arrangeDocked (cs.filter fun c => c.style.dock.isSome) a).1.map (·.childIndex) :=
        List.mem_map_of_mem hq
      rw [arrangeDocked, dockLoop_index _ _ _ (by simp)] at this
      obtain ⟨c, hc, e⟩ := List.mem_map.1 this
      refine List.mem_map.2 ⟨c, ?_, e⟩
      simp only [List.mem_filter] at hc ⊢
      simp [hc]
    · intro q hq
      have : q.childIndex ∈ (applyAlignment _ _ _ _ _).map (·.childIndex) := List.mem_map_of_mem hq
      rw [applyAlignment_index] at this
      obtain ⟨q', hq', e'⟩ := List.mem_map.1 this
      obtain ⟨c, hc, e⟩ := List.mem_map.1 (runLayout_mem _ _ _ _ _ q' hq')
      refine List.mem_map.2 ⟨c, ?_, e.trans e'⟩
      simp only [List.mem_filter] at hc ⊢
      simp [hc]
  · rw [applyOffset_index, List.map_map, ← f4]; rfl

/-! ### Offsets -/

/-- A child without its offset. -/
def LChild.unmoved (c : LChild) : LChild := { c with style := { c.style with offsetX := none, offsetY := none } }

namespace Horizontal

theorem leftMargins_unmoved (prev : Option Int) (cs : List LChild) :
    leftMargins prev (cs.map LChild.unmoved) = leftMargins prev cs := by
  induction cs generalizing prev with
  | nil => rfl
  | cons c cs ih => simp only [List.map_cons, leftMargins, ih]; rfl

theorem place_unmoved (a : Region) (vp : Viewport) (x : Int) (cs : List LChild) (ws lms : List Int) :
    place a vp x (cs.map LChild.unmoved) ws lms = place a vp x cs ws lms := by
  induction cs generalizing x ws lms with
  | nil => rfl
  | cons c cs ih =>
    cases ws with
    | nil => rfl
    | cons w ws =>
      cases lms with
      | nil => rfl
      | cons l lms => simp only [List.map_cons, place, ih]; rfl

theorem arrange_unmoved (cs : List LChild) (a : Region) (vp : Viewport) :
    arrange (cs.map LChild.unmoved) a vp = arrange cs a vp := by
  have h1 : (cs.map LChild.unmoved).map (fun c => want c a vp) = cs.map (fun c => want c a vp) := by
    rw [List.map_map]; rfl
  have h2 : totalMargin (cs.map LChild.unmoved) = totalMargin cs := by
    simp only [totalMargin, leftMargins_unmoved, List.map_map]; rfl
  simp only [arrange, h1, leftMargins_unmoved, place_unmoved, remainingForFr, h2]

end Horizontal

namespace Vertical

theorem topMargins_unmoved (prev : Option Rat) (cs : List LChild) :
    topMargins prev (cs.map LChild.unmoved) = topMargins prev cs := by
  induction cs generalizing prev with
  | nil => rfl
  | cons c cs ih => simp only [List.map_cons, topMargins, ih]; rfl

theorem place_unmoved (a : Region) (vp : Viewport) (u y : Rat) (cs : List LChild) (tms : List Rat) :
    place a vp u y (cs.map LChild.unmoved) tms = place a vp u y cs tms := by
  induction cs generalizing y tms with
  | nil => rfl
  | cons c cs ih =>
    cases tms with
    | nil => rfl
    | cons l lms => simp only [List.map_cons, place, ih]; rfl

theorem arrange_unmoved (cs : List LChild) (a : Region) (vp : Viewport) :
    arrange (cs.map LChild.unmoved) a vp = arrange cs a vp := by
  have h1 : (cs.map LChild.unmoved).map (fun c => fixedHeight c a vp) = cs.map (fun c => fixedHeight c a vp) := by
    rw [List.map_map]; rfl
  have h2 : totalMargin (cs.map LChild.unmoved) = totalMargin cs := by
    simp only [totalMargin, topMargins_unmoved, List.map_map]; rfl
  have h3 : (cs.map LChild.unmoved).map frWeight = cs.map frWeight := by
    rw [List.map_map]; rfl
  have h4 : remainingForFr (cs.map LChild.unmoved) a vp = remainingForFr cs a vp := by
    unfold remainingForFr; rw [h1, h2]
  have h5 : fractionUnit (cs.map LChild.unmoved) a vp = fractionUnit cs a vp := by
    unfold fractionUnit; rw [h3, h4]
  unfold arrange
  rw [h5, topMargins_unmoved, place_unmoved]

end Vertical

namespace Grid

theorem placeLoop_unmoved (rows cols : Nat) (cs : List LChild) (occ : Occ) (row col : Nat) :
    placeLoop rows cols occ row col (cs.map LChild.unmoved) =
      (placeLoop rows cols occ row col cs).map fun x => (x.1.unmoved, x.2) := by
  induction cs generalizing occ row col with
  | nil => rfl
  | cons c cs ih =>
    rw [List.map_cons, placeLoop, placeLoop]
    have hs : spans c.unmoved = spans c := rfl
    rw [hs]
    rcases findSpot occ rows cols (spans c).1 (spans c).2 row col with ⟨_ | s, r', c'⟩
    · rfl
    · simp only
      split
      · rfl
      · rw [ih]; rfl

theorem assignLoop_unmoved (rows cols : Nat) (cs : List LChild) (occ : Occ) (row col : Nat) :
    assignLoop rows cols occ row col (cs.map LChild.unmoved) = assignLoop rows cols occ row col cs := by
  induction cs generalizing occ row col with
  | nil => rfl
  | cons c cs ih =>
    rw [List.map_cons, assignLoop, assignLoop]
    have hs : spans c.unmoved = spans c := rfl
    rw [hs]
    rcases findSpot occ rows cols (spans c).1 (spans c).2 row col with ⟨_ | s, r', c'⟩ <;> simp only [ih]

theorem contentSize_unmoved (at' span : Spot → Nat) (d : LChild → Nat) (hd : ∀ c, d c.unmoved = d c)
    (cs : List LChild) (as : List Spot) (j : Nat) :
    contentSize at' span d (cs.map LChild.unmoved) as j = contentSize at' span d cs as j := by
  unfold contentSize
  generalize (0 : Int) = m
  induction cs generalizing as m with
  | nil => rfl
  | cons c cs ih =>
    cases as with
    | nil => rfl
    | cons s as =>
      simp only [List.map_cons, List.zip_cons_cons, List.foldl_cons, hd]
      exact ih _ _

theorem arrange_unmoved (mc : Option Nat) (p : Parent) (cs : List LChild) (a : Region) :
    arrange mc p (cs.map LChild.unmoved) a = arrange mc p cs a := by
  unfold arrange
  have hc : ∀ rows cols av g, columnTracks p (cs.map LChild.unmoved) rows cols av g = columnTracks p cs rows cols av g := by
    intro rows cols av g
    simp only [columnTracks, cellAssignments, assignLoop_unmoved]
    rw [show contentSize Spot.col Spot.colSpan LChild.desiredWidth (cs.map LChild.unmoved) =
      contentSize Spot.col Spot.colSpan LChild.desiredWidth cs from
        funext fun _ => funext fun _ => contentSize_unmoved _ _ _ (fun _ => rfl) _ _ _]
  have hr : ∀ rows cols av g, rowTracks p (cs.map LChild.unmoved) rows cols av g = rowTracks p cs rows cols av g := by
    intro rows cols av g
    simp only [rowTracks, cellAssignments, assignLoop_unmoved]
    rw [show contentSize Spot.row Spot.rowSpan LChild.desiredHeight (cs.map LChild.unmoved) =
      contentSize Spot.row Spot.rowSpan LChild.desiredHeight cs from
        funext fun _ => funext fun _ => contentSize_unmoved _ _ _ (fun _ => rfl) _ _ _]
  simp only [List.isEmpty_map, List.length_map, hc, hr, placeLoop_unmoved, List.map_map]
  rfl

end Grid

theorem runLayout_unmoved (mc : Option Nat) (p : PStyle) (cs : List LChild) (a : Region) (vp : Viewport) :
    runLayout mc p (cs.map LChild.unmoved) a vp = runLayout mc p cs a vp := by
  unfold runLayout
  cases p.layout with
  | grid => exact Grid.arrange_unmoved mc p.grid cs a
  | vertical => exact Vertical.arrange_unmoved cs a vp
  | horizontal => exact Horizontal.arrange_unmoved cs a vp

theorem dockLoop_unmoved (a : Region) (s : DockSpacing) (cs : List LChild) :
    dockLoop a s (cs.map LChild.unmoved) = dockLoop a s cs := by
  induction cs generalizing s with
  | nil => rfl
  | cons c cs ih =>
    rw [List.map_cons, dockLoop, dockLoop]
    have hd : c.unmoved.style.dock = c.style.dock := rfl
    rw [hd]
    cases c.style.dock with
    | none => exact ih s
    | some d =>
      have h1 : dockSpace d c.unmoved s = dockSpace d c s := by cases d <;> rfl
      have h2 : dockRegion d c.unmoved a = dockRegion d c a := by cases d <;> rfl
      simp only [h1, h2, ih]; rfl

theorem marginsOf_unmoved (cs : List LChild) (i : Nat) : marginsOf (cs.map LChild.unmoved) i = marginsOf cs i := by
  unfold marginsOf
  rw [List.find?_map]
  have : ((fun c : LChild => c.index == i) ∘ LChild.unmoved) = fun c => c.index == i := rfl
  rw [this]
  cases cs.find? (fun c => c.index == i) <;> rfl

theorem applyAlignment_unmoved (ps : List Placement) (cs : List LChild) (h : AlignH) (v : AlignV) (a : Region) :
    applyAlignment ps (cs.map LChild.unmoved) h v a = applyAlignment ps cs h v a := by
  have ho : outer (cs.map LChild.unmoved) = outer cs := by
    funext q; simp only [outer, marginsOf_unmoved]
  have hb : bounds (cs.map LChild.unmoved) ps = bounds cs ps := by
    cases ps <;> simp only [bounds, ho]
  simp only [applyAlignment, hb]

theorem applyOffset_unmoved (ps : List Placement) (cs : List LChild) (vp : Viewport) :
    applyOffset ps (cs.map LChild.unmoved) vp = ps := by
  unfold applyOffset
  conv_rhs => rw [← List.map_id ps]
  apply List.map_congr_left
  intro p _
  rw [List.find?_map]
  cases cs.find? ((fun c : LChild => c.index == p.childIndex) ∘ LChild.unmoved) with
  | none => rfl
  | some c => simp [LChild.unmoved, offsetOf]

/-- C51: offsets are applied last, each to its own widget only: the placements with offsets are the placements
without any offset, each moved by the offset of its child. -/
theorem offset_own_only (p : PStyle) (cs : List LChild) (a : Region) (vp : Viewport) :
    arrangeChildren p cs a vp = applyOffset (arrangeChildren p (cs.map LChild.unmoved) a vp) cs vp := by
  have happ : ∀ l m, applyOffset (l ++ m) cs vp = applyOffset l cs vp ++ applyOffset m cs vp := by
    intro l m; simp [applyOffset]
  have f1 : (cs.map LChild.unmoved).filter (fun c => c.style.dock.isSome) =
      (cs.filter (fun c => c.style.dock.isSome)).map LChild.unmoved := by rw [List.filter_map]; rfl
  have f2 : (cs.map LChild.unmoved).filter (fun c => !c.style.dock.isSome) =
      (cs.filter (fun c => !c.style.dock.isSome)).map LChild.unmoved := by rw [List.filter_map]; rfl
  have f3 : ∀ l : List LChild, (l.map LChild.unmoved).filter (fun c => c.style.absolute) =
      (l.filter (fun c => c.style.absolute)).map LChild.unmoved := by intro l; rw [List.filter_map]; rfl
  have f4 : ∀ l : List LChild, (l.map LChild.unmoved).filter (fun c => !c.style.absolute) =
      (l.filter (fun c => !c.style.absolute)).map LChild.unmoved := by intro l; rw [List.filter_map]; rfl
  unfold arrangeChildren
  simp only [happ, applyOffset_unmoved, f1, f2, f3, f4, arrangeDocked, dockLoop_unmoved, runLayout_unmoved,
    applyAlignment_unmoved, List.map_map]
  rfl

/-- C51: the placement of a child without offset is the same whatever the offsets of the others. -/
theorem offset_sibling (p : PStyle) (cs : List LChild) (a : Region) (vp : Viewport) (hn : (cs.map (·.index)).Nodup)
    (i : Nat) (q : Placement) (hq : (arrangeChildren p (cs.map LChild.unmoved) a vp)[i]? = some q) :
    ∃ dx dy, (arrangeChildren p cs a vp)[i]? = some (q.move dx dy) ∧
      ∀ c ∈ cs, c.index = q.childIndex →
        dx = offsetOf c.style.offsetX q.region.width q.region vp ∧
        dy = offsetOf c.style.offsetY q.region.height q.region vp := by
  rw [offset_own_only p cs a vp]
  unfold applyOffset
  rw [List.getElem?_map, hq]
  cases h : cs.find? (fun c => c.index == q.childIndex) with
  | none =>
    refine ⟨0, 0, by simp [h, Placement.move], ?_⟩
    intro c hc e
    have := List.find?_eq_none.1 h c hc
    simp [e] at this
  | some c =>
    refine ⟨offsetOf c.style.offsetX q.region.width q.region vp,
      offsetOf c.style.offsetY q.region.height q.region vp, ?_, ?_⟩
    · simp only [Option.map_some, h]
      split
      · rfl
      · rename_i hz
        push Not at hz
        rw [hz.1, hz.2]; simp [Placement.move]
    · intro d hd e
      have := find_index hn hd
      rw [e, h] at this
      cases this
      exact ⟨rfl, rfl⟩

/-- `n` is `q` without its fraction. -/
def Truncates (n : Int) (q : Rat) : Prop :=
  (0 ≤ q → (n : Rat) ≤ q ∧ q < n + 1) ∧ (q ≤ 0 → q ≤ n ∧ (n : Rat) < q + 1)

theorem toI32_truncates {q : Rat} (h1 : -2147483648 ≤ q) (h2 : q ≤ 2147483647) : Truncates (toI32 q) q := by
  have hb : -2147483648 ≤ (if 0 ≤ q then ⌊q⌋ else ⌈q⌉) ∧ (if 0 ≤ q then ⌊q⌋ else ⌈q⌉) ≤ 2147483647 := by
    split
    · exact ⟨Int.le_floor.2 (by exact_mod_cast h1), by
        have : (⌊q⌋ : Rat) ≤ 2147483647 := le_trans (Int.floor_le q) h2
        exact_mod_cast this⟩
    · exact ⟨by
        have : (-2147483648 : Rat) ≤ (⌈q⌉ : Rat) := le_trans h1 (Int.le_ceil q)
        exact_mod_cast this, Int.ceil_le.2 (by exact_mod_cast h2)⟩
  have he : toI32 q = if 0 ≤ q then ⌊q⌋ else ⌈q⌉ := by
    unfold toI32
    rw [min_eq_right hb.2, max_eq_right hb.1]
  rw [he]
  constructor
  · intro h
    rw [if_pos h]
    exact ⟨Int.floor_le q, Int.lt_floor_add_one q⟩
  · intro h
    split
    · rename_i h0
      have : q = 0 := le_antisymm h h0
      subst this; norm_num
    · exact ⟨Int.le_ceil q, Int.ceil_lt_add_one q⟩

/-- C51: how far an offset moves its widget: the given cells, or the given percentage of the widget's
own length, of its width, of its height, or of the viewport, without the fraction. -/
theorem offset_amount (v : Rat) (own : Int) (r : Region) (vp : Viewport) :
    let small (q : Rat) := -2147483648 ≤ q ∧ q ≤ 2147483647
    offsetOf none own r vp = 0 ∧
    (small v → Truncates (offsetOf (some ⟨v, .cells⟩) own r vp) v) ∧
    (small (v * own / 100) → Truncates (offsetOf (some ⟨v, .percent⟩) own r vp) (v * own / 100)) ∧
    (small (v * r.width / 100) → Truncates (offsetOf (some ⟨v, .width⟩) own r vp) (v * r.width / 100)) ∧
    (small (v * r.height / 100) → Truncates (offsetOf (some ⟨v, .height⟩) own r vp) (v * r.height / 100)) ∧
    (small (v * vp.width / 100) → Truncates (offsetOf (some ⟨v, .viewWidth⟩) own r vp) (v * vp.width / 100)) ∧
    (small (v * vp.height / 100) →
      Truncates (offsetOf (some ⟨v, .viewHeight⟩) own r vp) (v * vp.height / 100)) := by
  have e : ∀ b : Int, percentOf v b = v * b / 100 := fun b => by unfold percentOf; ring
  intro small
  refine ⟨rfl, fun h => toI32_truncates h.1 h.2, ?_, ?_, ?_, ?_, ?_⟩ <;> intro h <;>
    simp only [offsetOf, e] <;> exact toI32_truncates h.1 h.2

example : Truncates (offsetOf (some ⟨-50, .width⟩) 7 ⟨0, 0, 9, 4⟩ ⟨80, 24⟩) (-(9 / 2)) := by
  have := (offset_amount (-50) 7 ⟨0, 0, 9, 4⟩ ⟨80, 24⟩).2.2.2.1 ⟨by norm_num, by norm_num⟩
  norm_num at this
  exact this

/-- C26: in the whole arrangement, a docked child without offset lies along its edge. -/
theorem arrange_docked_hugs (p : PStyle) (cs : List LChild) (a : Region) (vp : Viewport)
    (hn : (cs.map (·.index)).Nodup) (c : LChild) (hc : c ∈ cs) (d : Dock) (hd : c.style.dock = some d)
    (hx : c.style.offsetX = none) (hy : c.style.offsetY = none) :
    ∃ r, ⟨c.index, r⟩ ∈ arrangeChildren p cs a vp ∧ HugsEdge a r d ∧ regionThickness r d = thickness c d := by
  have hm : c ∈ cs.filter (fun c => c.style.dock.isSome) := by simp [hc, hd]
  obtain ⟨i, hi⟩ := List.getElem?_of_mem hm
  obtain ⟨r, hr, h1, h2⟩ := docked_hugs_edge (cs.filter fun c => c.style.dock.isSome) a (by simp) i c d hi hd
  refine ⟨r, ?_, h1, h2⟩
  unfold arrangeChildren
  simp only [List.mem_append]
  left; left
  unfold applyOffset
  refine List.mem_map.2 ⟨_, List.mem_of_getElem? hr, ?_⟩
  simp only [find_index hn hc, hx, hy]
  simp [offsetOf]

/-! ### Layers -/

/-- `keys` lists the layers used by the children, each once, in any order. -/
def KeysOf (keys : List String) (cs : List LChild) : Prop :=
  keys.Nodup ∧ ∀ n, n ∈ keys ↔ ∃ c ∈ cs, layerOf c = n

theorem filter_disj {α : Type} (f g : α → Bool) (l : List α) (h : ∀ x ∈ l, ¬ (f x = true ∧ g x = true)) :
    (l.filter f ++ l.filter g).Perm (l.filter fun x => f x || g x) := by
  induction l with
  | nil => simp
  | cons x l ih =>
    have ih := ih fun y hy => h y (by simp [hy])
    have hx := h x (by simp)
    cases hf : f x <;> cases hg : g x <;> simp [hf, hg] at hx ⊢
    · exact ih
    · exact List.Perm.trans List.perm_middle (List.Perm.cons _ ih)
    · exact ih

theorem layers_perm (cs : List LChild) (L : List String) (hL : L.Nodup) :
    (L.flatMap fun n => cs.filter (fun c => layerOf c == n)).Perm (cs.filter fun c => L.contains (layerOf c)) := by
  induction L with
  | nil => simp
  | cons n L ih =>
    rw [List.nodup_cons] at hL
    rw [List.flatMap_cons]
    refine List.Perm.trans (List.Perm.append_left _ (ih hL.2)) ?_
    refine List.Perm.trans (filter_disj _ _ _ ?_) ?_
    · intro c _ hc
      simp only [beq_iff_eq, List.contains_iff_mem] at hc
      exact hL.1 (hc.1 ▸ hc.2)
    · simp only [List.contains_cons]
      exact List.Perm.refl _

theorem flatMap_layerMap (cs : List LChild) (L : List String) {β : Type} (f : List LChild → List β) (h0 : f [] = []) :
    (L.filterMap fun n => (layerMap cs n).map fun l => (n, l)).flatMap (fun nl => f nl.2) =
      L.flatMap fun n => f (cs.filter fun c => layerOf c == n) := by
  induction L with
  | nil => rfl
  | cons n L ih =>
    rw [List.flatMap_cons, List.filterMap_cons]
    unfold layerMap at ih ⊢
    by_cases h : (cs.filter fun c => layerOf c == n).isEmpty
    · simp only [h, if_true, Option.map_none]
      rw [List.isEmpty_iff.1 h, h0]; exact ih
    · simp only [h, Bool.false_eq_true, if_false, Option.map_some, List.flatMap_cons]
      rw [ih]

/-- The layers in the order in which they are painted: those not declared, then the declared ones. -/
def paintOrder (keys order : List String) : List String := keys.filter (fun n => !order.contains n) ++ order

/-- C28: when the declared layers have distinct names, every child is on exactly one layer. -/
theorem layers_partition_partial (keys : List String) (cs : List LChild) (order : List String)
    (hk : KeysOf keys cs) (ho : order.Nodup) :
    ((buildLayers keys cs order).flatMap (·.2)).Perm cs := by
  have e : (buildLayers keys cs order).flatMap (·.2) =
      (paintOrder keys order).flatMap fun n => cs.filter (fun c => layerOf c == n) := by
    unfold buildLayers paintOrder
    rw [List.flatMap_append, List.flatMap_append]
    exact congrArg₂ (· ++ ·) (flatMap_layerMap cs _ id rfl) (flatMap_layerMap cs _ id rfl)
  rw [e]
  have hnd : (paintOrder keys order).Nodup := by
    unfold paintOrder
    rw [List.nodup_append]
    refine ⟨hk.1.filter _, ho, ?_⟩
    intro x hx y hy hxy
    subst hxy
    simp [hy] at hx
  refine List.Perm.trans (layers_perm cs _ hnd) ?_
  rw [List.filter_eq_self.2]
  intro c hc
  unfold paintOrder
  rw [List.contains_iff_mem, List.mem_append, List.mem_filter]
  by_cases h : layerOf c ∈ order
  · exact Or.inr h
  · exact Or.inl ⟨(hk.2 _).2 ⟨c, hc, rfl⟩, by simpa using h⟩

/-- C28: a layer holds exactly the children that name it (unnamed: `default`), in document order. -/
theorem layer_content (keys : List String) (cs : List LChild) (order : List String) (n : String) (l : List LChild)
    (h : (n, l) ∈ buildLayers keys cs order) : l = cs.filter (fun c => c.style.layer.getD "default" == n) := by
  unfold buildLayers at h
  rcases List.mem_append.1 h with h | h <;>
  · obtain ⟨m, _, hm⟩ := List.mem_filterMap.1 h
    unfold layerMap at hm
    simp only at hm
    split at hm
    · cases hm
    · cases hm; rfl

theorem arrangeChildren_nil (p : PStyle) (a : Region) (vp : Viewport) : arrangeChildren p [] a vp = [] := by
  have : ∀ c, runLayout none p [] c vp = [] := by
    intro c; unfold runLayout; cases p.layout <;> rfl
  simp [arrangeChildren, this, applyAlignment, applyOffset, arrangeDocked, dockLoop]

/-- C28: layers are painted one after the other, first those not declared by the parent, then the declared ones in
the declared order, each arranged alone in the whole region. -/
theorem layers_paint_order (keys : List String) (p : PStyle) (cs : List LChild) (a : Region) (vp : Viewport)
    (h : p.layers.isSome ∨ ∃ c ∈ cs, c.style.layer.isSome) :
    arrangeLayers keys p cs a vp = (paintOrder keys (p.layers.getD ["default"])).flatMap fun n =>
      arrangeChildren p (cs.filter fun c => c.style.layer.getD "default" == n) a vp := by
  unfold arrangeLayers
  rw [if_neg (by rw [List.any_eq_true]; exact not_not.2 h)]
  have h0 : ∀ l : List LChild, (if l.isEmpty then [] else arrangeChildren p l a vp) = arrangeChildren p l a vp := by
    intro l
    cases l with
    | nil => simp [arrangeChildren_nil]
    | cons => simp
  simp only [h0]
  unfold buildLayers paintOrder
  rw [List.flatMap_append, List.flatMap_append]
  exact congrArg₂ (· ++ ·) (flatMap_layerMap cs _ (fun l => arrangeChildren p l a vp) (arrangeChildren_nil p a vp))
    (flatMap_layerMap cs _ (fun l => arrangeChildren p l a vp) (arrangeChildren_nil p a vp))

/-- C28: a layer declared later is painted over one declared earlier: the placements of the earlier come first. -/
theorem layers_declared_over (keys : List String) (p : PStyle) (cs : List LChild) (a : Region) (vp : Viewport)
    (order : List String) (ho : p.layers = some order) (i j : Nat) (hij : i < j) (m n : String)
    (hm : order[i]? = some m) (hn : order[j]? = some n) :
    ∃ A B C, arrangeLayers keys p cs a vp =
      A ++ arrangeChildren p (cs.filter fun c => c.style.layer.getD "default" == m) a vp ++ B ++
        arrangeChildren p (cs.filter fun c => c.style.layer.getD "default" == n) a vp ++ C := by
  rw [layers_paint_order keys p cs a vp (by simp [ho]), ho]
  simp only [Option.getD_some, paintOrder]
  have hj := (List.getElem?_eq_some_iff.1 hn)
  have hi := (List.getElem?_eq_some_iff.1 hm)
  have h1 : order = order.take j ++ n :: order.drop (j + 1) := by
    rw [← hj.2, List.getElem_cons_drop, List.take_append_drop]
  have hti : (order.take j)[i]? = some m := by rw [List.getElem?_take_of_lt hij]; exact hm
  have hi' := List.getElem?_eq_some_iff.1 hti
  have h2 : order.take j = (order.take j).take i ++ m :: (order.take j).drop (i + 1) := by
    conv_rhs => rw [← hi'.2, List.getElem_cons_drop, List.take_append_drop]
  have h3 : ∀ f : String → List Placement, order.flatMap f =
      ((order.take j).take i).flatMap f ++ f m ++ ((order.take j).drop (i + 1)).flatMap f ++ f n ++
        (order.drop (j + 1)).flatMap f := by
    intro f
    have e1 : order.flatMap f = (order.take j).flatMap f ++ f n ++ (order.drop (j + 1)).flatMap f := by
      refine (congrArg (List.flatMap f) h1).trans ?_
      simp
    have e2 : (order.take j).flatMap f =
        ((order.take j).take i).flatMap f ++ f m ++ ((order.take j).drop (i + 1)).flatMap f := by
      refine (congrArg (List.flatMap f) h2).trans ?_
      simp
    rw [e1, e2]
  rw [List.flatMap_append, h3]
  exact ⟨_ ++ _, _, _, by simp only [List.append_assoc]; rfl⟩

/-- C49: with at most one layer in use that is not declared, the result does not depend on the iteration order of
the hash map. -/
theorem layers_deterministic_partial (keys keys' : List String) (p : PStyle) (cs : List LChild) (a : Region)
    (vp : Viewport) (hk : KeysOf keys cs) (hk' : KeysOf keys' cs)
    (h1 : ∀ c ∈ cs, ∀ d ∈ cs, c.style.layer.getD "default" ∉ p.layers.getD ["default"] →
      d.style.layer.getD "default" ∉ p.layers.getD ["default"] →
      c.style.layer.getD "default" = d.style.layer.getD "default") :
    arrangeLayers keys p cs a vp = arrangeLayers keys' p cs a vp := by
  by_cases h : p.layers.isSome ∨ ∃ c ∈ cs, c.style.layer.isSome
  · rw [layers_paint_order keys p cs a vp h, layers_paint_order keys' p cs a vp h]
    have : keys.filter (fun n => !(p.layers.getD ["default"]).contains n) =
        keys'.filter (fun n => !(p.layers.getD ["default"]).contains n) := by
      have hall : ∀ ks, KeysOf ks cs → ∀ x ∈ ks.filter (fun n => !(p.layers.getD ["default"]).contains n),
          ∀ y ∈ ks.filter (fun n => !(p.layers.getD ["default"]).contains n), x = y := by
        intro ks hks x hx y hy
        simp only [List.mem_filter, Bool.not_eq_true', List.contains_eq_mem, decide_eq_false_iff_not] at hx hy
        obtain ⟨c, hc, rfl⟩ := (hks.2 x).1 hx.1
        obtain ⟨d, hd, rfl⟩ := (hks.2 y).1 hy.1
        exact h1 c hc d hd hx.2 hy.2
      have hperm : (keys.filter (fun n => !(p.layers.getD ["default"]).contains n)).Perm
          (keys'.filter (fun n => !(p.layers.getD ["default"]).contains n)) :=
        ((List.perm_ext_iff_of_nodup hk.1 hk'.1).2 fun n => (hk.2 n).trans (hk'.2 n).symm).filter _
      have hn := hk.1.filter (fun n => !(p.layers.getD ["default"]).contains n)
      have ha := hall keys hk
      generalize keys.filter (fun n => !(p.layers.getD ["default"]).contains n) = l at *
      match l, hn, ha with
      | [], _, _ => exact (List.nil_perm.1 hperm).symm
      | [x], _, _ => exact (List.perm_singleton.1 hperm.symm).symm
      | x :: y :: _, hn, ha =>
        have := ha x (by simp) y (by simp)
        simp [this] at hn
    unfold paintOrder
    rw [this]
  · unfold arrangeLayers
    rw [if_pos (by rw [List.any_eq_true]; exact h), if_pos (by rw [List.any_eq_true]; exact h)]

/-! ### Examples and counterexamples -/

/-- A child 10 wide and 2 high with the given style. -/
def exC (i : Nat) (s : LStyle) : LChild := ⟨i, s, 10, 2, fun _ => 2⟩

/-- Four children: docked at the top, absolute, offset, with a margin. -/
def exCs : List LChild :=
  [exC 0 { dock := some .top }, exC 1 { absolute := true }, exC 2 { offsetX := some ⟨3, .cells⟩ },
    exC 3 { height := some ⟨4, .cells⟩ }, exC 4 { dock := some .right }]

example : arrangeChildren {} exCs ⟨0, 0, 40, 20⟩ ⟨40, 20⟩ =
    [⟨0, ⟨0, 0, 40, 2⟩⟩, ⟨4, ⟨30, 0, 10, 20⟩⟩, ⟨2, ⟨3, 2, 30, 2⟩⟩, ⟨3, ⟨0, 4, 30, 4⟩⟩, ⟨1, ⟨0, 2, 10, 2⟩⟩] := by
  decide +kernel
example : (exCs.map (·.index)).Nodup := by decide
example : arrangeChildren { alignH := .center, alignV := .bottom } exCs ⟨0, 0, 40, 20⟩ ⟨40, 20⟩ =
    [⟨0, ⟨0, 0, 40, 2⟩⟩, ⟨4, ⟨30, 0, 10, 20⟩⟩, ⟨2, ⟨3, 14, 30, 2⟩⟩, ⟨3, ⟨0, 16, 30, 4⟩⟩, ⟨1, ⟨0, 2, 10, 2⟩⟩] := by
  decide +kernel
example : exC 0 { dock := some .top } ∈ exCs := by simp [exCs]
example : ∀ c ∈ [exC 0 { dock := some .top }, exC 4 { dock := some .right }], c.style.dock.isSome := by decide
example : StartsLeft [exC 7 {}] [⟨7, ⟨5, 5, 10, 2⟩⟩] ⟨5, 5, 20, 10⟩ ∧ StartsTop [exC 7 {}] [⟨7, ⟨5, 5, 10, 2⟩⟩] ⟨5, 5, 20, 10⟩ := by
  simp only [StartsLeft, StartsTop, List.forall_mem_singleton, List.exists_mem_cons_iff]
  decide +kernel

/-- Layers: `top` and `base` declared, `default` not. -/
def exLayers : List LChild :=
  [exC 0 { layer := some "top" }, exC 1 { layer := some "base" }, exC 2 {}, exC 3 { layer := some "base" }]

example : KeysOf ["base", "default", "top"] exLayers := by
  refine ⟨by decide, fun n => ?_⟩
  simp [exLayers, layerOf, exC]
  constructor
  · rintro (rfl | rfl | rfl) <;> simp
  · rintro (h | h | h | h) <;> simp [← h]
example : ((arrangeLayers ["base", "default", "top"] { layers := some ["base", "top"] } exLayers
    ⟨0, 0, 40, 20⟩ ⟨40, 20⟩).map (·.childIndex)) = [2, 1, 3, 0] := by decide +kernel

/-- C28 is false if a layer name is declared twice: its children are placed (and painted) twice. -/
theorem layers_duplicate_counterexample :
    (arrangeLayers ["a"] { layers := some ["a", "a"] } [exC 0 { layer := some "a" }] ⟨0, 0, 40, 20⟩ ⟨40, 20⟩).map
      (·.childIndex) = [0, 0] := by decide +kernel

/-- C49 is false in general: two layers that are not declared are painted in the iteration order of a
`HashMap` (mod.rs:836-840), which differs from run to run. -/
theorem layers_hash_order_counterexample :
    let cs := [exC 0 { layer := some "a" }, exC 1 { layer := some "b" }]
    (KeysOf ["a", "b"] cs ∧ KeysOf ["b", "a"] cs) ∧
    (arrangeLayers ["a", "b"] {} cs ⟨0, 0, 40, 20⟩ ⟨40, 20⟩).map (·.childIndex) = [0, 1] ∧
    (arrangeLayers ["b", "a"] {} cs ⟨0, 0, 40, 20⟩ ⟨40, 20⟩).map (·.childIndex) = [1, 0] := by
  refine ⟨⟨⟨by decide, fun n => ?_⟩, ⟨by decide, fun n => ?_⟩⟩, by decide +kernel, by decide +kernel⟩
  · simp [layerOf, exC, eq_comm]
  · simp [layerOf, exC, eq_comm, or_comm]

/-- C50 is false for containers with a pre-layout hook (mod.rs:361-445): an absolute child stays in the flow and
moves its sibling down. -/
theorem absolute_pre_layout_counterexample :
    arrangePreLayout none {} [exC 0 { absolute := true }, exC 1 {}] ⟨0, 0, 40, 20⟩ =
      [⟨0, ⟨0, 0, 40, 2⟩⟩, ⟨1, ⟨0, 2, 40, 2⟩⟩] ∧
    arrangePreLayout none {} [exC 1 {}] ⟨0, 0, 40, 20⟩ = [⟨1, ⟨0, 0, 40, 2⟩⟩] := by decide +kernel

end Textual.Layout
