import Verif.Model.Dividers
import Verif.Props.GridWidget
import Verif.Props.Horizontal
import Verif.Props.Vertical

/-!
# Lines of a plain container run between its children (C182)
-/

namespace Textual.GridWidget

open Layout (Placement LChild Viewport)
open Layout.Grid (In)
open Keyline (KCanvas Lines Increasing tableLines)

/-! ### Positions of the lines -/

theorem fold_mem (n : Nat) (es : List Int) (ps : List Nat) (x : Nat) :
    x ∈ es.foldl (fun (ps : List Nat) (e : Int) => if 0 ≤ e ∧ e < n ∧ e.toNat ∉ ps then ps ++ [e.toNat] else ps) ps ↔
      x ∈ ps ∨ (x < n ∧ (x : Int) ∈ es) := by
  induction es generalizing ps with
  | nil => simp
  | cons e es ih =>
    rw [List.foldl_cons, ih, List.mem_cons]
    split
    · rename_i h
      rw [List.mem_append, List.mem_singleton]
      constructor
      · rintro ((h1 | h1) | h1)
        · exact .inl h1
        · exact .inr ⟨by omega, .inl (by omega)⟩
        · exact .inr ⟨h1.1, .inr h1.2⟩
      · rintro (h1 | ⟨h1, h2 | h2⟩)
        · exact .inl (.inl h1)
        · exact .inl (.inr (by omega))
        · exact .inr ⟨h1, h2⟩
    · rename_i h
      constructor
      · rintro (h1 | h1)
        · exact .inl h1
        · exact .inr ⟨h1.1, .inr h1.2⟩
      · rintro (h1 | ⟨h1, h2 | h2⟩)
        · exact .inl h1
        · by_cases hx : e.toNat ∈ ps
          · exact .inl (by rw [show x = e.toNat by omega]; exact hx)
          · exact absurd ⟨by omega, by omega, hx⟩ h
        · exact .inr ⟨h1, h2⟩

theorem fold_nodup (n : Nat) (es : List Int) (ps : List Nat) (h : ps.Nodup) :
    (es.foldl (fun (ps : List Nat) (e : Int) => if 0 ≤ e ∧ e < n ∧ e.toNat ∉ ps then ps ++ [e.toNat] else ps) ps).Nodup := by
  induction es generalizing ps with
  | nil => exact h
  | cons e es ih =>
    rw [List.foldl_cons]
    refine ih _ ?_
    split
    · rename_i hh
      rw [List.nodup_append]
      refine ⟨h, by simp, ?_⟩
      intro a ha b hb
      rw [List.mem_singleton] at hb
      subst hb
      exact fun e => hh.2.2 (e ▸ ha)
    · exact h

/-- There is a line at both ends and at the far edge of each child. -/
theorem dividers_mem (es : List Int) (n x : Nat) :
    x ∈ dividers es n ↔ x = 0 ∨ x = n - 1 ∨ (x < n ∧ (x : Int) ∈ es) := by
  unfold dividers
  dsimp only
  rw [List.mem_insertionSort]
  split
  · rename_i h
    rw [fold_mem] at h ⊢
    rw [List.mem_singleton] at h ⊢
    constructor
    · rintro (h1 | h1)
      · exact .inl h1
      · exact .inr (.inr h1)
    · rintro (h1 | h1 | h1)
      · exact .inl h1
      · rw [h1]; exact h
      · exact .inr h1
  · rw [List.mem_append, fold_mem, List.mem_singleton, List.mem_singleton]
    tauto

theorem dividers_increasing (es : List Int) (n : Nat) (hn : 2 ≤ n) : Increasing (dividers es n) := by
  have hnd : (dividers es n).Nodup := by
    unfold dividers
    dsimp only
    refine (List.perm_insertionSort (· ≤ ·) _).nodup_iff.2 ?_
    split
    · exact fold_nodup n es [0] (by simp)
    · rename_i h
      rw [List.nodup_append]
      refine ⟨fold_nodup n es [0] (by simp), by simp, ?_⟩
      intro a ha b hb
      rw [List.mem_singleton] at hb
      subst hb
      exact fun e => h (e ▸ ha)
  have hs : (dividers es n).Pairwise (· < ·) := by
    have h1 : (dividers es n).Pairwise (· ≤ ·) := List.pairwise_insertionSort (· ≤ ·) _
    exact (h1.and hnd).imp fun h => by omega
  have h0 := (dividers_mem es n 0).2 (.inl rfl)
  have h1 := (dividers_mem es n (n - 1)).2 (.inr (.inl rfl))
  refine ⟨?_, ?_⟩
  · match h : dividers es n with
    | [] => rw [h] at h0; cases h0
    | [a] =>
      rw [h, List.mem_singleton] at h0 h1
      omega
    | _ :: _ :: _ => simp
  · intro i j hij hj
    rw [List.getElem?_eq_getElem hj, List.getElem?_eq_getElem (by omega)]
    exact List.pairwise_iff_getElem.1 hs i j (by omega) hj hij

theorem ends_increasing (n : Nat) (hn : 2 ≤ n) : Increasing [0, n - 1] := by
  refine ⟨by simp, ?_⟩
  intro i j hij hj
  simp only [List.length_cons, List.length_nil] at hj
  obtain rfl : i = 0 := by omega
  obtain rfl : j = 1 := by omega
  simp
  omega

/-- A table with lines along all four edges: a cell shows a line just if it is in a column or a row with a line. -/
theorem table_drawn (w h lt : Nat) (hlt : lt = 1 ∨ lt = 2 ∨ lt = 3) (C R : List Nat) (hC : Increasing C) (hR : Increasing R)
    (hw : 2 ≤ w) (hh : 2 ≤ h) (c0 : 0 ∈ C) (c1 : w - 1 ∈ C) (r0 : 0 ∈ R) (r1 : h - 1 ∈ R) (x y : Nat)
    (hx : x < w) (hy : y < h) :
    ((KCanvas.new w h lt).addGrid C R).drawn x y ≠ none ↔ x ∈ C ∨ y ∈ R := by
  have hd := Keyline.drawn_glyph_partial w h lt hlt [.table C R] (by
    intro o ho
    rw [List.mem_singleton] at ho
    subst ho
    exact ⟨hC, hR⟩) x y hx hy
  have hl := Keyline.allLines_iff [.table C R]
  simp only [List.mem_singleton, exists_eq_left, Keyline.Op.lines] at hl
  simp only [List.foldl_cons, List.foldl_nil, Keyline.Op.run] at hd
  have l0 : lt ≠ 0 := by omega
  have hh' : ∀ a b, (Keyline.allLines [.table C R]).h a b = true → b ∈ R := by
    intro a b e
    have := (hl a b).1.1 e
    simp only [tableLines, decide_eq_true_eq] at this
    exact this.1
  have hv' : ∀ a b, (Keyline.allLines [.table C R]).v a b = true → a ∈ C := by
    intro a b e
    have := (hl a b).2.1 e
    simp only [tableLines, decide_eq_true_eq] at this
    exact this.1
  have hq : (Keyline.allLines [.table C R]).quad lt x y ≠ ⟨0, 0, 0, 0⟩ ↔ x ∈ C ∨ y ∈ R := by
    constructor
    · intro hne
      by_contra hcon
      refine hne ?_
      simp only [Lines.quad, Keyline.Quad.mk.injEq, ite_eq_right_iff, l0, imp_false]
      exact ⟨fun g => hcon (.inl (hv' _ _ g.2)), fun g => hcon (.inr (hh' _ _ g)), fun g => hcon (.inl (hv' _ _ g)),
        fun g => hcon (.inr (hh' _ _ g.2))⟩
    · intro hor e
      simp only [Lines.quad, Keyline.Quad.mk.injEq, ite_eq_right_iff, l0, imp_false] at e
      obtain ⟨e1, e2, e3, e4⟩ := e
      rcases hor with hm | hm
      · by_cases hy' : y < h - 1
        · refine e3 ((hl x y).2.2 ?_)
          simp only [tableLines, decide_eq_true_eq]
          exact ⟨hm, ⟨0, r0, by omega⟩, h - 1, r1, hy'⟩
        · refine e1 ⟨by omega, (hl x (y - 1)).2.2 ?_⟩
          simp only [tableLines, decide_eq_true_eq]
          exact ⟨hm, ⟨0, r0, by omega⟩, h - 1, r1, by omega⟩
      · by_cases hx' : x < w - 1
        · refine e2 ((hl x y).1.2 ?_)
          simp only [tableLines, decide_eq_true_eq]
          exact ⟨hm, ⟨0, c0, by omega⟩, w - 1, c1, hx'⟩
        · refine e4 ⟨by omega, (hl (x - 1) y).1.2 ?_⟩
          simp only [tableLines, decide_eq_true_eq]
          exact ⟨hm, ⟨0, c0, by omega⟩, w - 1, c1, by omega⟩
  rw [← hq]
  rcases hd with ⟨h1, h2⟩ | ⟨h1, c, h2, _⟩
  · rw [h2]
    exact ⟨fun e => absurd rfl e, fun e => absurd h1 e⟩
  · rw [h2]
    exact ⟨fun _ => h1, fun _ e => by cases e⟩

/-! ### Children with room around them -/

/-- Beside each child there is a free cell on all sides: no child touches the edge of the region, and no two of them are
directly side by side (`horizontal`) or one under the other. -/
structure Spaced (horizontal : Bool) (ps : List Placement) (r : Region) : Prop where
  inside : ∀ p ∈ ps, r.x < p.region.x ∧ p.region.x + p.region.width < r.x + r.width ∧ r.y < p.region.y ∧
    p.region.y + p.region.height < r.y + r.height ∧ 0 ≤ p.region.width ∧ 0 ≤ p.region.height
  apart : ps.Pairwise fun p q =>
    if horizontal then p.region.x + p.region.width < q.region.x else p.region.y + p.region.height < q.region.y

theorem pairwise_ne {α : Type} {R : α → α → Prop} {l : List α} (h : l.Pairwise R) (p q : α) (hp : p ∈ l) (hq : q ∈ l) :
    p = q ∨ R p q ∨ R q p := by
  induction h with
  | nil => cases hp
  | cons h1 _ ih =>
    rcases List.mem_cons.1 hp with rfl | hp' <;> rcases List.mem_cons.1 hq with rfl | hq'
    · exact .inl rfl
    · exact .inr (.inl (h1 q hq'))
    · exact .inr (.inr (h1 p hp'))
    · exact ih hp' hq'

/-- Where lines are. -/
theorem pane_drawn (horizontal : Bool) (lt : Nat) (hlt : lt = 1 ∨ lt = 2 ∨ lt = 3) (ps : List Placement) (hne : ps ≠ [])
    (ox oy : Int) (r : Region) (hw : 2 ≤ r.width) (hh : 2 ≤ r.height) :
    ∃ k, (paneDraw horizontal lt ps ox oy r).lines = some k ∧ ∀ x y, In r x y →
      (k.drawn (x - r.x).toNat (y - r.y).toNat ≠ none ↔
        x = r.x ∨ x = r.x + r.width - 1 ∨ y = r.y ∨ y = r.y + r.height - 1 ∨
        ∃ p ∈ ps, if horizontal then x = p.region.x + p.region.width else y = p.region.y + p.region.height) := by
  have hem : ps.isEmpty = false := by cases ps with
    | nil => exact absurd rfl hne
    | cons => rfl
  cases horizontal with
  | true =>
    refine ⟨_, by simp only [paneDraw, rowLines, hem]; rfl, ?_⟩
    rintro x y ⟨h1, h2, h3, h4⟩
    rw [table_drawn _ _ lt hlt _ _ (dividers_increasing _ _ (by omega)) (ends_increasing _ (by omega)) (by omega) (by omega)
      ((dividers_mem _ _ _).2 (.inl rfl)) ((dividers_mem _ _ _).2 (.inr (.inl rfl))) (by simp) (by simp) _ _ (by omega) (by omega),
      dividers_mem]
    simp only [List.mem_cons, List.not_mem_nil, or_false, List.mem_map, if_true]
    constructor
    · rintro ((h | h | ⟨-, p, hp, e⟩) | h | h)
      · left; omega
      · right; left; omega
      · right; right; right; right; exact ⟨p, hp, by omega⟩
      · right; right; left; omega
      · right; right; right; left; omega
    · rintro (h | h | h | h | ⟨p, hp, e⟩)
      · left; left; omega
      · left; right; left; omega
      · right; left; omega
      · right; right; omega
      · left; right; right; exact ⟨by omega, p, hp, by omega⟩
  | false =>
    refine ⟨_, by simp only [paneDraw, columnLines, hem]; rfl, ?_⟩
    rintro x y ⟨h1, h2, h3, h4⟩
    rw [table_drawn _ _ lt hlt _ _ (ends_increasing _ (by omega)) (dividers_increasing _ _ (by omega)) (by omega) (by omega)
      (by simp) (by simp) ((dividers_mem _ _ _).2 (.inl rfl)) ((dividers_mem _ _ _).2 (.inr (.inl rfl))) _ _ (by omega) (by omega),
      dividers_mem]
    simp only [List.mem_cons, List.not_mem_nil, or_false, List.mem_map, Bool.false_eq_true, if_false]
    constructor
    · rintro ((h | h) | h | h | ⟨-, p, hp, e⟩)
      · left; omega
      · right; left; omega
      · right; right; left; omega
      · right; right; right; left; omega
      · right; right; right; right; exact ⟨p, hp, by omega⟩
    · rintro (h | h | h | h | ⟨p, hp, e⟩)
      · left; left; omega
      · left; right; omega
      · right; left; omega
      · right; right; left; omega
      · right; right; right; exact ⟨by omega, p, hp, by omega⟩

/-- **C182** (partial: children with a free cell around them, not scrolled). No line is drawn over a child. -/
theorem clear_partial (horizontal : Bool) (lt : Nat) (hlt : lt = 1 ∨ lt = 2 ∨ lt = 3) (ps : List Placement) (hne : ps ≠ [])
    (r : Region) (hs : Spaced horizontal ps r) :
    ∃ k, (paneDraw horizontal lt ps 0 0 r).lines = some k ∧
      ∀ q ∈ (paneDraw horizontal lt ps 0 0 r).children, ∀ x y, In q.region x y →
        In r x y ∧ k.drawn (x - r.x).toNat (y - r.y).toNat = none := by
  obtain ⟨p0, hp0⟩ := List.exists_mem_of_ne_nil _ hne
  obtain ⟨b1, b2, b3, b4, b5, b6⟩ := hs.inside p0 hp0
  obtain ⟨k, e, hk⟩ := pane_drawn horizontal lt hlt ps hne 0 0 r (by omega) (by omega)
  refine ⟨k, e, ?_⟩
  intro q hq x y hin
  obtain ⟨q', hq', rfl⟩ := List.mem_map.1 (List.mem_filter.1 hq).1
  obtain ⟨a1, a2, a3, a4, a5, a6⟩ := hs.inside q' hq'
  simp only [In, Scroller.scrolled] at hin
  have hr : In r x y := by simp only [In]; omega
  refine ⟨hr, ?_⟩
  by_contra hn
  rcases (hk x y hr).1 hn with h | h | h | h | ⟨p, hp, h⟩
  · omega
  · omega
  · omega
  · omega
  · obtain ⟨i1, i2, i3, i4, i5, i6⟩ := hs.inside p hp
    rcases pairwise_ne hs.apart p q' hp hq' with rfl | g | g
    all_goals
      split at h <;> first
        | omega
        | (rename_i hz; simp only [hz, if_true, Bool.false_eq_true, if_false] at g; omega)

/-- **C182** (partial, as `clear_partial`). Between two children of a row there is a line all the way down, and between two
children of a column one all the way across. -/
theorem separate_partial (horizontal : Bool) (lt : Nat) (hlt : lt = 1 ∨ lt = 2 ∨ lt = 3) (ps : List Placement) (hne : ps ≠ [])
    (r : Region) (hs : Spaced horizontal ps r) :
    ∃ k, (paneDraw horizontal lt ps 0 0 r).lines = some k ∧
      ∀ (i j : Nat) (p q : Placement), i < j → ps[i]? = some p → ps[j]? = some q →
        if horizontal then ∃ x, p.region.x + p.region.width ≤ x ∧ x < q.region.x ∧
          ∀ y, r.y ≤ y → y < r.y + r.height → k.drawn (x - r.x).toNat (y - r.y).toNat ≠ none
        else ∃ y, p.region.y + p.region.height ≤ y ∧ y < q.region.y ∧
          ∀ x, r.x ≤ x → x < r.x + r.width → k.drawn (x - r.x).toNat (y - r.y).toNat ≠ none := by
  obtain ⟨p0, hp0⟩ := List.exists_mem_of_ne_nil _ hne
  obtain ⟨b1, b2, b3, b4, b5, b6⟩ := hs.inside p0 hp0
  obtain ⟨k, e, hk⟩ := pane_drawn horizontal lt hlt ps hne 0 0 r (by omega) (by omega)
  refine ⟨k, e, ?_⟩
  intro i j p q hij hp hq
  obtain ⟨hi, rfl⟩ := List.getElem?_eq_some_iff.1 hp
  obtain ⟨hj, rfl⟩ := List.getElem?_eq_some_iff.1 hq
  have hap := List.pairwise_iff_getElem.1 hs.apart i j hi hj hij
  obtain ⟨a1, a2, a3, a4, a5, a6⟩ := hs.inside _ (List.getElem_mem hi)
  have hmem := List.getElem_mem hi
  cases horizontal with
  | true =>
    simp only [if_true] at hap hk ⊢
    exact ⟨_, le_refl _, hap, fun y h1 h2 => (hk _ y (by simp only [In]; omega)).2
      (.inr (.inr (.inr (.inr ⟨_, hmem, rfl⟩))))⟩
  | false =>
    simp only [Bool.false_eq_true, if_false] at hap hk ⊢
    exact ⟨_, le_refl _, hap, fun x h1 h2 => (hk x _ (by simp only [In]; omega)).2
      (.inr (.inr (.inr (.inr ⟨_, hmem, rfl⟩))))⟩

/-- **C182**: a line goes all around the children, wherever they are and however far they are scrolled. -/
theorem around (horizontal : Bool) (lt : Nat) (hlt : lt = 1 ∨ lt = 2 ∨ lt = 3) (ps : List Placement) (hne : ps ≠ [])
    (ox oy : Int) (r : Region) (hw : 2 ≤ r.width) (hh : 2 ≤ r.height) :
    ∃ k, (paneDraw horizontal lt ps ox oy r).lines = some k ∧ ∀ x y, In r x y →
      (x = r.x ∨ x = r.x + r.width - 1 ∨ y = r.y ∨ y = r.y + r.height - 1) →
      k.drawn (x - r.x).toNat (y - r.y).toNat ≠ none := by
  obtain ⟨k, e, hk⟩ := pane_drawn horizontal lt hlt ps hne ox oy r hw hh
  refine ⟨k, e, fun x y hin h => (hk x y hin).2 ?_⟩
  rcases h with h | h | h | h
  · exact .inl h
  · exact .inr (.inl h)
  · exact .inr (.inr (.inl h))
  · exact .inr (.inr (.inr (.inl h)))

/-! ### Margins give room -/

/-- Margins of at least one cell on all sides. -/
structure RoomAround (c : LChild) : Prop where
  left : 1 ≤ Layout.ml c
  right : 1 ≤ Layout.mr c
  top : ∃ t : Int, 1 ≤ t ∧ Layout.mt c = t
  bottom : ∃ b : Int, 1 ≤ b ∧ Layout.mb c = b

/-- Every child ends before the last column and row, and is not less than nothing. -/
def Fits (ps : List Placement) (r : Region) : Prop :=
  ∀ p ∈ ps, p.region.x + p.region.width < r.x + r.width ∧ p.region.y + p.region.height < r.y + r.height ∧
    0 ≤ p.region.width ∧ 0 ≤ p.region.height

theorem chain (L : List Placement) (lo : Int) (f g : Placement → Int) (h0 : ∀ p, L[0]? = some p → lo < f p)
    (hs : ∀ (i : Nat) (p q : Placement), L[i]? = some p → L[i + 1]? = some q → g p < f q) (hn : ∀ p ∈ L, f p ≤ g p) :
    (∀ p ∈ L, lo < f p) ∧ L.Pairwise fun p q => g p < f q := by
  induction L generalizing lo with
  | nil => exact ⟨by simp, .nil⟩
  | cons a L ih =>
    have ha := h0 a rfl
    have hna := hn a (List.mem_cons_self ..)
    obtain ⟨i1, i2⟩ := ih (g a) (fun p hp => hs 0 a p rfl (by simpa using hp))
      (fun i p q hp hq => hs (i + 1) p q (by simpa using hp) (by simpa using hq)) (fun p hp => hn p (List.mem_cons_of_mem _ hp))
    refine ⟨?_, .cons i1 i2⟩
    intro p hp
    rcases List.mem_cons.1 hp with rfl | hp
    · exact ha
    · have := i1 p hp
      omega

theorem row_y (a : Region) (vp : Viewport) (cs : List LChild) (ws lms : List Int) (x : Int)
    (hm : ∀ c ∈ cs, 1 ≤ Layout.toI32 c.style.margin.top.value) :
    ∀ p ∈ Layout.Horizontal.place a vp x cs ws lms, a.y < p.region.y := by
  induction cs generalizing ws lms x with
  | nil => simp [Layout.Horizontal.place]
  | cons c cs ih =>
    cases ws with
    | nil => simp [Layout.Horizontal.place]
    | cons w ws =>
      cases lms with
      | nil => simp [Layout.Horizontal.place]
      | cons l lms =>
        intro p hp
        simp only [Layout.Horizontal.place] at hp
        rcases List.mem_cons.1 hp with rfl | hp
        · have := hm c (List.mem_cons_self ..)
          dsimp only
          omega
        · exact ih _ _ _ (fun c h => hm c (List.mem_cons_of_mem _ h)) p hp

theorem column_x (a : Region) (vp : Viewport) (u : Rat) (cs : List LChild) (tms : List Rat) (y : Rat)
    (hm : ∀ c ∈ cs, 1 ≤ Layout.ml c) : ∀ p ∈ Layout.Vertical.place a vp u y cs tms, a.x < p.region.x := by
  induction cs generalizing tms y with
  | nil => simp [Layout.Vertical.place]
  | cons c cs ih =>
    cases tms with
    | nil => simp [Layout.Vertical.place]
    | cons t tms =>
      intro p hp
      simp only [Layout.Vertical.place] at hp
      rcases List.mem_cons.1 hp with rfl | hp
      · have := hm c (List.mem_cons_self ..)
        simp only [Layout.ml] at this
        dsimp only
        omega
      · exact ih _ _ (fun c h => hm c (List.mem_cons_of_mem _ h)) p hp

/-- **C182**: children of a row with margins of at least one cell that fit have a free cell around them. -/
theorem row_spaced (cs : List LChild) (r : Region) (vp : Viewport) (hm : ∀ c ∈ cs, RoomAround c)
    (hf : Fits (Layout.Horizontal.arrange cs r vp) r) : Spaced true (Layout.Horizontal.arrange cs r vp) r := by
  have hlen : (Layout.Horizontal.arrange cs r vp).length = cs.length := by
    have := congrArg List.length (Layout.Horizontal.arrange_index cs r vp); simpa using this
  obtain ⟨c1, c2⟩ := chain (Layout.Horizontal.arrange cs r vp) r.x (·.region.x) (fun p => p.region.x + p.region.width)
    (by
      intro p hp
      cases cs with
      | nil => simp [Layout.Horizontal.arrange, Layout.Horizontal.place] at hp
      | cons c cs =>
        obtain ⟨q, qs, e1, e2⟩ := Layout.Horizontal.arrange_first c cs r vp
        rw [e1] at hp
        simp only [List.getElem?_cons_zero, Option.some.injEq] at hp
        subst hp
        have := (hm c (List.mem_cons_self ..)).left
        omega)
    (by
      intro i p q hp hq
      have hi := (List.getElem?_eq_some_iff.1 hp).1
      have hj := (List.getElem?_eq_some_iff.1 hq).1
      have hd : cs[i + 1]? = some cs[i + 1] := List.getElem?_eq_getElem (by omega)
      have := Layout.Horizontal.arrange_gap cs r vp i cs[i] cs[i + 1] p q (List.getElem?_eq_getElem (by omega)) hd hp hq
      have := (hm cs[i + 1] (List.mem_of_getElem? hd)).left
      omega)
    (fun p hp => by have := hf p hp; omega)
  have hy := row_y r vp cs (Layout.Horizontal.rawWidths cs r vp) (Layout.Horizontal.leftMargins none cs) r.x (fun c hc => by
    obtain ⟨t, h1, h2⟩ := (hm c hc).top
    have e : c.style.margin.top.value = (t : Rat) := h2
    rw [e]
    unfold Layout.toI32
    rw [if_pos (by exact_mod_cast (by omega : (0 : Int) ≤ t)), Int.floor_intCast]
    omega)
  refine ⟨fun p hp => ?_, by simpa using c2⟩
  have h1 := hf p hp
  have h2 := c1 p hp
  have h3 := hy p (by rw [Layout.Horizontal.arrange_eq] at hp; exact hp)
  omega

/-- **C182**: children of a column with margins of at least one cell that fit have a free cell around them. -/
theorem column_spaced (cs : List LChild) (r : Region) (vp : Viewport) (ha : 0 ≤ r.width ∧ 0 ≤ r.height)
    (hv : 0 ≤ vp.width ∧ 0 ≤ vp.height) (hn : ∀ c ∈ cs, Layout.NonNegHeight c) (hm : ∀ c ∈ cs, RoomAround c)
    (hf : Fits (Layout.Vertical.arrange cs r vp) r) : Spaced false (Layout.Vertical.arrange cs r vp) r := by
  have hlen : (Layout.Vertical.arrange cs r vp).length = cs.length := by
    have := congrArg List.length (Layout.Vertical.arrange_index cs r vp); simpa using this
  obtain ⟨c1, c2⟩ := chain (Layout.Vertical.arrange cs r vp) r.y (·.region.y) (fun p => p.region.y + p.region.height)
    (by
      intro p hp
      cases cs with
      | nil => simp [Layout.Vertical.arrange, Layout.Vertical.place] at hp
      | cons c cs =>
        obtain ⟨q, qs, e1, e2⟩ := Layout.Vertical.arrange_first c cs r vp
        rw [e1] at hp
        simp only [List.getElem?_cons_zero, Option.some.injEq] at hp
        subst hp
        obtain ⟨t, h1, h2⟩ := (hm c (List.mem_cons_self ..)).top
        rw [h2, ← Int.cast_add, Int.floor_intCast] at e2
        omega)
    (by
      intro i p q hp hq
      have hi := (List.getElem?_eq_some_iff.1 hp).1
      have hj := (List.getElem?_eq_some_iff.1 hq).1
      have hc : cs[i]? = some cs[i] := List.getElem?_eq_getElem (by omega)
      have hd : cs[i + 1]? = some cs[i + 1] := List.getElem?_eq_getElem (by omega)
      obtain ⟨b, b1, b2⟩ := (hm cs[i] (List.mem_of_getElem? hc)).bottom
      obtain ⟨t, t1, t2⟩ := (hm cs[i + 1] (List.mem_of_getElem? hd)).top
      have := Layout.Vertical.arrange_gap cs r vp ha hv i cs[i] cs[i + 1] p q (hn _ (List.mem_of_getElem? hc)) b t b2 t2 hc hd
        hp hq
      omega)
    (fun p hp => by have := hf p hp; omega)
  have hx := column_x r vp (Layout.Vertical.fractionUnit cs r vp) cs (Layout.Vertical.topMargins none cs) r.y
    (fun c hc => (hm c hc).left)
  refine ⟨fun p hp => ?_, by simpa using c2⟩
  have h1 := hf p hp
  have h2 := c1 p hp
  have h3 := hx p hp
  omega

/-! ### Cases -/

/-- A child of three rows and `w` columns with a margin of one cell. -/
def boxed (i : Nat) (w : Rat) : LChild :=
  ⟨i, { width := some ⟨w, .cells⟩, height := some ⟨3, .cells⟩, margin := ⟨⟨1, .cells⟩, ⟨1, .cells⟩, ⟨1, .cells⟩, ⟨1, .cells⟩⟩ },
    1, 1, fun _ => 1⟩

theorem boxed_room (i : Nat) (w : Rat) : RoomAround (boxed i w) := by
  refine ⟨(by decide +kernel : (1 : Int) ≤ Layout.toI32 1), (by decide +kernel : (1 : Int) ≤ Layout.toI32 1),
    ⟨1, by decide, ?_⟩, ⟨1, by decide, ?_⟩⟩ <;>
  · show (1 : Rat) = ((1 : Int) : Rat)
    norm_num

example : let ps := Layout.Horizontal.arrange [boxed 0 6, boxed 1 8] ⟨2, 1, 20, 6⟩ ⟨80, 24⟩
    ps.map (·.region) = [⟨3, 2, 6, 1⟩, ⟨10, 2, 8, 1⟩] ∧ Spaced true ps ⟨2, 1, 20, 6⟩ ∧ ps ≠ [] := by
  refine ⟨by decide +kernel, row_spaced _ _ _ ?_ (by unfold Fits; decide +kernel), by decide +kernel⟩
  intro c hc
  simp only [List.mem_cons, List.not_mem_nil, or_false] at hc
  rcases hc with rfl | rfl <;> exact boxed_room ..

example : let ps := Layout.Vertical.arrange [boxed 0 6, boxed 1 8] ⟨2, 1, 20, 9⟩ ⟨80, 24⟩
    Spaced false ps ⟨2, 1, 20, 9⟩ ∧ ps ≠ [] := by
  refine ⟨column_spaced _ _ _ (by decide) (by decide) ?_ ?_ (by unfold Fits; decide +kernel), by decide +kernel⟩
  · intro c hc
    simp only [List.mem_cons, List.not_mem_nil, or_false] at hc
    rcases hc with rfl | rfl <;>
    · refine ⟨?_, ?_, ?_, ?_⟩
      · rintro h e; cases e; decide +kernel
      · rintro h e; cases e
      · decide +kernel
      · decide +kernel
  · intro c hc
    simp only [List.mem_cons, List.not_mem_nil, or_false] at hc
    rcases hc with rfl | rfl <;> exact boxed_room ..

/-- **C182** is false in a container that is scrolled: the children move and the lines stay. Two children with a margin of
one cell, scrolled by three columns: the line that was between them goes through the second. -/
theorem scrolled_counterexample :
    Struck (paneDraw true 1 [⟨0, ⟨1, 1, 8, 3⟩⟩, ⟨1, ⟨10, 1, 20, 3⟩⟩] 3 0 ⟨0, 0, 20, 5⟩) ⟨0, 0, 20, 5⟩ :=
  struck_of 1 ⟨1, ⟨7, 1, 20, 3⟩⟩ 9 2 (by decide +kernel) (by unfold In; decide) (by decide +kernel)

/-- **C182** is false without margins: children beside each other lose their first column, and all children their first
and last row. -/
theorem touching_counterexample :
    Struck (paneDraw true 1 [⟨0, ⟨0, 0, 10, 5⟩⟩, ⟨1, ⟨10, 0, 10, 5⟩⟩] 0 0 ⟨0, 0, 20, 5⟩) ⟨0, 0, 20, 5⟩ ∧
    Struck (paneDraw false 1 [⟨0, ⟨0, 0, 10, 5⟩⟩, ⟨1, ⟨0, 5, 10, 5⟩⟩] 0 0 ⟨0, 0, 20, 10⟩) ⟨0, 0, 20, 10⟩ :=
  ⟨struck_of 1 ⟨1, ⟨10, 0, 10, 5⟩⟩ 10 2 (by decide +kernel) (by unfold In; decide) (by decide +kernel),
   struck_of 1 ⟨1, ⟨0, 5, 10, 5⟩⟩ 3 5 (by decide +kernel) (by unfold In; decide) (by decide +kernel)⟩

end Textual.GridWidget
