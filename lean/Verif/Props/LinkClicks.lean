import Verif.Model.LinkClicks
import Verif.Props.Clicks
import Verif.Props.InTree
import Verif.Props.Static
import Verif.Props.LinkMarkup
import Verif.Props.StaticCases

/-!
# A link that is seen is followed by a press on it (C201)
-/

namespace Textual.LinkClicks

open Layout (Viewport)
open Nest (Node Good NoOverlap SeenAt painted reach Paint Tidy frame)
open Static (Links Drawn findLink linkOf)
open Scroller (At OnScreen)

/-- The event is where text `i` is seen, which is drawn in region `r`. -/
def Page.On (p : Page) (i : Nat) (r : Region) : Prop :=
  ∃ ks, (i, r, ks) ∈ painted p.viewport p.node p.screen [] ∧ SeenAt (i, r, ks) p.column p.row

/-- The link drawn at the pointer by text `i`. -/
def Page.Link (p : Page) (i : Nat) (a : String) : Prop :=
  ∃ r, p.On i r ∧ findLink (p.text i r.width.toNat r.height.toNat).links (p.column - r.x).toNat (p.row - r.y).toNat = some a

/-- The event is inside the screen and not a turn of the wheel, the containers are as in C174 and no text is drawn twice. -/
structure Page.Fair (p : Page) : Prop where
  kind : p.kind ≠ .other
  inside : At p.screen p.column p.row
  onScreen : OnScreen p.mouse
  good : Good p.viewport p.node p.screen
  apart : NoOverlap p.viewport p.node
  once : ∀ i r r' ks ks', (i, r, ks) ∈ painted p.viewport p.node p.screen [] →
    (i, r', ks') ∈ painted p.viewport p.node p.screen [] → r = r'

/-- No action waits to be taken. -/
def Idle (s : Nat → Links) : Prop := ∀ i, (s i).pending = none

theorem silent_painted (vp : Viewport) (n : Node) : ∀ r ks, painted vp (silent n) r ks = painted vp n r ks := by
  induction n with
  | leaf i a => intro r ks; rfl
  | box b child ih => intro r ks; simp only [silent, painted, ih]

theorem silent_good (vp : Viewport) (n : Node) : ∀ r, Good vp n r → Good vp (silent n) r := by
  induction n with
  | leaf i a => intro r _; trivial
  | box b child ih => exact fun r h => ⟨h.1, fun c hc => ih _ _ (h.2 c hc)⟩

theorem silent_apart (vp : Viewport) (n : Node) : NoOverlap vp n → NoOverlap vp (silent n) := by
  induction n with
  | leaf i a => intro _; trivial
  | box b child ih => exact fun h => ⟨h.1, fun i => ih _ (h.2 i)⟩

theorem points (p : Page) (h : p.kind ≠ .other) : p.mouse.kind.points = true := by
  revert h
  unfold Page.mouse
  cases p.kind <;> simp [Clicks.outer, Scroller.Kind.points]

/-- The event reaches the text seen at the pointer alone, or none. -/
theorem reached (p : Page) (hf : p.Fair) :
    (∀ i r, p.On i r → ∀ x, x ∈ (reach p.viewport p.mouse (silent p.node) p.screen).1 ↔ x = (i, r)) ∧
    ((∀ i r, ¬ p.On i r) → (reach p.viewport p.mouse (silent p.node) p.screen).1 = []) := by
  constructor
  · rintro i r ⟨ks, hp, hs⟩
    exact Nest.seen_reached_partial p.viewport p.mouse hf.onScreen (points p hf.kind) _ p.screen
      (silent_good _ _ _ hf.good) (silent_apart _ _ hf.apart) [] i r ks (by rw [silent_painted]; exact hp) hs
  · intro h
    rw [List.eq_nil_iff_forall_not_mem]
    rintro ⟨i, r⟩ hx
    obtain ⟨ks, hp, hs⟩ := Nest.reached_seen_partial p.viewport p.mouse hf.onScreen (points p hf.kind) _ p.screen
      hf.inside (silent_good _ _ _ hf.good) [] (by simp) i r hx
    rw [silent_painted] at hp
    exact h i r ⟨ks, hp, hs⟩

theorem rendered_same (l : Links) (hd : Bool) (r : Region) (d : Drawn) :
    (l.rendered hd r d).pending = l.pending ∧ (l.rendered hd r d).hovered = l.hovered := by
  unfold Links.rendered
  split <;> exact ⟨rfl, rfl⟩

/-- Drawing changes neither what waits nor what is highlighted. -/
theorem fold_same (p : Page) (l : List Nest.Painted) (s : Nat → Links) (i : Nat) :
    let s' := l.foldl (fun s q => update s q.1 fun l => l.rendered false q.2.1
      (p.text q.1 q.2.1.width.toNat q.2.1.height.toNat)) s
    (s' i).pending = (s i).pending ∧ (s' i).hovered = (s i).hovered := by
  induction l generalizing s with
  | nil => exact ⟨rfl, rfl⟩
  | cons q l ih =>
    obtain ⟨h1, h2⟩ := ih (update s q.1 fun l => l.rendered false q.2.1 (p.text q.1 q.2.1.width.toNat q.2.1.height.toNat))
    refine ⟨h1.trans ?_, h2.trans ?_⟩ <;>
    · unfold update
      dsimp only
      split
      · first | exact (rendered_same _ _ _ _).1 | exact (rendered_same _ _ _ _).2
      · rfl

/-- A text that is drawn, always in the same region, knows the links of that drawing. -/
theorem fold_links (p : Page) (i : Nat) (r : Region) (hw : 0 < r.width) (hh : 0 < r.height) (l : List Nest.Painted)
    (ho : ∀ r' ks, (i, r', ks) ∈ l → r' = r) (s : Nat → Links)
    (h : (∃ ks, (i, r, ks) ∈ l) ∨ (s i).regions = (p.text i r.width.toNat r.height.toNat).links) :
    (l.foldl (fun s q => update s q.1 fun l => l.rendered false q.2.1
      (p.text q.1 q.2.1.width.toNat q.2.1.height.toNat)) s i).regions = (p.text i r.width.toNat r.height.toNat).links := by
  induction l generalizing s with
  | nil =>
    rcases h with ⟨ks, h⟩ | h
    · cases h
    · exact h
  | cons q l ih =>
    obtain ⟨j, r', ks'⟩ := q
    refine ih (fun r' ks h => ho r' ks (List.mem_cons_of_mem _ h)) _ ?_
    by_cases hj : i = j
    · subst hj
      obtain rfl := ho r' ks' (List.mem_cons_self ..)
      right
      simp only [update, if_true, Links.rendered]
      rw [if_neg (by simp; omega)]
    · rcases h with ⟨ks, h⟩ | h
      · left
        rcases List.mem_cons.1 h with h | h
        · simp only [Prod.mk.injEq] at h
          exact absurd h.1 hj
        · exact ⟨ks, h⟩
      · right
        simp only [update, if_neg hj]
        exact h

/-- A second event of the same kind at once changes nothing. -/
theorem again (l : Links) (k : Static.Mouse) (x y : Nat) (r : Region) :
    (l.onMouse k x y r).onMouse k x y r = l.onMouse k x y r := by
  obtain ⟨rs, h, pe, di⟩ := l
  unfold Links.onMouse
  by_cases hc : r.containsPoint x y = false
  · simp [hc]
  · rw [if_neg hc, if_neg hc]
    cases k with
    | leftDown =>
      dsimp only
      cases hf : findLink rs (x - r.x : Int).toNat (y - r.y : Int).toNat with
      | none => simp [hf]
      | some a => simp [hf]
    | moved =>
      dsimp only
      by_cases hn : findLink rs (x - r.x : Int).toNat (y - r.y : Int).toNat ≠ h
      · simp [hn]
      · simp [hn]
    | other => rfl

theorem give_all (p : Page) (i : Nat) (r : Region) : ∀ (l : List (Nat × Region)), (∀ x ∈ l, x = (i, r)) → l ≠ [] →
    ∀ (s : Nat → Links), l.foldl (fun s q => update s q.1 fun l => l.onMouse (kindOf p.kind) p.column p.row q.2) s =
      update s i fun l => l.onMouse (kindOf p.kind) p.column p.row r := by
  intro l
  induction l with
  | nil => exact fun _ h => absurd rfl h
  | cons x l ih =>
    intro h _ s
    obtain rfl := h x (List.mem_cons_self ..)
    rw [List.foldl_cons]
    by_cases hl : l = []
    · subst hl; rfl
    · rw [ih (fun x hx => h x (List.mem_cons_of_mem _ hx)) hl]
      funext j
      unfold update
      dsimp only
      split
      · exact again _ _ _ _ _
      · rfl

/-- Before the mouse: the links of the text at the pointer are those it has drawn. -/
theorem ready (p : Page) (hf : p.Fair) (s : Nat → Links) (i : Nat) :
    (leave p (drawAll p s) i).pending = (s i).pending ∧
    (leave p (drawAll p s) i).hovered = (if p.kind = .moved then none else (s i).hovered) ∧
    ∀ r, p.On i r → (leave p (drawAll p s) i).regions = (p.text i r.width.toNat r.height.toNat).links := by
  obtain ⟨h1, h2⟩ := fold_same p (painted p.viewport p.node p.screen []) s i
  have h3 : ∀ r, p.On i r → (drawAll p s i).regions = (p.text i r.width.toNat r.height.toNat).links := by
    rintro r ⟨ks, hp, hs⟩
    have hat := hs.1
    simp only [At] at hat
    exact fold_links p i r (by omega) (by omega) _ (fun r' ks' h => hf.once i r' r ks' ks h hp) s (.inl ⟨ks, hp⟩)
  unfold leave
  by_cases hk : p.kind = .moved
  · rw [if_pos hk, if_pos hk]
    unfold Links.clearHover
    by_cases hh : (drawAll p s i).hovered.isSome = true
    · rw [if_pos hh]
      exact ⟨h1, rfl, h3⟩
    · rw [if_neg hh]
      exact ⟨h1, by simpa using hh, h3⟩
  · rw [if_neg hk, if_neg hk]
    exact ⟨h1, h2, h3⟩

theorem give_on (p : Page) (hf : p.Fair) (i : Nat) (r : Region) (hi : p.On i r) (s : Nat → Links) :
    give p s = update s i fun l => l.onMouse (kindOf p.kind) p.column p.row r := by
  have h := (reached p hf).1 i r hi
  refine give_all p i r _ (fun x hx => (h x).1 hx) ?_ s
  intro e
  have := (h (i, r)).2 rfl
  rw [e] at this
  cases this

theorem give_off (p : Page) (hf : p.Fair) (h : ∀ i r, ¬ p.On i r) (s : Nat → Links) : give p s = s := by
  unfold give
  rw [(reached p hf).2 h]
  rfl

theorem on_unique (p : Page) (hf : p.Fair) {i j : Nat} {r r' : Region} (hi : p.On i r) (hj : p.On j r') : i = j ∧ r = r' := by
  have := ((reached p hf).1 i r hi (j, r')).1 (((reached p hf).1 j r' hj (j, r')).2 rfl)
  simp only [Prod.mk.injEq] at this
  exact ⟨this.1.symm, this.2.symm⟩

/-- One event: what waits afterwards and what is highlighted. -/
theorem step_facts (s : Nat → Links) (p : Page) (hf : p.Fair) (i : Nat) (hp : (s i).pending = none) :
    (∀ a, (step s p).1 i = some a ↔ p.kind = .down .left ∧ p.Link i a) ∧
    ((step s p).2 i).pending = none ∧
    (p.kind = .moved → ∀ a, ((step s p).2 i).hovered = some a ↔ p.Link i a) ∧
    (p.kind ≠ .moved → ((step s p).2 i).hovered = (s i).hovered) := by
  obtain ⟨e1, e2, e3⟩ := ready p hf s i
  rw [hp] at e1
  have quiet : ¬ (∃ r, p.On i r) → ∀ a, ¬ p.Link i a := fun h a ⟨r, hr, _⟩ => h ⟨r, hr⟩
  have nothing : give p (leave p (drawAll p s)) i = leave p (drawAll p s) i → ¬ (∃ r, p.On i r) →
      (∀ a, (step s p).1 i = some a ↔ p.kind = .down .left ∧ p.Link i a) ∧
      ((step s p).2 i).pending = none ∧
      (p.kind = .moved → ∀ a, ((step s p).2 i).hovered = some a ↔ p.Link i a) ∧
      (p.kind ≠ .moved → ((step s p).2 i).hovered = (s i).hovered) := by
    intro h hn
    simp only [step, Links.take, h, e1, e2]
    refine ⟨fun a => ⟨(fun h => by cases h), fun h => absurd h.2 (quiet hn a)⟩, trivial, fun hk a => ?_, fun hk => by rw [if_neg hk]⟩
    rw [if_pos hk]
    exact ⟨(fun h => by cases h), fun h => absurd h (quiet hn a)⟩
  by_cases hon : ∃ j r, p.On j r
  · obtain ⟨j, r, hj⟩ := hon
    have hg := give_on p hf j r hj (leave p (drawAll p s))
    by_cases hij : i = j
    · subst hij
      have e3 := e3 r hj
      have hlink : ∀ a, p.Link i a ↔ findLink (p.text i r.width.toNat r.height.toNat).links (p.column - r.x : Int).toNat
          (p.row - r.y : Int).toNat = some a := by
        refine fun a => ⟨?_, fun h => ⟨r, hj, h⟩⟩
        rintro ⟨r', hr', h⟩
        obtain ⟨-, rfl⟩ := on_unique p hf hr' hj
        exact h
      have hc : r.containsPoint p.column p.row = true := by
        obtain ⟨ks, _, hs⟩ := hj
        exact (Scroller.contains_iff r _ _ ⟨hf.onScreen.1, hf.onScreen.2.1⟩ hf.onScreen.2.2).2 hs.1
      have hgi : give p (leave p (drawAll p s)) i = (leave p (drawAll p s) i).onMouse (kindOf p.kind) p.column p.row r := by
        rw [hg]; simp [update]
      simp only [step, Links.take, hgi, hlink]
      generalize leave p (drawAll p s) i = l at e1 e2 e3
      rw [← e3]
      unfold Links.onMouse
      rw [if_neg (by rw [hc]; decide)]
      dsimp only
      rcases hk : p.kind with _ | g | g | g | _
      · simp only [hk, if_true] at e2
        simp only [kindOf]
        by_cases hn : findLink l.regions (p.column - r.x : Int).toNat (p.row - r.y : Int).toNat ≠ l.hovered
        · rw [if_pos hn]
          simp [e1]
        · rw [if_neg hn]
          have hn := not_not.1 hn
          simp [e1, hn, e2]
      · simp only [hk, reduceCtorEq, if_false] at e2
        cases g <;> simp only [kindOf]
        · cases hl : findLink l.regions (p.column - r.x : Int).toNat (p.row - r.y : Int).toNat with
          | none => simp [e1, e2]
          | some a => simp [e2]
        all_goals simp [e1, e2]
      all_goals
        simp only [hk, reduceCtorEq, if_false] at e2
        simp [kindOf, e1, e2]
    · refine nothing (by rw [hg]; simp [update, hij]) ?_
      rintro ⟨r', h⟩
      exact hij (on_unique p hf h hj).1
  · refine nothing (by rw [give_off p hf fun j r h => hon ⟨j, r, h⟩]) ?_
    rintro ⟨r', h⟩
    exact hon ⟨i, r', h⟩

theorem after_idle (s : Nat → Links) (hs : Idle s) (ps : List Page) (hf : ∀ q ∈ ps, q.Fair) : Idle (after s ps) := by
  induction ps using List.reverseRecOn with
  | nil => exact hs
  | append_singleton ps p ih =>
    have ih := ih fun q hq => hf q (by simp [hq])
    intro i
    have e : after s (ps ++ [p]) = (step (after s ps) p).2 := by simp [after, List.foldl_append]
    rw [e]
    exact (step_facts _ p (hf p (by simp)) i (ih i)).2.1

/-- **C201** (partial: containers as in C174, the command palette closed). Whatever the history of mouse events, each on a
screen that may have changed since: an action is dispatched for a text exactly when the left button goes down where that text
is seen and has drawn the link of this action; no other event does so. -/
theorem followed_partial (s : Nat → Links) (hs : Idle s) (ps : List Page) (p : Page) (hf : ∀ q ∈ ps ++ [p], q.Fair)
    (i : Nat) (a : String) : (step (after s ps) p).1 i = some a ↔ p.kind = .down .left ∧ p.Link i a :=
  (step_facts _ p (hf p (by simp)) i (after_idle s hs ps (fun q hq => hf q (by simp [hq])) i)).1 a

/-- **C201** (partial, as above). After a move of the mouse exactly the link under the pointer is highlighted; other events
change nothing. -/
theorem highlighted_partial (s : Nat → Links) (hs : Idle s) (ps : List Page) (p : Page) (hf : ∀ q ∈ ps ++ [p], q.Fair)
    (i : Nat) :
    (p.kind = .moved → ∀ a, (after s (ps ++ [p]) i).hovered = some a ↔ p.Link i a) ∧
    (p.kind ≠ .moved → (after s (ps ++ [p]) i).hovered = (after s ps i).hovered) := by
  have e : after s (ps ++ [p]) = (step (after s ps) p).2 := by simp [after, List.foldl_append]
  rw [e]
  exact (step_facts _ p (hf p (by simp)) i (after_idle s hs ps (fun q hq => hf q (by simp [hq])) i)).2.2

open Static Content in
/-- **C201** (partial, as above; containers that draw nothing on their children, one-column characters, no outline, a title
only in a top border). The screen is drawn and then the left button goes down on a column of a text that is not clipped away:
the column is on the canvas with its character, and the action dispatched is that of the link the column belongs to, or none;
no other text dispatches one. -/
theorem press_on_screen_partial {w h : Nat} {c0 : Canvas} (h0 : Canvas.new w h = some c0) (p : Page) (P : Paint)
    (before : List Canvas.Op) (hv : p.viewport = ⟨w, h⟩) (hsc : p.screen = ⟨0, 0, w, h⟩) (hk : p.kind = .down .left)
    (ht : Tidy ⟨w, h⟩ P p.node ⟨0, 0, w, h⟩) (s : Nat → Links) (hs : Idle s) (ps : List Page) (hf : ∀ q ∈ ps ++ [p], q.Fair)
    (id : Nat) (r : Region) (hon : p.On id r)
    (hist : List RenderCache.Sheet) (sh : Static.Sheet) (lines : List WrappedLine) (title subtitle : Option Strip)
    (hatch : Option Fade.Hatch) (tint : Option RgbaColor)
    (hpaint : P.leaf id r = paint sh false (RenderCache.cacheAfter hist sh.frame) lines title subtitle hatch tint r)
    (htext : p.text id r.width.toNat r.height.toNat =
      drawLines sh (RenderCache.cacheAfter hist sh.frame) lines title subtitle r.width.toNat r.height.toNat)
    (hr : RenderCache.Room sh.frame r.width.toNat title subtitle) (ho : RenderCache.NoOutline sh.frame)
    (htop : sh.frame.border.top.kind.horizontal = true ∨ title = none)
    (hl : ∀ line ∈ lines, line.strip.OneColumn) (h1 : ∀ t ∈ title, t.OneColumn) (h2 : ∀ t ∈ subtitle, t.OneColumn)
    (hh : ∀ h ∈ hatch, h.width = 1) (hu1 : Unlinked title) (hu2 : Unlinked subtitle) :
    ∃ c row cell, c0.run (before ++ frame P ⟨w, h⟩ p.node) = some c ∧
      (p.text id r.width.toNat r.height.toNat).rows[(p.row - r.y : Int).toNat]? = some row ∧
      row.cells[(p.column - r.x : Int).toNat]? = some cell ∧
      (cell.g.text ≠ " " → (c.cells[p.row * w + p.column]?).map (·.symbol) = some cell.g.text) ∧
      (step (after s ps) p).1 id = linkOf cell ∧ ∀ j, j ≠ id → (step (after s ps) p).1 j = none := by
  have hfp := hf p (by simp)
  obtain ⟨ks, hpd, hseen⟩ := hon
  have hat := hseen.1
  have hin := hfp.inside
  have hos := hfp.onScreen
  rw [hsc] at hin
  simp only [At] at hat hin
  simp only [OnScreen, Page.mouse] at hos
  obtain ⟨e1, e2⟩ := rows_good hist sh lines title subtitle r.width.toNat r.height.toNat hr hl h1 h2
  have hpd' := hpd
  rw [hv, hsc] at hpd'
  have hg := hfp.good
  have ha := hfp.apart
  rw [hv] at hg ha
  rw [hsc] at hg
  obtain ⟨c, c1, c2, r1, r2, r3, r4⟩ := Nest.widget_on_top_partial h0 p.node P before hg ha ht id r ks hpd' p.column p.row
    (by omega) (by omega) (by omega) hseen
  obtain ⟨row, hrow⟩ : ∃ row, (drawLines sh (RenderCache.cacheAfter hist sh.frame) lines title subtitle r.width.toNat
      r.height.toNat).rows[(p.row - r.y : Int).toNat]? = some row := by
    refine ⟨_, List.getElem?_eq_getElem ?_⟩
    rw [e1]; omega
  obtain ⟨o, hwid⟩ := e2 row (List.mem_of_getElem? hrow)
  obtain ⟨cell, hcell⟩ : ∃ cell, row.cells[(p.column - r.x : Int).toNat]? = some cell := by
    refine ⟨_, List.getElem?_eq_getElem ?_⟩
    rw [hwid]; omega
  obtain ⟨c', k1, -, k3⟩ := rows_on_canvas_partial hist sh lines title subtitle hatch tint r (by omega) (by omega) hr hl h1 h2
    hh c1 (by rw [r2.len, r2.weq, r2.heq])
  rw [hpaint, k1] at r3
  cases r3
  have hexact := links_exact_partial hist sh lines title subtitle r.width.toNat r.height.toNat _ _ row cell ho htop
    (fun line hline => fit_of_one (hl line hline) _) hu1 hu2 hrow hcell
  rw [← htext] at hexact hrow
  refine ⟨c, row, cell, r1, hrow, hcell, fun hne => ?_, ?_, fun j hj => ?_⟩
  · rw [htext] at hrow
    have := (k3 _ row _ cell p.column p.row hrow hcell (by omega) (by omega) (by rw [r2.weq]; omega) (by rw [r2.heq]; omega)
      (by rw [r2.currentClip]; exact Canvas.clips_within (by omega) (by omega) (by omega) (by omega) ks hseen.2)).2 hne
    rw [r2.weq] at this
    rw [r4]
    exact this
  · rw [Option.ext_iff]
    intro a
    rw [followed_partial s hs ps p hf id a, ← hexact]
    refine ⟨?_, fun h => ⟨hk, r, ⟨ks, hpd, hseen⟩, h⟩⟩
    rintro ⟨-, r', hr', h⟩
    obtain ⟨-, rfl⟩ := on_unique p hfp hr' ⟨ks, hpd, hseen⟩
    exact h
  · rw [Option.eq_none_iff_forall_ne_some]
    intro a h
    obtain ⟨-, r', hr', -⟩ := (followed_partial s hs ps p hf j a).1 h
    exact hj (on_unique p hfp hr' ⟨ks, hpd, hseen⟩).1

/-! ### A case -/

open Static (linkLine drawLines)

/-- All texts of the tree of C174 show `ab go`, where `go` is a link. -/
def linked : Paint where
  leaf _ r := Static.paint {} false (RenderCache.cacheAfter [] ({} : Static.Sheet).frame) [linkLine] none none none none r
  before _ _ := []
  over _ _ := []
  after _ _ := []

theorem linkLine_one : ∀ line ∈ [linkLine], line.strip.OneColumn := by
  intro line h
  rw [List.mem_singleton.1 h]
  refine ⟨Static.linkLine_wf, ?_⟩
  intro seg hs g hg
  have : ∀ seg ∈ linkLine.strip.segments, ∀ g ∈ seg.text, g.width = 1 := by decide
  exact this seg hs g hg

theorem linked_tidy : Tidy ⟨20, 10⟩ linked Nest.tree ⟨0, 0, 20, 10⟩ := by
  have leaf : ∀ (id : Nat) (r : Region), Nest.Inside r (linked.leaf id r) := by
    intro id r
    refine Static.paint_inside [] {} false [linkLine] none none none none r (fun hw _ => ?_) linkLine_one
      (by rintro t h; cases h) (by rintro t h; cases h) (by rintro t h; cases h)
    refine ⟨by omega, ?_, ?_, by simp⟩ <;>
    · simp only [RenderCache.one]
      have : (0 : Nat) ≤ r.width.toNat := Nat.zero_le _
      exact this
  refine ⟨Nest.nothing_in _, Nest.nothing_in _, Nest.nothing_in _, fun c _ => ?_⟩
  dsimp only
  split
  · exact ⟨Nest.nothing_in _, Nest.nothing_in _, Nest.nothing_in _, fun c _ => leaf _ _⟩
  · exact leaf _ _

/-- A mouse event on that screen. -/
def page (k : Press.Kind) (x y : Nat) : Page :=
  ⟨k, x, y, Nest.tree, ⟨0, 0, 20, 10⟩, ⟨20, 10⟩,
    fun _ w h => drawLines {} (RenderCache.cacheAfter [] ({} : Static.Sheet).frame) [linkLine] none none w h⟩

theorem tree_painted : painted ⟨20, 10⟩ Nest.tree ⟨0, 0, 20, 10⟩ [] =
    [(10, ⟨1, -3, 8, 6⟩, [⟨1, 1, 16, 4⟩, ⟨0, 0, 20, 10⟩]), (11, ⟨1, 3, 8, 6⟩, [⟨1, 1, 16, 4⟩, ⟨0, 0, 20, 10⟩]),
     (2, ⟨0, 6, 20, 2⟩, [⟨0, 0, 20, 10⟩])] := by decide +kernel

theorem page_fair (k : Press.Kind) (x y : Nat) (hk : k ≠ .other) (hx : x < 20) (hy : y < 10) : (page k x y).Fair := by
  refine ⟨hk, ?_, ?_, Nest.tree_ok.1, Nest.tree_ok.2, ?_⟩
  · simp only [page, At]; omega
  · simp only [page, Page.mouse, OnScreen]; omega
  · intro i r r' ks ks' h h'
    simp only [page, tree_painted, List.mem_cons, List.not_mem_nil, or_false, Prod.mk.injEq] at h h'
    rcases h with ⟨rfl, rfl, -⟩ | ⟨rfl, rfl, -⟩ | ⟨rfl, rfl, -⟩ <;>
      rcases h' with ⟨h, rfl, -⟩ | ⟨h, rfl, -⟩ | ⟨h, rfl, -⟩ <;> first | rfl | (exact absurd h (by decide))

theorem page_on (k : Press.Kind) (x y : Nat) (hx : 1 ≤ x ∧ x < 9) (hy : 3 ≤ y ∧ y < 5) : (page k x y).On 11 ⟨1, 3, 8, 6⟩ := by
  refine ⟨[⟨1, 1, 16, 4⟩, ⟨0, 0, 20, 10⟩], ?_, ?_⟩
  · show _ ∈ painted ⟨20, 10⟩ Nest.tree ⟨0, 0, 20, 10⟩ []
    rw [tree_painted]; simp
  simp only [SeenAt, At, page, List.mem_cons, List.not_mem_nil, or_false, forall_eq_or_imp, forall_eq]
  omega

/-- A press on the `g` of the scrolled card after the mouse moved there: the `g` is on the canvas, its link is followed. -/
example : ∃ c0 c, Canvas.new 20 10 = some c0 ∧ c0.run (frame linked ⟨20, 10⟩ Nest.tree) = some c ∧
    (c.cells[3 * 20 + 4]?).map (·.symbol) = some "g" ∧
    (step (after (fun _ => {}) [page .moved 4 3]) (page (.down .left) 4 3)).1 11 = some "app.go" := by
  obtain ⟨c0, h0⟩ : ∃ c0, Canvas.new 20 10 = some c0 := ⟨_, rfl⟩
  obtain ⟨c, row, cell, e1, e2, e3, e4, e5, -⟩ := press_on_screen_partial h0 (page (.down .left) 4 3) linked [] rfl rfl rfl
    linked_tidy (fun _ => {}) (fun _ => rfl) [page .moved 4 3] (by
      intro q hq
      simp only [List.cons_append, List.nil_append, List.mem_cons, List.not_mem_nil, or_false] at hq
      rcases hq with rfl | rfl <;> exact page_fair _ _ _ (by decide) (by decide) (by decide))
    11 ⟨1, 3, 8, 6⟩ (page_on _ _ _ (by decide) (by decide)) [] {} [linkLine] none none none none rfl rfl
    (by unfold RenderCache.Room; decide) (by unfold RenderCache.NoOutline; decide) (.inr rfl) linkLine_one
    (by rintro t h; cases h) (by rintro t h; cases h) (by rintro t h; cases h) (by rintro t h; cases h) (by rintro t h; cases h)
  have hc : (((page (.down .left) 4 3).text 11 8 6).rows[0]?.bind fun row => row.cells[3]?).map (fun c => (c.g.text, linkOf c)) =
    some ("g", some "app.go") := by decide +kernel
  have e2' : ((page (.down .left) 4 3).text 11 8 6).rows[0]? = some row := e2
  have e3' : row.cells[3]? = some cell := e3
  rw [e2', Option.bind_some, e3'] at hc
  simp only [Option.map_some, Option.some.injEq, Prod.mk.injEq] at hc
  refine ⟨c0, c, h0, e1, ?_, e5.trans hc.2⟩
  rw [← hc.1]
  exact e4 (by rw [hc.1]; decide)

/-- The move before the press has highlighted the link, and a move to the plain text of the card takes the highlight away. -/
example : (after (fun _ => {}) [page .moved 4 3] 11).hovered = some "app.go" ∧
    (after (fun _ => {}) [page .moved 4 3, page .moved 2 3] 11).hovered = none := by decide +kernel

/-- **C201** fails for texts in a plain container with a border, as C174 does: the lower row of the first text has no link, a
press on it follows the link in the first row of the second. -/
theorem border_counterexample :
    let b := Clicks.bordered (.down .left) 4 2
    let p : Page := ⟨.down .left, 4, 2, b.node, b.screen, b.viewport, (page .moved 0 0).text⟩
    painted b.viewport b.node b.screen [] =
      [(10, ⟨1, 1, 8, 2⟩, [⟨1, 1, 18, 6⟩, ⟨0, 0, 20, 10⟩]), (11, ⟨1, 3, 8, 2⟩, [⟨1, 1, 18, 6⟩, ⟨0, 0, 20, 10⟩])] ∧
    findLink (p.text 10 8 2).links 3 1 = none ∧ (step (fun _ => {}) p).1 11 = some "app.go" := by decide +kernel

end Textual.LinkClicks
