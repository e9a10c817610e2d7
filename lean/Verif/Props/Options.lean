import Verif.Model.Options
import Verif.Props.Pick
import Verif.Props.NestOnce
import Verif.Props.Clicks
import Verif.Props.LinkClicks

/-!
# A click on an option that is seen (C208)
-/

namespace Textual.Options

open Layout (Viewport LChild PStyle Placement)
open Nest (Node SeenAt painted reach)
open Scroller (At OnScreen)
open Clicks (Touch)
open Pick (View Rest Plain narrow body rowOf)
open OptionList (OptionList)

/-- Nobody turns the wheel. -/
def Unwheeled (hs : List Happening) : Prop := ∀ t, .touch t ∈ hs → t.event.kind ≠ .other

/-- The list is one made with some options and operations, its container is at rest. -/
structure Sound (k : Looks) (items : List (List Char)) (v : View) : Prop where
  made : ∃ ops : List OptionList.Op, v.list = ops.foldl OptionList.step (.new items)
  rest : Rest (k.layout v.list.rows) v.pane

theorem Sound.op {k : Looks} {items : List (List Char)} {v : View} (h : Sound k items v) (o : OptionList.Op) :
    Sound k items (v.step k.sheet k.layout (.op o)) := by
  obtain ⟨⟨ops, h1⟩, h2⟩ := h
  refine ⟨⟨ops ++ [o], ?_⟩, Pick.step_rest k.sheet k.layout v (.op o) (fun m r e => nomatch e) h2⟩
  rw [List.foldl_append, ← h1]
  rfl

theorem Sound.draw {k : Looks} {items : List (List Char)} {v : View} (h : Sound k items v) (r : Region) (vp : Viewport) :
    Sound k items (v.step k.sheet k.layout (.draw r vp)) :=
  ⟨h.made, Pick.step_rest k.sheet k.layout v (.draw r vp) (fun m r e => nomatch e) h.rest⟩

/-- A mouse event that is not a turn of the wheel leaves a container as it is, but for what it remembers. -/
theorem pane_rest (s : Scroller.Sheet) {b : Scroller.Body} {st : Pane.State} (h : Rest b st) (m : Scroller.Mouse)
    (hk : m.kind.points = true) (r : Region) (answers : Nat → Bool) : Rest b (st.onMouse s b m r answers).2 := by
  obtain ⟨n1, n2⟩ := Nest.points_ne hk
  unfold Pane.State.onMouse
  split
  · exact h
  · rw [if_neg (by simp [n1]), if_neg (by simp [n2])]
    have := (Pick.place_rest h r (Viewport.ofRegion r)).2
    generalize st.place b r (Viewport.ofRegion r) = q at this ⊢
    exact this

theorem outer_points {k : Press.Kind} (h : k ≠ .other) : (Clicks.outer k).points = true := by
  cases k <;> simp_all [Clicks.outer, Scroller.Kind.points]

theorem Sound.inner {k : Looks} {items : List (List Char)} {v : View} (h : Sound k items v) (m : Scroller.Mouse)
    (hk : m.kind.points = true) (r : Region) : Sound k items (v.step k.sheet k.layout (.wheel m r)) := by
  unfold View.step
  dsimp only
  split
  · exact h
  · exact ⟨h.made, pane_rest k.sheet h.rest m hk r _⟩

theorem Sound.mouse {k : Looks} {items : List (List Char)} {v : View} (h : Sound k items v) (e : Press.Mouse)
    (hk : e.kind ≠ .other) (r : Region) : Sound k items (onMouse k v e r) := by
  unfold onMouse
  split
  · exact h
  split
  · exact h
  · dsimp only
    refine Sound.inner ?_ _ (outer_points hk) r
    split
    · exact h.op _
    · exact h

theorem update_sound {k : Nat → Looks} {items : Nat → List (List Char)} {s : Nat → View}
    (h : ∀ i, Sound (k i) (items i) (s i)) (i : Nat) (f : View → View) (hf : Sound (k i) (items i) (f (s i))) (j : Nat) :
    Sound (k j) (items j) (update s i f j) := by
  unfold update
  by_cases hj : j = i
  · subst hj
    rw [if_pos rfl]
    exact hf
  · rw [if_neg hj]
    exact h j

/-- After any history without the wheel each list is sound. -/
theorem after_sound (k : Nat → Looks) (items : Nat → List (List Char)) (hs : List Happening) (hw : Unwheeled hs)
    (s : Nat → View) (h : ∀ i, Sound (k i) (items i) (s i)) (i : Nat) : Sound (k i) (items i) (after k s hs i) := by
  induction hs generalizing s with
  | nil => exact h i
  | cons e hs ih =>
    refine ih (fun t ht => hw t (List.mem_cons_of_mem _ ht)) _ ?_
    cases e with
    | touch t =>
      have hk := hw t (List.mem_cons_self ..)
      unfold step
      dsimp only
      generalize (reach t.viewport t.mouse (LinkClicks.silent t.node) t.screen).1 = l
      clear ih
      induction l generalizing s with
      | nil => exact h
      | cons q l ih =>
        exact ih _ (update_sound h q.1 _ ((h q.1).mouse t.event hk q.2))
    | draw vp n r =>
      unfold step
      dsimp only
      generalize painted vp n r [] = l
      clear ih
      induction l generalizing s with
      | nil => exact h
      | cons q l ih =>
        exact ih _ (update_sound h q.1 _ ((h q.1).draw q.2.1 vp))
    | op i o =>
      exact update_sound h i (fun v => v.step (k i).sheet (k i).layout (.op o)) ((h i).op o)

theorem onMouse_list (k : Looks) (v : View) (e : Press.Mouse) (r : Region) (h : e.kind ≠ .up .left) :
    (onMouse k v e r).list = v.list := by
  unfold onMouse
  split
  · rfl
  split
  · rfl
  · unfold View.step
    dsimp only
    split <;> rfl

/-- **C208** (partial: containers as in C174, the command palette closed; lists as in C191: no border at the top, never turned by
the wheel, options that take as many rows as they have lines). Whatever happened before, to any of the lists and on screens that
changed: if the left button goes up where a list is seen, and on a row where the list draws an option, this option is picked if
it can be chosen, and nothing otherwise; and no other list changes. -/
theorem picked_partial (k : Nat → Looks) (items : Nat → List (List Char)) (hs : List Happening) (hw : Unwheeled hs) (t : Touch)
    (hf : t.Fair) (hk : t.event.kind = .up .left) (i : Nat) (r : Region) (ks : List Region)
    (hp : (i, r, ks) ∈ painted t.viewport t.node t.screen []) (hsn : SeenAt (i, r, ks) t.event.column t.event.row)
    (keys : List String) (p : PStyle) (children : List OptionList.Row → List LChild)
    (hlay : (k i).layout = fun rows => body keys p (children rows)) (htop : (k i).sheet.chromeTop = 0)
    (hpl : p.layout = .vertical ∧ p.layers = none ∧ p.alignH = .left ∧ p.alignV = .top) (d : Placement) :
    let before := after k (fun i => { list := .new (items i) }) hs
    let now := step k before (.touch t)
    (before i).list.off = false → (before i).list.visible = true →
    List.Forall₂ (Plain t.viewport (narrow (k i).sheet r)) (children (before i).list.rows) (before i).list.items →
    (∀ (j : Nat) (c : LChild), (children (before i).list.rows)[j]? = some c → c.index = j) →
    d ∈ ((before i).pane.draw (k i).sheet ((k i).layout (before i).list.rows) r t.viewport).1.children →
    d.region.y ≤ t.event.row → t.event.row < d.region.y + d.region.height →
    ((before i).list.Enabled d.childIndex →
      (now i).list.selected = d.childIndex ∧ (now i).list.pendingSelection = some d.childIndex) ∧
    (¬ (before i).list.Enabled d.childIndex → (now i).list = (before i).list) ∧
    ∀ j, j ≠ i → now j = before j := by
  intro before now ho hv hc hn hd h1 h2
  have hreach := Nest.seen_once_partial t.viewport t.mouse hf.onScreen (Clicks.points t hf.kind) _ t.screen
    (LinkClicks.silent_good _ _ _ hf.good) (LinkClicks.silent_apart _ _ hf.apart) [] i r ks
    (by rw [LinkClicks.silent_painted]; exact hp) hsn
  have hnow : now = update before i fun v => onMouse (k i) v t.event r := by
    change step k before (.touch t) = _
    unfold step
    dsimp only
    rw [hreach]
    rfl
  have hin : r.containsPoint t.event.column t.event.row = true :=
    (Scroller.contains_iff r _ _ ⟨hf.onScreen.1, hf.onScreen.2.1⟩ hf.onScreen.2.2).2 hsn.1
  have hsound : Sound (k i) (items i) (before i) := after_sound k items hs hw _
    (fun j => ⟨⟨[], rfl⟩, ⟨rfl, by rintro a vp ps ⟨⟩⟩⟩) i
  obtain ⟨⟨ops, hm⟩, hrest⟩ := hsound
  rw [hlay] at hrest hd
  have key := Pick.click_at_rest (items i) ops (before i) (k i).sheet keys p children r t.viewport t.event.row d hm hrest htop hpl
    ho hv hc hn hd h1 h2
  have hl : (now i).list = ((before i).step (k i).sheet (fun rows => body keys p (children rows))
      (.op (.click (rowOf r t.event.row)))).list := by
    rw [hnow]
    unfold update onMouse
    rw [if_pos rfl]
    dsimp only
    rw [if_neg (by simp [ho, hv]), if_neg (by simp [hin]), if_pos hk, ← hlay]
    generalize (before i).step (k i).sheet (k i).layout (.op (.click (rowOf r t.event.row))) = v
    unfold View.step
    dsimp only
    split <;> rfl
  refine ⟨fun h => ?_, fun h => ?_, fun j hj => ?_⟩
  · rw [hl]; exact key.1 h
  · rw [hl]; exact key.2 h
  · rw [hnow]; exact if_neg hj

/-- **C208**: no other mouse event picks or selects anything, in any tree. -/
theorem unpicked (k : Nat → Looks) (s : Nat → View) (t : Touch) (hk : t.event.kind ≠ .up .left) (i : Nat) :
    (step k s (.touch t) i).list = (s i).list := by
  unfold step
  dsimp only
  generalize (reach t.viewport t.mouse (LinkClicks.silent t.node) t.screen).1 = l
  induction l generalizing s with
  | nil => rfl
  | cons q l ih =>
    rw [List.foldl_cons, ih]
    unfold update
    split
    · rename_i h
      subst h
      exact onMouse_list _ _ _ _ hk
    · rfl

/-- **C208** (partial, as above): a button that goes up where no list is seen changes none. -/
theorem missed_partial (k : Nat → Looks) (s : Nat → View) (t : Touch) (hf : t.Fair) (h : ∀ i, ¬ t.On i) :
    step k s (.touch t) = s := by
  have : (reach t.viewport t.mouse (LinkClicks.silent t.node) t.screen).1 = [] := by
    rw [List.eq_nil_iff_forall_not_mem]
    rintro ⟨i, r⟩ hx
    obtain ⟨ks, hp, hs⟩ := Nest.reached_seen_partial t.viewport t.mouse hf.onScreen (Clicks.points t hf.kind) _ t.screen
      hf.inside (LinkClicks.silent_good _ _ _ hf.good) [] (by simp) i r hx
    rw [LinkClicks.silent_painted] at hp
    exact h i ⟨r, ks, hp, hs⟩
  unfold step
  dsimp only
  rw [this]
  rfl

/-! ### A case -/

/-- Lists with the default styles and clipped options. -/
def plain : Looks := ⟨{}, fun rows => body [] {} (Pick.options .clip rows)⟩

theorem option_plain (vp : Viewport) (n : Int) (i : Nat) (item : List Char) :
    Plain vp n (Pick.option i { height := some ⟨1, .auto⟩ } { wrap := .noWrap, overflow := .clip }
      (fun _ => false) { text := Pick.letters item } 3) item := by
  refine ⟨⟨1, rfl⟩, ⟨rfl, rfl⟩, ⟨rfl, rfl⟩, ⟨rfl, rfl, rfl, rfl, rfl⟩, fun a _ => ?_⟩
  refine Pick.option_rows _ _ _ item _ rfl ?_ ?_ ⟨?_, ?_⟩ ⟨rfl, rfl, rfl, rfl⟩ (fun h => nomatch h)
  · intro g hg
    obtain ⟨c, _, rfl⟩ := List.mem_map.1 hg
    simp only [Content.gbytes, String.toList_singleton, List.map_cons, List.map_nil, List.sum_cons, List.sum_nil]
    have := Char.utf8Size_pos c
    omega
  · intro s hs; cases hs
  · simp [Pick.letters, List.flatMap_map]
  · intro g hg
    obtain ⟨c, _, rfl⟩ := List.mem_map.1 hg
    by_cases hc : c = '\n'
    · left; rw [hc]; rfl
    · right
      simpa using fun h => hc h.symm

/-- A drawing, a move over list 11 and two keys. -/
def history : List Happening :=
  [.draw ⟨20, 10⟩ Nest.tree ⟨0, 0, 20, 10⟩, .touch (Clicks.touch .moved 3 4), .op 11 .down, .op 11 .down]

/-- The lists afterwards, each with three options. -/
def stood : Nat → View := after (fun _ => plain) (fun _ => { list := .new ["a".toList, "b\nc".toList, "d".toList] }) history

theorem stood_rows : (stood 11).list.rows = [⟨"a".toList, false, false⟩, ⟨"b\nc".toList, false, false⟩, ⟨"d".toList, false, true⟩] := by
  decide +kernel

theorem stood_items : (stood 11).list.items = ["a".toList, "b\nc".toList, "d".toList] := by decide +kernel

theorem stood_facts : (stood 11).list.off = false ∧ (stood 11).list.visible = true ∧ (stood 11).list.selected = 2 ∧
    (stood 11).list.Enabled 1 := by
  unfold OptionList.Enabled
  decide +kernel

theorem stood_drawn : (⟨1, ⟨1, 4, 8, 2⟩⟩ : Placement) ∈
    ((stood 11).pane.draw plain.sheet (plain.layout (stood 11).list.rows) ⟨1, 3, 8, 6⟩ ⟨20, 10⟩).1.children := by
  have : ((stood 11).pane.draw plain.sheet (plain.layout (stood 11).list.rows) ⟨1, 3, 8, 6⟩ ⟨20, 10⟩).1.children =
    [⟨0, ⟨1, 3, 8, 1⟩⟩, ⟨1, ⟨1, 4, 8, 2⟩⟩, ⟨2, ⟨1, 6, 8, 1⟩⟩] := by decide +kernel
  rw [this]
  simp

theorem history_unwheeled : Unwheeled history := by
  intro t ht
  simp only [history, List.mem_cons, reduceCtorEq, Happening.touch.injEq, List.not_mem_nil, or_false, false_or] at ht
  subst ht
  decide

/-- In the scrolled container of `Nest.tree` list 11 is drawn from row 3 on. The left button goes up on row 4, where its second
option is drawn: that one is picked, and list 10 stays as it is. -/
example : let now := step (fun _ => plain) stood (.touch (Clicks.touch (.up .left) 3 4))
    (stood 11).list.selected = 2 ∧ (now 11).list.selected = 1 ∧ (now 11).list.pendingSelection = some 1 ∧ now 10 = stood 10 := by
  intro now
  have hseen : SeenAt (11, ⟨1, 3, 8, 6⟩, [⟨1, 1, 16, 4⟩, ⟨0, 0, 20, 10⟩]) 3 4 := by
    simp only [SeenAt, At, List.mem_cons, List.not_mem_nil, or_false, forall_eq_or_imp, forall_eq]
    omega
  have hpainted : (11, ⟨1, 3, 8, 6⟩, [⟨1, 1, 16, 4⟩, ⟨0, 0, 20, 10⟩]) ∈ painted ⟨20, 10⟩ Nest.tree ⟨0, 0, 20, 10⟩ [] := by
    decide +kernel
  have hc : List.Forall₂ (Plain ⟨20, 10⟩ (narrow plain.sheet ⟨1, 3, 8, 6⟩)) (Pick.options .clip (stood 11).list.rows)
      (stood 11).list.items := by
    rw [stood_rows, stood_items]
    exact .cons (option_plain _ _ 0 _) (.cons (option_plain _ _ 1 _) (.cons (option_plain _ _ 2 _) .nil))
  have hn : ∀ (j : Nat) (c : LChild), (Pick.options .clip (stood 11).list.rows)[j]? = some c → c.index = j := by
    intro j c h
    unfold Pick.options at h
    rw [List.getElem?_mapIdx, Option.map_eq_some_iff] at h
    obtain ⟨row, -, rfl⟩ := h
    rfl
  obtain ⟨f1, f2, f3, f4⟩ := stood_facts
  obtain ⟨k1, -, k3⟩ := picked_partial (fun _ => plain) (fun _ => ["a".toList, "b\nc".toList, "d".toList]) history
    history_unwheeled (Clicks.touch (.up .left) 3 4) (Clicks.touch_fair _ _ _ (by decide) (by decide) (by decide)) rfl 11
    ⟨1, 3, 8, 6⟩ [⟨1, 1, 16, 4⟩, ⟨0, 0, 20, 10⟩] hpainted hseen [] {} (Pick.options .clip) rfl rfl ⟨rfl, rfl, rfl, rfl⟩
    ⟨1, ⟨1, 4, 8, 2⟩⟩ f1 f2 hc hn stood_drawn (by decide) (by decide)
  obtain ⟨g1, g2⟩ := k1 f4
  exact ⟨f3, g1, g2, k3 10 (by decide)⟩

/-- **C208**: the button need not have gone down on the list: a press on the widget below and a release over the list picks an
option. -/
theorem release_counterexample :
    (after (fun _ => plain) stood [.touch (Clicks.touch (.down .left) 3 6), .touch (Clicks.touch (.up .left) 3 4)] 11).list.pendingSelection =
      some 1 := by
  decide +kernel

end Textual.Options
