import Verif.Model.Session
import Verif.Props.Isolation
import Verif.Props.Form

/-!
# Keyboard and mouse together (C210)
-/

namespace Textual.Session

open Tree (WidgetTree)
open Clicks (Touch)
open Tabs (move Ready shifted)
open Form (place)
open Isolation (Seen)

/-! ### Specification -/

/-- What happens to a widget: a key for it, or a mouse event, with its region if it is the one seen at the pointer. -/
inductive Own where
  | key (k : Binding.Key)
  | mouse (t : Touch) (place : Option Region)

/-- What a widget on its own does. -/
def own (w : Widget σ μ) (s : σ) : Own → Option μ × σ
  | .key k => w.onKey s k
  | .mouse t r => Isolation.own w.toWidget s t r

/-- A widget on its own: its messages and its state afterwards. -/
def alone (w : Widget σ μ) : σ → List Own → List μ × σ
  | s, [] => ([], s)
  | s, o :: os =>
    let p := own w s o
    let q := alone w p.2 os
    (p.1.toList ++ q.1, q.2)

/-- An event, for mouse events with the place where widget `i` is seen at the pointer. -/
inductive Placed where
  | key (e : Keys.Event)
  | mouse (t : Touch) (place : Option Region)

def Placed.event : Placed → Event
  | .key e => .key e
  | .mouse t _ => .mouse t

/-- The places are right, the screens are those of C209, and no key is the shortcut of the palette. -/
def Placed.Right (sc : Binding.Event → Bool) (i : Nat) : Placed → Prop
  | .key e => sc ⟨e.code, e.mods⟩ = false
  | .mouse t o => t.Fair ∧ ∀ r, o = some r ↔ Seen t i r

/-- Which events are for widget `i`: those of the mouse, and the keys pressed while the focus, which starts at place `n` of the
ring and is moved by Tab and Shift+Tab alone, is on it. -/
def meant (ring : List (List Nat)) (num : List Nat → Nat) (i : Nat) : Int → List Placed → List Own
  | _, [] => []
  | n, .mouse t o :: es => .mouse t o :: meant ring num i n es
  | n, .key e :: es =>
    if (place ring (n + move e.code)).map num = some i then .key e.code :: meant ring num i (n + move e.code) es
    else meant ring num i (n + move e.code) es

/-! ### Proofs -/

theorem place_ready {t0 t : WidgetTree} (h : Ready t0 t) (n : Int) (hn : (t.index : Int) = n % t0.root.ring.length) :
    place t0.root.ring n = some t.path := by
  unfold place
  rw [← hn, Int.toNat_natCast, ← (Tree.congr_of_unfocused h.same).1]
  exact h.here

theorem handled_app (w : Widget σ μ) (num : List Nat → Nat) (p : List Nat) (k : Binding.Key) (s : Held σ μ) :
    Tabs.handled (app w num) p k s =
      (fun j => if j = num p then (w.onKey (s.1 (num p)) k).2 else s.1 j,
        s.2 ++ ((w.onKey (s.1 (num p)) k).1.map fun m => (num p, m)).toList) := by
  simp only [Tabs.handled, app]
  generalize w.onKey (s.1 (num p)) k = x
  rcases x with ⟨_ | m, s'⟩ <;> simp

/-- The messages of widget `i`. -/
def of (i : Nat) (l : List (Nat × μ)) : List μ := (l.filter fun m => m.1 = i).map (·.2)

theorem of_append (i : Nat) (l l' : List (Nat × μ)) : of i (l ++ l') = of i l ++ of i l' := by
  simp [of]

theorem of_option (i : Nat) (o : Option (Nat × μ)) (o' : Option μ) (h : ∀ v, o = some (i, v) ↔ o' = some v) :
    of i o.toList = o'.toList := by
  cases o with
  | none =>
    cases o' with
    | none => rfl
    | some v => exact nomatch (h v).2 rfl
  | some p =>
    obtain ⟨j, v⟩ := p
    by_cases hj : j = i
    · subst hj
      rw [(h v).1 rfl]
      simp [of]
    · cases o' with
      | none => simp [of, hj]
      | some u =>
        have := (h u).2 rfl
        simp only [Option.some.injEq, Prod.mk.injEq] at this
        exact absurd this.1 hj

theorem isolated_aux (w : Widget σ μ) (num : List Nat → Nat) (sc : Binding.Event → Bool) (a : Nat → Bool)
    {t0 : WidgetTree} (hh : t0.root.NoHiddenBefore) (i : Nat) (es : List Placed) :
    ∀ (t : WidgetTree) (s : Held σ μ) (n : Int), Ready t0 t → (t.index : Int) = n % t0.root.ring.length →
      (∀ e ∈ es, e.Right sc i) →
      let r := (run w num sc a (es.map Placed.event) (t, s)).2
      r.1 i = (alone w (s.1 i) (meant t0.root.ring num i n es)).2 ∧
      of i r.2 = of i s.2 ++ (alone w (s.1 i) (meant t0.root.ring num i n es)).1 := by
  induction es with
  | nil => intro t s n _ _ _; simp [run, meant, alone]
  | cons e es ih =>
    intro t s n hr hn he
    have he0 := he e (List.mem_cons_self ..)
    have he' : ∀ e ∈ es, e.Right sc i := fun x hx => he x (List.mem_cons_of_mem _ hx)
    cases e with
    | mouse m o =>
      obtain ⟨h1, h2⟩ := Isolation.step_own w.toWidget a s.1 m he0.1 i o he0.2
      obtain ⟨g1, g2⟩ := ih t ((Isolation.step w.toWidget a s.1 m).2, s.2 ++ (Isolation.step w.toWidget a s.1 m).1.toList) n
        hr hn he'
      have e1 : run w num sc a ((Placed.mouse m o :: es).map Placed.event) (t, s) =
          run w num sc a (es.map Placed.event)
            (t, (Isolation.step w.toWidget a s.1 m).2, s.2 ++ (Isolation.step w.toWidget a s.1 m).1.toList) := by
        simp only [run, List.map_cons, List.foldl_cons, Placed.event, turn, Tabs.ready_fallback hr]
      dsimp only at g1 g2 ⊢
      rw [e1, g1, g2, of_append, of_option i _ _ h2, h1]
      simp only [meant, alone, own, List.append_assoc]
      exact ⟨trivial, trivial⟩
    | key k =>
      obtain ⟨r1, r2⟩ := Tabs.ready_shifted hh hr k.code
      have hn' : ((shifted k.code t).index : Int) = (n + move k.code) % t0.root.ring.length := by
        rw [r2, (Tree.congr_of_unfocused hr.same).1, hn, Int.emod_add_emod]
      obtain ⟨g1, g2⟩ := ih (shifted k.code t) (Tabs.handled (app w num) (shifted k.code t).path k.code s) (n + move k.code)
        r1 hn' he'
      have e1 : run w num sc a ((Placed.key k :: es).map Placed.event) (t, s) =
          run w num sc a (es.map Placed.event)
            (shifted k.code t, Tabs.handled (app w num) (shifted k.code t).path k.code s) := by
        simp only [run, List.map_cons, List.foldl_cons, Placed.event, turn]
        rw [Tabs.turn_ready hh hr (app w num) sc k he0]
      dsimp only at g1 g2 ⊢
      rw [e1, g1, g2, handled_app]
      simp only [meant, place_ready r1 _ hn', Option.map_some, Option.some.injEq]
      generalize num (shifted k.code t).path = j
      by_cases hj : j = i
      · subst hj
        simp only [if_true, alone, own, of_append]
        rcases w.onKey (s.1 j) k.code with ⟨_ | v, s'⟩ <;> simp [of]
      · simp only [if_neg hj, if_neg (fun h : i = j => hj h.symm), of_append]
        rcases w.onKey (s.1 j) k.code with ⟨_ | v, s'⟩ <;> simp [of, hj]

/-- **C210** (partial: the tree as in C197, containers as in C174, no wheel, the palette closed). Whatever is done with keyboard
and mouse, in any order, each widget goes through it as it would on its own, given the mouse events where it is seen at the
pointer and the keys pressed while it has the focus; and the program handles just the messages it would send on its own, in
that order. -/
theorem isolated_partial (w : Widget σ μ) (num : List Nat → Nat) (sc : Binding.Event → Bool) (a : Nat → Bool)
    (t : WidgetTree) (hok : t.root.Ok) (hh : t.root.NoHiddenBefore) (ht : t.root.ring[t.index]? = some t.path)
    (s : Nat → σ) (i : Nat) (es : List Placed) (he : ∀ e ∈ es, e.Right sc i) :
    let r := (run w num sc a (es.map Placed.event) (t, s, [])).2
    let o := alone w (s i) (meant t.root.ring num i t.index es)
    r.1 i = o.2 ∧ (r.2.filter fun m => m.1 = i).map (·.2) = o.1 := by
  have h0 : Ready t t := ⟨hok, rfl, ht⟩
  have hlt := Tabs.ready_lt h0
  have := isolated_aux w num sc a hh i es t (s, []) t.index h0 (by rw [Int.emod_eq_of_lt (by omega) (by omega)]) he
  simpa [of] using this

/-- The keys of a history. -/
def keys : List Event → List Keys.Event
  | [] => []
  | .key e :: es => e :: keys es
  | .mouse _ :: es => keys es

/-- **C210** (partial: the tree as in C197). The focus depends on the keys alone: the mouse, whatever it is used for, never moves
it, and where it is is told by the presses of Tab and Shift+Tab. -/
theorem focus_partial (w : Widget σ μ) (num : List Nat → Nat) (sc : Binding.Event → Bool) (a : Nat → Bool)
    (t : WidgetTree) (hok : t.root.Ok) (hh : t.root.NoHiddenBefore) (ht : t.root.ring[t.index]? = some t.path)
    (s : Held σ μ) (es : List Event) (he : ∀ e ∈ keys es, sc ⟨e.code, e.mods⟩ = false) :
    place t.root.ring (t.index + Tabs.moves (keys es)) = some (run w num sc a es (t, s)).1.path := by
  have key : ∀ (es : List Event) (t' : WidgetTree) (s : Held σ μ) (n : Int), Ready t t' →
      (t'.index : Int) = n % t.root.ring.length → (∀ e ∈ keys es, sc ⟨e.code, e.mods⟩ = false) →
      place t.root.ring (n + Tabs.moves (keys es)) = some (run w num sc a es (t', s)).1.path := by
    intro es
    induction es with
    | nil => intro t' s n hr hn _; simpa [keys, Tabs.moves, run] using place_ready hr n hn
    | cons e es ih =>
      intro t' s n hr hn he
      cases e with
      | mouse m =>
        have := ih t' ((Isolation.step w.toWidget a s.1 m).2, s.2 ++ (Isolation.step w.toWidget a s.1 m).1.toList) n hr hn he
        rw [show keys (Event.mouse m :: es) = keys es from rfl, this]
        simp only [run, List.foldl_cons, turn, Tabs.ready_fallback hr]
      | key k =>
        have hk := he k (by simp [keys])
        obtain ⟨r1, r2⟩ := Tabs.ready_shifted hh hr k.code
        have hn' : ((shifted k.code t').index : Int) = (n + move k.code) % t.root.ring.length := by
          rw [r2, (Tree.congr_of_unfocused hr.same).1, hn, Int.emod_add_emod]
        have := ih (shifted k.code t') (Tabs.handled (app w num) (shifted k.code t').path k.code s) (n + move k.code) r1 hn'
          (fun e h => he e (by simp [keys, h]))
        rw [show n + Tabs.moves (keys (Event.key k :: es)) = n + move k.code + Tabs.moves (keys es) by
          simp [keys, Tabs.moves, Int.add_assoc], this]
        simp only [run, List.foldl_cons, turn]
        rw [Tabs.turn_ready hh hr (app w num) sc k hk]
  have h0 : Ready t t := ⟨hok, rfl, ht⟩
  have hlt := Tabs.ready_lt h0
  exact key es t s t.index h0 (by rw [Int.emod_eq_of_lt (by omega) (by omega)]) he

/-- The mouse events of a history are on the screens of C209, and no key is the shortcut of the palette. -/
def Event.Fair (sc : Binding.Event → Bool) : Event → Prop
  | .key e => sc ⟨e.code, e.mods⟩ = false
  | .mouse t => t.Fair

/-- The places can be found for every history. -/
theorem placed_exists (sc : Binding.Event → Bool) (i : Nat) (es : List Event) (hf : ∀ e ∈ es, e.Fair sc) :
    ∃ ps : List Placed, ps.map Placed.event = es ∧ ∀ p ∈ ps, p.Right sc i := by
  induction es with
  | nil => exact ⟨[], rfl, by simp⟩
  | cons e es ih =>
    obtain ⟨ps, h1, h2⟩ := ih fun e he => hf e (List.mem_cons_of_mem _ he)
    have he := hf e (List.mem_cons_self ..)
    have : ∃ p : Placed, p.event = e ∧ p.Right sc i := by
      cases e with
      | key k => exact ⟨.key k, rfl, he⟩
      | mouse t =>
        by_cases hs : ∃ r, Seen t i r
        · obtain ⟨r, hr⟩ := hs
          exact ⟨.mouse t (some r), rfl, he, Isolation.seen_iff t he i r hr⟩
        · exact ⟨.mouse t none, rfl, he, fun r => ⟨fun h => (nomatch h), fun h => absurd ⟨r, h⟩ hs⟩⟩
    obtain ⟨p, g1, g2⟩ := this
    refine ⟨p :: ps, by rw [List.map_cons, g1, h1], fun q hq => ?_⟩
    rcases List.mem_cons.1 hq with rfl | hq
    · exact g2
    · exact h2 q hq

/-- **C210** (partial, as above). Widgets in other states, that answer other things, make no difference to a widget. -/
theorem undisturbed_partial (w : Widget σ μ) (num : List Nat → Nat) (sc : Binding.Event → Bool) (a a' : Nat → Bool)
    (t : WidgetTree) (hok : t.root.Ok) (hh : t.root.NoHiddenBefore) (ht : t.root.ring[t.index]? = some t.path)
    (s s' : Nat → σ) (i : Nat) (hs : s i = s' i) (es : List Event) (hf : ∀ e ∈ es, e.Fair sc) :
    (run w num sc a es (t, s, [])).2.1 i = (run w num sc a' es (t, s', [])).2.1 i ∧
    ((run w num sc a es (t, s, [])).2.2.filter fun m => m.1 = i).map (·.2) =
      ((run w num sc a' es (t, s', [])).2.2.filter fun m => m.1 = i).map (·.2) := by
  obtain ⟨ps, rfl, hp⟩ := placed_exists sc i es hf
  obtain ⟨h1, h2⟩ := isolated_partial w num sc a t hok hh ht s i ps hp
  obtain ⟨g1, g2⟩ := isolated_partial w num sc a' t hok hh ht s' i ps hp
  rw [h1, h2, g1, g2, hs]
  exact ⟨rfl, rfl⟩

/-- The mouse does nothing to the widgets. -/
def Deaf (w : Widget σ μ) : Prop := (∀ s e r, (w.onMouse s e r).2 = s) ∧ ∀ s, w.clearHover s = s

theorem alone_deaf (w : Widget σ μ) (hw : Deaf w) (ring : List (List Nat)) (num : List Nat → Nat)
    (hn : ∀ p ∈ ring, ∀ q ∈ ring, num p = num q → p = q) (p : List Nat) (hp : p ∈ ring) (ps : List Placed) :
    ∀ (n : Int) (s : σ), (alone w s (meant ring num (num p) n ps)).2 =
      (Form.taken ring p n (keys (ps.map Placed.event))).foldl (fun s k => (w.onKey s k).2) s := by
  induction ps with
  | nil => intro n s; rfl
  | cons e ps ih =>
    intro n s
    cases e with
    | mouse t o =>
      have h1 : (own w s (.mouse t o)).2 = s := by
        cases o <;> simp [own, Isolation.own, hw.1, hw.2]
      simp only [meant, alone, h1, List.map_cons, Placed.event, keys]
      exact ih n s
    | key k =>
      have hiff : (place ring (n + move k.code)).map num = some (num p) ↔ place ring (n + move k.code) = some p := by
        constructor
        · intro h
          obtain ⟨q, hq, he⟩ := Option.map_eq_some_iff.1 h
          rw [hq, hn q (List.mem_of_getElem? hq) p hp he]
        · intro h; rw [h]; rfl
      simp only [meant, List.map_cons, Placed.event, keys, Form.taken]
      by_cases hc : place ring (n + move k.code) = some p
      · rw [if_pos (hiff.2 hc), if_pos hc]
        exact ih _ _
      · rw [if_neg (fun h => hc (hiff.1 h)), if_neg hc]
        exact ih _ _

/-- input.rs:233-271 `on_event`, 273-275 `on_mouse`, which hands the event to the text inside for its links. -/
def inputWidget (seg : List Char → List (List Char)) : Widget Input.Input Unit where
  onMouse i _ _ := (none, i)
  clearHover i := i
  onKey i k := (none, i.onKey seg (Keys.inputKey k))

/-- **C204** (partial, as `Form.edited_partial`, and C210's conditions for the mouse events). Whatever is done with the mouse
between the keys, every input holds the text and the cursor that an ordinary editor has after the keys pressed while the input
had the focus. -/
theorem edited_partial {seg : List Char → List (List Char)} {P : Char → Prop} (h : Input.SegOk seg)
    (hp : Input.Plain seg P) (num : List Nat → Nat) (sc : Binding.Event → Bool) (a : Nat → Bool) (t : WidgetTree)
    (fs : Nat → Input.Input) (hok : t.root.Ok) (hh : t.root.NoHiddenBefore) (ht : t.root.ring[t.index]? = some t.path)
    (hn : ∀ p ∈ t.root.ring, ∀ q ∈ t.root.ring, num p = num q → p = q)
    (es : List Event) (hf : ∀ e ∈ es, e.Fair sc) (hc : ∀ e ∈ keys es, ∀ c, e.code = .char c → P c)
    (p : List Nat) (hm : p ∈ t.root.ring) (z : Input.Zip) (hz : Input.Rel P (fs (num p)) z) :
    let i := (run (inputWidget seg) num sc a es (t, fs, [])).2.1 (num p)
    let z' := (Form.taken t.root.ring p t.index (keys es)).foldl Form.edit z
    i.value = z'.left ++ z'.right ∧ i.cursor = z'.left.length := by
  have hk : ∀ e ∈ keys es, sc ⟨e.code, e.mods⟩ = false := by
    clear hc
    induction es with
    | nil => intro e he; cases he
    | cons e es ih =>
      have ih := ih fun x hx => hf x (List.mem_cons_of_mem _ hx)
      have h0 := hf e (List.mem_cons_self ..)
      cases e with
      | mouse m => exact ih
      | key k =>
        intro x hx
        rcases List.mem_cons.1 hx with rfl | hx
        · exact h0
        · exact ih x hx
  obtain ⟨ps, rfl, hps⟩ := placed_exists sc (num p) es hf
  have h1 := (isolated_partial (inputWidget seg) num sc a t hok hh ht fs (num p) ps hps).1
  dsimp only at h1 ⊢
  rw [h1, alone_deaf (inputWidget seg) ⟨fun _ _ _ => rfl, fun _ => rfl⟩ t.root.ring num hn p hm ps t.index]
  have := Form.edited_partial h hp sc t (fun p => fs (num p)) hok hh ht (keys (ps.map Placed.event)) hk hc p z hz
  dsimp only at this
  unfold Form.inputs at this
  rw [Form.own_keys_partial _ sc t _ hok hh ht _ hk p] at this
  exact this

/-! ### A case -/

/-- Buttons and switches with keys: button.rs:457-465, switch.rs:236-252 `on_event`, 258-263 `set_focus`. -/
def someWidget : Widget Isolation.Some (Option Bool) where
  toWidget := Isolation.someWidget
  onKey s k := match s with
    | .button b => let p := b.onKey (Tabs.pressKey k); (if p.1 then some none else none, .button p.2)
    | .switch s => let p := (s.setFocus true).onKey (Tabs.pressKey k); (p.1.map some, .switch p.2)
    | .placeholder p => (none, .placeholder p)

/-- The tree of `Nest.tree` for the keyboard. -/
def root : Tree.W :=
  .node .screen { typeName := "Screen" }
    [.node .container { typeName := "VerticalScroll" } [Tree.button "a", Tree.button "b"], Tree.button "c"]

def demo : WidgetTree := (WidgetTree.setFocusIndex ⟨root, [], 0⟩ 0).1

/-- The numbers of `Nest.tree`. -/
def num : List Nat → Nat
  | [0, j] => 10 + j
  | _ => 2

theorem root_ok : root.Ok ∧ root.NoHiddenBefore := by
  constructor
  · refine Tree.box_ok _ _ _ rfl rfl (fun h => by cases h) ?_
    intro c hc
    simp only [List.mem_cons, List.not_mem_nil, or_false] at hc
    rcases hc with rfl | rfl
    · refine Tree.box_ok _ _ _ rfl rfl (fun h => by cases h) ?_
      intro c hc
      simp only [List.mem_cons, List.not_mem_nil, or_false] at hc
      rcases hc with rfl | rfl <;> exact Tree.button_ok _ _
    · exact Tree.button_ok _ _
  · unfold Tree.W.NoHiddenBefore
    decide +kernel

theorem demo_ready : demo.root.Ok ∧ demo.root.NoHiddenBefore ∧ demo.root.ring[demo.index]? = some demo.path := by
  have s := Tree.set_root ⟨root, [], 0⟩ root_ok.1 0 (by decide +kernel)
  exact ⟨s.2.2.1, Tree.nohidden_congr s.2.2.2 root_ok.2, by decide +kernel⟩

/-- A press on the switch 11, Enter for the widget 10, a click on the button 2, Tab to the switch, the release on it, Space, Tab
to the button and Enter. -/
def history : List Placed :=
  [.mouse (Clicks.touch (.down .left) 3 4) (some ⟨1, 3, 8, 6⟩), .key { code := .enter },
   .mouse (Clicks.touch (.down .left) 3 6) none, .mouse (Clicks.touch (.up .left) 3 6) none, .key { code := .tab },
   .mouse (Clicks.touch (.up .left) 3 4) (some ⟨1, 3, 8, 6⟩), .key { code := .char ' ' }, .key { code := .tab },
   .key { code := .enter }]

def states : Nat → Isolation.Some := fun i => if i = 2 then .button {} else .switch {}

theorem history_right : ∀ e ∈ history, e.Right (fun b => b.mods.ctrl) 11 := by
  intro x hx
  have fair : ∀ k x y, k ≠ .other → 0 ≤ x ∧ x < 20 → 0 ≤ y ∧ y < 10 → (Clicks.touch k x y).Fair := Clicks.touch_fair
  simp only [history, List.mem_cons, List.not_mem_nil, or_false] at hx
  rcases hx with rfl | rfl | rfl | rfl | rfl | rfl | rfl | rfl | rfl
  · exact ⟨fair _ _ _ (by decide) (by decide) (by decide),
      Isolation.seen_iff _ (fair _ _ _ (by decide) (by decide) (by decide)) 11 _ (Isolation.on_switch _)⟩
  · rfl
  · exact ⟨fair _ _ _ (by decide) (by decide) (by decide), Isolation.off_switch _ (by decide)⟩
  · exact ⟨fair _ _ _ (by decide) (by decide) (by decide), Isolation.off_switch _ (by decide)⟩
  · rfl
  · exact ⟨fair _ _ _ (by decide) (by decide) (by decide),
      Isolation.seen_iff _ (fair _ _ _ (by decide) (by decide) (by decide)) 11 _ (Isolation.on_switch _)⟩
  · rfl
  · rfl
  · rfl

/-- The switch turns on by the mouse and off by the keyboard; the button is used twice; widget 10, a switch too, once. -/
example : ((run someWidget num (fun b => b.mods.ctrl) (fun _ => true) (history.map Placed.event) (demo, states, [])).2.2.filter
      fun m => m.1 = 11).map (·.2) = [some true, some false] ∧
    (run someWidget num (fun b => b.mods.ctrl) (fun _ => true) (history.map Placed.event) (demo, states, [])).2.2 =
      [(10, some true), (2, none), (11, some true), (11, some false), (2, none)] :=
  ⟨(isolated_partial someWidget num _ _ demo demo_ready.1 demo_ready.2.1 demo_ready.2.2 states 11 history history_right).2.trans
    (by decide +kernel), by decide +kernel⟩

/-- The mouse moves over the button and is pressed on it while a word is typed. -/
def typing : List Event :=
  [.key { code := .char 'h' }, .mouse (Clicks.touch .moved 3 6), .mouse (Clicks.touch (.down .left) 3 6), .key { code := .char 'i' },
   .mouse (Clicks.touch (.up .left) 3 6), .key { code := .tab }, .key { code := .char '!' }]

example : (∀ p ∈ demo.root.ring, ∀ q ∈ demo.root.ring, num p = num q → p = q) ∧ (∀ e ∈ typing, e.Fair fun b => b.mods.ctrl) ∧
    [0, 0] ∈ demo.root.ring ∧
    ([10, 11].map fun i => ((run (inputWidget Input.segAccent) num (fun b => b.mods.ctrl) (fun _ => true) typing
      (demo, fun _ => {}, [])).2.1 i).value) = ["hi".toList, "!".toList] := by
  refine ⟨by decide +kernel, ?_, by decide +kernel, by decide +kernel⟩
  intro x hx
  simp only [typing, List.mem_cons, List.not_mem_nil, or_false] at hx
  rcases hx with rfl | rfl | rfl | rfl | rfl | rfl | rfl
  · rfl
  · exact Clicks.touch_fair _ _ _ (by decide) (by decide) (by decide)
  · exact Clicks.touch_fair _ _ _ (by decide) (by decide) (by decide)
  · rfl
  · exact Clicks.touch_fair _ _ _ (by decide) (by decide) (by decide)
  · rfl
  · rfl

/-- A click does not give the focus: after a click on the button 2, Enter is for the switch 10, which has had the focus all
the time, and the button gets no key. -/
theorem click_focus_counterexample :
    let es : List Event := [.mouse (Clicks.touch (.down .left) 3 6), .mouse (Clicks.touch (.up .left) 3 6), .key { code := .enter }]
    Seen (Clicks.touch (.up .left) 3 6) 2 ⟨0, 6, 20, 2⟩ ∧
    (run someWidget num (fun _ => false) (fun _ => true) es (demo, states, [])).1.path = [0, 0] ∧
    (run someWidget num (fun _ => false) (fun _ => true) es (demo, states, [])).2.2 = [(2, none), (10, some true)] :=
  ⟨Isolation.on_button _, by decide +kernel, by decide +kernel⟩

end Textual.Session
