import Verif.Model.Isolation
import Verif.Model.Placeholders
import Verif.Props.NestOnce
import Verif.Props.Clicks

/-!
# Widgets do not disturb each other (C209)
-/

namespace Textual.Isolation

open Layout (Viewport)
open Nest (Node Good NoOverlap SeenAt painted reach)
open Scroller (At OnScreen)
open Clicks (Touch)

/-! ### Specification -/

/-- Widget `i` is seen at the pointer, drawn in region `r`. -/
def Seen (t : Touch) (i : Nat) (r : Region) : Prop :=
  ∃ ks, (i, r, ks) ∈ painted t.viewport t.node t.screen [] ∧ SeenAt (i, r, ks) t.event.column t.event.row

/-- What a widget on its own does with an event: its hover is cleared by a move, and if it is at the pointer, in region `r`, it
gets the event. -/
def own (w : Widget σ μ) (s : σ) (t : Touch) (place : Option Region) : Option μ × σ :=
  let s := if t.event.kind = .moved then w.clearHover s else s
  match place with
  | some r => w.onMouse s t.event r
  | none => (none, s)

/-- A widget on its own through a history of events with its places: its messages and its state afterwards. -/
def alone (w : Widget σ μ) : σ → List (Touch × Option Region) → List μ × σ
  | s, [] => ([], s)
  | s, (t, place) :: l =>
    let p := own w s t place
    let q := alone w p.2 l
    (p.1.toList ++ q.1, q.2)

/-- The places are those where widget `i` is seen at the pointer. -/
def Places (i : Nat) (l : List (Touch × Option Region)) : Prop := ∀ x ∈ l, ∀ r, x.2 = some r ↔ Seen x.1 i r

/-! ### Proofs -/

theorem answering_painted (a : Nat → Bool) (vp : Viewport) (n : Node) :
    ∀ r ks, painted vp (answering a n) r ks = painted vp n r ks := by
  induction n with
  | leaf i b => intro r ks; rfl
  | box b child ih => intro r ks; simp only [answering, painted, ih]

theorem answering_good (a : Nat → Bool) (vp : Viewport) (n : Node) : ∀ r, Good vp n r → Good vp (answering a n) r := by
  induction n with
  | leaf i b => intro r _; trivial
  | box b child ih => exact fun r h => ⟨h.1, fun c hc => ih _ _ (h.2 c hc)⟩

theorem answering_apart (a : Nat → Bool) (vp : Viewport) (n : Node) : NoOverlap vp n → NoOverlap vp (answering a n) := by
  induction n with
  | leaf i b => intro _; trivial
  | box b child ih => exact fun h => ⟨h.1, fun i => ih _ (h.2 i)⟩

theorem reached (a : Nat → Bool) (t : Touch) (hf : t.Fair) :
    (∀ i r, Seen t i r → (reach t.viewport t.mouse (answering a t.node) t.screen).1 = [(i, r)]) ∧
    ((∀ i r, ¬ Seen t i r) → (reach t.viewport t.mouse (answering a t.node) t.screen).1 = []) := by
  constructor
  · rintro i r ⟨ks, hp, hs⟩
    exact Nest.seen_once_partial t.viewport t.mouse hf.onScreen (Clicks.points t hf.kind) _ t.screen
      (answering_good _ _ _ _ hf.good) (answering_apart _ _ _ hf.apart) [] i r ks
      (by rw [answering_painted]; exact hp) hs
  · intro h
    rw [List.eq_nil_iff_forall_not_mem]
    rintro ⟨i, r⟩ hx
    obtain ⟨ks, hp, hs⟩ := Nest.reached_seen_partial t.viewport t.mouse hf.onScreen (Clicks.points t hf.kind) _ t.screen
      hf.inside (answering_good _ _ _ _ hf.good) [] (by simp) i r hx
    rw [answering_painted] at hp
    exact h i r ⟨ks, hp, hs⟩

theorem seen_unique (t : Touch) (hf : t.Fair) {i j : Nat} {r r' : Region} (h : Seen t i r) (h' : Seen t j r') : i = j ∧ r = r' := by
  have := ((reached (fun _ => false) t hf).1 i r h).symm.trans ((reached (fun _ => false) t hf).1 j r' h')
  simpa using this

theorem step_own (w : Widget σ μ) (a : Nat → Bool) (s : Nat → σ) (t : Touch) (hf : t.Fair) (i : Nat) (place : Option Region)
    (hp : ∀ r, place = some r ↔ Seen t i r) :
    (step w a s t).2 i = (own w (s i) t place).2 ∧ ∀ v, (step w a s t).1 = some (i, v) ↔ (own w (s i) t place).1 = some v := by
  have hclear : clearAll w t s i = if t.event.kind = .moved then w.clearHover (s i) else s i := by
    unfold clearAll; split <;> rfl
  by_cases hs : ∃ j r, Seen t j r
  · obtain ⟨j, r, hj⟩ := hs
    unfold step
    rw [(reached a t hf).1 j r hj]
    simp only [give]
    by_cases hij : i = j
    · subst hij
      rw [(hp r).2 hj]
      simp only [own, ← hclear, if_true]
      refine ⟨trivial, fun v => ?_⟩
      cases (w.onMouse (clearAll w t s i) t.event r).1 <;> simp
    · have hn : place = none := by
        cases place with
        | none => rfl
        | some r' => exact absurd (seen_unique t hf ((hp r').1 rfl) hj).1 hij
      rw [hn]
      simp only [own, ← hclear, if_neg hij]
      refine ⟨trivial, fun v => ?_⟩
      cases (w.onMouse (clearAll w t s j) t.event r).1 with
      | none => simp
      | some u => simp; exact fun h => absurd h.symm hij
  · have hn : place = none := by
      cases place with
      | none => rfl
      | some r => exact absurd ⟨i, r, (hp r).1 rfl⟩ hs
    unfold step
    rw [(reached a t hf).2 fun j r h => hs ⟨j, r, h⟩, hn]
    simp only [give, own, ← hclear]
    exact ⟨trivial, fun v => by simp⟩

/-- **C209** (partial: containers as in C174, no wheel, the command palette closed). Whatever the widgets are, what their
neighbours do and how the screen changes between events: in a tree each widget goes through a history of mouse events as it
would on its own, given just the events where it is seen at the pointer, with the region it is drawn in, and the clearing of
hover; and the program handles just the messages the widgets would send on their own. -/
theorem isolated_partial (w : Widget σ μ) (a : Nat → Bool) (s : Nat → σ) (l : List (Touch × Option Region)) (i : Nat)
    (hf : ∀ x ∈ l, x.1.Fair) (hp : Places i l) :
    (run w a s (l.map (·.1))).2 i = (alone w (s i) l).2 ∧
    ((run w a s (l.map (·.1))).1.filter fun m => m.1 = i).map (·.2) = (alone w (s i) l).1 := by
  induction l generalizing s with
  | nil => exact ⟨rfl, rfl⟩
  | cons x l ih =>
    obtain ⟨t, place⟩ := x
    obtain ⟨h1, h2⟩ := step_own w a s t (hf _ (List.mem_cons_self ..)) i place (hp (t, place) (List.mem_cons_self ..))
    obtain ⟨g1, g2⟩ := ih (step w a s t).2 (fun x hx => hf x (List.mem_cons_of_mem _ hx))
      (fun x hx => hp x (List.mem_cons_of_mem _ hx))
    simp only [List.map_cons, run, alone, List.filter_append, List.map_append]
    rw [h1] at g1 g2
    refine ⟨g1, ?_⟩
    rw [g2]
    congr 1
    cases hm : (step w a s t).1 with
    | none =>
      cases ho : (own w (s i) t place).1 with
      | none => rfl
      | some v => rw [(h2 v).2 ho] at hm; cases hm
    | some p =>
      obtain ⟨j, v⟩ := p
      by_cases hij : j = i
      · subst hij
        rw [(h2 v).1 hm]
        simp
      · cases ho : (own w (s i) t place).1 with
        | none => simp [hij]
        | some u =>
          rw [(h2 u).2 ho] at hm
          simp only [Option.some.injEq, Prod.mk.injEq] at hm
          exact absurd hm.1.symm hij

/-- The places can be found for every history. -/
theorem places_exist (i : Nat) (ts : List Touch) (hf : ∀ t ∈ ts, t.Fair) : ∃ l, l.map (·.1) = ts ∧ Places i l := by
  induction ts with
  | nil => exact ⟨[], rfl, by simp [Places]⟩
  | cons t ts ih =>
    obtain ⟨l, h1, h2⟩ := ih fun t ht => hf t (List.mem_cons_of_mem _ ht)
    by_cases hs : ∃ r, Seen t i r
    · obtain ⟨r, hr⟩ := hs
      refine ⟨(t, some r) :: l, by rw [List.map_cons, h1], fun x hx r' => ?_⟩
      rcases List.mem_cons.1 hx with rfl | hx
      · refine ⟨fun h => by cases h; exact hr, fun h => ?_⟩
        rw [(seen_unique t (hf t (List.mem_cons_self ..)) hr h).2]
      · exact h2 x hx r'
    · refine ⟨(t, none) :: l, by rw [List.map_cons, h1], fun x hx r' => ?_⟩
      rcases List.mem_cons.1 hx with rfl | hx
      · exact ⟨fun h => (nomatch h), fun h => absurd ⟨r', h⟩ hs⟩
      · exact h2 x hx r'

/-- **C209** (partial, as above). What the other widgets are in does not matter to a widget, nor what they answer. -/
theorem undisturbed_partial (w : Widget σ μ) (a a' : Nat → Bool) (s s' : Nat → σ) (ts : List Touch) (hf : ∀ t ∈ ts, t.Fair)
    (i : Nat) (h : s i = s' i) :
    (run w a s ts).2 i = (run w a' s' ts).2 i ∧
    (run w a s ts).1.filter (fun m => m.1 = i) = (run w a' s' ts).1.filter fun m => m.1 = i := by
  obtain ⟨l, rfl, hp⟩ := places_exist i ts hf
  have hf' : ∀ x ∈ l, x.1.Fair := fun x hx => hf _ (List.mem_map_of_mem hx)
  obtain ⟨h1, h2⟩ := isolated_partial w a s l i hf' hp
  obtain ⟨g1, g2⟩ := isolated_partial w a' s' l i hf' hp
  refine ⟨by rw [h1, g1, h], ?_⟩
  have key : ∀ m : List (Nat × μ), m.filter (fun x => x.1 = i) = ((m.filter fun x => x.1 = i).map (·.2)).map (Prod.mk i) := by
    intro m
    rw [List.map_map]
    conv => lhs; rw [← List.map_id (m.filter fun x => x.1 = i)]
    refine List.map_congr_left fun x hx => ?_
    have := (List.mem_filter.1 hx).2
    simp only [decide_eq_true_eq] at this
    simp only [Function.comp, id, ← this]
  rw [key, key (run w a' s' (l.map (·.1))).1, h2, g2, h]

/-! ### A case: buttons, switches and placeholders in one tree -/

inductive Some where
  | button (b : Press.Button)
  | switch (s : Press.Switch)
  | placeholder (p : Placeholder.Placeholder)

/-- What they tell the program: a button that it was clicked, a switch its value. -/
def someWidget : Widget Some (Option Bool) where
  onMouse s e r := match s with
    | .button b => let p := b.onMouse e r; (if p.1 then some none else none, .button p.2)
    | .switch s => let p := s.onMouse e r; (p.1.map some, .switch p.2)
    | .placeholder p => (none, .placeholder (Placeholder.onMouse p (Placeholders.eventOf e) r))
  clearHover
    | .button b => .button b.clearHover
    | .switch s => .switch s.clearHover
    | .placeholder p => .placeholder p

theorem seen_iff (t : Touch) (hf : t.Fair) (i : Nat) (q : Region) (h : Seen t i q) (r : Region) : some q = some r ↔ Seen t i r :=
  ⟨fun e => by cases e; exact h, fun e => by rw [(seen_unique t hf h e).2]⟩

theorem on_switch (k : Press.Kind) : Seen (Clicks.touch k 3 4) 11 ⟨1, 3, 8, 6⟩ := by
  refine ⟨[⟨1, 1, 16, 4⟩, ⟨0, 0, 20, 10⟩], ?_, ?_⟩
  · show _ ∈ painted ⟨20, 10⟩ Nest.tree ⟨0, 0, 20, 10⟩ []
    decide +kernel
  · simp only [SeenAt, At, Clicks.touch, List.mem_cons, List.not_mem_nil, or_false, forall_eq_or_imp, forall_eq]
    omega

theorem on_button (k : Press.Kind) : Seen (Clicks.touch k 3 6) 2 ⟨0, 6, 20, 2⟩ := by
  refine ⟨[⟨0, 0, 20, 10⟩], ?_, ?_⟩
  · show _ ∈ painted ⟨20, 10⟩ Nest.tree ⟨0, 0, 20, 10⟩ []
    decide +kernel
  · simp only [SeenAt, At, Clicks.touch, List.mem_cons, List.not_mem_nil, or_false, forall_eq]
    omega

theorem off_switch (k : Press.Kind) (hk : k ≠ .other) (r : Region) :
    (none : Option Region) = some r ↔ Seen (Clicks.touch k 3 6) 11 r := by
  refine ⟨fun h => (nomatch h), fun h => ?_⟩
  have := (seen_unique _ (Clicks.touch_fair k 3 6 hk (by decide) (by decide)) h (on_button k)).1
  exact absurd this (by decide)

/-- In `Nest.tree` widget 2 is a button and 11 a switch. A press on the switch, a press and a release on the button and a release
on the switch: the switch, alone with its two events, turns on, and sends one message. -/
example : let s : Nat → Some := fun i => if i = 2 then .button {} else .switch {}
    let l := [(Clicks.touch (.down .left) 3 4, some (⟨1, 3, 8, 6⟩ : Region)), (Clicks.touch (.down .left) 3 6, none),
      (Clicks.touch (.up .left) 3 6, none), (Clicks.touch (.up .left) 3 4, some ⟨1, 3, 8, 6⟩)]
    ((run someWidget (fun _ => true) s (l.map (·.1))).1.filter fun m => m.1 = 11).map (·.2) = [some true] ∧
    (run someWidget (fun _ => true) s (l.map (·.1))).1.length = 2 := by
  intro s l
  have hf : ∀ x ∈ l, x.1.Fair := by
    intro x hx
    simp only [l, List.mem_cons, List.not_mem_nil, or_false] at hx
    rcases hx with rfl | rfl | rfl | rfl <;> exact Clicks.touch_fair _ _ _ (by decide) (by decide) (by decide)
  have hp : Places 11 l := by
    intro x hx
    simp only [l, List.mem_cons, List.not_mem_nil, or_false] at hx
    rcases hx with rfl | rfl | rfl | rfl
    · exact seen_iff _ (Clicks.touch_fair _ _ _ (by decide) (by decide) (by decide)) 11 _ (on_switch _)
    · exact off_switch _ (by decide)
    · exact off_switch _ (by decide)
    · exact seen_iff _ (Clicks.touch_fair _ _ _ (by decide) (by decide) (by decide)) 11 _ (on_switch _)
  exact ⟨(isolated_partial someWidget (fun _ => true) s l 11 hf hp).2.trans (by decide +kernel), by decide +kernel⟩

/-- **C209** fails in a plain container with a border: the first switch is seen at the pointer, on its own it would turn on, but
the events go to the second. -/
theorem border_counterexample : let s : Nat → Some := fun _ => .switch {}
    let ts := [Clicks.bordered (.down .left) 3 2, Clicks.bordered (.up .left) 3 2]
    (∀ t ∈ ts, Seen t 10 ⟨1, 1, 8, 2⟩) ∧
    (alone someWidget (s 10) (ts.map fun t => (t, some ⟨1, 1, 8, 2⟩))).1 = [some true] ∧
    (run someWidget (fun _ => true) s ts).1 = [(11, some true)] := by
  refine ⟨?_, by decide +kernel, by decide +kernel⟩
  intro t ht
  simp only [List.mem_cons, List.not_mem_nil, or_false] at ht
  have : ∀ k, Seen (Clicks.bordered k 3 2) 10 ⟨1, 1, 8, 2⟩ := by
    intro k
    refine ⟨[⟨1, 1, 18, 6⟩, ⟨0, 0, 20, 10⟩], ?_, ?_⟩
    · show _ ∈ painted ⟨80, 24⟩ (Clicks.bordered .moved 3 2).node ⟨0, 0, 20, 10⟩ []
      decide +kernel
    · simp only [SeenAt, At, Clicks.bordered, List.mem_cons, List.not_mem_nil, or_false, forall_eq_or_imp, forall_eq]
      omega
  rcases ht with rfl | rfl <;> exact this _

end Textual.Isolation
