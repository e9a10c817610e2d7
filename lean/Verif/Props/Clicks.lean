import Verif.Model.Clicks
import Verif.Props.Nest

/-!
# A click on a button that is seen (C196)
-/

namespace Textual.Clicks

open Layout (Viewport)
open Press (Button)
open Nest (Node Good NoOverlap SeenAt painted reach)
open Scroller (At OnScreen)

/-- The touch is where button `i` is seen: in the region it is drawn in and in all areas it is clipped to. -/
def Touch.On (t : Touch) (i : Nat) : Prop :=
  ∃ r ks, (i, r, ks) ∈ painted t.viewport t.node t.screen [] ∧ SeenAt (i, r, ks) t.event.column t.event.row

def Touch.Press (t : Touch) (i : Nat) : Prop := t.event.kind = .down .left ∧ t.On i
def Touch.Release (t : Touch) (i : Nat) : Prop := t.event.kind = .up .left ∧ t.On i

/-- The event is inside the screen and not a turn of the wheel, the containers are as in C174. -/
structure Touch.Fair (t : Touch) : Prop where
  kind : t.event.kind ≠ .other
  inside : At t.screen t.event.column t.event.row
  onScreen : OnScreen t.mouse
  good : Good t.viewport t.node t.screen
  apart : NoOverlap t.viewport t.node

/-- The button was pressed, and since then not released over it. -/
def Held (ts : List Touch) (i : Nat) : Prop :=
  ∃ before p later, ts = before ++ p :: later ∧ p.Press i ∧ ∀ q ∈ later, ¬ q.Release i

/-- No button is pressed and no action waits. -/
def Idle (s : Nat → Button) : Prop := ∀ i, (s i).active = false ∧ (s i).pending = false

theorem answering_painted (s : Nat → Button) (e : Press.Mouse) (vp : Viewport) (n : Node) :
    ∀ r ks, painted vp (answering s e n) r ks = painted vp n r ks := by
  induction n with
  | leaf i a => intro r ks; rfl
  | box b child ih =>
    intro r ks
    simp only [answering, painted, ih]

theorem answering_good (s : Nat → Button) (e : Press.Mouse) (vp : Viewport) (n : Node) :
    ∀ r, Good vp n r → Good vp (answering s e n) r := by
  induction n with
  | leaf i a => intro r _; trivial
  | box b child ih =>
    intro r h
    exact ⟨h.1, fun c hc => ih _ _ (h.2 c hc)⟩

theorem answering_apart (s : Nat → Button) (e : Press.Mouse) (vp : Viewport) (n : Node) :
    NoOverlap vp n → NoOverlap vp (answering s e n) := by
  induction n with
  | leaf i a => intro _; trivial
  | box b child ih => exact fun h => ⟨h.1, fun i => ih _ (h.2 i)⟩

theorem points (t : Touch) (h : t.event.kind ≠ .other) : t.mouse.kind.points = true := by
  revert h
  unfold Touch.mouse
  cases t.event.kind <;> simp [outer, Scroller.Kind.points]

/-- A touch on a button reaches it alone; a touch on no button reaches none. -/
theorem reached (s : Nat → Button) (t : Touch) (hf : t.Fair) :
    (∀ i, t.On i → ∃ r, At r t.event.column t.event.row ∧
      ∀ x, x ∈ (reach t.viewport t.mouse (answering s t.event t.node) t.screen).1 ↔ x = (i, r)) ∧
    ((∀ i, ¬ t.On i) → (reach t.viewport t.mouse (answering s t.event t.node) t.screen).1 = []) := by
  constructor
  · rintro i ⟨r, ks, hp, hs⟩
    refine ⟨r, hs.1, ?_⟩
    exact Nest.seen_reached_partial t.viewport t.mouse hf.onScreen (points t hf.kind) _ t.screen
      (answering_good _ _ _ _ _ hf.good) (answering_apart _ _ _ _ hf.apart) [] i r ks
      (by rw [answering_painted]; exact hp) hs
  · intro h
    rw [List.eq_nil_iff_forall_not_mem]
    rintro ⟨i, r⟩ hx
    obtain ⟨ks, hp, hs⟩ := Nest.reached_seen_partial t.viewport t.mouse hf.onScreen (points t hf.kind) _ t.screen
      hf.inside (answering_good _ _ _ _ _ hf.good) [] (by simp) i r hx
    rw [answering_painted] at hp
    exact h i ⟨r, ks, hp, hs⟩

/-- A second event of the same kind at once changes nothing and is not answered. -/
theorem again (b : Button) (e : Press.Mouse) (r : Region) :
    (b.onMouse e r).2.onMouse e r = (false, (b.onMouse e r).2) := by
  obtain ⟨f, h, a, d, ac, p, pe, di⟩ := b
  obtain ⟨k, x, y⟩ := e
  generalize hi : r.containsPoint x y = c
  cases k with
  | moved => cases c <;> cases h <;> simp [Button.onMouse, hi]
  | down g => cases g <;> cases c <;> cases a <;> cases d <;> simp [Button.onMouse, hi]
  | up g => cases g <;> cases c <;> cases a <;> cases d <;> cases ac <;> simp [Button.onMouse, Button.press, hi]
  | drag g => simp [Button.onMouse]
  | other => simp [Button.onMouse]

theorem give_same (e : Press.Mouse) (i : Nat) (r : Region) (l : List (Nat × Region)) (h : ∀ x ∈ l, x = (i, r))
    (s : Nat → Button) (hb : (s i).onMouse e r = (false, s i)) : give e l s = ([], s) := by
  induction l with
  | nil => rfl
  | cons x l ih =>
    obtain rfl := h x (List.mem_cons_self ..)
    have hs : (fun j => if j = i then s i else s j) = s := by
      funext j; by_cases hj : j = i <;> simp [hj]
    simp only [give, hb, hs, ih fun x hx => h x (List.mem_cons_of_mem _ hx)]
    simp

/-- The leaves reached are all the same one: it gets the event once. -/
theorem give_one (e : Press.Mouse) (i : Nat) (r : Region) (l : List (Nat × Region)) (h : ∀ x, x ∈ l ↔ x = (i, r))
    (s : Nat → Button) :
    give e l s = (if ((s i).onMouse e r).1 then [i] else [], fun j => if j = i then ((s i).onMouse e r).2 else s j) := by
  cases l with
  | nil => exact absurd ((h (i, r)).2 rfl) (by simp)
  | cons x l =>
    obtain rfl := (h x).1 (List.mem_cons_self ..)
    have := give_same e i r l (fun x hx => (h x).1 (List.mem_cons_of_mem _ hx))
      (fun j => if j = i then ((s i).onMouse e r).2 else s j) (by simpa using again (s i) e r)
    simp only [give, this]

/-- One touch. -/
theorem step_on (s : Nat → Button) (t : Touch) (hf : t.Fair) (i : Nat) (hi : t.On i) :
    ∃ r, r.containsPoint t.event.column t.event.row = true ∧
      step s t =
        let p := (s i).onMouse t.event r
        (⟨if p.1 then some i else none, fun j => (if j = i then p.2 else s j).pending⟩,
         fun j => { (if j = i then p.2 else s j) with pending := false }) := by
  obtain ⟨r, hr, hx⟩ := (reached s t hf).1 i hi
  refine ⟨r, (Scroller.contains_iff r _ _ ⟨hf.onScreen.1, hf.onScreen.2.1⟩ hf.onScreen.2.2).2 hr, ?_⟩
  simp only [step, give_one t.event i r _ hx s, Button.take]
  cases ((s i).onMouse t.event r).1 <;> rfl

theorem step_off (s : Nat → Button) (t : Touch) (hf : t.Fair) (h : ∀ i, ¬ t.On i) :
    step s t = (⟨none, fun j => (s j).pending⟩, fun j => { s j with pending := false }) := by
  simp only [step, (reached s t hf).2 h, give, Button.take]
  rfl

/-- Two different buttons are not seen at the same place. -/
theorem on_unique (t : Touch) (hf : t.Fair) (i j : Nat) (hi : t.On i) (hj : t.On j) : i = j := by
  obtain ⟨r, -, hx⟩ := (reached (fun _ => {}) t hf).1 i hi
  obtain ⟨r', -, hy⟩ := (reached (fun _ => {}) t hf).1 j hj
  have := (hx (j, r')).1 ((hy (j, r')).2 rfl)
  simp only [Prod.mk.injEq] at this
  exact this.1.symm

/-- What does not change, and what an event does to the state of being pressed. -/
theorem onMouse_facts (b : Button) (e : Press.Mouse) (r : Region) (hin : r.containsPoint e.column e.row = true)
    (hp : b.pending = false) :
    let p := b.onMouse e r
    p.2.disabled = b.disabled ∧ p.2.hasAction = b.hasAction ∧ p.2.hasPress = b.hasPress ∧
    (b.disabled = false → p.2.active = if e.kind = .down .left then true else if e.kind = .up .left then false else b.active) ∧
    (b.disabled = true → b.active = false → p.2.active = false) ∧
    (p.1 = true ↔ e.kind = .up .left ∧ b.active = true ∧ b.disabled = false ∧ b.hasAction = false ∧ b.hasPress = true) ∧
    (p.2.pending = true ↔ e.kind = .up .left ∧ b.active = true ∧ b.disabled = false ∧ b.hasAction = true) := by
  obtain ⟨f, h, a, d, ac, p, pe, di⟩ := b
  obtain ⟨k, x, y⟩ := e
  dsimp only at hin hp
  subst hp
  cases k with
  | moved => cases h <;> simp [Button.onMouse, hin]
  | down g => cases g <;> cases a <;> cases d <;> simp [Button.onMouse, hin]
  | up g => cases g <;> cases a <;> cases d <;> cases ac <;> cases p <;> simp [Button.onMouse, Button.press, hin]
  | drag g => simp [Button.onMouse]
  | other => simp [Button.onMouse]

theorem held_snoc (ts : List Touch) (t : Touch) (i : Nat) :
    Held (ts ++ [t]) i ↔ t.Press i ∨ Held ts i ∧ ¬ t.Release i := by
  constructor
  · rintro ⟨bf, p, l, e, hp, hl⟩
    rcases List.eq_nil_or_concat l with rfl | ⟨l', q, rfl⟩
    · have := List.append_inj' (s₁ := ts) (t₁ := [t]) e rfl
      simp only [List.cons.injEq, and_true] at this
      exact .inl (this.2 ▸ hp)
    · rw [List.concat_eq_append] at e hl
      have e' : ts ++ [t] = (bf ++ p :: l') ++ [q] := by rw [e]; simp
      have := List.append_inj' e' rfl
      simp only [List.cons.injEq, and_true] at this
      obtain ⟨rfl, rfl⟩ := this
      exact .inr ⟨⟨bf, p, l', rfl, hp, fun x hx => hl x (by simp [hx])⟩, hl t (by simp)⟩
  · rintro (h | ⟨⟨bf, p, l, rfl, hp, hl⟩, h⟩)
    · exact ⟨ts, t, [], rfl, h, by simp⟩
    · refine ⟨bf, p, l ++ [t], by simp, hp, fun q hq => ?_⟩
      rcases List.mem_append.1 hq with hq | hq
      · exact hl q hq
      · rw [List.mem_singleton.1 hq]; exact h

theorem not_both {t : Touch} {i : Nat} (h : t.Press i) : ¬ t.Release i := by
  rintro ⟨h', -⟩
  rw [h.1] at h'
  cases h'

/-- After any history a button shows as pressed exactly if it is held, and no action waits. -/
theorem after_facts (s : Nat → Button) (hs : Idle s) (ts : List Touch) (hf : ∀ t ∈ ts, t.Fair) (i : Nat) :
    let b := after s ts i
    b.disabled = (s i).disabled ∧ b.hasAction = (s i).hasAction ∧ b.hasPress = (s i).hasPress ∧ b.pending = false ∧
    (b.active = true ↔ (s i).disabled = false ∧ Held ts i) := by
  induction ts using List.reverseRecOn generalizing i with
  | nil =>
    refine ⟨rfl, rfl, rfl, (hs i).2, ?_⟩
    simp only [after, List.foldl_nil, (hs i).1]
    constructor
    · intro h; cases h
    · rintro ⟨-, bf, p, l, e, -⟩
      exact absurd e (by simp)
  | append_singleton ts t ih =>
    have ih := fun i => ih (fun t ht => hf t (by simp [ht])) i
    have ht := hf t (by simp)
    have e : after s (ts ++ [t]) = (step (after s ts) t).2 := by simp [after, List.foldl_append]
    rw [e]
    obtain ⟨h1, h2, h3, h4, h5⟩ := ih i
    have off : ¬ t.On i → (Held (ts ++ [t]) i ↔ Held ts i) := by
      intro h
      rw [held_snoc]
      constructor
      · rintro (h' | h')
        · exact absurd h'.2 h
        · exact h'.1
      · exact fun h' => .inr ⟨h', fun h'' => h h''.2⟩
    by_cases hon : ∃ j, t.On j
    · obtain ⟨j, hj⟩ := hon
      obtain ⟨r, hr, e2⟩ := step_on (after s ts) t ht j hj
      rw [e2]
      dsimp only
      by_cases hij : i = j
      · subst hij
        rw [if_pos rfl]
        obtain ⟨g1, g2, g3, g4, g4', -, -⟩ := onMouse_facts (after s ts i) t.event r hr h4
        refine ⟨g1.trans h1, g2.trans h2, g3.trans h3, rfl, ?_⟩
        cases hd : (s i).disabled with
        | true =>
          have ha : (after s ts i).active = false := by
            rw [Bool.eq_false_iff]
            intro h
            have := (h5.1 h).1
            rw [hd] at this; cases this
          rw [g4' (h1.trans hd) ha]
          simp
        | false =>
          rw [g4 (h1.trans hd), held_snoc]
          simp only [true_and]
          by_cases k1 : t.event.kind = .down .left
          · rw [if_pos k1]
            exact ⟨fun _ => .inl ⟨k1, hj⟩, fun _ => rfl⟩
          · rw [if_neg k1]
            by_cases k2 : t.event.kind = .up .left
            · rw [if_pos k2]
              constructor
              · intro h; cases h
              · rintro (h | h)
                · exact absurd h.1 k1
                · exact absurd ⟨k2, hj⟩ h.2
            · rw [if_neg k2, h5, hd]
              constructor
              · exact fun h => .inr ⟨h.2, fun h' => k2 h'.1⟩
              · rintro (h | h)
                · exact absurd h.1 k1
                · exact ⟨rfl, h.1⟩
      · rw [if_neg hij]
        refine ⟨h1, h2, h3, rfl, ?_⟩
        rw [off fun h => hij (on_unique t ht i j h hj)]
        exact h5
    · rw [step_off (after s ts) t ht fun j hj => hon ⟨j, hj⟩]
      refine ⟨h1, h2, h3, rfl, ?_⟩
      rw [off fun h => hon ⟨i, h⟩]
      exact h5

/-- **C196** (partial: containers as in C174, the command palette closed, every event where the screen is). Whatever the
history of mouse events, each on a screen that may have changed since: the program is given the message of a button exactly
when the left mouse button is released where that button is seen, after it was pressed where the button was seen and not
released over it since; only if it is not disabled and has a message instead of an action. -/
theorem message_partial (s : Nat → Button) (hs : Idle s) (ts : List Touch) (t : Touch) (hf : ∀ u ∈ ts ++ [t], u.Fair)
    (i : Nat) :
    (step (after s ts) t).1.message = some i ↔
      t.Release i ∧ Held ts i ∧ (s i).disabled = false ∧ (s i).hasAction = false ∧ (s i).hasPress = true := by
  have ht := hf t (by simp)
  obtain ⟨h1, h2, h3, h4, h5⟩ := after_facts s hs ts (fun t ht => hf t (by simp [ht])) i
  by_cases hon : ∃ j, t.On j
  · obtain ⟨j, hj⟩ := hon
    obtain ⟨r, hr, e2⟩ := step_on (after s ts) t ht j hj
    rw [e2]
    dsimp only
    obtain ⟨k1, k2, k3, k4, k5⟩ := after_facts s hs ts (fun t ht => hf t (by simp [ht])) j
    obtain ⟨-, -, -, -, -, g, -⟩ := onMouse_facts (after s ts j) t.event r hr k4
    constructor
    · intro h
      split at h
      · rename_i hp
        cases h
        obtain ⟨a1, a2, a3, a4, a5⟩ := g.1 hp
        exact ⟨⟨a1, hj⟩, (h5.1 a2).2, h1.symm.trans a3, h2.symm.trans a4, h3.symm.trans a5⟩
      · cases h
    · rintro ⟨a1, a2, a3, a4, a5⟩
      obtain rfl := on_unique t ht i j a1.2 hj
      rw [if_pos (g.2 ⟨a1.1, h5.2 ⟨a3, a2⟩, h1.trans a3, h2.trans a4, h3.trans a5⟩)]
  · rw [step_off (after s ts) t ht fun j hj => hon ⟨j, hj⟩]
    constructor
    · intro h; cases h
    · rintro ⟨a1, -⟩
      exact absurd ⟨i, a1.2⟩ hon

/-- **C196** (partial, as above). In the same way the action of a button is dispatched exactly at such a release, if the
button has one; no other event does so. -/
theorem action_partial (s : Nat → Button) (hs : Idle s) (ts : List Touch) (t : Touch) (hf : ∀ u ∈ ts ++ [t], u.Fair)
    (i : Nat) :
    (step (after s ts) t).1.actions i = true ↔
      t.Release i ∧ Held ts i ∧ (s i).disabled = false ∧ (s i).hasAction = true := by
  have ht := hf t (by simp)
  obtain ⟨h1, h2, h3, h4, h5⟩ := after_facts s hs ts (fun t ht => hf t (by simp [ht])) i
  have no : ¬ t.On i → (¬ (t.Release i ∧ Held ts i ∧ (s i).disabled = false ∧ (s i).hasAction = true)) :=
    fun h h' => h h'.1.2
  by_cases hon : ∃ j, t.On j
  · obtain ⟨j, hj⟩ := hon
    obtain ⟨r, hr, e2⟩ := step_on (after s ts) t ht j hj
    rw [e2]
    dsimp only
    by_cases hij : i = j
    · subst hij
      rw [if_pos rfl]
      obtain ⟨-, -, -, -, -, -, g⟩ := onMouse_facts (after s ts i) t.event r hr h4
      rw [g, h5]
      constructor
      · rintro ⟨a1, a2, a3, a4⟩
        exact ⟨⟨a1, hj⟩, a2.2, a2.1, h2.symm.trans a4⟩
      · rintro ⟨a1, a2, a3, a4⟩
        exact ⟨a1.1, ⟨a3, a2⟩, h1.trans a3, h2.trans a4⟩
    · rw [if_neg hij, h4]
      have := no fun h => hij (on_unique t ht i j h hj)
      simp only [Bool.false_eq_true, false_iff]
      exact this
  · rw [step_off (after s ts) t ht fun j hj => hon ⟨j, hj⟩]
    dsimp only
    rw [h4]
    have := no fun h => hon ⟨i, h⟩
    simp only [Bool.false_eq_true, false_iff]
    exact this

/-- **C196** (partial, as above). A click: pressed and released where a button is seen, with any moves and drags between. The
program gets its message or its action at the release, once, and nothing before. -/
theorem click_partial (s : Nat → Button) (hs : Idle s) (p t : Touch) (ds : List Touch)
    (hf : ∀ u ∈ p :: ds ++ [t], u.Fair) (i : Nat) (hp : p.Press i) (ht : t.Release i)
    (hd : ∀ d ∈ ds, d.event.kind ≠ .up .left) (he : (s i).disabled = false) (hm : (s i).hasPress = true) :
    (step s p).1.message = none ∧ (∀ j, (step s p).1.actions j = false) ∧
    (∀ a d l, ds = a ++ d :: l → (step (after s (p :: a)) d).1.message = none ∧
      ∀ j, (step (after s (p :: a)) d).1.actions j = false) ∧
    (step (after s (p :: ds)) t).1.message = (if (s i).hasAction then none else some i) ∧
    ∀ j, (step (after s (p :: ds)) t).1.actions j = decide (j = i ∧ (s i).hasAction = true) := by
  have quiet : ∀ ts u, (∀ v ∈ ts ++ [u], v.Fair) → u.event.kind ≠ .up .left →
      (step (after s ts) u).1.message = none ∧ ∀ j, (step (after s ts) u).1.actions j = false := by
    intro ts u hf hu
    constructor
    · rw [Option.eq_none_iff_forall_ne_some]
      intro j h
      exact hu ((message_partial s hs ts u hf j).1 h).1.1
    · intro j
      rw [Bool.eq_false_iff]
      exact fun h => hu ((action_partial s hs ts u hf j).1 h).1.1
  have held : Held (p :: ds) i := ⟨[], p, ds, rfl, hp, fun q hq h => hd q hq h.1⟩
  have hpu : p.event.kind ≠ .up .left := by rw [hp.1]; simp
  obtain ⟨q1, q2⟩ := quiet [] p (fun v hv => hf v (by simp_all)) hpu
  refine ⟨q1, q2, ?_, ?_, ?_⟩
  · rintro a d l rfl
    exact quiet (p :: a) d (fun v hv => hf v (by simp at hv ⊢; tauto)) (hd d (by simp))
  · have m := fun j => message_partial s hs (p :: ds) t hf j
    split
    · rename_i ha
      rw [Option.eq_none_iff_forall_ne_some]
      intro j h
      obtain ⟨a1, -, -, a4, -⟩ := (m j).1 h
      rw [on_unique t (hf t (by simp)) j i a1.2 ht.2, ha] at a4
      cases a4
    · rename_i ha
      exact (m i).2 ⟨ht, held, he, by simpa using ha, hm⟩
  · intro j
    rw [Bool.eq_iff_iff, decide_eq_true_eq, action_partial s hs (p :: ds) t hf j]
    constructor
    · rintro ⟨a1, -, -, a4⟩
      obtain rfl := on_unique t (hf t (by simp)) j i a1.2 ht.2
      exact ⟨rfl, a4⟩
    · rintro ⟨rfl, a⟩
      exact ⟨ht, held, he, a⟩

/-- The left mouse button goes down or up at a place on the screen of `Nest.tree`. -/
def touch (k : Press.Kind) (x y : Int) : Touch := ⟨⟨k, x, y⟩, Nest.tree, ⟨0, 0, 20, 10⟩, ⟨20, 10⟩⟩

theorem touch_fair (k : Press.Kind) (x y : Int) (hk : k ≠ .other) (hx : 0 ≤ x ∧ x < 20) (hy : 0 ≤ y ∧ y < 10) :
    (touch k x y).Fair := by
  refine ⟨hk, ?_, ?_, Nest.tree_ok.1, Nest.tree_ok.2⟩
  · simp only [touch, At]; omega
  · simp only [touch, Touch.mouse, OnScreen]; omega

theorem touch_painted (k : Press.Kind) (x y : Int) (i : Nat) (p : Nest.Painted) (hi : p.1 = i)
    (h : p ∈ painted ⟨20, 10⟩ Nest.tree ⟨0, 0, 20, 10⟩ []) (hs : SeenAt p x y) : (touch k x y).On i := by
  obtain ⟨j, r, ks⟩ := p
  cases hi
  exact ⟨r, ks, h, hs⟩

/-- The scrolled card is pressed, the pointer leaves it, comes back to another cell of it and is released. -/
example : let s : Nat → Button := fun _ => {}
    let p := touch (.down .left) 3 4
    let ds := [touch (.drag .left) 3 6, touch (.drag .left) 5 4]
    let t := touch (.up .left) 6 4
    Idle s ∧ (∀ u ∈ p :: ds ++ [t], u.Fair) ∧ p.Press 11 ∧ t.Release 11 ∧ (∀ d ∈ ds, d.event.kind ≠ .up .left) ∧
    (step (after s (p :: ds)) t).1.message = some 11 := by
  intro s p ds t
  have hp : ∀ k x y, 1 ≤ x → x < 9 → y = 4 → (touch k x y).On 11 := by
    intro k x y h1 h2 h3
    refine touch_painted k x y 11 (11, ⟨1, 3, 8, 6⟩, [⟨1, 1, 16, 4⟩, ⟨0, 0, 20, 10⟩]) rfl ?_ ?_
    · decide +kernel
    · simp only [SeenAt, At, List.mem_cons, List.not_mem_nil, or_false, forall_eq_or_imp, forall_eq]
      omega
  have hs : Idle s := fun i => ⟨rfl, rfl⟩
  have hf : ∀ u ∈ p :: ds ++ [t], u.Fair := by
    intro u hu
    simp only [p, ds, t, List.cons_append, List.nil_append, List.mem_cons, List.not_mem_nil, or_false] at hu
    rcases hu with rfl | rfl | rfl | rfl <;> exact touch_fair _ _ _ (by decide) (by decide) (by decide)
  have h1 : p.Press 11 := ⟨rfl, hp _ _ _ (by decide) (by decide) rfl⟩
  have h2 : t.Release 11 := ⟨rfl, hp _ _ _ (by decide) (by decide) rfl⟩
  have h3 : ∀ d ∈ ds, d.event.kind ≠ .up .left := by
    intro d hd
    simp only [ds, List.mem_cons, List.not_mem_nil, or_false] at hd
    rcases hd with rfl | rfl <;> decide
  exact ⟨hs, hf, h1, h2, h3, (click_partial s hs p t ds hf 11 h1 h2 h3 rfl rfl).2.2.2.1⟩

/-- **C196**: the message may come without a click. The card is pressed and the mouse released below it, which sends nothing;
then the widget below is pressed and the mouse released over the card, which sends the message of the card. -/
theorem stale_counterexample : let s : Nat → Button := fun _ => {}
    let ts := [touch (.down .left) 3 4, touch (.up .left) 3 6, touch (.down .left) 3 6]
    (step (after s (ts.take 1)) (touch (.up .left) 3 6)).1.message = none ∧
    (step (after s ts) (touch (.up .left) 3 4)).1.message = some 11 := by decide +kernel

/-- Two cards in a bordered plain container, as in `Nest.border_counterexample`. -/
def bordered (k : Press.Kind) (x y : Int) : Touch :=
  ⟨⟨k, x, y⟩, .box (.scroller {} { arrange := fun a _ => [⟨0, ⟨a.x, a.y, 20, 8⟩⟩] } {}) fun _ =>
    .box (.pane { chromeLeft := 1, chromeTop := 1, chromeRight := 1, chromeBottom := 1 }
      { arrange := fun a _ => [⟨0, ⟨a.x, a.y, 8, 2⟩⟩, ⟨1, ⟨a.x, a.y + 2, 8, 2⟩⟩] } {}) fun j => .leaf (10 + j) true,
   ⟨0, 0, 20, 10⟩, ⟨80, 24⟩⟩

/-- **C196** fails for buttons in a plain container with a border: a click on the lower row of the first sends the message of
the second. -/
theorem border_counterexample : let s : Nat → Button := fun _ => {}
    painted ⟨80, 24⟩ (bordered (.down .left) 3 2).node ⟨0, 0, 20, 10⟩ [] =
      [(10, ⟨1, 1, 8, 2⟩, [⟨1, 1, 18, 6⟩, ⟨0, 0, 20, 10⟩]), (11, ⟨1, 3, 8, 2⟩, [⟨1, 1, 18, 6⟩, ⟨0, 0, 20, 10⟩])] ∧
    (step (after s [bordered (.down .left) 3 2]) (bordered (.up .left) 3 2)).1.message = some 11 := by decide +kernel

end Textual.Clicks
