import Verif.Model.Toggles
import Verif.Props.Clicks

/-!
# A click on a switch that is seen (C206)
-/

namespace Textual.Toggles

open Layout (Viewport)
open Press (Switch)
open Nest (Node Good NoOverlap SeenAt painted reach)
open Scroller (At OnScreen)
open Clicks (Touch)

/-- A mouse button goes down or up where switch `i` is seen. -/
def Pressed (t : Touch) (i : Nat) : Prop := (∃ f, t.event.kind = .down f) ∧ t.On i
def Released (t : Touch) (i : Nat) : Prop := (∃ f, t.event.kind = .up f) ∧ t.On i

/-- The switch was pressed, and since then not released over it; and the mouse has not moved without a button held down. -/
def Held (ts : List Touch) (i : Nat) : Prop :=
  ∃ before p later, ts = before ++ p :: later ∧ Pressed p i ∧ ∀ q ∈ later, ¬ (q.event.kind = .moved ∨ Released q i)

/-- The last event of the history completes a click on the switch. -/
def Click (ts : List Touch) (t : Touch) (i : Nat) : Prop := Released t i ∧ Held ts i

/-- There are `n` clicks on the switch in the history. -/
inductive Count (i : Nat) : List Touch → Nat → Prop
  | nil : Count i [] 0
  | click {ts n t} : Count i ts n → Click ts t i → Count i (ts ++ [t]) (n + 1)
  | other {ts n t} : Count i ts n → ¬ Click ts t i → Count i (ts ++ [t]) n

def Enabled (s : Switch) : Prop := s.disabled = false ∧ s.loading = false

theorem answering_painted (s : Nat → Switch) (e : Press.Mouse) (vp : Viewport) (n : Node) :
    ∀ r ks, painted vp (answering s e n) r ks = painted vp n r ks := by
  induction n with
  | leaf i a => intro r ks; rfl
  | box b child ih =>
    intro r ks
    simp only [answering, painted, ih]

theorem answering_good (s : Nat → Switch) (e : Press.Mouse) (vp : Viewport) (n : Node) :
    ∀ r, Good vp n r → Good vp (answering s e n) r := by
  induction n with
  | leaf i a => intro r _; trivial
  | box b child ih =>
    intro r h
    exact ⟨h.1, fun c hc => ih _ _ (h.2 c hc)⟩

theorem answering_apart (s : Nat → Switch) (e : Press.Mouse) (vp : Viewport) (n : Node) :
    NoOverlap vp n → NoOverlap vp (answering s e n) := by
  induction n with
  | leaf i a => intro _; trivial
  | box b child ih => exact fun h => ⟨h.1, fun i => ih _ (h.2 i)⟩

theorem reached (s : Nat → Switch) (t : Touch) (hf : t.Fair) :
    (∀ i, t.On i → ∃ r, At r t.event.column t.event.row ∧
      ∀ x, x ∈ (reach t.viewport t.mouse (answering s t.event t.node) t.screen).1 ↔ x = (i, r)) ∧
    ((∀ i, ¬ t.On i) → (reach t.viewport t.mouse (answering s t.event t.node) t.screen).1 = []) := by
  constructor
  · rintro i ⟨r, ks, hp, hs⟩
    refine ⟨r, hs.1, ?_⟩
    exact Nest.seen_reached_partial t.viewport t.mouse hf.onScreen (Clicks.points t hf.kind) _ t.screen
      (answering_good _ _ _ _ _ hf.good) (answering_apart _ _ _ _ hf.apart) [] i r ks
      (by rw [answering_painted]; exact hp) hs
  · intro h
    rw [List.eq_nil_iff_forall_not_mem]
    rintro ⟨i, r⟩ hx
    obtain ⟨ks, hp, hs⟩ := Nest.reached_seen_partial t.viewport t.mouse hf.onScreen (Clicks.points t hf.kind) _ t.screen
      hf.inside (answering_good _ _ _ _ _ hf.good) [] (by simp) i r hx
    rw [answering_painted] at hp
    exact h i ⟨r, ks, hp, hs⟩

/-- A second event of the same kind at once changes nothing and is not answered. -/
theorem again (b : Switch) (e : Press.Mouse) (r : Region) :
    (b.onMouse e r).2.onMouse e r = (none, (b.onMouse e r).2) := by
  obtain ⟨v, f, h, a, vi, lo, d, fr, di⟩ := b
  obtain ⟨k, x, y⟩ := e
  generalize hi : r.containsPoint x y = c
  cases k with
  | moved => cases c <;> cases h <;> simp [Switch.onMouse, hi]
  | down g => cases c <;> cases a <;> cases d <;> cases lo <;> simp [Switch.onMouse, hi]
  | up g => cases c <;> cases a <;> cases d <;> cases lo <;> simp [Switch.onMouse, hi]
  | drag g => simp [Switch.onMouse]
  | other => simp [Switch.onMouse]

theorem give_same (e : Press.Mouse) (i : Nat) (r : Region) (l : List (Nat × Region)) (h : ∀ x ∈ l, x = (i, r))
    (s : Nat → Switch) (hb : (s i).onMouse e r = (none, s i)) : give e l s = ([], s) := by
  induction l with
  | nil => rfl
  | cons x l ih =>
    obtain rfl := h x (List.mem_cons_self ..)
    have hs : (fun j => if j = i then s i else s j) = s := by
      funext j; by_cases hj : j = i <;> simp [hj]
    simp only [give, hb, hs, ih fun x hx => h x (List.mem_cons_of_mem _ hx)]

theorem give_one (e : Press.Mouse) (i : Nat) (r : Region) (l : List (Nat × Region)) (h : ∀ x, x ∈ l ↔ x = (i, r))
    (s : Nat → Switch) :
    (give e l s).1.head? = ((s i).onMouse e r).1.map (Prod.mk i) ∧
    (give e l s).2 = fun j => if j = i then ((s i).onMouse e r).2 else s j := by
  cases l with
  | nil => exact absurd ((h (i, r)).2 rfl) (by simp)
  | cons x l =>
    obtain rfl := (h x).1 (List.mem_cons_self ..)
    have := give_same e i r l (fun x hx => (h x).1 (List.mem_cons_of_mem _ hx))
      (fun j => if j = i then ((s i).onMouse e r).2 else s j) (by simpa using again (s i) e r)
    simp only [give, this]
    cases ((s i).onMouse e r).1 <;> exact ⟨rfl, trivial⟩

theorem step_on (s : Nat → Switch) (t : Touch) (hf : t.Fair) (i : Nat) (hi : t.On i) :
    ∃ r, r.containsPoint t.event.column t.event.row = true ∧
      (step s t).1 = ((clearAll s t i).onMouse t.event r).1.map (Prod.mk i) ∧
      (step s t).2 = fun j => if j = i then ((clearAll s t i).onMouse t.event r).2 else clearAll s t j := by
  obtain ⟨r, hr, hx⟩ := (reached (clearAll s t) t hf).1 i hi
  exact ⟨r, (Scroller.contains_iff r _ _ ⟨hf.onScreen.1, hf.onScreen.2.1⟩ hf.onScreen.2.2).2 hr,
    give_one t.event i r _ hx (clearAll s t)⟩

theorem step_off (s : Nat → Switch) (t : Touch) (hf : t.Fair) (h : ∀ i, ¬ t.On i) : step s t = (none, clearAll s t) := by
  have e := (reached (clearAll s t) t hf).2 h
  simp only [step, e, give]
  rfl

theorem clear_facts (s : Nat → Switch) (t : Touch) (i : Nat) :
    let b := clearAll s t i
    b.value = (s i).value ∧ b.disabled = (s i).disabled ∧ b.loading = (s i).loading ∧
    (b.active = true ↔ (s i).active = true ∧ t.event.kind ≠ .moved) := by
  unfold clearAll
  split
  · rename_i h
    dsimp only
    generalize s i = b
    obtain ⟨v, f, hh, a, vi, lo, d, fr, di⟩ := b
    cases hh <;> cases a <;> simp [Switch.clearHover, h]
  · rename_i h
    simp [h]

theorem onMouse_facts (b : Switch) (e : Press.Mouse) (r : Region) (hin : r.containsPoint e.column e.row = true) :
    let p := b.onMouse e r
    p.2.disabled = b.disabled ∧ p.2.loading = b.loading ∧
    (Enabled b → (p.2.active = true ↔ (∃ f, e.kind = .down f) ∨ b.active = true ∧ ¬ ∃ f, e.kind = .up f)) ∧
    (¬ Enabled b → b.active = false → p.2.active = false) ∧
    (∀ v, p.1 = some v ↔ (∃ f, e.kind = .up f) ∧ b.active = true ∧ Enabled b ∧ v = !b.value) ∧
    (p.2.value = b.value ∨ p.2.value = (!b.value) ∧ p.1.isSome) ∧ (p.1.isSome → p.2.value = !b.value) := by
  obtain ⟨v, f, h, a, vi, lo, d, fr, di⟩ := b
  obtain ⟨k, x, y⟩ := e
  dsimp only at hin
  cases k with
  | moved => cases h <;> simp [Switch.onMouse, hin]
  | down g => cases a <;> cases d <;> cases lo <;> simp [Switch.onMouse, hin, Enabled]
  | up g => cases a <;> cases d <;> cases lo <;> simp [Switch.onMouse, hin, Enabled, eq_comm]
  | drag g => simp [Switch.onMouse]
  | other => simp [Switch.onMouse]

theorem held_snoc (ts : List Touch) (t : Touch) (i : Nat) :
    Held (ts ++ [t]) i ↔ Pressed t i ∨ Held ts i ∧ ¬ (t.event.kind = .moved ∨ Released t i) := by
  constructor
  · rintro ⟨bf, p, l, e, hp, hl⟩
    rcases List.eq_nil_or_concat l with rfl | ⟨l', q, rfl⟩
    · have := List.append_inj' (s₁ := ts) (t₁ := [t]) e rfl
      simp only [List.cons.injEq, and_true] at this
      exact .inl (this.2 ▸ hp)
    · rw [List.concat_eq_append] at e hl
      have e' : ts ++ [t] = (bf ++ p :: l') ++ [q] := by rw [e]; simp
      have := List.append_inj' e' rfl
      simp only [List.cons.injEq, and_true] at this
      obtain ⟨rfl, rfl⟩ := this
      exact .inr ⟨⟨bf, p, l', rfl, hp, fun x hx => hl x (by simp [hx])⟩, hl t (by simp)⟩
  · rintro (h | ⟨⟨bf, p, l, rfl, hp, hl⟩, h⟩)
    · exact ⟨ts, t, [], rfl, h, by simp⟩
    · refine ⟨bf, p, l ++ [t], by simp, hp, fun q hq => ?_⟩
      rcases List.mem_append.1 hq with hq | hq
      · exact hl q hq
      · rw [List.mem_singleton.1 hq]; exact h

theorem after_snoc (s : Nat → Switch) (ts : List Touch) (t : Touch) : after s (ts ++ [t]) = (step (after s ts) t).2 := by
  simp [after, List.foldl_append]

/-- After any history a switch is pressed exactly if it is held. -/
theorem after_facts (s : Nat → Switch) (hs : ∀ i, (s i).active = false) (ts : List Touch) (hf : ∀ t ∈ ts, t.Fair) (i : Nat) :
    let b := after s ts i
    b.disabled = (s i).disabled ∧ b.loading = (s i).loading ∧ (b.active = true ↔ Enabled (s i) ∧ Held ts i) := by
  induction ts using List.reverseRecOn generalizing i with
  | nil =>
    refine ⟨rfl, rfl, ?_⟩
    simp only [after, List.foldl_nil, hs i]
    constructor
    · intro h; cases h
    · rintro ⟨-, bf, p, l, e, -⟩
      exact absurd e (by simp)
  | append_singleton ts t ih =>
    have ih := fun i => ih (fun t ht => hf t (by simp [ht])) i
    have ht := hf t (by simp)
    rw [after_snoc]
    obtain ⟨h1, h2, h3⟩ := ih i
    obtain ⟨-, c2, c3, c4⟩ := clear_facts (after s ts) t i
    have off : ¬ t.On i → ((clearAll (after s ts) t i).active = true ↔ Enabled (s i) ∧ Held (ts ++ [t]) i) := by
      intro h
      rw [held_snoc, c4, h3]
      constructor
      · rintro ⟨⟨a, b⟩, c⟩
        exact ⟨a, .inr ⟨b, fun h' => h'.elim c fun h'' => h h''.2⟩⟩
      · rintro ⟨a, b | ⟨b, c⟩⟩
        · exact absurd b.2 h
        · exact ⟨⟨a, b⟩, fun h' => c (.inl h')⟩
    by_cases hon : ∃ j, t.On j
    · obtain ⟨j, hj⟩ := hon
      obtain ⟨r, hr, -, e2⟩ := step_on (after s ts) t ht j hj
      rw [e2]
      dsimp only
      by_cases hij : i = j
      · subst hij
        rw [if_pos rfl]
        obtain ⟨g1, g2, g3, g4, -⟩ := onMouse_facts (clearAll (after s ts) t i) t.event r hr
        refine ⟨(g1.trans c2).trans h1, (g2.trans c3).trans h2, ?_⟩
        have en : Enabled (clearAll (after s ts) t i) ↔ Enabled (s i) := by
          unfold Enabled; rw [c2, c3, h1, h2]
        by_cases he : Enabled (s i)
        · rw [g3 (en.2 he), c4, h3, held_snoc]
          constructor
          · rintro (a | ⟨⟨a, b⟩, c⟩)
            · exact ⟨he, .inl ⟨a, hj⟩⟩
            · exact ⟨he, .inr ⟨a.2, fun h => h.elim b fun h => c h.1⟩⟩
          · rintro ⟨-, a | ⟨a, b⟩⟩
            · exact .inl a.1
            · exact .inr ⟨⟨⟨he, a⟩, fun h => b (.inl h)⟩, fun h => b (.inr ⟨h, hj⟩)⟩
        · have ha : (clearAll (after s ts) t i).active = false := by
            rw [Bool.eq_false_iff]
            exact fun h => he (h3.1 (c4.1 h).1).1
          rw [g4 (fun h => he (en.1 h)) ha]
          simp [he]
      · rw [if_neg hij]
        exact ⟨c2.trans h1, c3.trans h2, off fun h => hij (Clicks.on_unique t ht i j h hj)⟩
    · rw [step_off (after s ts) t ht fun j hj => hon ⟨j, hj⟩]
      exact ⟨c2.trans h1, c3.trans h2, off fun h => hon ⟨i, h⟩⟩

/-- **C206** (partial: containers as in C174, the command palette closed, every event where the screen is). Whatever the
history of mouse events, each on a screen that may have changed since: the program is told that a switch has the value `v`
exactly when a click on it is completed, if it is neither disabled nor loading; and `v` is the value it did not have. -/
theorem told_partial (s : Nat → Switch) (hs : ∀ i, (s i).active = false) (ts : List Touch) (t : Touch)
    (hf : ∀ u ∈ ts ++ [t], u.Fair) (i : Nat) (v : Bool) :
    (step (after s ts) t).1 = some (i, v) ↔ Click ts t i ∧ Enabled (s i) ∧ v = !(after s ts i).value := by
  have ht := hf t (by simp)
  by_cases hon : ∃ j, t.On j
  · obtain ⟨j, hj⟩ := hon
    obtain ⟨r, hr, e1, -⟩ := step_on (after s ts) t ht j hj
    obtain ⟨h1, h2, h3⟩ := after_facts s hs ts (fun t ht => hf t (by simp [ht])) j
    obtain ⟨c1, c2, c3, c4⟩ := clear_facts (after s ts) t j
    obtain ⟨-, -, -, -, g, -⟩ := onMouse_facts (clearAll (after s ts) t j) t.event r hr
    rw [e1]
    constructor
    · intro h
      rw [Option.map_eq_some_iff] at h
      obtain ⟨w, hw, e⟩ := h
      cases e
      obtain ⟨a1, a2, a3, a4⟩ := (g v).1 hw
      have := h3.1 (c4.1 a2).1
      exact ⟨⟨⟨a1, hj⟩, this.2⟩, this.1, a4.trans (by rw [c1])⟩
    · rintro ⟨⟨a1, a2⟩, a3, a4⟩
      obtain rfl := Clicks.on_unique t ht i j a1.2 hj
      rw [(g v).2 ⟨a1.1, c4.2 ⟨h3.2 ⟨a3, a2⟩, ?_⟩, ?_, ?_⟩]
      · rfl
      · obtain ⟨f, h⟩ := a1.1
        rw [h]; simp
      · unfold Enabled; rw [c2, c3, h1, h2]; exact a3
      · rw [c1]; exact a4
  · rw [step_off (after s ts) t ht fun j hj => hon ⟨j, hj⟩]
    constructor
    · intro h; cases h
    · rintro ⟨⟨a1, -⟩, -⟩
      exact absurd ⟨i, a1.2⟩ hon

/-- **C206** (partial, as above). A switch changes its value exactly when a click on it is completed. -/
theorem flipped_partial (s : Nat → Switch) (hs : ∀ i, (s i).active = false) (ts : List Touch) (t : Touch)
    (hf : ∀ u ∈ ts ++ [t], u.Fair) (i : Nat) :
    (Click ts t i ∧ Enabled (s i) → (after s (ts ++ [t]) i).value = !(after s ts i).value) ∧
    (¬ (Click ts t i ∧ Enabled (s i)) → (after s (ts ++ [t]) i).value = (after s ts i).value) := by
  have ht := hf t (by simp)
  have told := fun v => told_partial s hs ts t hf i v
  rw [after_snoc]
  obtain ⟨c1, -⟩ := clear_facts (after s ts) t i
  by_cases hon : ∃ j, t.On j
  · obtain ⟨j, hj⟩ := hon
    obtain ⟨r, hr, e1, e2⟩ := step_on (after s ts) t ht j hj
    rw [e2]
    dsimp only
    by_cases hij : i = j
    · subst hij
      rw [if_pos rfl, ← c1]
      obtain ⟨-, -, -, -, -, g1, g2⟩ := onMouse_facts (clearAll (after s ts) t i) t.event r hr
      rw [e1] at told
      constructor
      · intro h
        refine g2 ?_
        have := (told _).2 ⟨h.1, h.2, rfl⟩
        rw [Option.map_eq_some_iff] at this
        obtain ⟨w, hw, -⟩ := this
        rw [hw]; rfl
      · intro h
        rcases g1 with g | ⟨-, g⟩
        · exact g
        · obtain ⟨w, hw⟩ := Option.isSome_iff_exists.1 g
          have := (told w).1 (by rw [hw]; rfl)
          exact absurd ⟨this.1, this.2.1⟩ h
    · rw [if_neg hij]
      exact ⟨fun h => absurd (Clicks.on_unique t ht i j h.1.1.2 hj) hij, fun _ => c1⟩
  · rw [step_off (after s ts) t ht fun j hj => hon ⟨j, hj⟩]
    exact ⟨fun h => absurd ⟨i, h.1.1.2⟩ hon, fun _ => c1⟩

/-- **C206** (partial, as above). After `n` clicks on it a switch has its first value if `n` is even and the other one if it is
odd, whatever happened elsewhere. -/
theorem clicks_partial (s : Nat → Switch) (hs : ∀ i, (s i).active = false) (i : Nat) (he : Enabled (s i)) (ts : List Touch)
    (n : Nat) (hf : ∀ u ∈ ts, u.Fair) (hc : Count i ts n) :
    (after s ts i).value = if n % 2 = 0 then (s i).value else !(s i).value := by
  induction hc with
  | nil => rfl
  | @click ts n t hc h ih =>
    rw [(flipped_partial s hs ts t hf i).1 ⟨h, he⟩, ih fun u hu => hf u (by simp [hu])]
    by_cases hn : n % 2 = 0
    · rw [if_pos hn, if_neg (by omega)]
    · rw [if_neg hn, if_pos (by omega), Bool.not_not]
  | @other ts n t hc h ih =>
    rw [(flipped_partial s hs ts t hf i).2 fun h' => h h'.1, ih fun u hu => hf u (by simp [hu])]

/-- What a program knows that listens to the messages: the values it gave the switches, changed by each message. -/
def heard (s : Nat → Switch) (known : Nat → Bool) : List Touch → Nat → Bool
  | [] => known
  | t :: ts => heard (step s t).2 (match (step s t).1 with
    | some (i, v) => fun j => if j = i then v else known j
    | none => known) ts

theorem heard_snoc (ts : List Touch) (t : Touch) : ∀ (s : Nat → Switch) (known : Nat → Bool),
    heard s known (ts ++ [t]) = match (step (after s ts) t).1 with
      | some (i, v) => fun j => if j = i then v else heard s known ts j
      | none => heard s known ts := by
  induction ts with
  | nil => intro s known; rfl
  | cons u ts ih => intro s known; exact ih _ _

/-- **C206** (partial, as above). A program that listens to the messages knows the value of every switch after every event. -/
theorem heard_partial (s : Nat → Switch) (hs : ∀ i, (s i).active = false) (ts : List Touch) (hf : ∀ u ∈ ts, u.Fair) (i : Nat) :
    heard s (fun j => (s j).value) ts i = (after s ts i).value := by
  induction ts using List.reverseRecOn generalizing i with
  | nil => rfl
  | append_singleton ts t ih =>
    have ih := fun i => ih (fun u hu => hf u (by simp [hu])) i
    have told := fun i v => told_partial s hs ts t hf i v
    obtain ⟨f1, f2⟩ := flipped_partial s hs ts t hf i
    rw [heard_snoc]
    cases h : (step (after s ts) t).1 with
    | none =>
      dsimp only
      rw [f2, ih]
      intro hc
      have := (told i _).2 ⟨hc.1, hc.2, rfl⟩
      rw [h] at this
      cases this
    | some p =>
      obtain ⟨j, v⟩ := p
      dsimp only
      obtain ⟨a1, a2, a3⟩ := (told j v).1 h
      by_cases hij : i = j
      · subst hij
        rw [if_pos rfl, f1 ⟨a1, a2⟩, a3]
      · rw [if_neg hij, f2, ih]
        intro hc
        have := (told i _).2 ⟨hc.1, hc.2, rfl⟩
        rw [h] at this
        simp only [Option.some.injEq, Prod.mk.injEq] at this
        exact hij this.1.symm

/-- Every history has a number of clicks. -/
theorem count_exists (i : Nat) (ts : List Touch) : ∃ n, Count i ts n := by
  induction ts using List.reverseRecOn with
  | nil => exact ⟨0, .nil⟩
  | append_singleton ts t ih =>
    obtain ⟨n, h⟩ := ih
    by_cases hc : Click ts t i
    · exact ⟨n + 1, .click h hc⟩
    · exact ⟨n, .other h hc⟩

/-- The switch at the scrolled place of `Nest.tree` is pressed, the pointer is dragged off and back and the mouse released:
one click, after which the switch is on and the program was told so. -/
example : let s : Nat → Switch := fun _ => {}
    let ts := [Clicks.touch .moved 3 4, Clicks.touch (.down .left) 3 4, Clicks.touch (.drag .left) 3 6]
    let t := Clicks.touch (.up .left) 6 4
    (∀ u ∈ ts ++ [t], u.Fair) ∧ Click ts t 11 ∧ (step (after s ts) t).1 = some (11, true) ∧
    (after s (ts ++ [t]) 11).value = true ∧ ∃ n, Count 11 (ts ++ [t]) n ∧ n % 2 = 1 := by
  intro s ts t
  have hp : ∀ k x y, 1 ≤ x → x < 9 → y = 4 → (Clicks.touch k x y).On 11 := by
    intro k x y h1 h2 h3
    refine Clicks.touch_painted k x y 11 (11, ⟨1, 3, 8, 6⟩, [⟨1, 1, 16, 4⟩, ⟨0, 0, 20, 10⟩]) rfl ?_ ?_
    · decide +kernel
    · simp only [SeenAt, At, List.mem_cons, List.not_mem_nil, or_false, forall_eq_or_imp, forall_eq]
      omega
  have hf : ∀ u ∈ ts ++ [t], u.Fair := by
    intro u hu
    simp only [ts, t, List.cons_append, List.nil_append, List.mem_cons, List.not_mem_nil, or_false] at hu
    rcases hu with rfl | rfl | rfl | rfl <;> exact Clicks.touch_fair _ _ _ (by decide) (by decide) (by decide)
  have hh : Held ts 11 := by
    refine ⟨[Clicks.touch .moved 3 4], Clicks.touch (.down .left) 3 4, [Clicks.touch (.drag .left) 3 6], rfl,
      ⟨⟨_, rfl⟩, hp _ _ _ (by decide) (by decide) rfl⟩, ?_⟩
    intro q hq
    rw [List.mem_singleton.1 hq]
    rintro (h | ⟨⟨f, h⟩, -⟩) <;> cases h
  have hc : Click ts t 11 := ⟨⟨⟨_, rfl⟩, hp _ _ _ (by decide) (by decide) rfl⟩, hh⟩
  have ht := (told_partial s (fun _ => rfl) ts t hf 11 true).2 ⟨hc, ⟨rfl, rfl⟩, by decide +kernel⟩
  have hv : (after s (ts ++ [t]) 11).value = true := by decide +kernel
  refine ⟨hf, hc, ht, hv, ?_⟩
  obtain ⟨n, hn⟩ := count_exists 11 (ts ++ [t])
  refine ⟨n, hn, ?_⟩
  have := clicks_partial s (fun _ => rfl) 11 ⟨rfl, rfl⟩ (ts ++ [t]) n hf hn
  rw [hv] at this
  by_cases h : n % 2 = 0
  · rw [if_pos h] at this; cases this
  · omega

/-- **C206**: a switch may change without having been clicked. It is pressed and the mouse released below it, which changes
nothing; then the widget below is pressed and the mouse released over the switch, which turns it on. -/
theorem stale_counterexample : let s : Nat → Switch := fun _ => {}
    let ts := [Clicks.touch (.down .left) 3 4, Clicks.touch (.up .left) 3 6, Clicks.touch (.down .left) 3 6]
    (after s ts 11).value = false ∧ (after s (ts ++ [Clicks.touch (.up .left) 3 4]) 11).value = true := by decide +kernel

/-- **C206**: every mouse button works, and the press and the release may be of different ones. -/
theorem buttons_counterexample : let s : Nat → Switch := fun _ => {}
    (after s [Clicks.touch (.down .right) 3 4, Clicks.touch (.up .middle) 3 4] 11).value = true := by decide +kernel

/-- **C206** fails for switches in a plain container with a border, as C196: a click on the lower row of the first changes the
second. -/
theorem border_counterexample : let s : Nat → Switch := fun _ => {}
    let ts := [Clicks.bordered (.down .left) 3 2, Clicks.bordered (.up .left) 3 2]
    (∀ t ∈ ts, t.On 10) ∧ (after s ts 10).value = false ∧ (after s ts 11).value = true := by
  refine ⟨?_, ?_⟩
  · intro t ht
    simp only [List.mem_cons, List.not_mem_nil, or_false] at ht
    have : ∀ k, (Clicks.bordered k 3 2).On 10 := by
      intro k
      refine ⟨⟨1, 1, 8, 2⟩, [⟨1, 1, 18, 6⟩, ⟨0, 0, 20, 10⟩], ?_, ?_⟩
      · show _ ∈ painted ⟨80, 24⟩ (Clicks.bordered .moved 3 2).node ⟨0, 0, 20, 10⟩ []
        decide +kernel
      · simp only [SeenAt, At, Clicks.bordered, List.mem_cons, List.not_mem_nil, or_false, forall_eq_or_imp, forall_eq]
        omega
    rcases ht with rfl | rfl <;> exact this _
  · decide +kernel

end Textual.Toggles
