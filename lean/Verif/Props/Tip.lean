import Verif.Model.Loop
import Verif.Props.Region
import Mathlib.Data.List.Induction
import Mathlib.Tactic.Common

/-! C124, C125: when and where tooltips are shown. -/

namespace Textual.Loop

/-! ### Specification -/

/-- Where the mouse rests: the place, the tooltip found there, and since when both are the same. -/
structure Rest where
  pos : Int × Int
  found : Option String
  since : Nat
deriving DecidableEq, Repr

/-- A move to the same place with the same tooltip is no move. -/
def Rest.step (r : Option Rest) (now : Nat) : TipEvent → Option Rest
  | .moved pos found =>
    match r with
    | some r => if r.pos = pos ∧ r.found = found then some r else some ⟨pos, found, now⟩
    | none => some ⟨pos, found, now⟩
  | _ => r

/-- Where the mouse rests after a history of events. -/
def Rest.of (es : List (Nat × TipEvent)) : Option Rest := es.foldl (fun r e => Rest.step r e.1 e.2) none

/-- The events are in the order of their times, up to `now`. -/
def InOrder (es : List (Nat × TipEvent)) (now : Nat) : Prop := (es.map (·.1) ++ [now]).Pairwise (· ≤ ·)

theorem InOrder.init {es : List (Nat × TipEvent)} {e : Nat × TipEvent} {now : Nat} (h : InOrder (es ++ [e]) now) :
    InOrder es e.1 ∧ e.1 ≤ now := by
  unfold InOrder at *
  rw [List.map_append, List.pairwise_append] at h
  exact ⟨h.1, h.2.2 _ (by simp) _ (by simp)⟩

theorem tip_run_snoc (delay : Nat) (width : String → Nat) (t : Tip) (es : List (Nat × TipEvent)) (e : Nat × TipEvent) :
    t.run delay width (es ++ [e]) = (t.run delay width es).step delay width e.1 e.2 := by
  simp [Tip.run]

theorem rest_snoc (es : List (Nat × TipEvent)) (e : Nat × TipEvent) :
    Rest.of (es ++ [e]) = Rest.step (Rest.of es) e.1 e.2 := by
  simp [Rest.of]

/-- What the variables mean. -/
structure TipInv (delay : Nat) (width : String → Nat) (t : Tip) (r : Option Rest) (now : Nat) : Prop where
  pos : t.pos = r.map (·.pos)
  text : t.text = r.bind (·.found)
  since : ∀ q, r = some q → q.since ≤ now
  early : ∀ d, t.deadline = some d → d ≤ now + delay
  late : ∀ d, t.deadline = some d → ∃ q s, r = some q ∧ q.found = some s ∧ q.since + delay ≤ d
  sync : t.widgetVisible = true → t.visible = true
  shown : t.widgetVisible = true → ∃ q, r = some q ∧ q.found = some t.widgetText ∧ q.since + delay ≤ now ∧
    t.offset = (max (q.pos.1 - (width t.widgetText / 2 : Nat)) 0, max (q.pos.2 + 1) 0)

theorem TipInv.later {delay : Nat} {width : String → Nat} {t : Tip} {r : Option Rest} {now now' : Nat}
    (h : TipInv delay width t r now) (hn : now ≤ now') : TipInv delay width t r now' where
  pos := h.pos
  text := h.text
  since := fun q hq => Nat.le_trans (h.since q hq) hn
  early := fun d hd => Nat.le_trans (h.early d hd) (by omega)
  late := h.late
  sync := h.sync
  shown := fun hv => by
    obtain ⟨q, q1, q2, q3, q4⟩ := h.shown hv
    exact ⟨q, q1, q2, Nat.le_trans q3 hn, q4⟩

theorem hide_off (t : Tip) (h : t.widgetVisible = true → t.visible = true) :
    t.hide.widgetVisible = false ∧ t.hide.deadline = t.deadline ∧ t.hide.text = t.text ∧ t.hide.pos = t.pos := by
  unfold Tip.hide
  split
  · exact ⟨rfl, rfl, rfl, rfl⟩
  · rename_i hv
    refine ⟨?_, rfl, rfl, rfl⟩
    by_contra hw
    exact hv (h (by simpa using hw))

theorem moved_same (delay : Nat) (width : String → Nat) (now : Nat) (t : Tip) (pos : Int × Int) (text : String)
    (hp : t.pos = some pos) (ht : t.text = some text) :
    t.step delay width now (.moved pos (some text)) =
      if t.deadline = none then { t with deadline := some (now + delay) } else t := by
  obtain ⟨d, tx, v, p, w, wt, o⟩ := t
  cases hp
  cases ht
  cases d <;> simp [Tip.step]

theorem moved_other (delay : Nat) (width : String → Nat) (now : Nat) (t : Tip) (pos : Int × Int) (text : String)
    (hs : t.widgetVisible = true → t.visible = true) (h : ¬ (t.pos = some pos ∧ t.text = some text)) :
    let t' := t.step delay width now (.moved pos (some text))
    t'.widgetVisible = false ∧ t'.deadline = some (now + delay) ∧ t'.text = some text ∧ t'.pos = some pos := by
  obtain ⟨d, tx, v, p, w, wt, o⟩ := t
  dsimp only at hs h
  by_cases hp : p = some pos <;> by_cases ht : tx = some text
  · exact absurd ⟨hp, ht⟩ h
  all_goals
    cases v <;> cases w <;> simp_all [Tip.step, Tip.hide]

theorem step_inv {delay : Nat} {width : String → Nat} {t : Tip} {r : Option Rest} {now : Nat}
    (h : TipInv delay width t r now) (e : TipEvent) :
    TipInv delay width (t.step delay width now e) (Rest.step r now e) now := by
  cases e with
  | moved pos found =>
    cases found with
    | some text =>
      by_cases hsame : t.pos = some pos ∧ t.text = some text
      · obtain ⟨hp, ht⟩ := hsame
        have hr : Rest.step r now (.moved pos (some text)) = r := by
          have h1 := h.pos; have h2 := h.text
          rw [hp] at h1; rw [ht] at h2
          cases r with
          | none => simp at h1
          | some q =>
            simp only [Option.map_some, Option.some.injEq, Option.bind_some] at h1 h2
            simp [Rest.step, ← h1, ← h2]
        rw [hr, moved_same delay width now t pos text hp ht]
        split
        · refine ⟨h.pos, h.text, h.since, ?_, ?_, h.sync, h.shown⟩
          · intro d hd; cases hd; omega
          · intro d hd; cases hd
            have h2 := h.text
            rw [ht] at h2
            cases r with
            | none => simp at h2
            | some q => exact ⟨q, text, rfl, h2.symm, by have := h.since q rfl; omega⟩
        · exact h
      · obtain ⟨m1, m2, m3, m4⟩ := moved_other delay width now t pos text h.sync hsame
        have hr : Rest.step r now (.moved pos (some text)) = some ⟨pos, some text, now⟩ := by
          cases r with
          | none => rfl
          | some q =>
            unfold Rest.step
            dsimp only
            rw [if_neg]
            rintro ⟨rfl, h2⟩
            exact hsame ⟨by rw [h.pos]; rfl, by rw [h.text]; exact h2⟩
        rw [hr]
        refine ⟨m4, m3, ?_, ?_, ?_, ?_, ?_⟩
        · intro q hq; cases hq; exact Nat.le_refl _
        · intro d hd; rw [m2] at hd; cases hd; omega
        · intro d hd; rw [m2] at hd; cases hd; exact ⟨_, text, rfl, rfl, Nat.le_refl _⟩
        · intro hv; rw [m1] at hv; cases hv
        · intro hv; rw [m1] at hv; cases hv
    | none =>
      have hs : t.step delay width now (.moved pos none) = Tip.hide { t with pos := some pos, text := none, deadline := none } := rfl
      obtain ⟨m1, m2, m3, m4⟩ := hide_off { t with pos := some pos, text := none, deadline := none } h.sync
      rw [hs]
      have hr : ∃ n, n ≤ now ∧ Rest.step r now (.moved pos none) = some ⟨pos, none, n⟩ := by
        cases r with
        | none => exact ⟨now, Nat.le_refl _, rfl⟩
        | some q =>
          unfold Rest.step
          dsimp only
          split
          · rename_i hq
            refine ⟨q.since, h.since q rfl, ?_⟩
            obtain ⟨p, f, n⟩ := q
            obtain ⟨rfl, rfl⟩ := hq
            rfl
          · exact ⟨now, Nat.le_refl _, rfl⟩
      obtain ⟨n, hn, hr⟩ := hr
      rw [hr]
      refine ⟨m4, m3, ?_, ?_, ?_, ?_, ?_⟩
      · intro q hq; cases hq; exact hn
      · intro d hd; rw [m2] at hd; cases hd
      · intro d hd; rw [m2] at hd; cases hd
      · intro hv; rw [m1] at hv; cases hv
      · intro hv; rw [m1] at hv; cases hv
  | otherMouse =>
    have hs : t.step delay width now .otherMouse = t.hide := by
      unfold Tip.step Tip.hide
      dsimp only
      split <;> rfl
    obtain ⟨m1, m2, m3, m4⟩ := hide_off t h.sync
    rw [hs]
    refine ⟨by rw [m4]; exact h.pos, by rw [m3]; exact h.text, h.since, by rw [m2]; exact h.early,
      by rw [m2]; exact h.late, ?_, ?_⟩
    · intro hv; rw [m1] at hv; cases hv
    · intro hv; rw [m1] at hv; cases hv
  | tick =>
    show TipInv delay width (t.step delay width now .tick) r now
    unfold Tip.step
    dsimp only
    split
    · rename_i d hd
      split
      · rename_i hnow
        split
        · rename_i text mx my ht hp
          obtain ⟨q, s, q1, q2, q3⟩ := h.late d hd
          subst q1
          have h1 := h.pos; have h2 := h.text
          rw [hp] at h1; rw [ht, Option.bind_some, q2] at h2
          simp only [Option.map_some, Option.some.injEq] at h1 h2
          subst h2
          refine ⟨h.pos, h.text, h.since, ?_, ?_, fun _ => rfl, fun _ => ⟨q, rfl, q2, by omega, ?_⟩⟩
          · intro d hd; cases hd
          · intro d hd; cases hd
          · rw [← h1]
        · exact h
      · exact h
    · exact h
  | rebuilt =>
    exact ⟨h.pos, h.text, h.since, h.early, h.late, fun hv => (by cases hv), fun hv => (by cases hv)⟩

theorem run_inv (delay : Nat) (width : String → Nat) (es : List (Nat × TipEvent)) (now : Nat) (h : InOrder es now) :
    TipInv delay width (Tip.run delay width {} es) (Rest.of es) now := by
  induction es using List.reverseRecOn generalizing now with
  | nil =>
    exact ⟨rfl, rfl, fun q hq => (by cases hq), fun d hd => (by cases hd), fun d hd => (by cases hd),
      fun hv => (by cases hv), fun hv => (by cases hv)⟩
  | append_singleton es e ih =>
    obtain ⟨h1, h2⟩ := h.init
    rw [tip_run_snoc, rest_snoc]
    exact (step_inv (ih e.1 h1) e.2).later h2

/-! ### C124: when -/

/-- **C124** (a). A tooltip is shown only if the mouse rests where that text was found, and has rested there for the
delay; it is then just below the mouse. -/
theorem shown_rested (delay : Nat) (width : String → Nat) (es : List (Nat × TipEvent)) (now : Nat)
    (h : InOrder es now) (hv : (Tip.run delay width {} es).widgetVisible = true) :
    ∃ r, Rest.of es = some r ∧ r.found = some (Tip.run delay width {} es).widgetText ∧ r.since + delay ≤ now ∧
      (Tip.run delay width {} es).offset =
        (max (r.pos.1 - (width (Tip.run delay width {} es).widgetText / 2 : Nat)) 0, max (r.pos.2 + 1) 0) :=
  (run_inv delay width es now h).shown hv

/-- A mouse that moves about, then rests. -/
def tipHistory : List (Nat × TipEvent) :=
  [(0, .moved (3, 4) (some "Save")), (50, .tick), (300, .moved (9, 4) (some "Load")), (550, .tick), (700, .moved (9, 4) (some "Load")), (800, .tick)]

example : InOrder tipHistory 800 ∧ (Tip.run 500 (fun _ => 6) {} tipHistory).widgetVisible = true ∧
    (Tip.run 500 (fun _ => 6) {} tipHistory).widgetText = "Load" ∧ Rest.of tipHistory = some ⟨(9, 4), some "Load", 300⟩ := by
  unfold InOrder; decide

/-- **C124** (b). Any other mouse event hides it at once. -/
theorem other_hides (delay : Nat) (width : String → Nat) (es : List (Nat × TipEvent)) (now : Nat) (h : InOrder es now) :
    (Tip.run delay width {} (es ++ [(now, .otherMouse)])).widgetVisible = false := by
  rw [tip_run_snoc]
  have hs : ∀ t : Tip, t.step delay width now .otherMouse = t.hide := fun t => by
    unfold Tip.step Tip.hide
    dsimp only
    split <;> rfl
  rw [hs]
  exact (hide_off _ (run_inv delay width es now h).sync).1

example : InOrder tipHistory 900 ∧
    (Tip.run 500 (fun _ => 6) {} (tipHistory ++ [(900, .otherMouse)])).widgetVisible = false := by
  unfold InOrder; decide

/-- **C124** (b). A move to another place, or to where there is no tooltip or another, hides it at once. -/
theorem move_hides (delay : Nat) (width : String → Nat) (es : List (Nat × TipEvent)) (now : Nat) (h : InOrder es now)
    (pos : Int × Int) (found : Option String)
    (hm : ∀ r, Rest.of es = some r → r.found = none ∨ r.pos ≠ pos ∨ r.found ≠ found) :
    (Tip.run delay width {} (es ++ [(now, .moved pos found)])).widgetVisible = false := by
  have hi := run_inv delay width es now h
  rw [tip_run_snoc]
  cases found with
  | none => exact (hide_off { Tip.run delay width {} es with pos := some pos, text := none, deadline := none } hi.sync).1
  | some text =>
    refine (moved_other delay width now _ pos text hi.sync ?_).1
    rintro ⟨hp, ht⟩
    rw [hi.pos] at hp
    rw [hi.text] at ht
    cases hr : Rest.of es with
    | none => rw [hr] at hp; cases hp
    | some r =>
      rw [hr] at hp ht
      have hp : some r.pos = some pos := hp
      have ht : r.found = some text := ht
      rcases hm r hr with h | h | h
      · rw [h] at ht; cases ht
      · exact h (Option.some.inj hp)
      · exact h ht

example : InOrder tipHistory 900 ∧ (∀ r, Rest.of tipHistory = some r → r.found = none ∨ r.pos ≠ (9, 5) ∨ r.found ≠ some "Load") ∧
    (Tip.run 500 (fun _ => 6) {} (tipHistory ++ [(900, .moved (9, 5) (some "Load"))])).widgetVisible = false := by
  refine ⟨by unfold InOrder; decide, ?_, by decide⟩
  intro r hr
  have : Rest.of tipHistory = some ⟨(9, 4), some "Load", 300⟩ := by decide
  rw [this] at hr
  cases hr
  decide

/-- Nothing but ticks and moves at a place with a tooltip. -/
def Resting (pos : Int × Int) (text : String) : TipEvent → Prop
  | .tick => True
  | .moved p f => p = pos ∧ f = some text
  | _ => False

/-- **C124** (c). Conversely: after a move to a place with a tooltip and the delay, the tooltip is shown, if nothing but
ticks and moves at that place happened since. -/
theorem rested_shown (delay : Nat) (width : String → Nat) (es mid : List (Nat × TipEvent)) (t₀ now : Nat)
    (pos : Int × Int) (text : String) (h : InOrder (es ++ (t₀, .moved pos (some text)) :: mid) now)
    (hm : ∀ e ∈ mid, Resting pos text e.2) (hd : t₀ + delay ≤ now) :
    (Tip.run delay width {} (es ++ (t₀, .moved pos (some text)) :: mid ++ [(now, .tick)])).widgetVisible = true := by
  have hkey : ∀ mid now, InOrder (es ++ (t₀, .moved pos (some text)) :: mid) now → (∀ e ∈ mid, Resting pos text e.2) →
      let t := Tip.run delay width {} (es ++ (t₀, .moved pos (some text)) :: mid)
      t.pos = some pos ∧ t.text = some text ∧ (t.widgetVisible = true ∨ ∃ d, t.deadline = some d ∧ d ≤ t₀ + delay) := by
    clear h hm hd
    intro mid
    induction mid using List.reverseRecOn with
    | nil =>
      intro now h _
      obtain ⟨h1, -⟩ := h.init
      have hi := run_inv delay width es t₀ h1
      dsimp only
      rw [tip_run_snoc]
      dsimp only
      by_cases hsame : (Tip.run delay width {} es).pos = some pos ∧ (Tip.run delay width {} es).text = some text
      · rw [moved_same delay width t₀ _ pos text hsame.1 hsame.2]
        split
        · exact ⟨hsame.1, hsame.2, .inr ⟨_, rfl, Nat.le_refl _⟩⟩
        · rename_i hn
          obtain ⟨d, hd⟩ := Option.ne_none_iff_exists'.1 hn
          exact ⟨hsame.1, hsame.2, .inr ⟨d, hd, hi.early d hd⟩⟩
      · obtain ⟨m1, m2, m3, m4⟩ := moved_other delay width t₀ _ pos text hi.sync hsame
        exact ⟨m4, m3, .inr ⟨_, m2, Nat.le_refl _⟩⟩
    | append_singleton mid e ih =>
      intro now h hm
      have happ : es ++ (t₀, TipEvent.moved pos (some text)) :: (mid ++ [e]) =
          (es ++ (t₀, TipEvent.moved pos (some text)) :: mid) ++ [e] := by simp
      rw [happ] at h ⊢
      obtain ⟨h1, -⟩ := h.init
      obtain ⟨i1, i2, i3⟩ := ih e.1 h1 fun e' he' => hm e' (List.mem_append_left _ he')
      have he := hm e (by simp)
      dsimp only
      rw [tip_run_snoc]
      generalize Tip.run delay width {} (es ++ (t₀, TipEvent.moved pos (some text)) :: mid) = t at i1 i2 i3 ⊢
      obtain ⟨n, e⟩ := e
      cases e with
      | moved p f =>
        obtain ⟨rfl, rfl⟩ := he
        rw [moved_same delay width n _ p text i1 i2]
        split
        · rename_i hn
          refine ⟨i1, i2, .inl ?_⟩
          rcases i3 with i3 | ⟨d, hd, -⟩
          · exact i3
          · rw [hn] at hd; cases hd
        · exact ⟨i1, i2, i3⟩
      | tick =>
        unfold Tip.step
        dsimp only
        split
        · split
          · simp only [i1, i2]
            exact ⟨trivial, trivial, .inl trivial⟩
          · exact ⟨i1, i2, i3⟩
        · exact ⟨i1, i2, i3⟩
      | otherMouse => cases he
      | rebuilt => cases he
  obtain ⟨k1, k2, k3⟩ := hkey mid now h hm
  rw [tip_run_snoc]
  generalize Tip.run delay width {} (es ++ (t₀, TipEvent.moved pos (some text)) :: mid) = t at k1 k2 k3 ⊢
  unfold Tip.step
  dsimp only
  rcases k3 with k3 | ⟨d, hd', hle⟩
  · split
    · split
      · simp only [k1, k2]
      · exact k3
    · exact k3
  · rw [hd']
    dsimp only
    rw [if_pos (by omega)]
    simp only [k1, k2]

example : InOrder ([(0, TipEvent.moved (3, 4) none)] ++ (300, .moved (9, 4) (some "Load")) :: [(550, .tick), (700, .moved (9, 4) (some "Load"))]) 800 ∧
    (∀ e ∈ [(550, TipEvent.tick), (700, TipEvent.moved (9, 4) (some "Load"))], Resting (9, 4) "Load" e.2) ∧ 300 + 500 ≤ 800 := by
  refine ⟨by unfold InOrder; decide, ?_, by decide⟩
  intro e he
  simp only [List.mem_cons, List.not_mem_nil, or_false] at he
  rcases he with rfl | rfl
  · trivial
  · exact ⟨rfl, rfl⟩

/-- **C124** fails in one case: a click before the delay is over does not count; the tooltip pops up after it. -/
theorem click_before_counterexample :
    (Tip.run 500 (fun _ => 6) {} [(0, .moved (9, 4) (some "Load")), (400, .otherMouse), (500, .tick)]).widgetVisible =
      true := by decide

/-! ### C125: where -/

theorem satAdd_small (a b : Int) (h0 : 0 ≤ a) (h1 : 0 ≤ b) (h : a + b ≤ 200000) : satAdd a b = a + b := by
  unfold satAdd
  omega

/-- **C125** (partial: it must fit below and to the right; see the counterexamples). A tooltip that is shown is drawn as a
whole, just below the row of the mouse and over its column. -/
theorem tip_whole_partial (delay : Nat) (width : String → Nat) (es : List (Nat × TipEvent)) (now : Nat)
    (h : InOrder es now) (hv : (Tip.run delay width {} es).widgetVisible = true) (r : Rest) (hr : Rest.of es = some r)
    (text : String) (ht : r.found = some text) (lines cols rows : Nat) (hx : 0 ≤ r.pos.1) (hy : 0 ≤ r.pos.2)
    (hw : 0 < width text) (hl : 0 < lines) (hc : cols ≤ 65535) (hrow : rows ≤ 65535)
    (hfx : max (r.pos.1 - (width text / 2 : Nat)) 0 + width text ≤ cols) (hfy : r.pos.2 + 1 + lines ≤ rows) :
    ∃ a, (Tip.run delay width {} es).area (width text) lines ⟨0, 0, cols, rows⟩ = some a ∧ a.width = width text ∧
      a.height = lines ∧ a.y = r.pos.2 + 1 ∧ a.x ≤ r.pos.1 ∧ r.pos.1 < a.x + a.width := by
  obtain ⟨q, q1, q2, -, q4⟩ := shown_rested delay width es now h hv
  rw [hr] at q1
  cases q1
  rw [ht] at q2
  rw [← Option.some.inj q2] at q4
  generalize Tip.run delay width {} es = t at hv q4
  generalize width text = w at *
  generalize r.pos.1 = mx at *
  generalize r.pos.2 = my at *
  generalize hX : max (mx - (w / 2 : Nat)) 0 = X at *
  have hY : max (my + 1) 0 = my + 1 := by omega
  rw [hY] at q4
  have hX0 : 0 ≤ X := by omega
  have e1 := satAdd_small X w hX0 (by omega) (by omega)
  have e2 := satAdd_small (my + 1) lines (by omega) (by omega) (by omega)
  have e3 := satAdd_small 0 (cols : Int) (by omega) (by omega) (by omega)
  have e4 := satAdd_small 0 (rows : Int) (by omega) (by omega) (by omega)
  have hi : (Region.new X (my + 1) w lines).intersection ⟨0, 0, cols, rows⟩ = ⟨X, my + 1, w, lines⟩ := by
    unfold Region.intersection Region.new
    dsimp only
    have m1 : max (w : Int) 0 = w := by omega
    have m2 : max (lines : Int) 0 = lines := by omega
    rw [m1, m2, e1, e2, e3, e4]
    rw [if_pos (by omega)]
    simp only [Region.mk.injEq]
    omega
  refine ⟨⟨X, my + 1, w, lines⟩, ?_, rfl, rfl, rfl, ?_, ?_⟩
  · unfold Tip.area
    rw [if_pos hv, q4]
    dsimp only
    rw [hi, if_neg (by simp [Region.isEmpty]; omega)]
  · show X ≤ mx; omega
  · show mx < X + w; omega

/-- **C125**. Nothing of it is drawn off the screen, and nothing at all of a hidden one. -/
theorem tip_on_screen (t : Tip) (w h : Int) (screen a : Region) (ha : t.area w h screen = some a) :
    t.widgetVisible = true ∧ ∀ x y, a.containsPoint x y = true → screen.containsPoint x y = true := by
  unfold Tip.area at ha
  split at ha
  · rename_i hv
    dsimp only at ha
    split at ha
    · cases ha
    · cases ha
      refine ⟨hv, fun x y hp => ?_⟩
      rw [Region.mem_intersection] at hp
      simp at hp
      exact hp.2
  · cases ha

/-- The tooltip of `tipHistory` on a screen of 80 columns and 24 rows. -/
example : (Tip.run 500 (fun _ => 6) {} tipHistory).area 6 1 ⟨0, 0, 80, 24⟩ = some ⟨6, 5, 6, 1⟩ := by decide

/-- **C125** fails in the last row: the tooltip is not drawn at all, though there is room above. -/
theorem last_row_counterexample :
    let t := Tip.run 500 (fun _ => 6) {} [(0, .moved (9, 23) (some "Load")), (500, .tick)]
    t.widgetVisible = true ∧ t.area 6 1 ⟨0, 0, 80, 24⟩ = none := by decide

/-- **C125** fails at the right: the tooltip is cut, though there is room to the left. -/
theorem right_counterexample :
    let t := Tip.run 500 (fun _ => 20) {} [(0, .moved (79, 3) (some "Load the file again")), (500, .tick)]
    t.area 20 1 ⟨0, 0, 80, 24⟩ = some ⟨69, 4, 11, 1⟩ := by decide

end Textual.Loop
