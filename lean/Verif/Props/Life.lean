import Verif.Spec.Life
import Mathlib.Tactic.Common

/-! Providers are started, asked and shut down in order: C187. -/

namespace Textual.Life

open World

theorem at_index {α : Type} {l : List α} {i : Nat} {t : α} (h : l[i]? = some t) :
    ∃ pre post, l = pre ++ t :: post ∧ pre.length = i ∧ (∀ x, l.set i x = pre ++ x :: post) ∧
      l.eraseIdx i = pre ++ post := by
  obtain ⟨hi, rfl⟩ := List.getElem?_eq_some_iff.1 h
  refine ⟨l.take i, l.drop (i + 1), ?_, by simp; omega, ?_, ?_⟩
  · simp
  · intro x; rw [List.set_eq_take_append_cons_drop, if_pos hi]
  · rw [List.eraseIdx_eq_take_drop_succ]

/-! ### One call at a time -/

/-- The tasks that have the lock of provider `p`. -/
def holders (w : World) (p : Nat) : List Task := w.tasks.filter fun t => t.running && t.provider == p

theorem holders_new (l : List Nat) (c : Call) (p : Nat) :
    (l.map fun q => ({ provider := q, call := c } : Task)).filter (fun t => t.running && t.provider == p) = [] := by
  rw [List.filter_eq_nil_iff]
  intro t ht
  obtain ⟨q, _, rfl⟩ := List.mem_map.1 ht
  simp

theorem holders_spawn (w : World) (c : Call) (p : Nat) : holders (w.spawn c) p = holders w p := by
  unfold holders spawn
  rw [List.filter_append, holders_new, List.append_nil]

theorem holders_cancel (w : World) (p : Nat) : (holders w.cancelSearch p).length = (holders w p).length := by
  unfold holders cancelSearch
  rw [List.filter_map, List.length_map]
  congr 2
  funext t
  simp only [Function.comp]
  split <;> rfl

theorem holders_step (w : World) (o : Op) (p : Nat) (h : (holders w p).length ≤ 1) :
    (holders (step w o) p).length ≤ 1 := by
  have erase : ∀ i, (holders { w with tasks := w.tasks.eraseIdx i } p).length ≤ 1 := fun i =>
    Nat.le_trans (List.Sublist.length_le ((List.eraseIdx_sublist w.tasks i).filter _)) h
  cases o with
  | «open» =>
    show (holders w.open p).length ≤ 1
    unfold World.open
    split
    · exact h
    · unfold startSearch
      rw [holders_spawn, holders_cancel, holders_spawn]; exact h
  | close =>
    show (holders w.close p).length ≤ 1
    unfold World.close
    split
    · rw [holders_spawn, holders_cancel]; exact h
    · exact h
  | typeKey =>
    show (holders w.typeKey p).length ≤ 1
    unfold World.typeKey
    split
    · unfold startSearch; rw [holders_spawn, holders_cancel]; exact h
    · exact h
  | setProviders n =>
    show (holders (w.setProviders n) p).length ≤ 1
    have hc : (holders { w.cancelSearch with providers := List.range' w.next n, next := w.next + n } p).length ≤ 1 := by
      have := holders_cancel w p
      unfold holders at this ⊢
      rw [this]; exact h
    unfold World.setProviders
    dsimp only
    split
    · unfold startSearch; rw [holders_spawn, holders_cancel, holders_spawn]; exact hc
    · exact hc
  | begin i =>
    show (holders (w.begin i) p).length ≤ 1
    unfold World.begin
    split
    · exact h
    · rename_i t ht
      split
      · exact h
      · rename_i hn
        obtain ⟨pre, post, e, _, es, _⟩ := at_index ht
        unfold holders at h ⊢
        dsimp only
        rw [es]
        by_cases hp : t.provider = p
        · have hz : ∀ u ∈ w.tasks, ¬ (u.running && u.provider == p) = true := by
            intro u hu hh
            apply hn
            rw [Bool.or_eq_true]
            exact Or.inr (List.any_eq_true.2 ⟨u, hu, by rw [hp]; exact hh⟩)
          have h1 : pre.filter (fun t => t.running && t.provider == p) = [] :=
            List.filter_eq_nil_iff.2 fun u hu => hz u (by rw [e]; simp [hu])
          have h2 : post.filter (fun t => t.running && t.provider == p) = [] :=
            List.filter_eq_nil_iff.2 fun u hu => hz u (by rw [e]; simp [hu])
          rw [List.filter_append, List.filter_cons, h1, h2]
          split <;> simp
        · rw [e] at h
          rw [List.filter_append, List.filter_cons] at h ⊢
          simpa [hp] using h
  | finish i =>
    show (holders (w.finish i) p).length ≤ 1
    unfold World.finish
    split
    · exact h
    · split
      · exact erase i
      · exact h
  | die i =>
    show (holders (w.die i) p).length ≤ 1
    unfold World.die
    split
    · exact h
    · split
      · exact erase i
      · exact h

/-- C187: whatever is done and however the runtime schedules the tasks, a provider gets one call at a time. -/
theorem one_at_a_time (os : List Op) (p : Nat) :
    ((os.foldl step {}).tasks.filter fun t => t.running && t.provider == p).length ≤ 1 := by
  have : ∀ (os : List Op) (w : World), (holders w p).length ≤ 1 → (holders (os.foldl step w) p).length ≤ 1 := by
    intro os
    induction os with
    | nil => intro w h; exact h
    | cons o os ih => intro w h; exact ih _ (holders_step w o p h)
  exact this os {} (by simp [holders])

/-- Two calls wait for one provider, one of them has the lock. -/
example : ([Op.setProviders 1, .open, .begin 1, .begin 0].foldl step {}).tasks.map (·.running) = [false, true] := by
  decide

/-! ### In order -/

/-- The calls that are still to be made on provider `p`, in the order they were asked for. -/
def pend (l : List Task) (p : Nat) : List Call := (l.filter fun t => !t.running && t.provider == p).map (·.call)

/-- The calls made and the calls to be made. -/
def history (w : World) (p : Nat) : List Call := w.calls p ++ pend w.tasks p

/-- The provider is in use. -/
def inUse (w : World) (p : Nat) : Bool := w.visible && decide (p ∈ w.providers)

theorem after_append (s : Bool) (a b : List Call) : after s (a ++ b) = (after s a).bind fun t => after t b := by
  induction a generalizing s with
  | nil => rfl
  | cons c a ih => cases s <;> cases c <;> simp [after, ih]

theorem after_ask (s : Bool) (a b : List Call) (r : Bool) (h : after s (a ++ .ask :: b) = some r) :
    after s (a ++ b) = some r := by
  rw [after_append] at h ⊢
  cases ha : after s a with
  | none => rw [ha] at h; cases h
  | some t =>
    rw [ha] at h
    cases t with
    | false => simp [after] at h
    | true => simpa [after] using h

theorem pend_new (ps : List Nat) (c : Call) (p : Nat) (hn : ps.Nodup) :
    pend (ps.map fun q => ({ provider := q, call := c } : Task)) p = if p ∈ ps then [c] else [] := by
  unfold pend
  induction ps with
  | nil => rfl
  | cons q ps ih =>
    rw [List.nodup_cons] at hn
    rw [List.map_cons, List.filter_cons]
    by_cases e : q = p
    · subst e
      have hz : (ps.map fun q => ({ provider := q, call := c } : Task)).filter (fun t => !t.running && t.provider == q) = [] := by
        rw [List.filter_eq_nil_iff]
        intro t ht
        obtain ⟨r, hr, rfl⟩ := List.mem_map.1 ht
        intro e
        simp only [Bool.not_false, Bool.true_and, beq_iff_eq] at e
        exact hn.1 (e ▸ hr)
      simp [hz]
    · have := ih hn.2
      simp only [Bool.not_false, Bool.true_and, beq_iff_eq, e, if_false, List.mem_cons, Ne.symm e, false_or]
      exact this

theorem pend_append (a b : List Task) (p : Nat) : pend (a ++ b) p = pend a p ++ pend b p := by
  simp [pend]

theorem pend_cancel (w : World) (p : Nat) : pend w.cancelSearch.tasks p = pend w.tasks p := by
  unfold pend cancelSearch
  dsimp only
  induction w.tasks with
  | nil => rfl
  | cons t l ih =>
    rw [List.map_cons, List.filter_cons, List.filter_cons]
    by_cases h : t.call = .ask
    · simp only [h, if_true]
      split
      · simp only [List.map_cons, ih, h]
      · exact ih
    · simp only [h, if_false]
      split
      · simp only [List.map_cons, ih]
      · exact ih

/-- What holds at every point of the histories considered. `off` is the state in which the calls still to be made
leave the providers. -/
structure Inv (w : World) : Prop where
  nodup : w.providers.Nodup
  old : ∀ p ∈ w.providers, p < w.next
  pending : ∀ t ∈ w.tasks, t.provider < w.next
  made : ∀ e ∈ w.log, e.1 < w.next
  dying : ∀ t ∈ w.tasks, t.dying = true → t.call = .ask

theorem Inv.spawn {w : World} (h : Inv w) (c : Call) : Inv (w.spawn c) := by
  refine ⟨h.nodup, h.old, ?_, h.made, ?_⟩
  · intro t ht
    rcases List.mem_append.1 ht with ht | ht
    · exact h.pending t ht
    · obtain ⟨q, hq, rfl⟩ := List.mem_map.1 ht
      exact h.old q hq
  · intro t ht hd
    rcases List.mem_append.1 ht with ht | ht
    · exact h.dying t ht hd
    · obtain ⟨q, hq, rfl⟩ := List.mem_map.1 ht
      cases hd

theorem Inv.cancel {w : World} (h : Inv w) : Inv w.cancelSearch := by
  refine ⟨h.nodup, h.old, ?_, h.made, ?_⟩
  · intro t ht
    obtain ⟨u, hu, rfl⟩ := List.mem_map.1 ht
    split
    · exact h.pending u hu
    · exact h.pending u hu
  · intro t ht hd
    obtain ⟨u, hu, rfl⟩ := List.mem_map.1 ht
    split
    · assumption
    · rename_i hc; rw [if_neg hc] at hd; exact h.dying u hu hd

theorem Inv.sub {w : World} (h : Inv w) (l : List Task) (hl : ∀ t ∈ l, t ∈ w.tasks) : Inv { w with tasks := l } :=
  ⟨h.nodup, h.old, fun t ht => h.pending t (hl t ht), h.made, fun t ht => h.dying t (hl t ht)⟩

theorem Inv.step {w : World} (h : Inv w) (o : Op) : Inv (step w o) := by
  cases o with
  | «open» =>
    show Inv w.open
    unfold World.open
    split
    · exact h
    · have h' : Inv { w with visible := true } := ⟨h.nodup, h.old, h.pending, h.made, h.dying⟩
      exact ((h'.spawn .startup).cancel).spawn .ask
  | close =>
    show Inv w.close
    unfold World.close
    split
    · have h' : Inv { w with visible := false } := ⟨h.nodup, h.old, h.pending, h.made, h.dying⟩
      exact h'.cancel.spawn .shutdown
    · exact h
  | typeKey =>
    show Inv w.typeKey
    unfold World.typeKey
    split
    · exact h.cancel.spawn .ask
    · exact h
  | setProviders n =>
    show Inv (w.setProviders n)
    have h' : Inv { w.cancelSearch with providers := List.range' w.next n, next := w.next + n } := by
      have hc := h.cancel
      refine ⟨List.nodup_range', ?_, ?_, ?_, hc.dying⟩
      · intro p hp
        have := List.mem_range'_1.1 hp
        show p < w.next + n
        omega
      · intro t ht
        have : t.provider < w.next := hc.pending t ht
        show t.provider < w.next + n
        omega
      · intro e he
        have : e.1 < w.next := hc.made e he
        show e.1 < w.next + n
        omega
    unfold World.setProviders
    dsimp only
    split
    · exact ((h'.spawn .startup).cancel).spawn .ask
    · exact h'
  | begin i =>
    show Inv (w.begin i)
    unfold World.begin
    split
    · exact h
    · rename_i t ht
      split
      · exact h
      · have hm : t ∈ w.tasks := List.mem_of_getElem? ht
        refine ⟨h.nodup, h.old, ?_, ?_, ?_⟩
        · intro u hu
          rcases List.mem_or_eq_of_mem_set hu with hu | rfl
          · exact h.pending u hu
          · exact h.pending t hm
        · intro e he
          rcases List.mem_append.1 he with he | he
          · exact h.made e he
          · rw [List.mem_singleton.1 he]; exact h.pending t hm
        · intro u hu hd
          rcases List.mem_or_eq_of_mem_set hu with hu | rfl
          · exact h.dying u hu hd
          · exact h.dying t hm hd
  | finish i =>
    show Inv (w.finish i)
    unfold World.finish
    split
    · exact h
    · split
      · exact h.sub _ fun t ht => List.mem_of_mem_eraseIdx ht
      · exact h
  | die i =>
    show Inv (w.die i)
    unfold World.die
    split
    · exact h
    · split
      · exact h.sub _ fun t ht => List.mem_of_mem_eraseIdx ht
      · exact h

theorem history_spawn {w : World} (h : Inv w) (c : Call) (p : Nat) :
    history (w.spawn c) p = history w p ++ if p ∈ w.providers then [c] else [] := by
  unfold history World.spawn
  dsimp only
  rw [pend_append, pend_new _ _ _ h.nodup, ← List.append_assoc]
  rfl

theorem history_cancel (w : World) (p : Nat) : history w.cancelSearch p = history w p := by
  unfold history
  rw [pend_cancel]
  rfl

/-- A provider that does not exist yet has no calls. -/
theorem history_new {w : World} (h : Inv w) (p : Nat) (hp : w.next ≤ p) : history w p = [] := by
  unfold history World.calls pend
  rw [List.filter_eq_nil_iff.2, List.filter_eq_nil_iff.2]
  · rfl
  · intro t ht e
    have := h.pending t ht
    simp only [Bool.and_eq_true, beq_iff_eq] at e
    omega
  · intro e he e'
    have := h.made e he
    simp only [decide_eq_true_eq] at e'
    omega

/-- What a task that takes the lock does to the calls to be made. -/
theorem begin_history {w : World} (i p : Nat) : (w.begin i = w) ∨
    ∃ t pre post, w.tasks = pre ++ t :: post ∧ pre.length = i ∧ w.tasks[i]? = some t ∧ t.running = false ∧
      history (w.begin i) p = w.calls p ++ (if t.provider = p then [t.call] else []) ++ (pend pre p ++ pend post p) ∧
      history w p = w.calls p ++ (pend pre p ++ ((if t.provider = p then [t.call] else []) ++ pend post p)) := by
  unfold World.begin
  split
  · exact Or.inl rfl
  · rename_i t ht
    split
    · exact Or.inl rfl
    · rename_i hn
      obtain ⟨pre, post, e, hl, es, _⟩ := at_index ht
      have hr : t.running = false := by
        rw [Bool.or_eq_true] at hn
        exact Bool.eq_false_iff.2 fun e => hn (Or.inl e)
      refine Or.inr ⟨t, pre, post, e, hl, ht, hr, ?_, ?_⟩
      · unfold history World.calls
        dsimp only
        rw [es]
        by_cases hp : t.provider = p <;> simp [pend, hp]
      · unfold history
        rw [e]
        by_cases hp : t.provider = p <;> simp [pend, hp, hr]

/-- What the end of a task does: nothing, or one search less. -/
theorem end_history {w : World} (h : Inv w) (o : Op) (i p : Nat) (ho : o = .finish i ∨ o = .die i) :
    inUse (step w o) p = inUse w p ∧ (history (step w o) p = history w p ∨
    ∃ a b, history w p = a ++ .ask :: b ∧ history (step w o) p = a ++ b) := by
  have hi : inUse (step w o) p = inUse w p := by
    rcases ho with rfl | rfl
    · show inUse (w.finish i) p = _
      unfold World.finish
      split
      · rfl
      · split <;> rfl
    · show inUse (w.die i) p = _
      unfold World.die
      split
      · rfl
      · split <;> rfl
  refine ⟨hi, ?_⟩
  have key : ∀ t, w.tasks[i]? = some t → (t.running = true ∨ t.call = .ask) →
      history { w with tasks := w.tasks.eraseIdx i } p = history w p ∨
      ∃ a b, history w p = a ++ .ask :: b ∧ history { w with tasks := w.tasks.eraseIdx i } p = a ++ b := by
    intro t ht hc
    obtain ⟨pre, post, e, _, _, ee⟩ := at_index ht
    unfold history World.calls
    dsimp only
    rw [ee, e, pend_append, pend_append]
    have hc' : pend (t :: post) p = (if t.running = false ∧ t.provider = p then [t.call] else []) ++ pend post p := by
      unfold pend
      rw [List.filter_cons]
      by_cases hr : t.running = true <;> by_cases hp : t.provider = p <;> simp [hr, hp]
    rw [hc']
    by_cases hb : t.running = false ∧ t.provider = p
    · rw [if_pos hb]
      rcases hc with hc | hc
      · rw [hb.1] at hc; cases hc
      · right
        rw [hc]
        exact ⟨(w.log.filter fun e => e.1 = p).map (·.2) ++ pend pre p, pend post p, by simp, by simp⟩
    · rw [if_neg hb]; left; rfl
  rcases ho with rfl | rfl
  · show history (w.finish i) p = _ ∨ ∃ a b, _ ∧ history (w.finish i) p = _
    unfold World.finish
    split
    · exact Or.inl rfl
    · rename_i t ht
      split
      · rename_i hr; exact key t ht (Or.inl hr)
      · exact Or.inl rfl
  · show history (w.die i) p = _ ∨ ∃ a b, _ ∧ history (w.die i) p = _
    unfold World.die
    split
    · exact Or.inl rfl
    · rename_i t ht
      split
      · rename_i hd; exact key t ht (Or.inr (h.dying t (List.mem_of_getElem? ht) hd))
      · exact Or.inl rfl

/-- What a step of the user or the program does to the calls, if providers are not replaced while the palette is open. -/
theorem user_history {w : World} (h : Inv w) (o : Op) (p : Nat) (ho : SetWhileClosed w o)
    (hu : ∀ i, o ≠ .begin i ∧ o ≠ .finish i ∧ o ≠ .die i) :
    ∃ new, history (step w o) p = history w p ++ new ∧
      (history w p = [] → w.next ≤ p → inUse w p = false) ∧
      ((inUse w p = inUse (step w o) p ∧ (new = [] ∨ (inUse w p = true ∧ new = [.ask]))) ∨
       (inUse w p = false ∧ inUse (step w o) p = true ∧ new = [.startup, .ask]) ∨
       (inUse w p = true ∧ inUse (step w o) p = false ∧ new = [.shutdown])) := by
  have hne : history w p = [] → w.next ≤ p → inUse w p = false := by
    intro _ hp
    unfold inUse
    have : p ∉ w.providers := fun e => absurd (h.old p e) (by omega)
    simp [this]
  cases o with
  | «open» =>
    show ∃ new, history w.open p = _ ∧ _ ∧ ((_ = inUse w.open p ∧ _) ∨ (_ ∧ inUse w.open p = _ ∧ _) ∨ (_ ∧ inUse w.open p = _ ∧ _))
    unfold World.open
    by_cases hv : w.visible = true
    · rw [if_pos hv]
      exact ⟨[], by simp, hne, Or.inl ⟨rfl, Or.inl rfl⟩⟩
    · rw [if_neg hv]
      have h' : Inv { w with visible := true } := ⟨h.nodup, h.old, h.pending, h.made, h.dying⟩
      have hh : history (startSearch (spawn { w with visible := true } .startup)) p = history w p ++
          if p ∈ w.providers then [.startup, .ask] else [] := by
        unfold startSearch
        rw [history_spawn (h'.spawn .startup).cancel, history_cancel, history_spawn h']
        show history w p ++ (if p ∈ w.providers then [Call.startup] else []) ++ (if p ∈ w.providers then [Call.ask] else []) = _
        split <;> simp
      refine ⟨_, hh, hne, ?_⟩
      have hv' : w.visible = false := by simpa using hv
      show (inUse w p = (true && decide (p ∈ w.providers)) ∧ _) ∨ (_ ∧ (true && decide (p ∈ w.providers)) = true ∧ _) ∨ _
      by_cases hp : p ∈ w.providers
      · right; left; simp [inUse, hv', hp]
      · left; simp [inUse, hv', hp]
  | close =>
    show ∃ new, history w.close p = _ ∧ _ ∧ ((_ = inUse w.close p ∧ _) ∨ (_ ∧ inUse w.close p = _ ∧ _) ∨ (_ ∧ inUse w.close p = _ ∧ _))
    unfold World.close
    by_cases hv : w.visible = true
    · rw [if_pos hv]
      have h' : Inv { w with visible := false } := ⟨h.nodup, h.old, h.pending, h.made, h.dying⟩
      refine ⟨if p ∈ w.providers then [.shutdown] else [], ?_, hne, ?_⟩
      · rw [history_spawn h'.cancel, history_cancel]; rfl
      · show (inUse w p = (false && _) ∧ _) ∨ (_ ∧ (false && _) = true ∧ _) ∨ (_ ∧ (false && _) = false ∧ _)
        by_cases hp : p ∈ w.providers
        · right; right; simp [inUse, hv, hp]
        · left; simp [inUse, hv, hp]
    · rw [if_neg hv]
      exact ⟨[], by simp, hne, Or.inl ⟨rfl, Or.inl rfl⟩⟩
  | typeKey =>
    show ∃ new, history w.typeKey p = _ ∧ _ ∧ ((_ = inUse w.typeKey p ∧ _) ∨ (_ ∧ inUse w.typeKey p = _ ∧ _) ∨ (_ ∧ inUse w.typeKey p = _ ∧ _))
    unfold World.typeKey
    by_cases hv : w.visible = true
    · rw [if_pos hv]
      refine ⟨if p ∈ w.providers then [.ask] else [], ?_, hne, Or.inl ⟨rfl, ?_⟩⟩
      · unfold startSearch; rw [history_spawn h.cancel, history_cancel]; rfl
      · by_cases hp : p ∈ w.providers
        · right; simp [inUse, hv, hp]
        · left; simp [hp]
    · rw [if_neg hv]
      exact ⟨[], by simp, hne, Or.inl ⟨rfl, Or.inl rfl⟩⟩
  | setProviders n =>
    have hv : w.visible = false := ho
    refine ⟨[], ?_, hne, Or.inl ⟨?_, Or.inl rfl⟩⟩
    · show history (w.setProviders n) p = _
      unfold World.setProviders
      dsimp only
      rw [if_neg (by show ¬ w.visible = true; simp [hv]), List.append_nil]
      exact history_cancel w p
    · show _ = inUse (w.setProviders n) p
      unfold World.setProviders
      dsimp only
      rw [if_neg (by show ¬ w.visible = true; simp [hv])]
      simp [inUse, hv, World.cancelSearch]
  | begin i => exact absurd rfl (hu i).1
  | finish i => exact absurd rfl (hu i).2.1
  | die i => exact absurd rfl (hu i).2.2

/-- The calls made and to be made are in order and leave the provider as it should be. -/
def Orderly (w : World) : Prop := ∀ p, after false (history w p) = some (inUse w p)

theorem orderly_step {w : World} (h : Inv w) (hw : Orderly w) (o : Op) (h1 : SetWhileClosed w o) (h2 : InTurn w o) :
    Orderly (step w o) := by
  intro p
  by_cases hb : ∃ i, o = .begin i
  · obtain ⟨i, rfl⟩ := hb
    have hi : inUse (step w (.begin i)) p = inUse w p := by
      show inUse (w.begin i) p = _
      unfold World.begin
      split
      · rfl
      · split <;> rfl
    rw [hi, ← hw p]
    show after false (history (w.begin i) p) = _
    rcases begin_history (w := w) i p with e | ⟨t, pre, post, e, hl, ht, hr, ha, hb⟩
    · rw [e]
    · rw [ha, hb]
      by_cases hp : t.provider = p
      · have hz : pend pre p = [] := by
          unfold pend
          rw [List.filter_eq_nil_iff.2]
          · rfl
          · intro u hu hh
            obtain ⟨j, hj⟩ := List.mem_iff_getElem?.1 hu
            have hjl : j < pre.length := (List.getElem?_eq_some_iff.1 hj).1
            simp only [Bool.and_eq_true, Bool.not_eq_true', beq_iff_eq] at hh
            exact h2 t ht j (hl ▸ hjl) u (by rw [e, List.getElem?_append_left hjl]; exact hj) hh.1 (hh.2.trans hp.symm)
        rw [hz]; simp
      · simp [hp]
  by_cases he : ∃ i, o = .finish i ∨ o = .die i
  · obtain ⟨i, he⟩ := he
    obtain ⟨hi, hh⟩ := end_history h o i p he
    rw [hi]
    rcases hh with hh | ⟨a, b, ha, hb⟩
    · rw [hh]; exact hw p
    · rw [hb]
      have := hw p
      rw [ha] at this
      exact after_ask _ _ _ _ this
  · have hu : ∀ i, o ≠ .begin i ∧ o ≠ .finish i ∧ o ≠ .die i := fun i =>
      ⟨fun e => hb ⟨i, e⟩, fun e => he ⟨i, Or.inl e⟩, fun e => he ⟨i, Or.inr e⟩⟩
    obtain ⟨new, hh, _, hc⟩ := user_history h o p h1 hu
    rw [hh, after_append, hw p, Option.bind_some]
    rcases hc with ⟨hi, rfl | ⟨ha, rfl⟩⟩ | ⟨ha, hb, rfl⟩ | ⟨ha, hb, rfl⟩
    · rw [hi]; rfl
    · rw [← hi, ha]; rfl
    · rw [ha, hb]; rfl
    · rw [ha, hb]; rfl

theorem orderly_run (os : List Op) : ∀ w : World, Inv w → Orderly w →
    Allowed (fun w o => SetWhileClosed w o ∧ InTurn w o) w os → Inv (os.foldl step w) ∧ Orderly (os.foldl step w) := by
  induction os with
  | nil => intro w h hw _; exact ⟨h, hw⟩
  | cons o os ih =>
    intro w h hw ⟨⟨h1, h2⟩, h3⟩
    exact ih _ (h.step o) (orderly_step h hw o h1 h2) h3

theorem inv_start : Inv {} := ⟨List.nodup_nil, by simp, by simp, by simp, by simp⟩

theorem after_prefix {s : Bool} {a b : List Call} {r : Bool} (h : after s (a ++ b) = some r) : ∃ t, after s a = some t := by
  rw [after_append] at h
  cases ha : after s a with
  | none => rw [ha] at h; cases h
  | some t => exact ⟨t, rfl⟩

/-- C187: each provider is started before it is asked, is not asked after it was shut down, and is never started or shut
down twice in a row.
Missing: schedules that let a later task go first (`early_counterexample`), and providers replaced while the palette is
open, which happens when the palette's key is pressed again (`replaced_counterexample`). -/
theorem in_order_partial (os : List Op) (h : Allowed (fun w o => SetWhileClosed w o ∧ InTurn w o) {} os) (p : Nat) :
    ∃ on, after false ((os.foldl step {}).calls p) = some on := by
  have := (orderly_run os {} inv_start (fun p => rfl) h).2 p
  exact after_prefix this

/-- C187: once the palette is closed and all tasks have ended, every provider is off.
Missing: as in `in_order_partial`. -/
theorem all_off_partial (os : List Op) (h : Allowed (fun w o => SetWhileClosed w o ∧ InTurn w o) {} os)
    (hv : (os.foldl step {}).visible = false) (ht : (os.foldl step {}).tasks = []) (p : Nat) :
    after false ((os.foldl step {}).calls p) = some false := by
  have := (orderly_run os {} inv_start (fun p => rfl) h).2 p
  unfold history inUse at this
  rw [hv, ht] at this
  simpa [pend] using this

/-- One provider, opened, asked, closed while it is asked, opened again and closed. -/
def demo : List Op :=
  [.setProviders 1, .open, .begin 0, .finish 0, .begin 0, .typeKey, .close, .die 0, .begin 0, .finish 0, .begin 0,
   .finish 0, .open, .close, .begin 0, .finish 0, .die 0, .begin 0, .finish 0]

example : Allowed (fun w o => SetWhileClosed w o ∧ InTurn w o) {} demo ∧ (demo.foldl step {}).visible = false ∧
    (demo.foldl step {}).tasks = [] ∧
    (demo.foldl step {}).calls 0 = [.startup, .ask, .ask, .shutdown, .startup, .shutdown] := by
  refine ⟨?_, by decide, by decide, by decide⟩
  unfold demo
  simp only [Allowed, SetWhileClosed, InTurn, true_and, and_true]
  refine ⟨by decide, ?_⟩
  simp only [Nat.not_lt_zero, false_imp_iff, implies_true, and_true, forall_const]

/-- C187 fails on a runtime with several threads: the palette is opened, and the provider is asked before it is started. -/
theorem early_counterexample :
    let os : List Op := [.setProviders 1, .open, .begin 1]
    Allowed SetWhileClosed {} os ∧ (os.foldl step {}).calls 0 = [.ask] ∧
      after false ((os.foldl step {}).calls 0) = none := by
  refine ⟨by simp [Allowed, SetWhileClosed], by decide, by decide⟩

/-- C187 fails if the palette's key is pressed while the palette is open: the providers it had are never shut down, even
when the palette is closed and all tasks have ended, each in its turn. -/
theorem replaced_counterexample :
    let os : List Op := [.setProviders 1, .open, .begin 0, .finish 0, .begin 0, .finish 0, .setProviders 1, .begin 0,
      .finish 0, .begin 0, .finish 0, .close, .begin 0, .finish 0]
    (os.foldl step {}).visible = false ∧ (os.foldl step {}).tasks = [] ∧
      (os.foldl step {}).calls 0 = [.startup, .ask] ∧ (os.foldl step {}).calls 1 = [.startup, .ask, .shutdown] := by
  decide

/-! ### However the tasks are scheduled -/

/-- Started as often as shut down, but for the time it is in use. -/
def Balanced (w : World) : Prop := ∀ p,
  (history w p).count .startup = (history w p).count .shutdown + if inUse w p then 1 else 0

theorem balanced_step {w : World} (h : Inv w) (hw : Balanced w) (o : Op) (h1 : SetWhileClosed w o) :
    Balanced (step w o) := by
  intro p
  by_cases hb : ∃ i, o = .begin i
  · obtain ⟨i, rfl⟩ := hb
    have hi : inUse (step w (.begin i)) p = inUse w p := by
      show inUse (w.begin i) p = _
      unfold World.begin
      split
      · rfl
      · split <;> rfl
    have hw := hw p
    rw [hi]
    show (history (w.begin i) p).count _ = (history (w.begin i) p).count _ + _
    rcases begin_history (w := w) i p with e | ⟨t, pre, post, e, hl, ht, hr, ha, hb⟩
    · rw [e]; exact hw
    · rw [hb] at hw
      rw [ha]
      simp only [List.count_append] at hw ⊢
      omega
  by_cases he : ∃ i, o = .finish i ∨ o = .die i
  · obtain ⟨i, he⟩ := he
    obtain ⟨hi, hh⟩ := end_history h o i p he
    rw [hi]
    have hw := hw p
    rcases hh with hh | ⟨a, b, ha, hb⟩
    · rw [hh]; exact hw
    · rw [hb]
      rw [ha] at hw
      simpa [List.count_append, List.count_cons] using hw
  · have hu : ∀ i, o ≠ .begin i ∧ o ≠ .finish i ∧ o ≠ .die i := fun i =>
      ⟨fun e => hb ⟨i, e⟩, fun e => he ⟨i, Or.inl e⟩, fun e => he ⟨i, Or.inr e⟩⟩
    obtain ⟨new, hh, _, hc⟩ := user_history h o p h1 hu
    have hw := hw p
    rw [hh]
    simp only [List.count_append]
    rcases hc with ⟨hi, rfl | ⟨ha, rfl⟩⟩ | ⟨ha, hb, rfl⟩ | ⟨ha, hb, rfl⟩
    · rw [← hi]; simpa using hw
    · rw [← hi]; simpa using hw
    · rw [ha] at hw; rw [hb]; simp at hw ⊢; omega
    · rw [ha] at hw; rw [hb]; simp at hw ⊢; omega

/-- C187: however the tasks are scheduled, once the palette is closed and all tasks have ended every provider has been
shut down as often as it was started.
Missing: providers replaced while the palette is open (`replaced_counterexample`). -/
theorem balanced_partial (os : List Op) (h : Allowed SetWhileClosed {} os) (hv : (os.foldl step {}).visible = false)
    (ht : (os.foldl step {}).tasks = []) (p : Nat) :
    ((os.foldl step {}).calls p).count .startup = ((os.foldl step {}).calls p).count .shutdown := by
  have run : ∀ (os : List Op) (w : World), Inv w → Balanced w → Allowed SetWhileClosed w os →
      Balanced (os.foldl step w) := by
    intro os
    induction os with
    | nil => intro w _ hw _; exact hw
    | cons o os ih => intro w h hw ⟨h1, h2⟩; exact ih _ (h.step o) (balanced_step h hw o h1) h2
  have := run os {} inv_start (fun p => rfl) h p
  unfold history inUse at this
  rw [hv, ht] at this
  simpa [pend] using this

/-- The tasks run in the opposite order. -/
example :
    let os : List Op := [.setProviders 1, .open, .close, .begin 2, .finish 2, .begin 1, .finish 1, .begin 0, .finish 0]
    Allowed SetWhileClosed {} os ∧ (os.foldl step {}).visible = false ∧ (os.foldl step {}).tasks = [] ∧
      (os.foldl step {}).calls 0 = [.shutdown, .ask, .startup] := by
  refine ⟨by simp [Allowed, SetWhileClosed, step], by decide, by decide, by decide⟩

end Textual.Life
