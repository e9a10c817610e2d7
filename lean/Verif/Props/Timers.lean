import Verif.Model.Timers
import Mathlib.Data.List.Induction
import Mathlib.Tactic.Common

/-! C126–C128: messages, timers, intervals. -/

namespace Textual.Timers

variable {M : Type}

theorem run_snoc (as : List (Action M)) (a : Action M) : State.run (as ++ [a]) = (State.run as).step a := by
  simp [State.run]

theorem run_append (as bs : List (Action M)) : State.run (as ++ bs) = bs.foldl State.step (State.run as) := by
  simp [State.run]

/-! ### C126: the channel -/

/-- **C126**. While the loop runs, each message sent is handled once, in the order of sending: those handled are the first
of those sent, the rest waits. -/
theorem handled_in_order (as : List (Action M)) :
    (State.run as).handled <+: (State.run as).sent.map (·.env) ∧
    ((State.run as).closed = false →
      (State.run as).sent.map (·.env) = (State.run as).handled ++ (State.run as).queue) := by
  have hsend : ∀ (st : State M) s e,
      (st.handled <+: st.sent.map (·.env) ∧ (st.closed = false → st.sent.map (·.env) = st.handled ++ st.queue)) →
      ((st.send s e).handled <+: (st.send s e).sent.map (·.env) ∧
        ((st.send s e).closed = false → (st.send s e).sent.map (·.env) = (st.send s e).handled ++ (st.send s e).queue)) := by
    intro st s e ⟨h1, h2⟩
    unfold State.send
    split
    · exact ⟨h1, h2⟩
    · refine ⟨?_, fun hc => ?_⟩
      · dsimp only
        rw [List.map_append]
        exact h1.trans (List.prefix_append _ _)
      · dsimp only
        rw [List.map_append, h2 hc]
        simp
  induction as using List.reverseRecOn with
  | nil => exact ⟨List.prefix_rfl, fun _ => rfl⟩
  | append_singleton as a ih =>
    rw [run_snoc]
    generalize State.run as = st at ih
    cases a with
    | post c m => exact hsend _ _ _ ih
    | setTimer c d m => exact ih
    | setInterval c d m => exact ih
    | cancel i => exact ih
    | advance d => exact ih
    | poll i b =>
      unfold State.step
      dsimp only
      split
      · exact ih
      · split
        · exact hsend _ _ _ ih
        · exact ih
    | receive =>
      unfold State.step
      dsimp only
      split
      · exact ih
      · rename_i hc
        have h2 := ih.2 (by simpa using hc)
        split
        · exact ih
        · rename_i e q hq
          rw [hq] at h2
          exact ⟨⟨q, by rw [h2]; simp⟩, fun _ => by rw [h2]; simp⟩
    | close => exact ⟨ih.1, fun h => (by cases h)⟩

/-- A post is sent at once, with the widget it comes from. -/
theorem post_sends (as : List (Action M)) (c : Ctx) (id : Option String) (type : String) (m : M)
    (h : (State.run as).closed = false) :
    (State.run (as ++ [.post (c.withSenderInfo id type) m])).queue = (State.run as).queue ++ [⟨m, id, type, true⟩] := by
  rw [run_snoc]
  simp [State.step, State.send, h, Ctx.envelope, Ctx.withSenderInfo]

/-- Two posts and a timer. -/
def demoActions : List (Action Nat) :=
  [.setTimer ⟨some "t", "Timer"⟩ 10 7, .post {} 1, .poll 0 true, .advance 4, .post {} 2, .poll 0 true, .receive, .advance 6,
   .poll 0 false, .receive]

example : (State.run demoActions).handled.map (·.message) = [1, 2] ∧ (State.run demoActions).queue.map (·.message) = [7] ∧
    (State.run demoActions).closed = false := by decide

/-! ### One task -/

/-- The messages sent by task `i`. -/
def State.sentBy (st : State M) (i : Nat) : List (Sent M) := st.sent.filter (·.source == some i)

/-- What is known of task `i`, set up at time `s`. -/
structure TaskInv (repeats : Bool) (wait : Nat) (make : Nat → M) (c : Ctx) (s i : Nat) (st : State M) (t : Task M) : Prop where
  task : st.tasks[i]? = some t
  repeats_eq : t.repeats = repeats
  wait_eq : t.wait = wait
  make_eq : t.make = make
  ctx_eq : t.ctx = c
  since : s ≤ st.now
  len : (st.sentBy i).length = t.count
  nth : ∀ k r, (st.sentBy i)[k]? = some r → s + (k + 1) * wait ≤ r.time ∧ r.time ≤ st.now ∧ r.env = c.envelope (make k)
  due : ∀ d, t.due = some d → s + (t.count + 1) * wait ≤ d ∨ t.done = true
  once : repeats = false → t.count ≤ 1 ∧ (t.count = 1 → t.done = true)
  zero : repeats = true → wait = 0 → t.count = 0
  fresh : t.due = none → t.count = 0

theorem send_fields (st : State M) (s : Option Nat) (e : Envelope M) :
    (st.send s e).tasks = st.tasks ∧ (st.send s e).now = st.now ∧ (st.send s e).closed = st.closed := by
  unfold State.send
  split <;> exact ⟨rfl, rfl, rfl⟩

theorem sentBy_send_other (st : State M) (s : Option Nat) (e : Envelope M) (i : Nat) (h : s ≠ some i) :
    (st.send s e).sentBy i = st.sentBy i := by
  unfold State.send State.sentBy
  split
  · rfl
  · have : (s == some i) = false := by simpa using h
    simp [List.filter_append, this]

theorem sentBy_send_self (st : State M) (e : Envelope M) (i : Nat) (h : st.closed = false) :
    (st.send (some i) e).sentBy i = st.sentBy i ++ [⟨st.now, some i, e⟩] := by
  unfold State.send State.sentBy
  rw [if_neg (by simp [h])]
  simp [List.filter_append]

/-- Nothing but polls and cancellations of task `i` touches it. -/
theorem step_other (st : State M) (i : Nat) (t : Task M) (ht : st.tasks[i]? = some t) (a : Action M)
    (hp : ∀ b, a ≠ .poll i b) (hc : a ≠ .cancel i) :
    (st.step a).tasks[i]? = some t ∧ (st.step a).sentBy i = st.sentBy i ∧ st.now ≤ (st.step a).now := by
  have hi : i < st.tasks.length := (List.getElem?_eq_some_iff.1 ht).1
  cases a with
  | post c m =>
    unfold State.step
    obtain ⟨h1, h2, -⟩ := send_fields st none (c.envelope m)
    exact ⟨by dsimp only; rw [h1, ht], sentBy_send_other _ _ _ _ (by simp), by dsimp only; omega⟩
  | setTimer c d m => exact ⟨by simp [State.step, List.getElem?_append_left hi, ht], rfl, Nat.le_refl _⟩
  | setInterval c d m => exact ⟨by simp [State.step, List.getElem?_append_left hi, ht], rfl, Nat.le_refl _⟩
  | cancel j =>
    have hne : j ≠ i := fun h => hc (by rw [h])
    refine ⟨?_, rfl, Nat.le_refl _⟩
    show (st.tasks.modify j _)[i]? = some t
    rw [List.getElem?_modify, ht]
    simp [hne]
  | poll j b =>
    have hne : j ≠ i := fun h => hp b (by rw [h])
    unfold State.step
    dsimp only
    split
    · exact ⟨ht, rfl, Nat.le_refl _⟩
    · rename_i t' _
      have hset : (st.tasks.set j (t'.poll st.now st.closed b).1)[i]? = some t := by
        rw [List.getElem?_set_ne hne, ht]
      split
      · obtain ⟨h1, h2, -⟩ := send_fields { st with tasks := st.tasks.set j (t'.poll st.now st.closed b).1 } (some j)
          (t'.ctx.envelope (t'.make t'.count))
        refine ⟨by rw [h1]; exact hset, ?_, by rw [h2]; exact Nat.le_refl _⟩
        exact sentBy_send_other _ _ _ _ (by simpa using hne)
      · exact ⟨hset, rfl, Nat.le_refl _⟩
  | advance d => exact ⟨ht, rfl, Nat.le_add_right _ _⟩
  | receive =>
    unfold State.step
    dsimp only
    split
    · exact ⟨ht, rfl, Nat.le_refl _⟩
    · split
      · exact ⟨ht, rfl, Nat.le_refl _⟩
      · exact ⟨ht, rfl, Nat.le_refl _⟩
  | close => exact ⟨ht, rfl, Nat.le_refl _⟩

/-- A poll of task `i`. -/
theorem step_poll (st : State M) (i : Nat) (t : Task M) (ht : st.tasks[i]? = some t) (b : Bool) :
    (st.step (.poll i b)).tasks[i]? = some (t.poll st.now st.closed b).1 ∧
    (st.step (.poll i b)).now = st.now ∧ (st.step (.poll i b)).closed = st.closed ∧
    (st.step (.poll i b)).sentBy i = st.sentBy i ++
      (if (t.poll st.now st.closed b).2 = true ∧ st.closed = false then
        [⟨st.now, some i, t.ctx.envelope (t.make t.count)⟩] else []) := by
  have hi : i < st.tasks.length := (List.getElem?_eq_some_iff.1 ht).1
  unfold State.step
  dsimp only
  rw [ht]
  dsimp only
  have hset : (st.tasks.set i (t.poll st.now st.closed b).1)[i]? = some (t.poll st.now st.closed b).1 := by
    rw [List.getElem?_set_self hi]
  by_cases hq : (t.poll st.now st.closed b).2 = true
  · rw [if_pos hq]
    obtain ⟨h1, h2, h3⟩ := send_fields { st with tasks := st.tasks.set i (t.poll st.now st.closed b).1 } (some i)
      (t.ctx.envelope (t.make t.count))
    refine ⟨by rw [h1]; exact hset, h2, h3, ?_⟩
    by_cases hc : st.closed = false
    · rw [if_pos ⟨hq, hc⟩]
      exact sentBy_send_self { st with tasks := st.tasks.set i (t.poll st.now st.closed b).1 } _ _ hc
    · rw [if_neg fun h => hc h.2]
      unfold State.send
      rw [if_pos (by simpa using hc)]
      simp [State.sentBy]
  · rw [if_neg hq, if_neg fun h => hq h.1]
    exact ⟨hset, rfl, rfl, by simp [State.sentBy]⟩

/-- What a poll does to a task. -/
theorem poll_cases (t : Task M) (now : Nat) (closed b : Bool) :
    let q := t.poll now closed b
    q.1.repeats = t.repeats ∧ q.1.wait = t.wait ∧ q.1.make = t.make ∧ q.1.ctx = t.ctx ∧
    q.1.cancelled = t.cancelled ∧
    ((q.2 = true ∧ closed = false ∧ t.done = false ∧ t.due.getD (now + t.wait) ≤ now ∧ q.1.count = t.count + 1 ∧
        (t.repeats = true → t.wait ≠ 0) ∧
        (t.repeats = true → q.1.due = some (t.due.getD (now + t.wait) + t.wait) ∧ q.1.done = false) ∧
        (t.repeats = false → q.1.due = some (t.due.getD (now + t.wait)) ∧ q.1.done = true)) ∨
      (q.2 = false ∧ q.1.count = t.count ∧ (q.1.due = t.due ∨ q.1.due = some (t.due.getD (now + t.wait))) ∧
        (t.done = true → q.1.done = true))) := by
  obtain ⟨rep, wait, mk, c, due, cnt, can, dn⟩ := t
  unfold Task.poll
  dsimp only
  by_cases h1 : dn = true
  · simp [h1]
  · by_cases h2 : (rep && wait == 0) = true
    · simp_all
    · rw [if_neg h1, if_neg h2]
      generalize due.getD (now + wait) = d
      by_cases hd : d ≤ now
      · simp only [ge_iff_le, hd, decide_true, decide_false]
        cases rep <;> cases can <;> cases b <;> cases closed <;> simp_all
      · simp only [ge_iff_le, hd, decide_true, decide_false]
        cases rep <;> cases can <;> cases b <;> cases closed <;> simp_all

theorem TaskInv.of {repeats : Bool} {wait : Nat} {make : Nat → M} {c : Ctx} {s i : Nat} {st : State M} {t : Task M}
    (h1 : st.tasks[i]? = some t) (h2 : t.repeats = repeats) (h3 : t.wait = wait) (h4 : t.make = make) (h5 : t.ctx = c)
    (h6 : s ≤ st.now)
    (h : (st.sentBy i).length = t.count ∧
      (∀ k r, (st.sentBy i)[k]? = some r → s + (k + 1) * wait ≤ r.time ∧ r.time ≤ st.now ∧ r.env = c.envelope (make k)) ∧
      (∀ d, t.due = some d → s + (t.count + 1) * wait ≤ d ∨ t.done = true) ∧
      (repeats = false → t.count ≤ 1 ∧ (t.count = 1 → t.done = true)) ∧
      (repeats = true → wait = 0 → t.count = 0) ∧ (t.due = none → t.count = 0)) :
    TaskInv repeats wait make c s i st t :=
  ⟨h1, h2, h3, h4, h5, h6, h.1, h.2.1, h.2.2.1, h.2.2.2.1, h.2.2.2.2.1, h.2.2.2.2.2⟩

theorem inv_step {repeats : Bool} {wait : Nat} {make : Nat → M} {c : Ctx} {s i : Nat} {st : State M} {t : Task M}
    (h : TaskInv repeats wait make c s i st t) (a : Action M) :
    ∃ t', TaskInv repeats wait make c s i (st.step a) t' := by
  have hi : i < st.tasks.length := (List.getElem?_eq_some_iff.1 h.task).1
  by_cases hp : ∃ b, a = .poll i b
  · obtain ⟨b, rfl⟩ := hp
    obtain ⟨p1, p2, p3, p4⟩ := step_poll st i t h.task b
    obtain ⟨q1, q2, q3, q4, -, q5⟩ := poll_cases t st.now st.closed b
    refine ⟨_, TaskInv.of p1 (q1.trans h.repeats_eq) (q2.trans h.wait_eq) (q3.trans h.make_eq) (q4.trans h.ctx_eq)
      (by rw [p2]; exact h.since) ?_⟩
    rw [p2, p4]
    have hmul : ∀ n, (n + 1 + 1) * wait = (n + 1) * wait + wait := fun n => Nat.succ_mul _ _
    rcases q5 with ⟨r1, r2, r3, r4, r5, r6, r7, r8⟩ | ⟨r1, r2, r3, r4⟩
    · rw [if_pos ⟨r1, r2⟩]
      have hdue : s + (t.count + 1) * wait ≤ t.due.getD (st.now + t.wait) := by
        cases hd : t.due with
        | none =>
          rw [h.fresh hd]
          have := h.since
          have := h.wait_eq
          simp only [Option.getD_none]
          omega
        | some d =>
          have := (h.due d hd).resolve_right (by simp [r3])
          simpa using this
      refine ⟨?_, ?_, ?_, ?_, ?_, ?_⟩
      · rw [List.length_append, h.len, r5]; rfl
      · intro k r hk
        rw [List.getElem?_append] at hk
        split at hk
        · exact h.nth k r hk
        · rename_i hlt
          have hk0 : k = (st.sentBy i).length := by
            by_contra hne
            have : k - (st.sentBy i).length ≠ 0 := by omega
            obtain ⟨m, hm⟩ := Nat.exists_eq_succ_of_ne_zero this
            rw [hm] at hk
            simp at hk
          rw [hk0, Nat.sub_self] at hk
          simp only [List.getElem?_cons_zero, Option.some.injEq] at hk
          subst hk
          rw [hk0, h.len]
          dsimp only
          rw [h.ctx_eq, h.make_eq]
          exact ⟨Nat.le_trans hdue r4, Nat.le_refl _, rfl⟩
      · intro d hd
        cases hr : t.repeats with
        | true =>
          rw [(r7 hr).1] at hd
          cases hd
          left
          rw [r5, hmul]
          have := h.wait_eq
          omega
        | false => exact .inr (r8 hr).2
      · intro hr
        have hr' : t.repeats = false := h.repeats_eq.trans hr
        have h0 : t.count = 0 := by
          have := h.once hr
          by_contra hne
          have := this.2 (by omega)
          rw [r3] at this
          cases this
        exact ⟨by rw [r5, h0]; decide, fun _ => (r8 hr').2⟩
      · intro hr hw
        exact absurd (h.wait_eq.trans hw) (r6 (h.repeats_eq.trans hr))
      · intro hd
        cases hr : t.repeats with
        | true => rw [(r7 hr).1] at hd; cases hd
        | false => rw [(r8 hr).1] at hd; cases hd
    · rw [if_neg (by simp [r1]), List.append_nil, r2]
      refine ⟨h.len, h.nth, ?_, ?_, h.zero, ?_⟩
      · intro d hd
        have hor : ∀ d, t.due = some d → s + (t.count + 1) * wait ≤ d ∨ (t.poll st.now st.closed b).1.done = true :=
          fun d hd => (h.due d hd).imp_right r4
        rcases r3 with r3 | r3
        · rw [r3] at hd; exact hor d hd
        · rw [r3] at hd
          cases hdd : t.due with
          | none =>
            rw [hdd] at hd
            cases hd
            left
            rw [h.fresh hdd]
            have := h.since
            have := h.wait_eq
            simp only [Option.getD_none]
            omega
          | some d' =>
            rw [hdd] at hd
            cases hd
            exact hor _ hdd
      · intro hr
        exact ⟨(h.once hr).1, fun h1 => r4 ((h.once hr).2 h1)⟩
      · intro hd
        refine h.fresh ?_
        rcases r3 with r3 | r3
        · rw [← r3]; exact hd
        · rw [r3] at hd; cases hd
  · by_cases hc : a = .cancel i
    · subst hc
      have htask : (st.step (.cancel i)).tasks[i]? = some (if t.repeats then { t with cancelled := true } else t) := by
        show (st.tasks.modify i _)[i]? = _
        rw [List.getElem?_modify, h.task]
        simp
      by_cases hr : t.repeats = true
      · rw [if_pos hr] at htask
        exact ⟨_, htask, h.repeats_eq, h.wait_eq, h.make_eq, h.ctx_eq, h.since, h.len, h.nth, h.due, h.once, h.zero, h.fresh⟩
      · rw [if_neg hr] at htask
        exact ⟨_, htask, h.repeats_eq, h.wait_eq, h.make_eq, h.ctx_eq, h.since, h.len, h.nth, h.due, h.once, h.zero, h.fresh⟩
    · obtain ⟨s1, s2, s3⟩ := step_other st i t h.task a (fun b hb => hp ⟨b, hb⟩) hc
      refine ⟨t, s1, h.repeats_eq, h.wait_eq, h.make_eq, h.ctx_eq, Nat.le_trans h.since s3, by rw [s2]; exact h.len, ?_,
        h.due, h.once, h.zero, h.fresh⟩
      intro k r hk
      rw [s2] at hk
      obtain ⟨n1, n2, n3⟩ := h.nth k r hk
      exact ⟨n1, Nat.le_trans n2 s3, n3⟩

theorem inv_steps {repeats : Bool} {wait : Nat} {make : Nat → M} {c : Ctx} {s i : Nat} (bs : List (Action M)) :
    ∀ {st : State M} {t : Task M}, TaskInv repeats wait make c s i st t →
      ∃ t', TaskInv repeats wait make c s i (bs.foldl State.step st) t' := by
  induction bs with
  | nil => exact fun h => ⟨_, h⟩
  | cons a bs ih => exact fun h => (inv_step h a).elim fun t' h' => ih h'

/-- Sources are tasks that exist. -/
theorem sources (as : List (Action M)) : ∀ r ∈ (State.run as).sent, ∀ i, r.source = some i → i < (State.run as).tasks.length := by
  have hsend : ∀ (st : State M) s e, (∀ r ∈ st.sent, ∀ i, r.source = some i → i < st.tasks.length) →
      (∀ i, s = some i → i < st.tasks.length) →
      ∀ r ∈ (st.send s e).sent, ∀ i, r.source = some i → i < (st.send s e).tasks.length := by
    intro st s e h hs r hr i hi
    rw [(send_fields st s e).1]
    unfold State.send at hr
    split at hr
    · exact h r hr i hi
    · simp only [List.mem_append, List.mem_singleton] at hr
      rcases hr with hr | rfl
      · exact h r hr i hi
      · exact hs i hi
  induction as using List.reverseRecOn with
  | nil => intro r hr; cases hr
  | append_singleton as a ih =>
    rw [run_snoc]
    generalize State.run as = st at ih
    cases a with
    | post c m => exact hsend _ _ _ ih (fun i h => by cases h)
    | setTimer c d m =>
      intro r hr i hi
      have := ih r hr i hi
      simp only [State.step, List.length_append]; omega
    | setInterval c d m =>
      intro r hr i hi
      have := ih r hr i hi
      simp only [State.step, List.length_append]; omega
    | cancel j =>
      intro r hr i hi
      have := ih r hr i hi
      simpa [State.step] using this
    | advance d => exact ih
    | poll j b =>
      unfold State.step
      dsimp only
      split
      · exact ih
      · rename_i t ht
        have hj : j < st.tasks.length := (List.getElem?_eq_some_iff.1 ht).1
        split
        · refine hsend _ _ _ ?_ ?_
          · intro r hr i hi
            have := ih r hr i hi
            simpa using this
          · intro i hi
            cases hi
            simpa using hj
        · intro r hr i hi
          have := ih r hr i hi
          simpa using this
    | receive =>
      unfold State.step
      dsimp only
      split
      · exact ih
      · split <;> exact ih
    | close => exact ih

theorem inv_start (as : List (Action M)) (repeats : Bool) (wait : Nat) (make : Nat → M) (c : Ctx) :
    TaskInv repeats wait make c (State.run as).now (State.run as).tasks.length
      { State.run as with tasks := (State.run as).tasks ++ [{ repeats := repeats, wait := wait, make := make, ctx := c }] }
      { repeats := repeats, wait := wait, make := make, ctx := c } := by
  have hnil : (State.run as).sentBy (State.run as).tasks.length = [] := by
    unfold State.sentBy
    rw [List.filter_eq_nil_iff]
    intro r hr h
    have := sources as r hr _ (by simpa using h)
    omega
  refine ⟨by simp, rfl, rfl, rfl, rfl, Nat.le_refl _, ?_, ?_, fun d hd => (by cases hd), fun _ => ⟨by simp, fun h => (by cases h)⟩,
    fun _ _ => rfl, fun _ => rfl⟩
  · show ((State.run as).sentBy _).length = 0
    rw [hnil]; rfl
  · intro k r hk
    have hk : ((State.run as).sentBy (State.run as).tasks.length)[k]? = some r := hk
    rw [hnil] at hk
    cases hk

/-! ### C127: timers -/

/-- **C127** (a). Whatever the schedule, a timer sends at most one message, its own, with its sender, and not before its
delay is over. -/
theorem timer_once (as bs : List (Action M)) (c : Ctx) (delay : Nat) (m : M) :
    let i := (State.run as).tasks.length
    let sent := (State.run (as ++ .setTimer c delay m :: bs)).sentBy i
    sent.length ≤ 1 ∧ ∀ r ∈ sent, (State.run as).now + delay ≤ r.time ∧ r.env = c.envelope m := by
  have happ : as ++ .setTimer c delay m :: bs = (as ++ [.setTimer c delay m]) ++ bs := by simp
  dsimp only
  rw [happ, run_append, run_snoc]
  obtain ⟨t, h⟩ := inv_steps bs (inv_start as false delay (fun _ => m) c)
  have h1 := (h.once rfl).1
  refine ⟨by rw [← h.len] at h1; exact h1, fun r hr => ?_⟩
  obtain ⟨k, hk⟩ := List.getElem?_of_mem hr
  obtain ⟨n1, -, n3⟩ := h.nth k r hk
  refine ⟨?_, n3⟩
  rw [Nat.succ_mul] at n1
  omega

/-! Progress. -/

/-- Task `i` is on its way: its next message is due, at the latest, one period after the last; `first` is when it first
ran, and `fresh` says that it may not have run yet. -/
def Live (fresh : Prop) (repeats : Bool) (wait first i : Nat) (st : State M) : Prop :=
  ∃ t, st.tasks[i]? = some t ∧ t.repeats = repeats ∧ t.wait = wait ∧ t.count = (st.sentBy i).length ∧
    (repeats = true → 0 < wait ∧ t.cancelled = false) ∧
    ((repeats = false ∧ t.count = 1 ∧ t.done = true) ∨
      (t.done = false ∧ (repeats = false → t.count = 0) ∧
        ((fresh ∧ t.due = none ∧ t.count = 0) ∨ ∃ d, t.due = some d ∧ d ≤ first + (t.count + 1) * wait)))

theorem poll_live (t : Task M) (now : Nat) (b : Bool) (hd : t.done = false)
    (hr : t.repeats = true → 0 < t.wait ∧ t.cancelled = false) :
    t.poll now false b =
      if t.due.getD (now + t.wait) ≤ now then
        ({ t with due := some (t.due.getD (now + t.wait) + (if t.repeats then t.wait else 0)), count := t.count + 1,
                  done := !t.repeats }, true)
      else ({ t with due := some (t.due.getD (now + t.wait)) }, false) := by
  obtain ⟨rep, wait, mk, c, due, cnt, can, dn⟩ := t
  dsimp only at hd hr
  subst hd
  unfold Task.poll
  dsimp only
  have h2 : ¬ (rep && wait == 0) = true := by
    cases rep
    · simp
    · have := (hr rfl).1
      simp; omega
  rw [if_neg (by simp), if_neg h2]
  generalize due.getD (now + wait) = d
  cases rep with
  | false => by_cases h : d ≤ now <;> simp [h]
  | true => by_cases h : d ≤ now <;> simp [h, (hr rfl).2]

theorem live_poll {fresh : Prop} {repeats : Bool} {wait first i : Nat} {st : State M}
    (h : Live fresh repeats wait first i st) (hf : fresh → st.now ≤ first) (hc : st.closed = false) (b : Bool) :
    Live False repeats wait first i (st.step (.poll i b)) ∧
    (st.sentBy i).length ≤ ((st.step (.poll i b)).sentBy i).length ∧
    (¬ fresh → first + ((st.sentBy i).length + 1) * wait ≤ st.now → (repeats = false → (st.sentBy i).length = 0) →
      ((st.step (.poll i b)).sentBy i).length = (st.sentBy i).length + 1) := by
  obtain ⟨t, h1, h2, h3, h4, h5, h6⟩ := h
  obtain ⟨p1, p2, p3, p4⟩ := step_poll st i t h1 b
  rw [p4]
  rcases h6 with ⟨r1, r2, r3⟩ | ⟨r1, r2, r3⟩
  · have hp : t.poll st.now st.closed b = (t, false) := by
      unfold Task.poll
      rw [if_pos r3]
    rw [hp] at p1 p4 ⊢
    simp only [Bool.false_eq_true, false_and, if_false, List.append_nil, Nat.le_refl, true_and] at p4 ⊢
    refine ⟨⟨t, p1, h2, h3, by rw [p4]; exact h4, h5, .inl ⟨r1, r2, r3⟩⟩, fun _ _ hz => ?_⟩
    have := hz r1
    omega
  · have hp' := poll_live t st.now b r1 (by rw [h2, h3]; exact h5)
    have hp := (congrArg (fun x => t.poll st.now x b) hc).trans hp'
    have hdue : t.due.getD (st.now + t.wait) ≤ first + (t.count + 1) * wait := by
      rcases r3 with ⟨r3, r4, r5⟩ | ⟨d, r3, r4⟩
      · have := hf r3
        rw [r4, r5, h3]
        simp only [Option.getD_none]
        omega
      · rw [r3]; exact r4
    have hmul : (t.count + 1 + 1) * wait = (t.count + 1) * wait + wait := Nat.succ_mul _ _
    by_cases hle : t.due.getD (st.now + t.wait) ≤ st.now
    · rw [if_pos hle] at hp
      rw [hp] at p1 p4 ⊢
      simp only [hc, and_self, if_true] at p4 ⊢
      refine ⟨⟨_, p1, h2, h3, ?_, h5, ?_⟩, by simp, fun _ _ _ => by simp⟩
      · rw [p4, h4]; simp
      · cases hr : repeats with
        | true =>
          right
          rw [hr] at h2
          dsimp only
          rw [h2]
          refine ⟨rfl, fun h => (by cases h), .inr ⟨_, rfl, ?_⟩⟩
          rw [hmul, if_pos rfl]
          omega
        | false =>
          left
          rw [hr] at h2
          dsimp only
          rw [h2, r2 hr]
          exact ⟨rfl, rfl, rfl⟩
    · rw [if_neg hle] at hp
      rw [hp] at p1 p4 ⊢
      simp only [Bool.false_eq_true, false_and, if_false, List.append_nil, Nat.le_refl, true_and] at p4 ⊢
      refine ⟨⟨_, p1, h2, h3, by rw [p4]; exact h4, h5, .inr ⟨r1, r2, .inr ⟨_, rfl, hdue⟩⟩⟩, fun hn hle' _ => ?_⟩
      rw [← h4] at hle'
      omega

theorem live_step {fresh : Prop} {repeats : Bool} {wait first i : Nat} {st : State M}
    (h : Live fresh repeats wait first i st) (hf : fresh → st.now ≤ first) (a : Action M)
    (hca : repeats = true → a ≠ .cancel i) (hc : (st.step a).closed = false) :
    Live fresh repeats wait first i (st.step a) ∧ (st.sentBy i).length ≤ ((st.step a).sentBy i).length := by
  by_cases hp : ∃ b, a = .poll i b
  · obtain ⟨b, rfl⟩ := hp
    have hc' : st.closed = false := by
      obtain ⟨t, h1, -⟩ := h
      rw [← (step_poll st i t h1 b).2.2.1]; exact hc
    obtain ⟨⟨t, l1, l2, l3, l4, l5, l6⟩, l, -⟩ := live_poll h hf hc' b
    refine ⟨⟨t, l1, l2, l3, l4, l5, l6.imp_right ?_⟩, l⟩
    rintro ⟨m1, m2, m3⟩
    exact ⟨m1, m2, m3.imp_left fun h => h.1.elim⟩
  · by_cases hcc : a = .cancel i
    · subst hcc
      obtain ⟨t, h1, h2, h3, h4, h5, h6⟩ := h
      have hr : repeats = false := by
        cases hr : repeats with
        | true => exact absurd rfl (hca hr)
        | false => rfl
      refine ⟨⟨t, ?_, h2, h3, h4, h5, h6⟩, Nat.le_refl _⟩
      show (st.tasks.modify i _)[i]? = _
      rw [List.getElem?_modify, h1]
      simp [h2, hr]
    · obtain ⟨t, h1, h2, h3, h4, h5, h6⟩ := h
      obtain ⟨s1, s2, -⟩ := step_other st i t h1 a (fun b hb => hp ⟨b, hb⟩) hcc
      rw [s2]
      exact ⟨⟨t, s1, h2, h3, by rw [s2]; exact h4, h5, h6⟩, Nat.le_refl _⟩

theorem step_mono (st : State M) (a : Action M) : st.now ≤ (st.step a).now ∧ (st.closed = true → (st.step a).closed = true) := by
  cases a with
  | post c m =>
    obtain ⟨-, h2, h3⟩ := send_fields st none (c.envelope m)
    exact ⟨by show st.now ≤ (st.send _ _).now; omega, fun h => by show (st.send _ _).closed = true; rw [h3]; exact h⟩
  | poll i b =>
    cases ht : st.tasks[i]? with
    | none =>
      simp only [State.step, ht]
      exact ⟨Nat.le_refl _, id⟩
    | some t =>
      obtain ⟨-, p2, p3, -⟩ := step_poll st i t ht b
      exact ⟨by omega, fun h => by rw [p3]; exact h⟩
  | advance d => exact ⟨Nat.le_add_right _ _, id⟩
  | receive =>
    unfold State.step
    dsimp only
    split
    · exact ⟨Nat.le_refl _, id⟩
    · split <;> exact ⟨Nat.le_refl _, id⟩
  | close => exact ⟨Nat.le_refl _, fun _ => rfl⟩
  | _ => exact ⟨Nat.le_refl _, id⟩

theorem steps_mono (as : List (Action M)) : ∀ st : State M, st.now ≤ (as.foldl State.step st).now ∧
    (st.closed = true → (as.foldl State.step st).closed = true) := by
  induction as with
  | nil => exact fun st => ⟨Nat.le_refl _, id⟩
  | cons a as ih =>
    intro st
    obtain ⟨h1, h2⟩ := step_mono st a
    obtain ⟨h3, h4⟩ := ih (st.step a)
    exact ⟨Nat.le_trans h1 h3, fun h => h4 (h2 h)⟩

theorem not_closed_before (as : List (Action M)) (st : State M) (h : (as.foldl State.step st).closed = false) :
    st.closed = false := by
  by_contra hc
  have := (steps_mono as st).2 (by simpa using hc)
  rw [h] at this
  cases this

theorem live_steps {fresh : Prop} {repeats : Bool} {wait first i : Nat} (as : List (Action M)) :
    ∀ {st : State M}, Live fresh repeats wait first i st → (fresh → (as.foldl State.step st).now ≤ first) →
      (repeats = true → .cancel i ∉ as) → (as.foldl State.step st).closed = false →
      Live fresh repeats wait first i (as.foldl State.step st) ∧
      (st.sentBy i).length ≤ ((as.foldl State.step st).sentBy i).length := by
  induction as with
  | nil => exact fun h _ _ _ => ⟨h, Nat.le_refl _⟩
  | cons a as ih =>
    intro st h hf hca hc
    have hc1 : (st.step a).closed = false := not_closed_before as _ hc
    have hn := (steps_mono as (st.step a)).1
    have hn' := (step_mono st a).1
    obtain ⟨l1, l2⟩ := live_step h (fun f => by have := hf f; simp only [List.foldl_cons] at this; omega) a
      (fun hr he => hca hr (by simp [he])) hc1
    obtain ⟨l3, l4⟩ := ih l1 hf (fun hr he => hca hr (by simp [he])) hc
    exact ⟨l3, Nat.le_trans l2 l4⟩

theorem live_start (as : List (Action M)) (repeats : Bool) (wait : Nat) (make : Nat → M) (c : Ctx) (first : Nat)
    (hw : repeats = true → 0 < wait) :
    Live True repeats wait first (State.run as).tasks.length
      { State.run as with tasks := (State.run as).tasks ++ [{ repeats := repeats, wait := wait, make := make, ctx := c }] } :=
  ⟨_, (inv_start as repeats wait make c).task, rfl, rfl, (inv_start as repeats wait make c).len.symm, fun h => ⟨hw h, rfl⟩,
    .inr ⟨rfl, fun _ => rfl, .inl ⟨trivial, rfl, rfl⟩⟩⟩

/-- **C127** (b). It does send it: if the task ran, and ran again when the delay had passed since. -/
theorem timer_fires (as bs cs ds : List (Action M)) (c : Ctx) (delay : Nat) (m : M) (b b' : Bool) :
    let i := (State.run as).tasks.length
    let first := as ++ .setTimer c delay m :: bs
    let second := first ++ .poll i b :: cs
    (State.run first).now + delay ≤ (State.run second).now → (State.run second).closed = false →
    ((State.run (second ++ .poll i b' :: ds)).sentBy i).length = 1 := by
  intro i first second ht hc
  have h0 := live_start as false delay (fun _ => m) c (State.run first).now (fun h => by cases h)
  have hfirst : State.run first = bs.foldl State.step
      { State.run as with tasks := (State.run as).tasks ++ [{ repeats := false, wait := delay, make := fun _ => m, ctx := c }] } := by
    have : first = (as ++ [.setTimer c delay m]) ++ bs := by simp [first]
    rw [this, run_append, run_snoc]
    rfl
  have hsecond : State.run second = cs.foldl State.step ((State.run first).step (.poll i b)) := by
    have : second = (first ++ [.poll i b]) ++ cs := by simp [second]
    rw [this, run_append, run_snoc]
  have hc2 : ((State.run first).step (.poll i b)).closed = false := not_closed_before cs _ (by rw [← hsecond]; exact hc)
  have hc1 : (State.run first).closed = false := not_closed_before [.poll i b] _ hc2
  obtain ⟨l1, -⟩ := live_steps bs h0 (fun _ => by rw [← hfirst]; exact Nat.le_refl _) (fun h => by cases h) (by rw [← hfirst]; exact hc1)
  rw [← hfirst] at l1
  obtain ⟨l2, -, -⟩ := live_poll l1 (fun _ => Nat.le_refl _) hc1 b
  obtain ⟨l3, -⟩ := live_steps cs l2 (fun h => h.elim) (fun h => by cases h) (by rw [← hsecond]; exact hc)
  rw [← hsecond] at l3
  obtain ⟨l4, l5, l6⟩ := live_poll l3 (fun h => h.elim) hc b'
  have hfin : State.run (second ++ .poll i b' :: ds) = ds.foldl State.step ((State.run second).step (.poll i b')) := by
    have : second ++ .poll i b' :: ds = (second ++ [.poll i b']) ++ ds := by simp
    rw [this, run_append, run_snoc]
  have hone : ((State.run (second ++ .poll i b' :: ds)).sentBy i).length ≤ 1 := by
    have : second ++ .poll i b' :: ds = as ++ .setTimer c delay m :: (bs ++ .poll i b :: cs ++ .poll i b' :: ds) := by
      simp [second, first]
    rw [this]
    exact (timer_once as _ c delay m).1
  have hmono : ∀ (ds : List (Action M)) (st : State M), (st.sentBy i).length ≤ ((ds.foldl State.step st).sentBy i).length := by
    intro ds
    induction ds with
    | nil => exact fun st => Nat.le_refl _
    | cons a ds ih =>
      intro st
      refine Nat.le_trans ?_ (ih _)
      have hs : ∀ (st : State M) s e, (st.sentBy i).length ≤ ((st.send s e).sentBy i).length := by
        intro st s e
        unfold State.send State.sentBy
        split
        · exact Nat.le_refl _
        · simp [List.filter_append]
      cases a with
      | post c m => exact hs _ _ _
      | poll j b =>
        unfold State.step
        dsimp only
        split
        · exact Nat.le_refl _
        · rename_i t _
          split
          · exact hs { st with tasks := st.tasks.set j (t.poll st.now st.closed b).1 } _ _
          · exact Nat.le_refl _
      | receive =>
        unfold State.step
        dsimp only
        split
        · exact Nat.le_refl _
        · split <;> exact Nat.le_refl _
      | _ => exact Nat.le_refl _
  have hge : 1 ≤ (((State.run second).step (.poll i b')).sentBy i).length := by
    by_cases hz : ((State.run second).sentBy i).length = 0
    · have l6 : (((State.run second).step (.poll i b')).sentBy i).length = ((State.run second).sentBy i).length + 1 :=
        l6 id (by show _ + (((State.run second).sentBy i).length + 1) * delay ≤ _; rw [hz]; omega) (fun _ => hz)
      omega
    · have l5 : ((State.run second).sentBy i).length ≤ (((State.run second).step (.poll i b')).sentBy i).length := l5
      omega
  have := hmono ds ((State.run second).step (.poll i b'))
  rw [hfin] at hone ⊢
  omega

example :
    let first : List (Action Nat) := [.setTimer ⟨some "t", "Timer"⟩ 10 7, .post {} 1]
    let second := first ++ .poll 0 true :: [.advance 4, .poll 0 true, .advance 6]
    (State.run first).now + 10 ≤ (State.run second).now ∧ (State.run second).closed = false ∧
    ((State.run (second ++ [.poll 0 false])).sentBy 0).map (·.time) = [10] := by decide

/-! ### C128: intervals -/

/-- **C128** (a). Whatever the schedule, the messages of an interval are those of its function, in order, with its sender;
the first comes no earlier than a period after it was set, each further one no earlier than a period later. -/
theorem interval_paced (as bs : List (Action M)) (c : Ctx) (period : Nat) (make : Nat → M) (k : Nat) (r : Sent M) :
    let i := (State.run as).tasks.length
    ((State.run (as ++ .setInterval c period make :: bs)).sentBy i)[k]? = some r →
    (State.run as).now + (k + 1) * period ≤ r.time ∧ r.env = c.envelope (make k) := by
  intro i h
  have happ : as ++ .setInterval c period make :: bs = (as ++ [.setInterval c period make]) ++ bs := by simp
  rw [happ, run_append, run_snoc] at h
  obtain ⟨t, hi⟩ := inv_steps bs (inv_start as true period make c)
  obtain ⟨n1, -, n3⟩ := hi.nth k r h
  exact ⟨n1, n3⟩

/-- **C128** (a). So at any time it has not sent more than one message for each period passed; with a zero period, none. -/
theorem interval_rate (as bs : List (Action M)) (c : Ctx) (period : Nat) (make : Nat → M) :
    let i := (State.run as).tasks.length
    let st := State.run (as ++ .setInterval c period make :: bs)
    (State.run as).now + (st.sentBy i).length * period ≤ st.now ∧ (period = 0 → st.sentBy i = []) := by
  have happ : as ++ .setInterval c period make :: bs = (as ++ [.setInterval c period make]) ++ bs := by simp
  dsimp only
  rw [happ, run_append, run_snoc]
  obtain ⟨t, hi⟩ := inv_steps bs (inv_start as true period make c)
  constructor
  · show (State.run as).now + ((bs.foldl State.step { State.run as with tasks := _ }).sentBy _).length * period ≤
      (bs.foldl State.step { State.run as with tasks := _ }).now
    generalize hl : (bs.foldl State.step { State.run as with tasks := _ }).sentBy (State.run as).tasks.length = l
    cases hn : l.length with
    | zero => have := hi.since; rw [Nat.zero_mul]; exact this
    | succ n =>
      obtain ⟨n1, n2, -⟩ := hi.nth n _ (List.getElem?_eq_getElem (by rw [hl, hn]; omega))
      exact Nat.le_trans n1 n2
  · intro hp
    refine List.eq_nil_of_length_eq_zero ?_
    exact hi.len.trans (hi.zero rfl hp)

/-- An interval of 10 that runs late. -/
def lateActions : List (Action Nat) :=
  [.advance 3, .setInterval ⟨none, "Clock"⟩ 10 id, .poll 0 true, .advance 35, .poll 0 true, .poll 0 true, .poll 0 true,
   .poll 0 true, .advance 5, .poll 0 true]

example : ((State.run lateActions).sentBy 0).map (fun r => (r.time, r.env.message)) = [(38, 0), (38, 1), (38, 2), (43, 3)] := by
  decide

/-- **C128** (b). It does send them: if it first ran, is not cancelled, and runs `n` times when `n` periods have passed
since, it has sent `n` messages. -/
theorem interval_fires (as bs cs : List (Action M)) (c : Ctx) (period : Nat) (make : Nat → M) (b : Bool) (n : Nat) :
    let i := (State.run as).tasks.length
    let first := as ++ .setInterval c period make :: bs
    let then_ := first ++ .poll i b :: cs
    0 < period → .cancel i ∉ bs → .cancel i ∉ cs → (State.run first).now + n * period ≤ (State.run then_).now →
    (State.run then_).closed = false →
    n ≤ ((State.run (then_ ++ List.replicate n (.poll i b))).sentBy i).length := by
  intro i first then_ hp hb hcs ht hc
  have h0 := live_start as true period make c (State.run first).now (fun _ => hp)
  have hfirst : State.run first = bs.foldl State.step
      { State.run as with tasks := (State.run as).tasks ++ [{ repeats := true, wait := period, make := make, ctx := c }] } := by
    have : first = (as ++ [.setInterval c period make]) ++ bs := by simp [first]
    rw [this, run_append, run_snoc]
    rfl
  have hsecond : State.run then_ = cs.foldl State.step ((State.run first).step (.poll i b)) := by
    have : then_ = (first ++ [.poll i b]) ++ cs := by simp [then_]
    rw [this, run_append, run_snoc]
  have hc2 : ((State.run first).step (.poll i b)).closed = false := not_closed_before cs _ (by rw [← hsecond]; exact hc)
  have hc1 : (State.run first).closed = false := not_closed_before [.poll i b] _ hc2
  obtain ⟨l1, -⟩ := live_steps bs h0 (fun _ => by rw [← hfirst]; exact Nat.le_refl _) (fun _ => hb) (by rw [← hfirst]; exact hc1)
  rw [← hfirst] at l1
  obtain ⟨l2, -, -⟩ := live_poll l1 (fun _ => Nat.le_refl _) hc1 b
  obtain ⟨l3, -⟩ := live_steps cs l2 (fun h => h.elim) (fun _ => hcs) (by rw [← hsecond]; exact hc)
  rw [← hsecond] at l3
  rw [run_append]
  have hkey : ∀ (k : Nat) (st : State M), Live False true period (State.run first).now i st → st.closed = false →
      (State.run first).now + n * period ≤ st.now → n ≤ (st.sentBy i).length + k →
      n ≤ (((List.replicate k (Action.poll i b)).foldl State.step st).sentBy i).length := by
    intro k
    induction k with
    | zero => intro st _ _ _ h; exact h
    | succ k ih =>
      intro st h hc ht hk
      rw [List.replicate_succ, List.foldl_cons]
      obtain ⟨m1, m2, m3⟩ := live_poll h (fun h => h.elim) hc b
      have hst : (st.step (.poll i b)).now = st.now ∧ (st.step (.poll i b)).closed = st.closed := by
        obtain ⟨t, h1, -⟩ := h
        exact ⟨(step_poll st i t h1 b).2.1, (step_poll st i t h1 b).2.2.1⟩
      refine ih _ m1 (by rw [hst.2]; exact hc) (by rw [hst.1]; exact ht) ?_
      by_cases hlt : (st.sentBy i).length < n
      · have hmul : ((st.sentBy i).length + 1) * period ≤ n * period := Nat.mul_le_mul_right _ hlt
        rw [m3 id (by omega) (fun h => by cases h)]
        omega
      · omega
  exact hkey n _ l3 hc ht (by omega)

example :
    let first : List (Action Nat) := [.setInterval {} 10 id]
    let then_ := first ++ .poll 0 true :: [.advance 25]
    (State.run first).now + 2 * 10 ≤ (State.run then_).now ∧ (State.run then_).closed = false ∧
    ((State.run (then_ ++ List.replicate 2 (.poll 0 true))).sentBy 0).length = 2 := by decide

/-! Cancellation. -/

theorem poll_done (t : Task M) (now : Nat) (closed b : Bool) (h : t.done = true) : t.poll now closed b = (t, false) := by
  unfold Task.poll
  rw [if_pos h]

/-- A task that has ended sends nothing more. -/
theorem done_steps (i : Nat) (as : List (Action M)) : ∀ (st : State M) (t : Task M), st.tasks[i]? = some t → t.done = true →
    (as.foldl State.step st).sentBy i = st.sentBy i := by
  induction as with
  | nil => exact fun _ _ _ _ => rfl
  | cons a as ih =>
    intro st t ht hd
    rw [List.foldl_cons]
    by_cases hp : ∃ b, a = .poll i b
    · obtain ⟨b, rfl⟩ := hp
      obtain ⟨p1, p2, p3, p4⟩ := step_poll st i t ht b
      rw [poll_done t _ _ _ hd] at p1 p4
      rw [ih _ t p1 hd, p4]
      simp
    · by_cases hcc : a = .cancel i
      · subst hcc
        refine (ih _ (if t.repeats then { t with cancelled := true } else t) ?_ ?_).trans rfl
        · show (st.tasks.modify i _)[i]? = _
          rw [List.getElem?_modify, ht]
          simp
        · split <;> exact hd
      · obtain ⟨s1, s2, -⟩ := step_other st i t ht a (fun b hb => hp ⟨b, hb⟩) hcc
        rw [ih _ t s1 hd, s2]

/-- Without polls a task stays as it is, but for cancellation. -/
theorem idle_steps (i : Nat) (as : List (Action M)) (hno : ∀ b, .poll i b ∉ as) : ∀ (st : State M) (t : Task M),
    st.tasks[i]? = some t → ∃ t', (as.foldl State.step st).tasks[i]? = some t' ∧ (t' = t ∨ t' = { t with cancelled := true }) ∧
      (as.foldl State.step st).sentBy i = st.sentBy i := by
  induction as with
  | nil => exact fun st t h => ⟨t, h, .inl rfl, rfl⟩
  | cons a as ih =>
    intro st t ht
    rw [List.foldl_cons]
    have ih := ih (fun b hb => hno b (List.mem_cons_of_mem _ hb))
    by_cases hcc : a = .cancel i
    · subst hcc
      have h1 : (st.step (.cancel i)).tasks[i]? = some (if t.repeats then { t with cancelled := true } else t) := by
        show (st.tasks.modify i _)[i]? = _
        rw [List.getElem?_modify, ht]
        simp
      obtain ⟨t', i1, i2, i3⟩ := ih _ _ h1
      refine ⟨t', i1, ?_, i3⟩
      split at i2
      · exact .inr (i2.elim id id)
      · exact i2
    · obtain ⟨s1, s2, -⟩ := step_other st i t ht a (fun b hb => hno b (by simp [← hb])) hcc
      obtain ⟨t', i1, i2, i3⟩ := ih _ _ s1
      exact ⟨t', i1, i2, by rw [i3, s2]⟩

theorem poll_cancelled (t : Task M) (now : Nat) (closed b : Bool) (hr : t.repeats = true) (hc : t.cancelled = true)
    (h : t.done = true ∨ t.wait = 0 ∨ b = false ∨ now < t.due.getD (now + t.wait)) :
    (t.poll now closed b).1.done = true ∧ (t.poll now closed b).2 = false := by
  unfold Task.poll
  by_cases hd : t.done = true
  · rw [if_pos hd]; exact ⟨hd, rfl⟩
  · rw [if_neg hd]
    by_cases hw : t.wait = 0
    · rw [if_pos (by simp [hr, hw])]; exact ⟨rfl, rfl⟩
    · have hlt := (h.resolve_left hd).resolve_left hw
      rw [if_neg (by simp [hw])]
      dsimp only
      rcases hlt with hb | hlt
      · rw [if_pos hr]
        simp [hc, hb]
      have : decide (now ≥ t.due.getD (now + t.wait)) = false := by simpa using hlt
      rw [this, if_pos hr]
      simp [hc]

/-- **C128** (c) (partial: the task must run before the next tick is due, or `select!` must choose the cancellation; see
the counterexample). A cancelled interval sends nothing more. -/
theorem cancel_stops_partial (as bs cs ds : List (Action M)) (c : Ctx) (period : Nat) (make : Nat → M) (b : Bool) :
    let i := (State.run as).tasks.length
    let before := as ++ .setInterval c period make :: bs
    let then_ := before ++ .cancel i :: cs
    (∀ b, .poll i b ∉ cs) →
    b = false ∨ (State.run then_).now < (State.run as).now + (((State.run before).sentBy i).length + 1) * period →
    (State.run (then_ ++ .poll i b :: ds)).sentBy i = (State.run before).sentBy i := by
  intro i before then_ hno hlt
  have hbefore : State.run before = bs.foldl State.step
      { State.run as with tasks := (State.run as).tasks ++ [{ repeats := true, wait := period, make := make, ctx := c }] } := by
    have : before = (as ++ [.setInterval c period make]) ++ bs := by simp [before]
    rw [this, run_append, run_snoc]
    rfl
  obtain ⟨t, hi⟩ := inv_steps bs (inv_start as true period make c)
  rw [← hbefore] at hi
  have hthen : State.run then_ = cs.foldl State.step ((State.run before).step (.cancel i)) := by
    have : then_ = (before ++ [.cancel i]) ++ cs := by simp [then_]
    rw [this, run_append, run_snoc]
  have h1 : ((State.run before).step (.cancel i)).tasks[i]? = some { t with cancelled := true } := by
    show ((State.run before).tasks.modify i _)[i]? = _
    rw [List.getElem?_modify, hi.task]
    simp [hi.repeats_eq]
  obtain ⟨t', i1, i2, i3⟩ := idle_steps i cs hno _ _ h1
  rw [← hthen] at i1 i3
  have ht' : t' = { t with cancelled := true } := i2.elim id id
  have hsame : (State.run then_).sentBy i = (State.run before).sentBy i := i3
  have hfin : State.run (then_ ++ .poll i b :: ds) = ds.foldl State.step ((State.run then_).step (.poll i b)) := by
    have : then_ ++ .poll i b :: ds = (then_ ++ [.poll i b]) ++ ds := by simp
    rw [this, run_append, run_snoc]
  obtain ⟨p1, p2, p3, p4⟩ := step_poll (State.run then_) i t' i1 b
  have hpc := poll_cancelled t' (State.run then_).now (State.run then_).closed b (by rw [ht']; exact hi.repeats_eq)
    (by rw [ht']) (by
      rw [ht']
      dsimp only
      by_cases hd : t.done = true
      · exact .inl hd
      · right
        by_cases hw : t.wait = 0
        · exact .inl hw
        · right
          rcases hlt with hb | hlt
          · exact .inl hb
          right
          cases hdue : t.due with
          | none => simp only [Option.getD_none]; omega
          | some d =>
            have := (hi.due d hdue).resolve_right hd
            rw [← hi.len] at this
            simp only [Option.getD_some]
            exact Nat.lt_of_lt_of_le hlt this)
  rw [hfin, done_steps i ds _ _ p1 hpc.1, p4, hpc.2, hsame]
  simp

example :
    let before : List (Action Nat) := [.setInterval {} 10 id, .poll 0 true, .advance 14, .poll 0 true]
    let then_ := before ++ .cancel 0 :: [.advance 3]
    (State.run then_).now < (State.run ([] : List (Action Nat))).now + (((State.run before).sentBy 0).length + 1) * 10 ∧
    ((State.run before).sentBy 0).length = 1 := by decide

/-- **C128** (c). An interval whose handle is dropped before the task runs sends nothing at all. -/
theorem dropped_never_sends (as bs ds : List (Action M)) (c : Ctx) (period : Nat) (make : Nat → M) :
    let i := (State.run as).tasks.length
    (∀ b, .poll i b ∉ bs) →
    (State.run (as ++ .setInterval c period make :: bs ++ .cancel i :: ds)).sentBy i = [] := by
  intro i hno
  have h0 := inv_start as true period make c
  have hbefore : State.run (as ++ .setInterval c period make :: bs) = bs.foldl State.step
      { State.run as with tasks := (State.run as).tasks ++ [{ repeats := true, wait := period, make := make, ctx := c }] } := by
    have : as ++ .setInterval c period make :: bs = (as ++ [.setInterval c period make]) ++ bs := by simp
    rw [this, run_append, run_snoc]
    rfl
  obtain ⟨t', i1, i2, i3⟩ := idle_steps i bs hno _ _ h0.task
  rw [← hbefore] at i1 i3
  have hnil : (State.run (as ++ .setInterval c period make :: bs)).sentBy i = [] := by
    rw [i3]
    exact List.eq_nil_of_length_eq_zero h0.len
  have h1 : ((State.run (as ++ .setInterval c period make :: bs)).step (.cancel i)).tasks[i]? =
      some { repeats := true, wait := period, make := make, ctx := c, cancelled := true } := by
    show ((State.run _).tasks.modify i _)[i]? = _
    rw [List.getElem?_modify, i1]
    rcases i2 with rfl | rfl <;> simp
  have happ : as ++ .setInterval c period make :: bs ++ .cancel i :: ds =
      (as ++ .setInterval c period make :: bs) ++ [.cancel i] ++ ds := by simp
  rw [happ, run_append, run_snoc]
  have hs : ((State.run (as ++ .setInterval c period make :: bs)).step (.cancel i)).sentBy i = [] := hnil
  generalize (State.run (as ++ .setInterval c period make :: bs)).step (.cancel i) = st at h1 hs
  clear happ hnil i1 i3 hbefore h0 i2 hno
  induction ds generalizing st with
  | nil => exact hs
  | cons a ds ih =>
    rw [List.foldl_cons]
    by_cases hp : ∃ b, a = .poll i b
    · obtain ⟨b, rfl⟩ := hp
      obtain ⟨p1, p2, p3, p4⟩ := step_poll st i _ h1 b
      have hpc := poll_cancelled { repeats := true, wait := period, make := make, ctx := c, cancelled := true } st.now st.closed b
        rfl rfl (by
          right
          by_cases hw : period = 0
          · exact .inl hw
          · right; right; simp only [Option.getD_none]; omega)
      rw [done_steps i ds _ _ p1 hpc.1, p4, hpc.2, hs]
      simp
    · by_cases hcc : a = .cancel i
      · subst hcc
        refine ih _ ?_ hs
        show (st.tasks.modify i _)[i]? = _
        rw [List.getElem?_modify, h1]
        simp
      · obtain ⟨s1, s2, -⟩ := step_other st i _ h1 a (fun b hb => hp ⟨b, hb⟩) hcc
        exact ih _ s1 (by rw [s2]; exact hs)

/-- As in the examples of the documentation (context.rs:213, lib.rs:529), which do not keep the handle. -/
example : ((State.run ([.setInterval {} 10 id, .cancel 0, .poll 0 true, .advance 100, .poll 0 true, .poll 0 true] :
    List (Action Nat))).sentBy 0).length = 0 := by decide

/-- **C128** (c) fails for late tasks: ticks that are due when the task runs may still be sent, all of them. -/
theorem late_cancel_counterexample :
    let as : List (Action Nat) := [.setInterval {} 10 id, .poll 0 true, .advance 50, .cancel 0]
    ((State.run as).sentBy 0).length = 0 ∧
    ((State.run (as ++ List.replicate 5 (.poll 0 true))).sentBy 0).length = 5 := by decide

end Textual.Timers
