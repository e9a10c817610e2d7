/-!
# Messages, timers and intervals (context.rs, message.rs)

The tasks of the async runtime, the channel and the receiving loop, under an arbitrary schedule. Time is a natural number.
Trusted about tokio: the channel is first in first out; `sleep` and `interval_at` are not ready before their time; a late
interval makes up for missed ticks one period apart (its default); `interval_at` panics for a zero period, which ends
the task; `select!` may choose any ready branch.
-/

namespace Textual.Timers

/-- message.rs:14-30 `MessageEnvelope`. -/
structure Envelope (M : Type) where
  message : M
  senderId : Option String
  senderType : String
  bubbling : Bool := true
deriving DecidableEq, Repr

/-- context.rs:28-34 `AppContext`, without the channel. -/
structure Ctx where
  senderId : Option String := none
  senderType : String := "AppContext"
deriving DecidableEq, Repr

/-- context.rs:50-54 `with_sender_info`. -/
def Ctx.withSenderInfo (_ : Ctx) (id : Option String) (type : String) : Ctx := ⟨id, type⟩

/-- message.rs:39-46 `MessageEnvelope::new`, as called in context.rs:90, 112, 153. -/
def Ctx.envelope {M : Type} (c : Ctx) (m : M) : Envelope M := { message := m, senderId := c.senderId, senderType := c.senderType }

/-- A spawned task: a timer (context.rs:103-118) or an interval (context.rs:133-171). `make` are the messages in order:
`message_fn` may give another one each time. `due` is set when the task first runs. -/
structure Task (M : Type) where
  repeats : Bool
  wait : Nat
  make : Nat → M
  ctx : Ctx
  due : Option Nat := none
  count : Nat := 0
  cancelled : Bool := false
  done : Bool := false

/-- A record of a call of `send`: when, by which task (`none`: by `post`), what. It has no counterpart in the code.
The calls are context.rs:91, 113, 154. -/
structure Sent (M : Type) where
  time : Nat
  source : Option Nat
  env : Envelope M

/-- Clock, channel, receiving end (lib.rs:724, 1098-1107), tasks. `handled` are the messages given to `handle_message`;
`closed`: the loop has ended. -/
structure State (M : Type) where
  now : Nat := 0
  queue : List (Envelope M) := []
  handled : List (Envelope M) := []
  closed : Bool := false
  tasks : List (Task M) := []
  sent : List (Sent M) := []

/-- What a schedule is made of. `poll i tickFirst`: task `i` runs up to the next `select!` or its end; `tickFirst` is the
choice of `select!` if both branches are ready. The `select!` is context.rs:150. -/
inductive Action (M : Type) where
  | post (c : Ctx) (m : M)
  | setTimer (c : Ctx) (delay : Nat) (m : M)
  | setInterval (c : Ctx) (period : Nat) (make : Nat → M)
  | cancel (i : Nat)
  | poll (i : Nat) (tickFirst : Bool)
  | advance (d : Nat)
  | receive
  | close

variable {M : Type}

/-- `UnboundedSender::send`: dropped if the loop has ended. Used at context.rs:91, 113, 154. -/
def State.send (st : State M) (source : Option Nat) (e : Envelope M) : State M :=
  if st.closed then st
  else { st with queue := st.queue ++ [e], sent := st.sent ++ [⟨st.now, source, e⟩] }

/-- context.rs:110-117 (timer) and 143-166 (interval): one run of a task; whether a message is sent. -/
def Task.poll (t : Task M) (now : Nat) (closed tickFirst : Bool) : Task M × Bool :=
  if t.done then (t, false)
  else if t.repeats && t.wait == 0 then ({ t with done := true }, false)
  else
    let due := t.due.getD (now + t.wait)
    let t := { t with due := some due }
    let ready := decide (now ≥ due)
    if t.repeats then
      if ready && (!t.cancelled || tickFirst) then
        if closed then ({ t with done := true }, false)
        else ({ t with due := some (due + t.wait), count := t.count + 1 }, true)
      else if t.cancelled then ({ t with done := true }, false)
      else (t, false)
    else if ready then
      if closed then ({ t with done := true }, false) else ({ t with count := t.count + 1, done := true }, true)
    else (t, false)

/-- context.rs:89-92 `post`, 103-118 `set_timer`, 133-171 `set_interval`, 182-193 `cancel` and `drop`,
lib.rs:1098-1107 (receive). -/
def State.step (st : State M) : Action M → State M
  | .post c m => st.send none (c.envelope m)
  | .setTimer c delay m =>
    { st with tasks := st.tasks ++ [{ repeats := false, wait := delay, make := fun _ => m, ctx := c }] }
  | .setInterval c period make =>
    { st with tasks := st.tasks ++ [{ repeats := true, wait := period, make := make, ctx := c }] }
  | .cancel i => { st with tasks := st.tasks.modify i fun t => if t.repeats then { t with cancelled := true } else t }
  | .poll i tickFirst =>
    match st.tasks[i]? with
    | none => st
    | some t =>
      let q := t.poll st.now st.closed tickFirst
      let st' := { st with tasks := st.tasks.set i q.1 }
      if q.2 then st'.send (some i) (t.ctx.envelope (t.make t.count)) else st'
  | .advance d => { st with now := st.now + d }
  | .receive =>
    if st.closed then st
    else
      match st.queue with
      | [] => st
      | e :: q => { st with queue := q, handled := st.handled ++ [e] }
  | .close => { st with closed := true, queue := [] }

/-- A schedule, from the start of the program.
No counterpart in the code: the order in which the runtime polls the tasks of context.rs:113, 150. -/
def State.run (as : List (Action M)) : State M := as.foldl State.step {}

end Textual.Timers
