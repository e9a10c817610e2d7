/-!
# The life of command providers

Model of how the command palette calls its providers: `open`, `close`, typing and `set_providers` of
`/repo/crates/textual/src/widget/command_palette.rs` spawn tasks that wait for the provider's lock and then call it. The
tasks run whenever the runtime lets them, which is on several threads (lib.rs:618-624), so the schedule is part of the
input. What the providers answer is in `Verif.Model.Palette`.
-/

namespace Textual.Life

/-- command.rs:109-121 `Provider`: the calls that matter here. `ask` is `discover` or `search`. -/
inductive Call
  | startup | ask | shutdown
deriving DecidableEq, Repr

/-- A spawned task: the provider whose lock it wants, what it calls then, whether it has the lock, and whether `abort` was
called on it. An aborted task ends some time later, at one of its waiting points; until then it may still go on.
Spawned at command_palette.rs:1082-1177, aborted at 1058-1064. -/
structure Task where
  provider : Nat
  call : Call
  running : Bool := false
  dying : Bool := false
deriving DecidableEq, Repr

/-- command_palette.rs:799-841 `CommandPalette` as far as needed, with the tasks that have not ended, oldest first, and
the calls made so far. Providers are numbered as they are made; `next` is the number of providers made. -/
structure World where
  visible : Bool := false
  providers : List Nat := []
  tasks : List Task := []
  log : List (Nat × Call) := []
  next : Nat := 0
deriving DecidableEq, Repr

namespace World

/-- `tokio::spawn` for each provider: command_palette.rs:1078-1088 `startup_providers`, 1090-1098 `shutdown_providers`,
1137-1164 (the end of `start_search`). -/
def spawn (w : World) (c : Call) : World :=
  { w with tasks := w.tasks ++ w.providers.map fun p => { provider := p, call := c } }

/-- command_palette.rs:1056-1059, the aborts of `cancel_search`. `search_handles` has the searches since the last
`cancel_search`; those before it have been aborted already. So all searches have been aborted now. -/
def cancelSearch (w : World) : World :=
  { w with tasks := w.tasks.map fun t => if t.call = .ask then { t with dying := true } else t }

/-- command_palette.rs:1100-1165 `start_search`. -/
def startSearch (w : World) : World := w.cancelSearch.spawn .ask

/-- command_palette.rs:939-950 `open`. -/
def «open» (w : World) : World :=
  if w.visible then w else startSearch (spawn { w with visible := true } .startup)

/-- command_palette.rs:1037-1054 `close_with_selected`. -/
def close (w : World) : World :=
  if w.visible then spawn (cancelSearch { w with visible := false }) .shutdown else w

/-- command_palette.rs:975-986 `set_providers` with `n` new providers (lib.rs:481-489 makes them anew each time). -/
def setProviders (w : World) (n : Nat) : World :=
  let w' := { w.cancelSearch with providers := List.range' w.next n, next := w.next + n }
  if w'.visible then startSearch (spawn w' .startup) else w'

/-- command_palette.rs:1752-1764, a key that changes the input, if the palette is open (1725-1727). -/
def typeKey (w : World) : World := if w.visible then w.startSearch else w

/-- The runtime lets the `i`th task take the lock and make its call, if nobody has the lock
(command_palette.rs:1083-1085, 1094-1095, 1138-1155). -/
def begin (w : World) (i : Nat) : World :=
  match w.tasks[i]? with
  | none => w
  | some t =>
    if t.running || w.tasks.any (fun u => u.running && u.provider == t.provider) then w
    else { w with tasks := w.tasks.set i { t with running := true }, log := w.log ++ [(t.provider, t.call)] }

/-- The call of the `i`th task has returned: the lock is free and the task ends.
The end of a task spawned at command_palette.rs:1082-1177. -/
def finish (w : World) (i : Nat) : World :=
  match w.tasks[i]? with
  | none => w
  | some t => if t.running then { w with tasks := w.tasks.eraseIdx i } else w

/-- An aborted task ends before it has finished. `abort` at command_palette.rs:1058-1064. -/
def die (w : World) (i : Nat) : World :=
  match w.tasks[i]? with
  | none => w
  | some t => if t.dying then { w with tasks := w.tasks.eraseIdx i } else w

end World

/-- What the user, the program and the runtime do. See command_palette.rs:1058-1064, 1082-1177. -/
inductive Op
  | open | close | typeKey | setProviders (n : Nat) | begin (i : Nat) | finish (i : Nat) | die (i : Nat)
deriving DecidableEq, Repr

/-- One step. -/
def step (w : World) : Op → World
  | .open => w.open
  | .close => w.close
  | .typeKey => w.typeKey
  | .setProviders n => w.setProviders n
  | .begin i => w.begin i
  | .finish i => w.finish i
  | .die i => w.die i

end Textual.Life
