import Verif.Model.Region

/-!
# The event loop (lib.rs:647-1113)

Three parts: the terminal session around the loop, the loop with its redraw and rebuild flags, and the tooltip timing.
What handlers of the program and of widgets do is arbitrary: an event carries the function from program and tree to
program and tree that its handlers amount to.
-/

namespace Textual.Loop

/-! ### The terminal session -/

/-- The terminal commands of `run_inner` (lib.rs:648-672). -/
inductive Cmd where
  | enableRaw | enterAlt | hideCursor | enableMouse | disableMouse | showCursor | leaveAlt | disableRaw
deriving DecidableEq, Repr

/-- The modes of the terminal. Set at lib.rs:652-657. -/
structure Term where
  raw : Bool := false
  alt : Bool := false
  hidden : Bool := false
  mouse : Bool := false
deriving DecidableEq, Repr

/-- What the commands of lib.rs:650-669 do. -/
def Term.apply (t : Term) : Cmd → Term
  | .enableRaw => { t with raw := true }
  | .enterAlt => { t with alt := true }
  | .hideCursor => { t with hidden := true }
  | .enableMouse => { t with mouse := true }
  | .disableMouse => { t with mouse := false }
  | .showCursor => { t with hidden := false }
  | .leaveAlt => { t with alt := false }
  | .disableRaw => { t with raw := false }

/-- How the loop, or the whole run, ends. See lib.rs:648. -/
inductive End where
  | ok | failed | panicked
deriving DecidableEq, Repr

/-- Commands in order up to the first that fails (`?`). Used at lib.rs:652-657. -/
def Term.exec (fails : Cmd → Bool) (t : Term) : List Cmd → Term × Bool
  | [] => (t, true)
  | c :: cs => if fails c then (t, false) else Term.exec fails (t.apply c) cs

/-- lib.rs:648-672 `run_inner`. There is no guard and no panic hook: a panic of the loop leaves at once. -/
def session (fails : Cmd → Bool) (loop : End) (t : Term) : Term × End :=
  match t.exec fails [.enableRaw, .enterAlt, .hideCursor, .enableMouse] with
  | (t, false) => (t, .failed)
  | (t, true) =>
    match loop with
    | .panicked => (t, .panicked)
    | result =>
      match t.exec fails [.disableMouse, .showCursor, .leaveAlt, .disableRaw] with
      | (t, false) => (t, .failed)
      | (t, true) => (t, result)

/-! ### Redrawing and rebuilding -/

/-- The program `α`, the widget tree `τ` and what it looks like `ν`, with the calls the loop makes: `compose` stands for
lib.rs:753-775 (composing, resizing, focusing, styling), `focus` for 785-787, `fallback` for 794-801 (the answer is that
of `set_focus_index`), `restyle` for 806-813, `resize` for 958, `view` for 815-818. -/
structure Program (α τ ν : Type) where
  compose : α → Nat × Nat → τ
  needsRecompose : α → Bool := fun _ => false
  focusIndex : α → Nat := fun _ => 0
  quits : α → Bool := fun _ => false
  focus : Nat → τ → τ := fun _ t => t
  fallback : τ → τ × Bool := fun t => (t, false)
  restyle : τ → τ := id
  resize : Nat × Nat → τ → τ := fun _ t => t
  view : Nat × Nat → τ → ν

/-- The variables of the loop (lib.rs:685, 736-741) and what the terminal shows. -/
structure State (α τ ν : Type) where
  app : α
  tree : τ
  size : Nat × Nat
  lastFocus : Nat
  needsRender : Bool := true
  needsRecompose : Bool := false
  shown : Option ν := none

/-- What can happen. `key`: whether Tab moved the focus. `tooltip`: whether a tooltip was shown. `palette`, `message`:
whether `drain_command_palette` reports a change. The branches of `select!`, lib.rs:826. -/
inductive Event (α τ : Type) where
  | mouse (f : α × τ → α × τ)
  | shortcut (f : α × τ → α × τ)
  | key (f : α × τ → α × τ) (moved : Bool)
  | resize (size : Nat × Nat)
  | tooltip (f : τ → τ) (shows : Bool)
  | palette (f : α × τ → α × τ) (changed : Bool)
  | message (f : α × τ → α × τ) (changed : Bool)
  | ignored

variable {α τ ν : Type}

/-- lib.rs:827-1110: one turn of `select!`. -/
def State.handle (p : Program α τ ν) (st : State α τ ν) : Event α τ → State α τ ν
  | .mouse f =>
    let q := f (st.app, st.tree)
    { st with app := q.1, tree := q.2, needsRecompose := p.needsRecompose q.1, needsRender := true }
  | .shortcut f =>
    let q := f (st.app, st.tree)
    { st with app := q.1, tree := q.2, needsRecompose := p.needsRecompose q.1, needsRender := true }
  | .key f moved =>
    let q := f (st.app, st.tree)
    { st with app := q.1, tree := q.2, needsRecompose := p.needsRecompose q.1, needsRender := st.needsRender || moved }
  | .resize size => { st with size := size, tree := p.resize size st.tree, needsRender := true }
  | .tooltip f shows => { st with tree := f st.tree, needsRender := st.needsRender || shows }
  | .palette f changed =>
    let q := f (st.app, st.tree)
    { st with app := q.1, tree := q.2, needsRecompose := p.needsRecompose q.1, needsRender := st.needsRender || changed }
  | .message f changed =>
    let q := f (st.app, st.tree)
    { st with app := q.1, tree := q.2, needsRecompose := p.needsRecompose q.1, needsRender := st.needsRender || changed }
  | .ignored => st

/-- lib.rs:752-780: rebuild. -/
def State.rebuild (p : Program α τ ν) (st : State α τ ν) : State α τ ν :=
  if st.needsRecompose then
    { st with tree := p.compose st.app st.size, lastFocus := p.focusIndex st.app, needsRecompose := false,
              needsRender := true }
  else st

/-- lib.rs:783-790: the program has moved the focus. -/
def State.follow (p : Program α τ ν) (st : State α τ ν) : State α τ ν :=
  if p.focusIndex st.app ≠ st.lastFocus then
    { st with tree := p.focus (p.focusIndex st.app) st.tree, lastFocus := p.focusIndex st.app, needsRender := true }
  else st

/-- lib.rs:794-801: a focused widget that cannot have the focus gives it up. -/
def State.settle (p : Program α τ ν) (st : State α τ ν) : State α τ ν :=
  let q := p.fallback st.tree
  if q.2 then { st with tree := q.1, lastFocus := p.focusIndex st.app, needsRender := true }
  else { st with tree := q.1 }

/-- lib.rs:803-821: draw. -/
def State.draw (p : Program α τ ν) (st : State α τ ν) : State α τ ν :=
  if st.needsRender then
    { st with tree := p.restyle st.tree, shown := some (p.view st.size (p.restyle st.tree)), needsRender := false }
  else st

/-- lib.rs:750-821: the way to the next `select!`, unless the program quits. -/
def State.top (p : Program α τ ν) (st : State α τ ν) : State α τ ν :=
  if p.quits st.app then st else (((st.rebuild p).follow p).settle p).draw p

/-- lib.rs:750-1110: one round of the loop: an event, then the way to the next `select!`. -/
def State.step (p : Program α τ ν) (st : State α τ ν) (e : Event α τ) : State α τ ν :=
  if p.quits st.app then st else (st.handle p e).top p

/-- lib.rs:685-750: the start. -/
def State.start (p : Program α τ ν) (app : α) (size : Nat × Nat) : State α τ ν :=
  State.top p { app := app, tree := p.compose app size, size := size, lastFocus := p.focusIndex app }

/-- lib.rs:750-1110: a history of events. -/
def State.run (p : Program α τ ν) (st : State α τ ν) (es : List (Event α τ)) : State α τ ν := es.foldl (State.step p) st

/-! ### Tooltips -/

/-- The variables of lib.rs:743-746 and the fields of the `Tooltip` widget (tooltip.rs:11-15). Times are natural
numbers. -/
structure Tip where
  deadline : Option Nat := none
  text : Option String := none
  visible : Bool := false
  pos : Option (Int × Int) := none
  widgetVisible : Bool := false
  widgetText : String := ""
  offset : Int × Int := (0, 0)
deriving DecidableEq, Repr

/-- What matters to tooltips: a move of the mouse (to where, and the tooltip found under it), another mouse event, the
tick of the timer, a rebuild of the widgets. The variables are lib.rs:743-745. -/
inductive TipEvent where
  | moved (pos : Int × Int) (found : Option String)
  | otherMouse
  | tick
  | rebuilt
deriving DecidableEq, Repr

/-- tooltip.rs:33-38 `hide`, with lib.rs:1036-1045, 1065-1073, 1078-1085: the widget is always found. -/
def Tip.hide (t : Tip) : Tip := if t.visible then { t with widgetVisible := false, visible := false } else t

/-- lib.rs:827-856 (tick), 1024-1086 (mouse), 752-760 (rebuild). `delay` is `tooltip_delay`; `width` is the desired width
of the tooltip with a text; `x / 2` truncates, for a width from 0 on. -/
def Tip.step (delay : Nat) (width : String → Nat) (now : Nat) (t : Tip) : TipEvent → Tip
  | .moved pos found =>
    let posChanged := decide (t.pos ≠ some pos)
    let t := { t with pos := some pos }
    match found with
    | some text =>
      let textChanged := decide (t.text ≠ some text)
      let t := if t.visible && (posChanged || textChanged) then t.hide else t
      let t := if textChanged then { t with text := some text } else t
      if posChanged || textChanged || t.deadline.isNone then { t with deadline := some (now + delay) } else t
    | none => Tip.hide { t with text := none, deadline := none }
  | .otherMouse => if t.visible then t.hide else t
  | .tick =>
    match t.deadline with
    | some d =>
      if now ≥ d then
        match t.text, t.pos with
        | some text, some (mx, my) =>
          { t with widgetVisible := true, widgetText := text,
                   offset := (max (mx - (width text / 2 : Nat)) 0, max (my + 1) 0), visible := true, deadline := none }
        | _, _ => t
      else t
    | none => t
  | .rebuilt => { t with widgetVisible := false, widgetText := "", offset := (0, 0) }

/-- A history of events with their times. The variables are those of lib.rs:743-745. -/
def Tip.run (delay : Nat) (width : String → Nat) (t : Tip) (es : List (Nat × TipEvent)) : Tip :=
  es.foldl (fun t e => t.step delay width e.1 e.2) t

/-- tooltip.rs:68-120 `render`: where a tooltip of that size is drawn (style limits left out). -/
def Tip.area (t : Tip) (w h : Int) (screen : Region) : Option Region :=
  if t.widgetVisible then
    let r := (Region.new t.offset.1 t.offset.2 w h).intersection screen
    if r.isEmpty then none else some r
  else none

end Textual.Loop
