import Verif.Model.Markup
import Verif.Model.Press
import Verif.Model.Classes

/-!
# Header

Model of widget/header.rs: the text of the title, the icon that opens the command palette, and the `-tall` class; and of
the classes that labels (widget/label.rs) and rulers (widget/ruler.rs) manage themselves.
-/

namespace Textual.Header

open Markup Press Classes

/-! ### The title -/

/-- header.rs:14-20 `format_title`. -/
def formatTitle (title : List Char) (subtitle : Option (List Char)) : List Char :=
  match subtitle.filter (fun v => !v.isEmpty) with
  | some v => title ++ " [dim]— ".toList ++ v ++ "[/]".toList
  | none => title

/-- header.rs:627-634 `Header` and 23-25 `HeaderTitle`, as far as the text is concerned: `content` is the text of the
`Static` in the title. -/
structure Title where
  title : List Char
  subtitle : Option (List Char) := none
  content : List Char
deriving DecidableEq, Repr

namespace Title

/-- header.rs:638-660 `new`. -/
def new (title : List Char) : Title := { title := title, content := formatTitle title none }

/-- header.rs:720-725 `refresh_title`; the child at `title_index` is always there. -/
def refresh (h : Title) : Title := { h with content := formatTitle h.title h.subtitle }

/-- header.rs:688-691 `set_title`. -/
def setTitle (h : Title) (t : List Char) : Title := refresh { h with title := t }

/-- header.rs:663-667, 694-697 `with_subtitle`, `set_subtitle`. -/
def setSubtitle (h : Title) (s : List Char) : Title := refresh { h with subtitle := some s }

/-- header.rs:700-703 `clear_subtitle`. -/
def clearSubtitle (h : Title) : Title := refresh { h with subtitle := none }

/-- What is drawn: static_widget.rs:477-483 `Content::from_markup(..).unwrap_or_else(..)`; a text that is no markup is
drawn as it is. -/
def shown (ext : Ext) (h : Title) : Res Parsed :=
  match parse ext h.content with
  | .ok m => .ok m
  | .err => .ok ⟨h.content, []⟩
  | .panic => .panic

end Title

/-- See header.rs:688, 694, 700. -/
inductive TitleOp where
  | setTitle (t : List Char)
  | setSubtitle (s : List Char)
  | clearSubtitle
deriving DecidableEq, Repr

/-- See header.rs:688, 694, 700. -/
def Title.step (h : Title) : TitleOp → Title
  | .setTitle t => h.setTitle t
  | .setSubtitle s => h.setSubtitle s
  | .clearSubtitle => h.clearSubtitle

/-- A history of the calls of header.rs:688-700. -/
def Title.run (h : Title) (ops : List TitleOp) : Title := ops.foldl Title.step h

/-! ### The icon -/

/-- header.rs:350-356 `HeaderIcon`; `disabled` and `dirty` are those of the inner `Static`. -/
structure Icon where
  hovered : Bool := false
  active : Bool := false
  disabled : Bool := false
  pending : Bool := false
  dirty : Bool := true
deriving DecidableEq, Repr

namespace Icon

/-- header.rs:371-373 `press`. -/
def press (b : Icon) : Icon := { b with pending := true }

/-- header.rs:461-494 `on_mouse`. -/
def onMouse (b : Icon) (e : Mouse) (r : Region) : Icon :=
  let inside := r.containsPoint e.column e.row
  match e.kind with
  | .moved => if inside ≠ b.hovered then { b with hovered := inside, dirty := true } else b
  | .down .left =>
    if inside ∧ ¬ b.disabled then
      if ¬ b.active then { b with active := true, dirty := true } else b
    else b
  | .up .left =>
    if b.active then
      let b := { b with active := false, dirty := true }
      if inside ∧ ¬ b.disabled then b.press else b
    else b
  | _ => b

/-- header.rs:522-530 `set_hover`. -/
def setHover (b : Icon) (v : Bool) : Icon := if b.hovered ≠ v then { b with hovered := v, dirty := true } else b

/-- header.rs:532-537 `clear_hover`. -/
def clearHover (b : Icon) : Icon := if b.hovered then { b with hovered := false, dirty := true } else b

/-- lib.rs:967-991, header.rs:821-831: moves clear hovering everywhere; the container in the header hands the event to
the child under the pointer, which is hovered first if it is a move. -/
def mouse (b : Icon) (e : Mouse) (r : Region) : Icon :=
  let b := if e.kind = .moved then b.clearHover else b
  if r.containsPoint e.column e.row then (if e.kind = .moved then b.setHover true else b).onMouse e r else b

/-- header.rs:510-512 `take_pending_action`, by lib.rs:928-936, 1003-1011: whether `app.command_palette` is run. -/
def finish (b : Icon) : Bool × Icon := (b.pending, { b with pending := false })

/-- One event for the icon in region `r`; keys do nothing (header.rs:457-459). -/
def step (r : Region) (b : Icon) : Event → Bool × Icon
  | .mouse e => finish (b.mouse e r)
  | .key _ => finish b
  | .setDisabled v => (false, { b with disabled := v, dirty := true })
  | .clean => (false, { b with dirty := false })
  | _ => (false, b)

/-- A history: for each event whether the palette was asked for, and the final state.
Each event is a call of `on_mouse`, header.rs:110. -/
def run (r : Region) (b : Icon) : List Event → List Bool × Icon
  | [] => ([], b)
  | e :: es =>
    let p := b.step r e
    let q := run r p.2 es
    (p.1 :: q.1, q.2)

end Icon

/-! ### Managed classes -/

/-- header.rs:627-634: `tall`, and the classes of the inner container. -/
structure Tall where
  inner : Holder := {}
  tall : Bool := false
deriving DecidableEq, Repr

/-- header.rs:734-744 `set_tall`; the inner widget is a container, whose calls are those of the trait. -/
def Tall.setTall (h : Tall) (v : Bool) : Tall :=
  if h.tall = v then h
  else { tall := v, inner := if v then h.inner.add "-tall" else h.inner.remove "-tall" }

/-- label.rs:12-28 `LabelVariant` but for `Default`. -/
inductive Variant where
  | success | error | warning | primary | secondary | accent
deriving DecidableEq, Repr

/-- label.rs:32-42 `as_class`; `none` is `Default`. -/
def className : Option Variant → String
  | none => ""
  | some .success => "success"
  | some .error => "error"
  | some .warning => "warning"
  | some .primary => "primary"
  | some .secondary => "secondary"
  | some .accent => "accent"

/-- label.rs:85-89 `Label`; the outer `none` is a label without variant. -/
structure Label where
  inner : Holder := {}
  variant : Option (Option Variant) := none
deriving DecidableEq, Repr

/-- label.rs:104-111 `with_variant`; `inner.add_class` is the inherent method of `Static`. -/
def Label.withVariant (l : Label) (v : Option Variant) : Label :=
  { inner := if className v = "" then l.inner else l.inner.push (className v), variant := some v }

/-- ruler.rs:54-62 `Ruler`, `vertical` is the orientation. -/
structure Ruler where
  vertical : Bool
  inner : Holder
deriving DecidableEq, Repr

/-- ruler.rs:111-115, 303-307: the class of the orientation. -/
def Ruler.className (vertical : Bool) : String := if vertical then "-vertical" else "-horizontal"

/-- ruler.rs:64-76, 90-102 `default`, `vertical`, `horizontal`. -/
def Ruler.new (vertical : Bool) : Ruler := { vertical, inner := { classes := [Ruler.className vertical] } }

/-- ruler.rs:109-121 `with_classes`. -/
def Ruler.withClasses (u : Ruler) (cs : List String) : Ruler :=
  { u with inner := { u.inner with classes := Ruler.className u.vertical :: cs } }

/-- ruler.rs:301-313 `set_classes`; the other calls are those of the trait (ruler.rs:283-299, widget.rs:536-560). -/
def Ruler.step (u : Ruler) : Op → Ruler
  | .set cs => { u with inner := { classes := Ruler.className u.vertical :: cs, dirty := true } }
  | op => { u with inner := Classes.step false u.inner op }

/-- The calls that change the classes of these widgets. See widget.rs:526, 531, 536, 565. -/
inductive LookOp (α : Type) where
  | own (v : α)
  | classes (op : Op)
  | withClasses (cs : List String)
deriving DecidableEq, Repr

/-- header.rs:676-685 `with_classes`, `with_tall`, 889-907 the calls of the trait. -/
def Tall.step (h : Tall) : LookOp Bool → Tall
  | .own v => h.setTall v
  | .classes op => { h with inner := Classes.step false h.inner op }
  | .withClasses cs => { h with inner := h.inner.withClasses cs }

/-- A history of the calls of widget.rs:526-565. -/
def Tall.run (ops : List (LookOp Bool)) : Tall := ops.foldl Tall.step {}

/-- label.rs:104-123 `with_variant`, `with_classes`, 404-422 the calls of the trait. -/
def Label.step (l : Label) : LookOp (Option Variant) → Label
  | .own v => l.withVariant v
  | .classes op => { l with inner := Classes.step true l.inner op }
  | .withClasses cs => { l with inner := l.inner.withClasses cs }

/-- A history of the calls of widget.rs:526-565. -/
def Label.run (ops : List (LookOp (Option Variant))) : Label := ops.foldl Label.step {}

/-- The calls on a ruler; it has no call of its own. See widget.rs:526-565. -/
def Ruler.call (u : Ruler) : LookOp Empty → Ruler
  | .own v => nomatch v
  | .classes op => u.step op
  | .withClasses cs => u.withClasses cs

/-- A history of the calls of widget.rs:526-565. -/
def Ruler.run (vertical : Bool) (ops : List (LookOp Empty)) : Ruler := ops.foldl Ruler.call (Ruler.new vertical)

end Textual.Header
