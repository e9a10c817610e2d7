import Verif.Model.Cascade

/-!
Model of `/repo/crates/textual/src/style_resolver.rs` (`resolve_styles`, `resolve_dirty_styles`), the
dirty flags of the widgets it visits, the inline overrides of `tcss/src/types/mod.rs`, and the colours
`static_widget.rs` paints with.

Simplifications: the cascade (`compute_style` with a fixed stylesheet and theme) is a parameter, a
function of the widget's meta and its ancestors' metas (`ofComputed` turns a result of the cascade model
into a `Style`); the style fields no function of this file looks at are kept together in `rest`; delegating
widgets (`Label` around `Static`, `Button` around `Static`, ...) are one widget with one flag.
-/

namespace Textual.Restyle

/-- types/layout.rs:39-47 `Layout`. -/
inductive Layout where
  | vertical | horizontal | grid
deriving DecidableEq, Repr

/-- types/mod.rs:60-171 `ComputedStyle`, the fields read here; the others are in `rest`.
The defaults are those of types/mod.rs:237-296. -/
structure Style where
  color : Option RgbaColor := none
  autoColor : Bool := false
  background : Option RgbaColor := none
  tint : Option RgbaColor := none
  backgroundTint : Option RgbaColor := none
  inheritedBackground : Option RgbaColor := none
  hidden : Bool := false
  visibilitySet : Bool := false
  layout : Layout := .vertical
  opacity : Rat := 1
  rest : Css.Field → Css.Val := fun _ => .unset

/-- The colour stored in a field of the cascade model. -/
def colorOf : Css.Val → Option RgbaColor
  | .color c => some c
  | _ => none

/-- The style the resolver receives from the cascade model (`Css.computeStyle`); `op` reads the
number the cascade model keeps as text. -/
def ofComputed (op : Css.Val → Rat) (c : Css.Field → Css.Val) : Style where
  color := colorOf (c .color)
  autoColor := c .autoColor == .flag true
  background := colorOf (c .background)
  tint := colorOf (c .tint)
  backgroundTint := colorOf (c .backgroundTint)
  hidden := c .visibility == .raw "hidden"
  visibilitySet := c .visibilitySet == .flag true
  layout := if c .layout == .raw "horizontal" then .horizontal
    else if c .layout == .raw "grid" then .grid else .vertical
  opacity := op (c .opacity)
  rest := c

/-- types/mod.rs:178-188 `StyleOverride`. -/
structure Override where
  tint : Option RgbaColor := none
  backgroundTint : Option RgbaColor := none
  background : Option RgbaColor := none
  color : Option RgbaColor := none
deriving DecidableEq, Repr

/-- types/mod.rs:221-234 `StyleOverride::apply_to`. -/
def Override.applyTo (o : Override) (s : Style) : Style :=
  { s with
    tint := match o.tint with | some c => some c | none => s.tint
    backgroundTint := match o.backgroundTint with | some c => some c | none => s.backgroundTint
    background := match o.background with | some c => some c | none => s.background
    color := match o.color with | some c => some c | none => s.color }

/-- style_resolver.rs:10-20 `InheritedContext`. -/
structure Inherited where
  color : Option RgbaColor := none
  autoColor : Bool := false
  background : Option RgbaColor := none
  hidden : Bool := false
deriving DecidableEq, Repr

/-- style_resolver.rs:24-34 `InheritedContext::from_theme`; `get` is `Theme::get_color`. -/
def Inherited.fromTheme (get : String → Option RgbaColor) : Inherited where
  color := match get "foreground" with | some c => some c | none => get "text"

/-- style_resolver.rs:138-152 `apply_inheritance`. -/
def applyInheritance (s : Style) (inh : Inherited) : Style :=
  let s := if s.color.isNone && inh.color.isSome
    then { s with color := inh.color, autoColor := inh.autoColor } else s
  let s := { s with inheritedBackground := inh.background }
  if !s.visibilitySet then { s with hidden := inh.hidden } else s

/-- style_resolver.rs:173-196 `compute_effective_background`. -/
def composeBackground (s : Style) (inh : Inherited) : Option RgbaColor :=
  match s.background, inh.background with
  | some bg, some parent =>
    if bg.a < 1 then
      match s.backgroundTint with
      | some t => some ((bg.blendOver parent).tint t)
      | none => some (bg.blendOver parent)
    else
      match s.backgroundTint with
      | some t => some (bg.tint t)
      | none => some bg
  | some bg, none =>
    match s.backgroundTint with
    | some t => some (bg.tint t)
    | none => some bg
  | none, _ => inh.background

/-- style_resolver.rs:155-168 `build_inherited_context`. -/
def childContext (s : Style) (inh : Inherited) : Inherited where
  color := s.color
  autoColor := s.autoColor
  background := composeBackground s inh
  hidden := s.hidden

/-- types/mod.rs:309-336 `ComputedStyle::effective_background`. -/
def Style.effectiveBackground (s : Style) : Option RgbaColor :=
  let base := match s.background with
    | some bg => match s.backgroundTint with
      | some t => some (bg.tint t)
      | none => some bg
    | none => s.inheritedBackground
  let shown := match base, s.inheritedBackground with
    | some bg, some inherited =>
      if s.opacity < 1 then some (bg.blendToward inherited (s.opacity * s.opacity)) else some bg
    | _, _ => base
  match s.background with
  | some bg => if bg.isTransparent then none else shown
  | none => shown

/-- static_widget.rs:245-277 `rendering_style`, the foreground (the same code in
placeholder.rs:290-313 `effective_foreground`). -/
def Style.foreground (s : Style) : Option RgbaColor :=
  if s.autoColor then
    s.effectiveBackground.map fun bg =>
      let ratio := match s.color with | some c => c.a | none => 1
      let contrasting := bg.getContrastingColor ratio
      match s.inheritedBackground with
      | some inherited => contrasting.blendToward inherited s.opacity
      | none => contrasting.withOpacity s.opacity
  else
    match s.color, s.inheritedBackground with
    | some c, some bg => some (c.blendToward bg s.opacity)
    | some c, none => some (c.withOpacity s.opacity)
    | none, some bg =>
      if s.opacity < 1 then some ((RgbaColor.rgba 255 255 255 1).blendToward bg s.opacity) else none
    | none, none => none

/-- How a widget type implements the methods the resolver calls.

* `plain`: own flag and stored style (`Static` static_widget.rs:880-915, `Switch` switch.rs:270-295, ...).
* `container`: as `plain`, but its meta names its current layout (container.rs:1345-1366).
* `group`: dirty when a child is, and cleans its children (screen.rs:706-722, app_widget.rs:112-128).
* `bare`: own flag, but `set_style` and `get_style` are the defaults of widget.rs:192-196 (`Center` and
  `Middle` of containers.rs). -/
inductive Kind where
  | plain | container | group | bare
deriving DecidableEq, Repr

/-- The state of one widget the resolver reads or writes. `base` is its type, id, classes and state
flags. See widget.rs:37. -/
structure Attrs where
  kind : Kind := .plain
  base : Css.Widget
  visible : Bool := true
  dirty : Bool := true
  inline : Override := {}
  style : Style := {}

/-- A widget with its children. See widget.rs:37, 84. -/
inductive W where
  | node (a : Attrs) (cs : List W)

/-- container.rs:1345-1366 `Container::get_meta` for the given layout. -/
def withLayout (l : Layout) (base : Css.Widget) : Css.Widget :=
  { base with
    typeName := "Container"
    typeNames := match l with
      | .vertical => ["Vertical", "Container", "Widget", "DOMNode"]
      | .horizontal => ["Horizontal", "Container", "Widget", "DOMNode"]
      | .grid => ["Container", "Widget", "DOMNode"]
    focus := false, hover := false, active := false, disabled := false }

/-- `get_meta`: widget.rs:108-134, container.rs:1345-1366. -/
def Attrs.meta (a : Attrs) : Css.Widget :=
  match a.kind with
  | .container => withLayout a.style.layout a.base
  | _ => a.base

/-- `set_style`: container.rs:1368-1372, static_widget.rs `set_style`; widget.rs:192 for `bare`. -/
def Attrs.setStyle (a : Attrs) (s : Style) : Attrs :=
  match a.kind with
  | .bare => a
  | _ => { a with style := s }

/-- `get_style`: container.rs:1374-1376; widget.rs:194-196 for `bare`. -/
def Attrs.getStyle (a : Attrs) : Style :=
  match a.kind with
  | .bare => {}
  | _ => a.style

mutual
/-- `is_dirty`: screen.rs:706-708, app_widget.rs:112-114, switch.rs:282-284. -/
def W.isDirty : W → Bool
  | .node a cs => match a.kind with
    | .group => a.dirty || anyDirty cs
    | _ => a.dirty
/-- The `any` over the children in screen.rs:707. -/
def anyDirty : List W → Bool
  | [] => false
  | c :: cs => c.isDirty || anyDirty cs
end

mutual
/-- `mark_clean`: screen.rs:717-722, app_widget.rs:123-128, switch.rs:290-292. -/
def W.markClean : W → W
  | .node a cs => match a.kind with
    | .group => .node { a with dirty := false } (cleanAll cs)
    | _ => .node { a with dirty := false } cs
/-- The loop over the children in screen.rs:719-721. -/
def cleanAll : List W → List W
  | [] => []
  | c :: cs => c.markClean :: cleanAll cs
end

mutual
/-- `mark_dirty`: screen.rs:710-715, app_widget.rs:116-121, switch.rs:286-288. -/
def W.markDirty : W → W
  | .node a cs => match a.kind with
    | .group => .node { a with dirty := true } (soilAll cs)
    | _ => .node { a with dirty := true } cs
/-- The loop over the children in screen.rs:712-714. -/
def soilAll : List W → List W
  | [] => []
  | c :: cs => c.markDirty :: soilAll cs
end

mutual
/-- Number of levels. -/
def W.depth : W → Nat
  | .node _ cs => depthAll cs + 1
/-- The largest depth of a list of trees. -/
def depthAll : List W → Nat
  | [] => 0
  | c :: cs => max c.depth (depthAll cs)
end

/-- The cascade: the style of a widget from its meta and its ancestors' metas, nearest first. -/
abbrev Cascade := Css.Widget → List Css.Widget → Style

/-- style_resolver.rs:68-141 `resolve_dirty_styles`. The first argument bounds the recursion depth
(`pass` gives it the depth of the tree). -/
def passN (cas : Cascade) : Nat → List Css.Widget → Bool → Inherited → W → W
  | 0, _, _, _, w => w
  | n + 1, anc, parentDirty, inh, .node a cs =>
    if !a.visible then .node a cs
    else if (W.node a cs).isDirty || parentDirty then
      let style := a.inline.applyTo (applyInheritance (cas a.meta anc) inh)
      match (W.node (a.setStyle style) cs).markClean with
      | .node a' cs' =>
        .node a' (cs'.map (passN cas n (a'.meta :: anc) true (childContext style inh)))
    else
      .node a (cs.map (passN cas n (a.meta :: anc) false (childContext a.getStyle inh)))

/-- style_resolver.rs:68-141 `resolve_dirty_styles` on a whole tree. -/
def pass (cas : Cascade) (anc : List Css.Widget) (parentDirty : Bool) (inh : Inherited) (w : W) : W :=
  passN cas w.depth anc parentDirty inh w

/-- style_resolver.rs:39-55 `resolve_styles`, called at startup. -/
def resolveStyles (cas : Cascade) (inh : Inherited) (w : W) : W := pass cas [] true inh w

/-- lib.rs:803-813, the restyling before each frame. -/
def restyleDirty (cas : Cascade) (inh : Inherited) (w : W) : W := pass cas [] false inh w

/-- The calls by which a program changes what selectors or overrides see of one widget. -/
inductive Setter where
  | addClass (c : String)
  | removeClass (c : String)
  | setClasses (cs : List String)
  | setDisabled (b : Bool)
  | setHover (b : Bool)
  | setFocus (b : Bool)
  | setActive (b : Bool)
  | setVisible (b : Bool)
  | setInline (o : Override)
  | clearInline
deriving DecidableEq, Repr

/-- The setters: container.rs:1652-1675 and static_widget.rs:1007-1031 (classes), switch.rs:397-424
(visible, disabled), switch.rs:356-375 (hover, active), switch.rs:258-263 (focus), container.rs:1378-1396
(inline style). -/
def Setter.apply (a : Attrs) : Setter → Attrs
  | .addClass c =>
    if a.base.classes.any (· == c) then a
    else { a with base := { a.base with classes := a.base.classes ++ [c] }, dirty := true }
  | .removeClass c =>
    if a.base.classes.any (· == c) then
      { a with base := { a.base with classes := a.base.classes.erase c }, dirty := true }
    else a
  | .setClasses cs => { a with base := { a.base with classes := cs }, dirty := true }
  | .setDisabled b =>
    if a.base.disabled != b then { a with base := { a.base with disabled := b }, dirty := true } else a
  | .setHover b =>
    if a.base.hover != b then { a with base := { a.base with hover := b }, dirty := true } else a
  | .setFocus b =>
    if a.base.focus != b then { a with base := { a.base with focus := b }, dirty := true } else a
  | .setActive b =>
    if a.base.active != b then { a with base := { a.base with active := b }, dirty := true } else a
  | .setVisible b => if a.visible != b then { a with visible := b, dirty := true } else a
  | .setInline o => { a with inline := o, dirty := true }
  | .clearInline => { a with inline := {}, dirty := true }

/-- static_widget.rs:165-167, the inherent `Static::add_class`. -/
def rawAddClass (c : String) (a : Attrs) : Attrs :=
  { a with base := { a.base with classes := a.base.classes ++ [c] } }

/-- A call on the widget at a path (child numbers from the root); no such widget: no effect. -/
def W.update (f : W → W) : List Nat → W → W
  | [], w => f w
  | i :: p, .node a cs => .node a (cs.modify i (W.update f p))

/-- A setter applied to a widget. -/
def W.set (s : Setter) : W → W
  | .node a cs => .node (s.apply a) cs

/-- container.rs:127-132 `set_children`. -/
def W.setChildren (new : List W) : W → W
  | .node a _ => .node { a with dirty := true } new

/-- What happens to the tree while the application runs. -/
inductive Ev where
  | call (path : List Nat) (s : Setter)
  | markDirty (path : List Nat)
  | setChildren (path : List Nat) (new : List W)
  | frame

/-- One event. -/
def step (cas : Cascade) (inh : Inherited) (w : W) : Ev → W
  | .call path s => w.update (W.set s) path
  | .markDirty path => w.update W.markDirty path
  | .setChildren path new => w.update (W.setChildren new) path
  | .frame => restyleDirty cas inh w

/-- A run: style everything, then a list of events. -/
def run (cas : Cascade) (inh : Inherited) (w : W) (evs : List Ev) : W :=
  evs.foldl (step cas inh) (resolveStyles cas inh w)

end Textual.Restyle
