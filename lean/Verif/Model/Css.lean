/-!
Model of the selector part of `/repo/crates/tcss/src/parser/stylesheet.rs`, of selector matching in
`cascade.rs` and of `flatten.rs`.
-/

namespace Textual.Css

/-- stylesheet.rs:45-53 `Specificity` (`u32` counters, overflow not modelled). -/
structure Specificity where
  ids : Nat := 0
  classes : Nat := 0
  types : Nat := 0
deriving DecidableEq, Repr

/-- stylesheet.rs:57-75 `Selector`. -/
inductive Selector where
  | type (name : String)
  | cls (name : String)
  | id (name : String)
  | universal
  | pseudo (name : String)
  | parent
  | attribute (name value : String)
deriving DecidableEq, Repr

/-- stylesheet.rs:82-86 `CompoundSelector`. -/
abbrev Compound := List Selector

/-- stylesheet.rs:113-124 `Combinator`. -/
inductive Combinator where
  | none | descendant | child | adjacentSibling | generalSibling
deriving DecidableEq, Repr

/-- stylesheet.rs:128-133 `SelectorPart`: a compound and how it relates to the next part. -/
structure Part where
  compound : Compound
  combinator : Combinator
deriving DecidableEq, Repr

/-- stylesheet.rs:155-158 `ComplexSelector`: the parts from left to right. -/
abbrev Complex := List Part

/-- The contribution of one simple selector (stylesheet.rs:98-105). -/
def Selector.weight : Selector → Specificity
  | .id _ => { ids := 1 }
  | .cls _ | .pseudo _ | .attribute _ _ => { classes := 1 }
  | .type _ => { types := 1 }
  | .universal | .parent => {}

/-- The component-wise sum used in stylesheet.rs:165-174. -/
def Specificity.add (a b : Specificity) : Specificity :=
  ⟨a.ids + b.ids, a.classes + b.classes, a.types + b.types⟩

/-- stylesheet.rs:95-108 `CompoundSelector::specificity`. -/
def compoundSpec (c : Compound) : Specificity := c.foldl (fun acc s => acc.add s.weight) {}

/-- stylesheet.rs:165-174 `ComplexSelector::specificity`. -/
def complexSpec (c : Complex) : Specificity :=
  (c.map fun p => compoundSpec p.compound).foldl Specificity.add {}

/-- stylesheet.rs:45 derived `Ord`: lexicographic on ids, classes, types. -/
def Specificity.le (a b : Specificity) : Bool :=
  a.ids < b.ids || (a.ids == b.ids &&
    (a.classes < b.classes || (a.classes == b.classes && a.types ≤ b.types)))

/-- cascade.rs:36-41 `SelectorContext`. -/
structure Ctx where
  isDark : Bool
  isAnsi : Bool
  isNocolor : Bool
deriving DecidableEq, Repr

/-- cascade.rs:43-52 `from_theme`. `contains` is `str::contains`. -/
def Ctx.fromTheme (contains : String → String → Bool) (name : String) (isDark : Bool) : Ctx where
  isDark := isDark
  isAnsi := contains name "ansi"
  isNocolor := contains name "nocolor" || contains name "no-color"

/-- cascade.rs:90-103 `WidgetMeta`; the four flags are `WidgetStates` (cascade.rs:72-82). -/
structure Widget where
  typeName : String
  typeNames : List String := []
  id : Option String := none
  classes : List String := []
  focus : Bool := false
  hover : Bool := false
  active : Bool := false
  disabled : Bool := false
deriving DecidableEq, Repr

/-- cascade.rs:115-145 `matches_selector`. -/
def Widget.matchesSelector (w : Widget) (ctx : Ctx) : Selector → Bool
  | .type name => if w.typeNames.isEmpty then w.typeName == name else w.typeNames.any (· == name)
  | .id i => w.id == some i
  | .cls c => w.classes.contains c
  | .universal => true
  | .pseudo name =>
    if name = "focus" then w.focus
    else if name = "hover" then w.hover
    else if name = "active" then w.active
    else if name = "disabled" then w.disabled
    else if name = "dark" then ctx.isDark
    else if name = "light" then !ctx.isDark
    else if name = "ansi" then ctx.isAnsi
    else if name = "nocolor" then ctx.isNocolor
    else false
  | .parent => false
  | .attribute _ _ => false

/-- cascade.rs:164-168, 186-190: all simple selectors of a compound match. -/
def Widget.matchesCompound (w : Widget) (ctx : Ctx) (c : Compound) : Bool :=
  c.all (w.matchesSelector ctx)

/-- cascade.rs:182-217: the loop over ancestors. `part :: rest` are the parts still to match, from
right to left (`current_part_idx` counts down); the list of ancestors is what is left from
`ancestor_idx` on. When the ancestors run out the loop ends and the expression in lines 219-226 is
false: `current_part_idx` never becomes `usize::MAX` (the loop returns at 0) and `ancestor_idx <
ancestors.len()` does not hold any more. -/
def matchAncestors (ctx : Ctx) (part : Part) (rest : List Part) : List Widget → Bool
  | [] => false
  | a :: as =>
    let ok := a.matchesCompound ctx part.compound
    match part.combinator with
    | .child =>
      if ok then
        match rest with
        | [] => true
        | p :: ps => matchAncestors ctx p ps as
      else false
    | .descendant | .none =>
      if ok then
        match rest with
        | [] => true
        | p :: ps => matchAncestors ctx p ps as
      else matchAncestors ctx part rest as
    | .adjacentSibling | .generalSibling => false

/-- cascade.rs:149-227 `matches_complex`; `ancestors` from the parent to the root. -/
def Widget.matchesComplex (w : Widget) (ctx : Ctx) (sel : Complex) (ancestors : List Widget) : Bool :=
  match sel.reverse with
  | [] => false
  | last :: before =>
    if w.matchesCompound ctx last.compound then
      match before with
      | [] => true
      | p :: ps => matchAncestors ctx p ps ancestors
    else false

/-- stylesheet.rs:428-450 `RuleItem` and `Rule`: the items of a rule block as one list; a nested rule
carries its selector list and its own items. -/
inductive Items (Decl : Type) where
  | nil
  | decl (d : Decl) (rest : Items Decl)
  | rule (selectors : List Complex) (body rest : Items Decl)

/-- flatten.rs:51-56: the declarations of a block, without those of nested rules. -/
def Items.decls {Decl : Type} : Items Decl → List Decl
  | .nil => []
  | .decl d rest => d :: rest.decls
  | .rule _ _ rest => rest.decls

/-- A flattened rule: selectors and declarations. See stylesheet.rs:445 `Rule`. -/
structure FlatRule (Decl : Type) where
  selectors : List Complex
  decls : List Decl
deriving DecidableEq, Repr

/-- `p_parts.last_mut()` followed by an update. See flatten.rs:100, 116. -/
def modifyLast (f : Part → Part) : Complex → Complex
  | [] => []
  | [p] => [f p]
  | p :: q :: r => p :: modifyLast f (q :: r)

/-- flatten.rs:86-124: combining one parent with one child selector. -/
def combineOne (p c : Complex) : Complex :=
  match c with
  | [] => p
  | first :: restParts =>
    if first.compound.any (· == .parent) then
      modifyLast (fun l =>
        { compound := l.compound ++ first.compound.filter (· != .parent)
          combinator := if first.combinator ≠ .none then first.combinator else l.combinator }) p
        ++ restParts
    else
      modifyLast (fun l => if l.combinator = .none then { l with combinator := .descendant } else l) p
        ++ c

/-- flatten.rs:79-128 `combine_selectors`. -/
def combineSelectors (parents children : List Complex) : List Complex :=
  parents.flatMap fun p => children.map fun c => combineOne p c

/-- flatten.rs:58-63: the rule for the block's own declarations. -/
def ownRule {Decl : Type} (sels : List Complex) (decls : List Decl) : List (FlatRule Decl) :=
  if decls.isEmpty then [] else [⟨sels, decls⟩]

/-- flatten.rs:49-77 `flatten_rule`, for a block with the (already combined) selectors `sels`: its own
declarations first, then the nested rules in order. In the first call `parent_selectors` is `None` and
the rule's own selectors are used, in the recursive call it is the combined list, which is also
`rule.selectors`; so `parents = sels` in both cases. -/
def flattenNested {Decl : Type} (sels : List Complex) : Items Decl → List (FlatRule Decl)
  | .nil => []
  | .decl _ rest => flattenNested sels rest
  | .rule cs body rest =>
    ownRule (combineSelectors sels cs) body.decls ++ flattenNested (combineSelectors sels cs) body ++
      flattenNested sels rest

/-- flatten.rs:49-77 `flatten_rule`. -/
def flattenRule {Decl : Type} (sels : List Complex) (items : Items Decl) : List (FlatRule Decl) :=
  ownRule sels items.decls ++ flattenNested sels items

/-- flatten.rs:41-47 `flatten_stylesheet`. -/
def flattenStylesheet {Decl : Type} (rules : List (List Complex × Items Decl)) : List (FlatRule Decl) :=
  rules.flatMap fun r => flattenRule r.1 r.2

end Textual.Css
