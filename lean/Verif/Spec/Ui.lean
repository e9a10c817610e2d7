import Verif.Model.Ui

/-!
# What a description in `ui!` means

The written form of a description and the widgets it stands for (the documentation in
`/repo/crates/textual-macros/src/lib.rs`, lines 11-63).
-/

namespace Textual.Ui

variable {σ V W : Type}

/-- The values of expressions, evaluated in the order in which they are written. -/
def inOrder (p : Program σ V W) (es : List Expr) (s : σ) : List V × σ :=
  es.foldl (fun acc e => (acc.1 ++ [(p.value e acc.2).1], (p.value e acc.2).2)) ([], s)

/-- The attributes are set in the order in which they are written; `name: value` calls `with_name`. -/
def attributed (p : Program σ V W) (named : List (String × Expr)) (w : W) (s : σ) : W × σ :=
  named.foldl (fun acc a => (p.call ("with_" ++ a.1) (p.value a.2 acc.2).1 acc.1, (p.value a.2 acc.2).2)) (w, s)

mutual
/-- The widgets an item stands for: one for a widget, any number for a splat. -/
def built (p : Program σ V W) : Item → σ → List W × σ
  | .splat e, s => (p.spread (p.value e s).1, (p.value e s).2)
  | .widget name pos named none, s =>
    let vs := inOrder p pos s
    let w := attributed p named (p.make name vs.1 none) vs.2
    ([w.1], w.2)
  | .widget name pos named (some children), s =>
    let vs := inOrder p pos s
    let ws := builtAll p children vs.2
    let w := attributed p named (p.make name vs.1 (some ws.1)) ws.2
    ([w.1], w.2)
/-- Items one after the other. -/
def builtAll (p : Program σ V W) : List Item → σ → List W × σ
  | [], s => ([], s)
  | i :: is, s =>
    let a := built p i s
    let b := builtAll p is a.2
    (a.1 ++ b.1, b.2)
end

/-- Arguments as they may be written: positional ones, then named ones, commas being optional. -/
inductive ArgsText (isExpr : Expr → Prop) : List Expr → List (String × Expr) → List Tok → Prop
  | nil : ArgsText isExpr [] [] []
  | pos {e es named ts c} : isExpr e → c = [] ∨ c = [Tok.comma] → ArgsText isExpr es named ts →
      ArgsText isExpr (e :: es) named (e ++ c ++ ts)
  | named {n e named ts c} : isExpr e → c = [] ∨ c = [Tok.comma] → ArgsText isExpr [] named ts →
      ArgsText isExpr [] ((n, e) :: named) (.ident n :: .colon :: (e ++ c ++ ts))

/-- The part of a widget in parentheses. -/
inductive HeadText (isExpr : Expr → Prop) : List Expr → List (String × Expr) → List Tok → Prop
  | bare : HeadText isExpr [] [] []
  | args {pos named ts} : ArgsText isExpr pos named ts → HeadText isExpr pos named [.paren ts]

mutual
/-- An item as it may be written. -/
inductive ItemText (isExpr : Expr → Prop) : Item → List Tok → Prop
  | splat {e} : isExpr e → ItemText isExpr (.splat e) (.dotdot :: e)
  | leaf {name pos named a} : HeadText isExpr pos named a →
      ItemText isExpr (.widget name pos named none) (.ident name :: a)
  | group {name pos named children a b} : HeadText isExpr pos named a → ItemsText isExpr children b →
      ItemText isExpr (.widget name pos named (some children)) (.ident name :: (a ++ [.brace b]))
/-- Items one after the other. -/
inductive ItemsText (isExpr : Expr → Prop) : List Item → List Tok → Prop
  | nil : ItemsText isExpr [] []
  | cons {i is a b} : ItemText isExpr i a → ItemsText isExpr is b → ItemsText isExpr (i :: is) (a ++ b)
end

/-- What is known of any parser of expressions: it takes the tokens of an expression from the front. -/
def Takes (read : Reader) (isExpr : Expr → Prop) : Prop :=
  ∀ ts e rest, read ts = some (e, rest) → ts = e ++ rest ∧ isExpr e

/-- The expressions `plain` end where a comma or an identifier follows, or nothing, and are not taken for a named
attribute. -/
structure Stops (read : Reader) (plain : Expr → Prop) : Prop where
  atEnd : ∀ e, plain e → read e = some (e, [])
  atComma : ∀ e rest, plain e → read (e ++ .comma :: rest) = some (e, .comma :: rest)
  atIdent : ∀ e n rest, plain e → read (e ++ .ident n :: rest) = some (e, .ident n :: rest)
  notNamed : ∀ e n rest, plain e → e ≠ .ident n :: .colon :: rest
  notEmpty : ∀ e, plain e → e ≠ []

/-- Parts with commas between them. -/
def commas : List (List Tok) → List Tok
  | [] => []
  | [a] => a
  | a :: as => a ++ .comma :: commas as

/-- Parentheses around the arguments, if there are any. -/
def headOf (pos : List Expr) (named : List (String × Expr)) : List Tok :=
  if pos.isEmpty ∧ named.isEmpty then []
  else [.paren (commas (pos ++ named.map fun a => .ident a.1 :: .colon :: a.2))]

mutual
/-- The usual way of writing an item. -/
def written : Item → List Tok
  | .splat e => .dotdot :: e
  | .widget name pos named none => .ident name :: headOf pos named
  | .widget name pos named (some children) => .ident name :: (headOf pos named ++ [.brace (writtenAll children)])
/-- Items one after the other. -/
def writtenAll : List Item → List Tok
  | [] => []
  | i :: is => written i ++ writtenAll is
end

/-- No splat is directly followed by another. -/
def apart : List Item → Prop
  | .splat _ :: .splat _ :: _ => False
  | _ :: is => apart is
  | [] => True

mutual
/-- Every expression is a plain one, and no two splats are neighbours. -/
def Plain (plain : Expr → Prop) : Item → Prop
  | .splat e => plain e
  | .widget _ pos named none => (∀ e ∈ pos, plain e) ∧ ∀ a ∈ named, plain a.2
  | .widget _ pos named (some children) =>
    (∀ e ∈ pos, plain e) ∧ (∀ a ∈ named, plain a.2) ∧ apart children ∧ PlainAll plain children
/-- The same for items. -/
def PlainAll (plain : Expr → Prop) : List Item → Prop
  | [] => True
  | i :: is => Plain plain i ∧ PlainAll plain is
end

end Textual.Ui
