import Verif.Model.Css

/-!
How a stylesheet is written: the grammar of selectors, declarations and rule blocks as relations between what
is meant and the texts that say it. Blanks may stand wherever the grammar has a `Gap`. -/

namespace Textual.Sheet

open Css

/-- Blanks, tabs and line ends, or nothing. -/
def Gap (g : List Char) : Prop := ∀ c ∈ g, c = ' ' ∨ c = '\t' ∨ c = '\r' ∨ c = '\n'

/-- Letters, digits, dashes and underscores, at least one. -/
def Name (alnum : Char → Bool) (n : List Char) : Prop :=
  n ≠ [] ∧ ∀ c ∈ n, alnum c = true ∨ c = '-' ∨ c = '_'

/-- No white space at either end. -/
def Tight (ws : Char → Bool) (t : List Char) : Prop :=
  (∀ c, t.head? = some c → ws c = false) ∧ (∀ c, t.getLast? = some c → ws c = false)

/-- White space, or nothing. -/
def White (ws : Char → Bool) (g : List Char) : Prop := ∀ c ∈ g, ws c = true

/-- `Button`, `.primary`, `#go`, `:hover`, `&`, `*`, `[name]`, `[name = value]`. -/
inductive SimpleText (ws alnum : Char → Bool) : Selector → List Char → Prop
  | type {n} : Name alnum n → SimpleText ws alnum (.type (String.ofList n)) n
  | cls {n} : Name alnum n → SimpleText ws alnum (.cls (String.ofList n)) ('.' :: n)
  | id {n} : Name alnum n → SimpleText ws alnum (.id (String.ofList n)) ('#' :: n)
  | pseudo {n} : Name alnum n → SimpleText ws alnum (.pseudo (String.ofList n)) (':' :: n)
  | parent : SimpleText ws alnum .parent ['&']
  | universal : SimpleText ws alnum .universal ['*']
  | has {n g g'} : Tight ws n → '=' ∉ n → ']' ∉ n → White ws g → White ws g' →
      SimpleText ws alnum (.attribute (String.ofList n) "") ('[' :: (g ++ n ++ g' ++ [']']))
  | equal {n v g1 g2 g3 g4} : Tight ws n → '=' ∉ n → ']' ∉ n → Tight ws v → ']' ∉ v →
      White ws g1 → White ws g2 → White ws g3 → White ws g4 →
      SimpleText ws alnum (.attribute (String.ofList n) (String.ofList v))
        ('[' :: (g1 ++ n ++ g2 ++ '=' :: (g3 ++ v ++ g4 ++ [']'])))

/-- A type name may stand first, or after `&`, `*` or `]`: elsewhere it would run into the name before it. -/
def MayFollow (s next : Selector) : Prop :=
  (∃ n, next = .type n) → s = .parent ∨ s = .universal ∨ ∃ n v, s = .attribute n v

/-- Simple selectors without anything between them. -/
inductive CompoundText (ws alnum : Char → Bool) : Compound → List Char → Prop
  | one {s t} : SimpleText ws alnum s t → CompoundText ws alnum [s] t
  | cons {s t s' r t'} : SimpleText ws alnum s t → MayFollow s s' → CompoundText ws alnum (s' :: r) t' →
      CompoundText ws alnum (s :: s' :: r) (t ++ t')

/-- What stands between two compounds: blanks, or `>`, `+`, `~` with blanks around them. -/
inductive BetweenText : Combinator → List Char → Prop
  | descendant {g} : Gap g → g ≠ [] → BetweenText .descendant g
  | child {g g'} : Gap g → Gap g' → BetweenText .child (g ++ '>' :: g')
  | adjacent {g g'} : Gap g → Gap g' → BetweenText .adjacentSibling (g ++ '+' :: g')
  | sibling {g g'} : Gap g → Gap g' → BetweenText .generalSibling (g ++ '~' :: g')

/-- Compounds with combinators between them. -/
inductive ComplexText (ws alnum : Char → Bool) : Complex → List Char → Prop
  | one {c t} : CompoundText ws alnum c t → ComplexText ws alnum [⟨c, .none⟩] t
  | cons {c t k b r t'} : CompoundText ws alnum c t → BetweenText k b → ComplexText ws alnum r t' →
      ComplexText ws alnum (⟨c, k⟩ :: r) (t ++ b ++ t')

/-- Selectors separated by commas. -/
inductive ListText (ws alnum : Char → Bool) : List Complex → List Char → Prop
  | one {s t} : ComplexText ws alnum s t → ListText ws alnum [s] t
  | cons {s t g g' r t'} : ComplexText ws alnum s t → Gap g → Gap g' → ListText ws alnum r t' →
      ListText ws alnum (s :: r) (t ++ g ++ ',' :: (g' ++ t'))

/-- A declaration that cannot be taken for the beginning of a nested rule: something other than a name follows
the colon at once (so `color: red` is safe whatever the value), or the value has neither `[` nor `{`. -/
def Safe (alnum : Char → Bool) (g v : List Char) : Prop :=
  (∃ c, (g ++ v).head? = some c ∧ alnum c = false ∧ c ≠ '-' ∧ c ≠ '_') ∨ ('[' ∉ v ∧ '{' ∉ v)

/-- What declarations are, in a language where `unknown` names have no meaning: `V` are the values. -/
structure Language (D V : Type) where
  /-- the declaration of a property with a value -/
  known : List Char → V → D
  /-- a property that is not in the language -/
  unknown : List Char → D
  /-- the properties of the language -/
  property : List Char → Prop
  /-- how the values of a property are written -/
  text : List Char → V → List Char → Prop
  /-- the values of a property that may be followed by `!important` -/
  important : List Char → V → List Char → Prop

variable {D V : Type}

/-- A declaration up to the end of its value. -/
inductive BareText (alnum : Char → Bool) (L : Language D V) : D → List Char → Prop
  | known {n d v g g'} : Name alnum n → L.property n → L.text n d v → Gap g → Gap g' → Safe alnum g' v →
      BareText alnum L (L.known n d) (n ++ g ++ ':' :: (g' ++ v))
  | important {n d v g g' g''} : Name alnum n → L.property n → L.important n d v → Gap g → Gap g' → Gap g'' →
      g'' ≠ [] → Safe alnum g' v →
      BareText alnum L (L.known n d) (n ++ g ++ ':' :: (g' ++ v ++ g'' ++ "!important".toList))

/-- A declaration with its semicolon. The value of an unknown property is any text without a semicolon. -/
inductive DeclText (alnum : Char → Bool) (L : Language D V) : D → List Char → Prop
  | known {d t g} : BareText alnum L d t → Gap g → DeclText alnum L d (t ++ g ++ [';'])
  | unknown {n v g g'} : Name alnum n → ¬ L.property n → ';' ∉ v → Gap g → Gap g' → Safe alnum g' v →
      DeclText alnum L (L.unknown n) (n ++ g ++ ':' :: (g' ++ v ++ [';']))

/-- The inside of a block: declarations and rules in any order, and blanks at the end. The last declaration
needs no semicolon when its property is known. -/
inductive ItemsText (ws alnum : Char → Bool) (L : Language D V) : Items D → List Char → Prop
  | nil {g} : Gap g → ItemsText ws alnum L .nil g
  | last {d t g g'} : BareText alnum L d t → Gap g → Gap g' →
      ItemsText ws alnum L (.decl d .nil) (g ++ t ++ g')
  | decl {d t g r t'} : DeclText alnum L d t → Gap g → ItemsText ws alnum L r t' →
      ItemsText ws alnum L (.decl d r) (g ++ t ++ t')
  | rule {s t g g' b tb r t'} : ListText ws alnum s t → Gap g → Gap g' → ItemsText ws alnum L b tb →
      ItemsText ws alnum L r t' →
      ItemsText ws alnum L (.rule s b r) (g ++ t ++ g' ++ '{' :: (tb ++ '}' :: t'))

/-- A stylesheet: rules, and blanks at the end. -/
inductive SheetText (ws alnum : Char → Bool) (L : Language D V) : List (List Complex × Items D) → List Char → Prop
  | nil {g} : Gap g → SheetText ws alnum L [] g
  | rule {s t g g' b tb r t'} : ListText ws alnum s t → Gap g → Gap g' → ItemsText ws alnum L b tb →
      SheetText ws alnum L r t' →
      SheetText ws alnum L ((s, b) :: r) (g ++ t ++ g' ++ '{' :: (tb ++ '}' :: t'))

end Textual.Sheet
