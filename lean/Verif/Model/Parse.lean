import Verif.Model.Css
import Verif.Model.Color
import Verif.Model.Source

/-!
Model of the stylesheet grammar: `crates/tcss/src/parser/selectors.rs`, the rule parser of
`crates/tcss/src/parser/mod.rs:107-189, 375-413` and `parse_ident` of `values.rs`.

A text is a list of characters; a parser gives what it read and the text left, or fails. All errors of these
parsers are recoverable ones (`nom::Err::Error`), so failing is one value; below a rule a parser may also
panic (`Outcome.panic`). Parameters: `alnum` is `char::is_alphanumeric`, `ws` is `char::is_whitespace`, `known`
is the table of properties with the parser of their values (the `match property` at mod.rs:189-381, see
`Model/Value.lean`). Loops and recursion carry a counter that the callers set beyond what the text can use up
(`Props/Parse.lean` proves that it is never reached). -/

namespace Textual.Parse

open Css

open RgbaColor (Outcome)

/-- A parser: `nom::IResult`, the text left and what was read. See tcss/src/parser/mod.rs:59, 129, 144. -/
abbrev P (α : Type) := List Char → Option (α × List Char)

/-- A parser that may panic. See tcss/src/parser/mod.rs:59, 129, 144. -/
abbrev Q (α : Type) := List Char → Outcome (α × List Char)

/-- The characters skipped by nom's `multispace0`. Used at tcss/src/parser/mod.rs:130-172. -/
def isBlank (c : Char) : Bool := c == ' ' || c == '\t' || c == '\r' || c == '\n'

/-- What `multispace0` leaves. Used at tcss/src/parser/mod.rs:130-172. -/
def skip (i : List Char) : List Char := i.dropWhile isBlank

/-- nom's `char`. Used at selectors.rs:41-47. -/
def chr (c : Char) (i : List Char) : Option (List Char) :=
  match i with
  | d :: r => if d = c then some r else none
  | [] => none

/-- nom's `take_until` for a pattern of one character: the text before it, and the text from it on.
Used at tcss/src/parser/mod.rs:410. -/
def takeUntil (c : Char) : P (List Char) := fun i =>
  if c ∈ i then some (i.takeWhile (· ≠ c), i.dropWhile (· ≠ c)) else none

/-- values.rs:35-37 `parse_ident`. -/
def ident (alnum : Char → Bool) : P (List Char) := fun i =>
  let w := i.takeWhile (Source.isName alnum)
  if w.isEmpty then none else some (w, i.dropWhile (Source.isName alnum))

/-- selectors.rs:122-139 `parse_attribute_selector`. -/
def attrib (ws : Char → Bool) : P Selector := fun i => do
  let i ← chr '[' i
  let (content, i) ← takeUntil ']' i
  let i ← chr ']' i
  if '=' ∈ content then
    let name := Source.trim ws (content.takeWhile (· ≠ '='))
    let value := Source.trim ws ((content.dropWhile (· ≠ '=')).drop 1)
    return (.attribute (String.ofList name) (String.ofList value), i)
  else return (.attribute (String.ofList (Source.trim ws content)) "", i)

/-- A name after a mark: `preceded(char(c), parse_ident)`. See selectors.rs:41-47. -/
def marked (alnum : Char → Bool) (c : Char) (f : String → Selector) : P Selector := fun i => do
  let i ← chr c i
  let (n, i) ← ident alnum i
  return (f (String.ofList n), i)

/-- selectors.rs:39-55 `parse_simple_selector`. -/
def simple (ws alnum : Char → Bool) : P Selector := fun i =>
  ((marked alnum '#' .id i).or
  ((marked alnum '.' .cls i).or
  ((marked alnum ':' .pseudo i).or
  (((chr '&' i).map fun r => (.parent, r)).or
  (((chr '*' i).map fun r => (.universal, r)).or
  ((attrib ws i).or
  ((ident alnum i).map fun x => (.type (String.ofList x.1), x.2))))))))

/-- nom's `many0`: stops at the first failure; a success that reads nothing is an error. The count bounds the
number of rounds. Used at tcss/src/parser/mod.rs:116, 145, 155, 167. -/
def many0 {α : Type} (p : P α) : Nat → P (List α)
  | 0, _ => none
  | n + 1, i =>
    match p i with
    | none => some ([], i)
    | some (a, r) =>
      if r.length < i.length then (many0 p n r).map fun x => (a :: x.1, x.2) else none

/-- `many0` with a count that suffices. Used at tcss/src/parser/mod.rs:116, 145, 155, 167. -/
def many {α : Type} (p : P α) : P (List α) := fun i => many0 p (i.length + 1) i

/-- selectors.rs:58-66 `parse_compound_selector`. -/
def compound (ws alnum : Char → Bool) : P Compound := fun i => do
  let (first, i) ← simple ws alnum i
  let (rest, i) ← many (simple ws alnum) i
  return (first :: rest, i)

/-- selectors.rs:79-83: `>`, `+` or `~`. -/
def symbol : P Combinator
  | '>' :: r => some (.child, r)
  | '+' :: r => some (.adjacentSibling, r)
  | '~' :: r => some (.generalSibling, r)
  | _ => none

/-- selectors.rs:74-115: the loop of `parse_complex_selector`, with the compound read last. -/
def complexLoop (ws alnum : Char → Bool) : Nat → Compound → List Char → Complex × List Char
  | 0, cur, i => ([⟨cur, .none⟩], i)
  | n + 1, cur, i =>
    let rem := skip i
    match symbol rem with
    | some (k, after) =>
      match compound ws alnum (skip after) with
      | some (next, i') => let x := complexLoop ws alnum n next i'; (⟨cur, k⟩ :: x.1, x.2)
      | none => ([⟨cur, .none⟩], i)
    | none =>
      if rem.length < i.length then
        match compound ws alnum rem with
        | some (next, i') =>
          let x := complexLoop ws alnum n next i'; (⟨cur, .descendant⟩ :: x.1, x.2)
        | none => ([⟨cur, .none⟩], i)
      else ([⟨cur, .none⟩], i)

/-- selectors.rs:69-120 `parse_complex_selector`. -/
def complex (ws alnum : Char → Bool) : P Complex := fun i => do
  let (first, i) ← compound ws alnum i
  return complexLoop ws alnum (i.length + 1) first i

/-- mod.rs:155-158: a comma and one more selector. -/
def another (ws alnum : Char → Bool) : P Complex := fun i => do
  let i ← chr ',' (skip i)
  complex ws alnum (skip i)

/-- mod.rs:152-163 `parse_selector_list`. -/
def selectorList (ws alnum : Char → Bool) : P (List Complex) := fun i => do
  let (first, i) ← complex ws alnum (skip i)
  let (rest, i) ← many (another ws alnum) i
  return (first :: rest, i)

/-- The rest of a read, when it succeeded. -/
def Outcome.bind {α β : Type} (x : Outcome α) (f : α → Outcome β) : Outcome β :=
  match x with
  | .ok a => f a
  | .err => .err
  | .panic => .panic

/-- nom's `alt` of two: the second only when the first fails. Used at tcss/src/parser/mod.rs:145. -/
def Outcome.or {α : Type} (x y : Outcome α) : Outcome α :=
  match x with
  | .err => y
  | x => x

/-- `many0` for parsers that may panic. Used at tcss/src/parser/mod.rs:116, 145, 155, 167. -/
def manyQ0 {α : Type} (p : Q α) : Nat → Q (List α)
  | 0, _ => .err
  | n + 1, i =>
    match p i with
    | .panic => .panic
    | .err => .ok ([], i)
    | .ok (a, r) =>
      if r.length < i.length then Outcome.bind (manyQ0 p n r) fun x => .ok (a :: x.1, x.2) else .err

/-- `manyQ0` with a count that suffices. Used at tcss/src/parser/mod.rs:116, 145, 155, 167. -/
def manyQ {α : Type} (p : Q α) : Q (List α) := fun i => manyQ0 p (i.length + 1) i

/-- mod.rs:391-407 `take_until_balanced_braces`: what is left. `depth` is signed. -/
def afterBraces : Int → List Char → List Char
  | _, [] => []
  | d, c :: r =>
    if c = '{' then afterBraces (d + 1) r
    else if c = '}' then if d - 1 = 0 then r else afterBraces (d - 1) r
    else afterBraces d r

/-- mod.rs:409-413 `take_until_semicolon_or_brace`: what is left. -/
def afterUnknown (i : List Char) : Option (List Char) :=
  ((takeUntil ';' i).or (takeUntil '}' i)).map (·.2)

/-- mod.rs:384: `opt(preceded(multispace0, tag("!important")))`. -/
def skipImportant (i : List Char) : List Char :=
  if "!important".toList.isPrefixOf (skip i) then (skip i).drop 10 else i

/-- mod.rs:386-387: blanks and one semicolon, if there is one. -/
def skipSemi (i : List Char) : List Char := (chr ';' (skip i)).getD (skip i)

/-- What a declaration is: a property with its value, or `Declaration::Unknown`. See stylesheet.rs:198, 423. -/
inductive Written (V : Type) where
  | known (name : List Char) (value : V)
  | unknown (name : List Char)
deriving DecidableEq, Repr

/-- The characters at which a declaration is taken for a nested rule (mod.rs:177). -/
def nests (i : List Char) : Bool := i.head? == some '&' || i.head? == some '.' || i.head? == some '#'

/-- mod.rs:171-389 `parse_single_declaration`. -/
def declaration {V : Type} (alnum : Char → Bool) (known : List Char → Option (Q V)) : Q (Written V) := fun i =>
  let i := skip i
  if nests i then .ok (.unknown "nested-rule".toList, afterBraces 0 i)
  else
    match ident alnum i with
    | none => .err
    | some (name, i) =>
      match chr ':' (skip i) with
      | none => .err
      | some i =>
        let i := skip i
        Outcome.bind
          (match known name with
          | some p => Outcome.bind (p i) fun x => .ok (.known name x.1, x.2)
          | none =>
            match afterUnknown i with
            | some r => .ok (.unknown name, r)
            | none => .err)
          fun x => .ok (x.1, skipSemi (skipImportant x.2))

/-- One entry of a block (stylesheet.rs:428-433 `RuleItem`). -/
inductive Item (D : Type) where
  | decl (d : D)
  | rule (selectors : List Complex) (body : Items D)

/-- The entries of a block as one list (`Css.Items`). -/
def Items.ofList {D : Type} : List (Item D) → Items D
  | [] => .nil
  | .decl d :: r => .decl d (ofList r)
  | .rule s b :: r => .rule s b (ofList r)

/-- One round of mod.rs:144-149 `parse_rule_items`: a nested rule, else a declaration. -/
def item {V : Type} (alnum : Char → Bool) (known : List Char → Option (Q V))
    (nested : Q (List Complex × Items (Written V))) : Q (Item (Written V)) := fun i =>
  Outcome.or
    (Outcome.bind (nested i) fun x => .ok (.rule x.1.1 x.1.2, x.2))
    (Outcome.bind (declaration alnum known i) fun x => .ok (.decl x.1, x.2))

/-- mod.rs:129-141 `parse_rule`; the count bounds the nesting. -/
def rule {V : Type} (ws alnum : Char → Bool) (known : List Char → Option (Q V)) :
    Nat → Q (List Complex × Items (Written V))
  | 0, _ => .err
  | n + 1, i =>
    match selectorList ws alnum (skip i) with
    | none => .err
    | some (sels, i) =>
      match chr '{' (skip i) with
      | none => .err
      | some i =>
        Outcome.bind (manyQ (item alnum known (rule ws alnum known n)) i) fun x =>
          match chr '}' (skip x.2) with
          | none => .err
          | some r => .ok ((sels, Items.ofList x.1), r)

/-- mod.rs:115-125: all rules of the text after variables have been put in; something left over that is not
blank is an error. -/
def sheet {V : Type} (ws alnum : Char → Bool) (known : List Char → Option (Q V)) (i : List Char) :
    Outcome (List (List Complex × Items (Written V))) :=
  Outcome.bind (manyQ (rule ws alnum known (i.length + 1)) i) fun x =>
    if Source.trim ws x.2 = [] then .ok x.1 else .err

/-- mod.rs:108-126 `parse_stylesheet`. -/
def parseStylesheet {V : Type} (ws alnum : Char → Bool) (known : List Char → Option (Q V)) (source : List Char) :
    Outcome (List (FlatRule (Written V))) :=
  Outcome.bind (sheet ws alnum known (Source.preprocess ws alnum source)) fun rules =>
    .ok (flattenStylesheet rules)

end Textual.Parse
