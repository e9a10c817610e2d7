import Verif.Model.Markup

/-!
# What markup means

A reader's view of a token list that knows nothing of positions or spans: every character is written
while some tags are open. `annotate` gives each character together with the tags open at that point,
innermost first.
-/

namespace Textual.Markup

/-- An open tag: what it sets and the text between its brackets. -/
structure Frame where
  style : Style
  info : Meta
  tag : List Char
deriving DecidableEq, Repr

/-- A closing name fits an open tag, upper and lower case alike: it is the whole tag, or starts it before
a space, or follows a space in it. -/
def Names (lower : List Char → List Char) (tag name : List Char) : Prop :=
  lower tag = lower name ∨ (∃ r, lower tag = lower name ++ ' ' :: r) ∨
    ∃ l r, lower tag = l ++ ' ' :: lower name ++ r

/-- `[/name]`: `st'` is left of the open tags `st` (innermost first): tags are closed up to and including
the innermost one that the name fits (all of them if it fits none). -/
def ClosesNamed (lower : List Char → List Char) (name : List Char) (st st' : List Frame) : Prop :=
  (∃ a f, st = a ++ f :: st' ∧ (∀ x ∈ a, ¬ Names lower x.tag name) ∧ Names lower f.tag name) ∨
  ((∀ x ∈ st, ¬ Names lower x.tag name) ∧ st' = [])

/-- `[/name]`: close tags up to and including the innermost one that matches (all if none does);
`closeNamed_closes` ties it to `ClosesNamed`. -/
def closeNamed (lower : List Char → List Char) (name : List Char) (st : List Frame) : List Frame :=
  (st.dropWhile fun f => !tagMatches lower f.tag name).tail

/-- Every character with the tags open around it, innermost first. -/
def annotate (ext : Ext) (st : List Frame) : List Token → Res (List (Char × List Frame))
  | [] => .ok []
  | .text s :: ts => (annotate ext st ts).bind fun r => .ok (s.map (fun c => (c, st)) ++ r)
  | .esc c :: ts => (annotate ext st ts).bind fun r => .ok ((c, st) :: r)
  | .close none :: ts => annotate ext st.tail ts
  | .close (some name) :: ts => annotate ext (closeNamed ext.lower name st) ts
  | .open content :: ts =>
    (Tag.parse ext content).bind fun t =>
      match t with
      | .style s => annotate ext (⟨s, [], content⟩ :: st) ts
      | .info k v => annotate ext (⟨{}, [(k, v)], content⟩ :: st) ts
      | .closeAll => annotate ext st.tail ts
      | .closeStyle name => annotate ext (closeNamed ext.lower name st) ts

/-- The text of a token. -/
def Token.plain : Token → List Char
  | .text s => s
  | .esc c => [c]
  | _ => []

/-- The style a reader of nested tags expects: outer tags first, inner tags override them. -/
def innermostWins (st : List Frame) : Style := st.foldr (fun f acc => acc.apply f.style) {}

/-- What the code computes: inner tags first, outer tags override them. -/
def outermostWins (st : List Frame) : Style := st.foldl (fun acc f => acc.apply f.style) {}

/-- `n` is the byte offset of a character boundary of `text`. -/
def Boundary (text : List Char) (n : Nat) : Prop := ∃ pre post, text = pre ++ post ∧ blen pre = n

/-- Two spans are disjoint or one contains the other. -/
def Laminar (a b : Span) : Prop :=
  a.stop ≤ b.start ∨ b.stop ≤ a.start ∨ (b.start ≤ a.start ∧ a.stop ≤ b.stop) ∨
    (a.start ≤ b.start ∧ b.stop ≤ a.stop)

/-- ASCII text: every character takes one byte. -/
def Ascii (s : List Char) : Prop := ∀ c ∈ s, c.utf8Size = 1

/-- Text of a tag from bracket depth `d` to its end: `b` closes `d` more brackets than it opens, at
no point more than that; a backslash takes the next character with it. -/
inductive Body : Nat → List Char → Prop where
  | nil : Body 0 []
  | opens {d : Nat} {b : List Char} : Body (d + 1) b → Body d ('[' :: b)
  | closes {d : Nat} {b : List Char} : Body d b → Body (d + 1) (']' :: b)
  | esc {d : Nat} {c : Char} {b : List Char} : Body d b → Body d ('\\' :: c :: b)
  | char {d : Nat} {c : Char} {b : List Char} : c ≠ '[' → c ≠ ']' → c ≠ '\\' → Body d b →
      Body d (c :: b)

/-- Relation between marked-up source and the text shown: characters stand for themselves, escapes
for the escaped character, and a bracketed tag for nothing. -/
inductive Shows : List Char → List Char → Prop where
  | nil : Shows [] []
  | char {c : Char} {src txt : List Char} : c ≠ '[' → c ≠ '\\' → Shows src txt →
      Shows (c :: src) (c :: txt)
  | esc {c : Char} {src txt : List Char} : c ∈ ['[', ']', '\\'] → Shows src txt →
      Shows ('\\' :: c :: src) (c :: txt)
  | tag {body src txt : List Char} : Body 0 body → body ≠ [] → Shows src txt →
      Shows ('[' :: (body ++ ']' :: src)) txt

end Textual.Markup
